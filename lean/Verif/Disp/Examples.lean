import Verif.Disp.Main
/-!
# Concrete commands
-/
namespace Verif.Disp

/-- overflow -/
def over : Flags := fun x => decide (x = .overflow)

/-- A command that counts, overflows and answers with what it has counted. -/
def count : Prog Nat Nat := .write (· + 1) (.arith over (.read fun s => .obj (some s) .done))

theorem count_byHand : ByHand count := by simp [count, ByHand]
theorem count_plain : Plain count := by simp [count, Plain]

/-- The hypotheses of `plain_trouble` are met. -/
theorem count_runs (s : Nat) : Runs 0 count [.down] [] s ⟨[.up over, .down], [.object (some (s + 1))], s + 1, none⟩ :=
  .write (.arith (.read (.obj .done)))

/-- F149: the call is an error, and yet it has counted. -/
theorem changed_refused (w : World Nat) :
    (∃ m, (dispatch 0 "count" false count w).2 = .error m) ∧
    (dispatch 0 "count" false count w).1.state = w.state + 1 :=
  plain_trouble 0 "count" count count_byHand count_plain w (count_runs _) (f := over) (x := .overflow)
    (by simp) (by simp [over]) (by simp [Serious])

/-- Without the overflow it is a value. -/
theorem count_value (w : World Nat) :
    (dispatch 0 "count" false (.write (· + 1) (.read fun s => .obj (some s) .done)) w).2
      = .value (w.state + 1) :=
  (value_iff 0 "count" _ (by simp [ByHand]) w (F := ⟨[.down], [.object (some (w.state + 1))], w.state + 1, none⟩)
    (.write (.read (.obj .done))) _).2 ⟨rfl, ⟨[], rfl⟩, by
      rintro ⟨x, _, post, pre, f, e, _, hd⟩
      cases post with
      | nil => simp at e
      | cons a l => simp at e⟩

/-- F150: a command that overflows, then calls Python that calls any command, then answers. -/
def outer : Prog Nat Nat := .arith over (.call "inner" false (.obj (some 7) .done) fun _ => .obj (some 1) .done)

/-- F150: the overflow is not seen. -/
theorem hidden (w : World Nat) : (dispatch 0 "outer" false outer w).2 = .value 1 := by
  simp [dispatch, outer, run, close, collect, conclude, World.check, allFlags, World.flags, World.clear, combine,
    cleared, Handler.start, Handler.obj]

/-- A command that answers nothing is an error without a message. -/
theorem silent (w : World Nat) : (dispatch 0 "f" false .done w).2 = (.error "" : Outcome Nat) := by
  simp [dispatch, run, close, collect, conclude, World.check, allFlags, World.flags, World.clear, combine,
    cleared, Handler.start]

/-- The last answer counts. -/
theorem last_wins (w : World Nat) :
    (dispatch 0 "f" false (.err "no" (.empty .done)) w).2 = (.value 0 : Outcome Nat) ∧
    (dispatch 0 "f" false (.empty (.err "no" .done)) w).2 = (.error "no" : Outcome Nat) := by
  simp [dispatch, run, close, collect, conclude, World.check, allFlags, World.flags, World.clear, combine,
    cleared, Handler.start, Handler.obj, Handler.err]

/-- A division by zero before a call is not the call's. -/
theorem not_mine (s : Nat) : (dispatch 0 "f" false (.empty .done) ⟨fun _ => true, fun _ => true, s⟩).2
    = (.value 0 : Outcome Nat) := by
  simp [dispatch, run, close, collect, conclude, World.check, allFlags, World.flags, World.clear, combine,
    cleared, Handler.start, Handler.obj]

/-- An exception and a flag: both are in the message. -/
theorem both (w : World Nat) : (dispatch 0 "f" false (.arith (fun _ => true) (.throw (.ds "assert\n"))) w).2
    = (.error ("assert\n" ++ fpeMessage fun x => mask x) : Outcome Nat) := by
  simp [dispatch, run, close, conclude, World.check, allFlags, World.flags, World.clear, combine,
    Handler.start, Exc.text]
  congr 1

end Verif.Disp
