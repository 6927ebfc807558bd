import Verif.Disp.Props
/-!
# C97: what the caller of a command sees
-/
namespace Verif.Disp

variable {σ O : Type}

/-- A call ends as its history says, and in no other way. -/
theorem call_iff (pyNone : O) (n : String) (pos : Bool) (p : Prog σ O) (hb : ByHand p) (h : List Ev)
    (w : World σ) (s' : σ) (o : Outcome O) :
    (∃ h', Calls pyNone n pos p h w.state h' s' o) ↔
      s' = (dispatch pyNone n pos p w).1.state ∧ o = (dispatch pyNone n pos p w).2 := by
  obtain ⟨h1, c, _⟩ := dispatch_sound pyNone n pos p hb h w
  constructor
  · rintro ⟨h', c'⟩
    obtain ⟨_, a, b⟩ := calls_unique c c'
    exact ⟨a.symm, b.symm⟩
  · rintro ⟨rfl, rfl⟩
    exact ⟨h1, c⟩

/-- Positional arguments are refused before the command does anything. -/
theorem positional_nothing (pyNone : O) (n : String) (p : Prog σ O) (w : World σ) :
    (dispatch pyNone n true p w).1.state = w.state ∧
    (dispatch pyNone n true p w).2 = .error ("Command " ++ n ++ " does not take positional arguments") :=
  ⟨rfl, rfl⟩

/-- A call does not see the flags that were up before it. -/
theorem own_call (pyNone : O) (n : String) (pos : Bool) (p : Prog σ O) (w v : World σ) (h : w.state = v.state) :
    dispatch pyNone n pos p w = dispatch pyNone n pos p v := by
  have e : w.clear = v.clear := by
    cases w; cases v; simp_all [World.clear]
  simp only [dispatch, e]

theorem check_clear (w : World σ) : w.clear.check = false := by
  simp [World.check, World.clear, World.flags, combine, cleared]

theorem conclude_clean (r : Option O × String) (w : World σ) : (conclude r w).1.check = false := by
  unfold conclude
  split
  · exact check_clear w
  · rename_i h
    have h : w.check = false := by simpa using h
    cases r.1 <;> exact h

/-- After a call nothing is pending, whatever the command has done. -/
theorem clean_after (pyNone : O) (n : String) (pos : Bool) (p : Prog σ O) (w : World σ) :
    (dispatch pyNone n pos p w).1.check = false := by
  unfold dispatch
  split
  · exact check_clear w
  · unfold close
    split <;> exact conclude_clean _ _

/-- A script is its calls, each from the state the last has left and with no flags. -/
def calls (pyNone : O) : List (String × Bool × Prog σ O) → σ → σ × List (Outcome O)
  | [], s => (s, [])
  | (n, p, b) :: l, s =>
    let r := dispatch pyNone n p b ⟨cleared, cleared, s⟩
    let q := calls pyNone l r.1.state
    (q.1, r.2 :: q.2)

theorem session_calls (pyNone : O) (l : List (String × Bool × Prog σ O)) (w : World σ) :
    ((session pyNone l w).1.state, (session pyNone l w).2) = calls pyNone l w.state := by
  induction l generalizing w with
  | nil => rfl
  | cons c l ih =>
    obtain ⟨n, p, b⟩ := c
    have e := own_call pyNone n p b w ⟨cleared, cleared, w.state⟩ rfl
    have := ih (dispatch pyNone n p b w).1
    simp only [session, calls]
    rw [← e, ← this]

/-- A command that calls nothing and takes no flags down. -/
def Plain : Prog σ O → Prop
  | .done => True
  | .throw _ => True
  | .err _ k => Plain k
  | .obj _ k => Plain k
  | .empty k => Plain k
  | .arith _ k => Plain k
  | .raise _ k => Plain k
  | .clear _ => False
  | .test k => ∀ b, Plain (k b)
  | .read k => ∀ s, Plain (k s)
  | .write _ k => Plain k
  | .call _ _ _ _ => False

theorem plain_runs (pyNone : O) (p : Prog σ O) (hp : Plain p) : ∀ {h a s} {F : Finish σ O},
    Runs pyNone p h a s F → ∃ e, F.flags = e ++ h ∧ Ev.down ∉ e := by
  induction p with
  | done => intro h a s F x; cases x; exact ⟨[], rfl, by simp⟩
  | throw => intro h a s F x; cases x; exact ⟨[], rfl, by simp⟩
  | err _ _ ih => intro h a s F x; cases x with | err x => exact ih hp x
  | obj _ _ ih => intro h a s F x; cases x with | obj x => exact ih hp x
  | empty _ ih => intro h a s F x; cases x with | empty x => exact ih hp x
  | arith f _ ih =>
    intro h a s F x
    cases x with
    | arith x =>
      obtain ⟨e, he, hd⟩ := ih hp x
      exact ⟨e ++ [.up f], by simp [he], by simpa using hd⟩
  | raise f _ ih =>
    intro h a s F x
    cases x with
    | raise x =>
      obtain ⟨e, he, hd⟩ := ih hp x
      exact ⟨e ++ [.up f], by simp [he], by simpa using hd⟩
  | clear _ _ => exact absurd hp id
  | read _ ih => intro h a s F x; cases x with | read x => exact ih _ (hp _) x
  | write _ _ ih => intro h a s F x; cases x with | write x => exact ih hp x
  | test _ ih =>
    intro h a s F x
    cases x with
    | yes _ x => exact ih _ (hp _) x
    | no _ x => exact ih _ (hp _) x
  | call => exact absurd hp id

/-- If a serious flag comes up in a plain command the caller gets an error, and what the command has changed
stays changed. -/
theorem plain_trouble (pyNone : O) (n : String) (p : Prog σ O) (hb : ByHand p) (hp : Plain p) (w : World σ)
    {F : Finish σ O} (r : Runs pyNone p [.down] [] w.state F) {f : Flags} {x : Flag} (hf : Ev.up f ∈ F.flags)
    (hx : f x = true) (hs : Serious x) :
    (∃ m, (dispatch pyNone n false p w).2 = .error m) ∧ (dispatch pyNone n false p w).1.state = F.state := by
  obtain ⟨h', c, _⟩ := dispatch_sound pyNone n false p hb [] w
  generalize (dispatch pyNone n false p w).2 = o at c ⊢
  generalize (dispatch pyNone n false p w).1.state = s' at c ⊢
  cases c with
  | command r' af se =>
    cases runs_unique pyNone p r r'
    refine ⟨?_, rfl⟩
    obtain ⟨e, he, hd⟩ := plain_runs pyNone p hp r
    have hm : Ev.up f ∈ e := by
      rw [he] at hf
      simpa using hf
    obtain ⟨post, pre, rfl⟩ := List.append_of_mem hm
    have t : Trouble F.flags := by
      refine ⟨x, hs, post, pre ++ [.down], f, ?_, hx, fun q => hd (List.mem_append_left _ q)⟩
      rw [he]; simp
    cases se with
    | value _ _ q => exact absurd t q
    | refused => exact ⟨_, rfl⟩
    | silent => exact ⟨_, rfl⟩
    | thrown => exact ⟨_, rfl⟩
    | trouble => exact ⟨_, rfl⟩

/-- A value is given only by the last answer of a command that throws nothing and leaves nothing pending. -/
theorem value_iff (pyNone : O) (n : String) (p : Prog σ O) (hb : ByHand p) (w : World σ) {F : Finish σ O}
    (r : Runs pyNone p [.down] [] w.state F) (o : O) :
    (dispatch pyNone n false p w).2 = .value o ↔
      F.exc = none ∧ (∃ l, F.answers = .object (some o) :: l) ∧ ¬ Trouble F.flags := by
  obtain ⟨h', c, _⟩ := dispatch_sound pyNone n false p hb [] w
  generalize (dispatch pyNone n false p w).2 = q at c ⊢
  generalize (dispatch pyNone n false p w).1.state = s' at c
  cases c with
  | command r' af se =>
    cases runs_unique pyNone p r r'
    constructor
    · rintro rfl
      cases se with
      | value a b c => exact ⟨a, ⟨_, b⟩, c⟩
    · rintro ⟨a, ⟨l, b⟩, c⟩
      exact seen_unique se (.value a b c)

end Verif.Disp
