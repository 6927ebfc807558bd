import Verif.Multi.Props

/-! Concrete histories: the theorems apply to them, and what happens when a name is used twice. -/

namespace Verif.Multi

inductive X where
  | phi | g0 | g1 | g2 | h0 | h1
deriving DecidableEq

instance : Inhabited X := ⟨.phi⟩

/-- The results of a list of commands, until a crash. -/
def run : St X Int → List (Op X Int) → St X Int × List (Res (Option Int))
  | s, [] => (s, [])
  | s, op :: l =>
    match step 0 20 s op with
    | (s1, .crash) => (s1, [.crash])
    | (s1, r) => let (s2, rs) := run s1 l; (s2, r :: rs)

def answers (l : List (Op X Int)) : List (Res (Option Int)) := (run (init 0) l).2

/-- Output 0 is the input, output 1 its double, output 2 its triple. -/
def f3 : List Int → Nat → Int := fun vs k => ((k : Int) + 1) * (vs.headD 0)

/-- Output 0 is the sum of the inputs. -/
def fsum : List Int → Nat → Int := fun vs k => vs.foldl (· + ·) (k : Int)

def mk (pol : Policy) : List (Op X Int) := [.leaf .phi .node, .group .g0 .edge pol [.phi] [.g1, .g2] f3]

/-- All four ways of finding the outputs give the current values, whichever output is asked first. -/
example (pol : Policy) : answers (mk pol ++ [.set .phi 5, .get .g2, .get .g0, .set .phi 7, .get .g1, .get .g0, .get .g2]) =
    [.ok none, .ok none, .ok none, .ok (some 15), .ok (some 5), .ok none, .ok (some 14), .ok (some 7), .ok (some 21)] := by
  cases pol <;> decide

/-- Groups of groups. -/
example (pol pol' : Policy) : answers (mk pol ++ [.group .h0 .triangle pol' [.g1, .g2, .phi] [.h1] fsum, .set .phi 2,
      .get .h1, .set .phi 3, .get .h0, .get .g0]) =
    [.ok none, .ok none, .ok none, .ok none, .ok (some 13), .ok none, .ok (some 18), .ok (some 3)] := by
  cases pol <;> cases pol' <;> decide

/-- An input that is gone is missed. -/
example (pol : Policy) : answers (mk pol ++ [.set .phi 2, .get .g1, .delete .phi, .get .g1, .get .g0]) =
    [.ok none, .ok none, .ok none, .ok (some 4), .ok none, .error, .error] := by
  cases pol <;> decide

/-- A deleted output comes back with the kind that recreates it, is left out by the one that asks before writing, is an
error when it is looked up by name, and ends the program when the pointer is used without asking
(VectorGradient.cc:190). -/
theorem deleted_output : answers (mk .revive ++ [.delete .g2, .set .phi 4, .get .g0, .get .g2]) =
      [.ok none, .ok none, .ok none, .ok none, .ok (some 4), .ok (some 12)] ∧
    answers (mk .guard ++ [.delete .g2, .set .phi 4, .get .g0, .get .g2]) =
      [.ok none, .ok none, .ok none, .ok none, .ok (some 4), .error] ∧
    answers (mk .byName ++ [.delete .g2, .set .phi 4, .get .g0, .get .g1]) =
      [.ok none, .ok none, .ok none, .ok none, .error, .error] ∧
    answers (mk .raw ++ [.delete .g2, .set .phi 4, .get .g0]) = [.ok none, .ok none, .ok none, .ok none, .crash] := by
  refine ⟨?_, ?_, ?_, ?_⟩ <;> decide

/-- The user replaces the output `g1` by values of their own (edge_solution, set_edge_values).  A producer that looks up
by name overwrites them without a word; the one with weak pointers reports an error; the one that asks leaves them; the
one that does not ask ends the program. -/
theorem replaced_output : answers (mk .byName ++ [.leaf .g1 .edge, .set .g1 100, .get .g1, .set .phi 4, .get .g0, .get .g1]) =
      [.ok none, .ok none, .ok none, .ok none, .ok (some 100), .ok none, .ok (some 4), .ok (some 8)] ∧
    answers (mk .revive ++ [.leaf .g1 .edge, .set .g1 100, .set .phi 4, .get .g0, .get .g1]) =
      [.ok none, .ok none, .ok none, .ok none, .ok none, .error, .ok (some 100)] ∧
    answers (mk .guard ++ [.leaf .g1 .edge, .set .g1 100, .set .phi 4, .get .g0, .get .g1]) =
      [.ok none, .ok none, .ok none, .ok none, .ok none, .ok (some 4), .ok (some 100)] ∧
    answers (mk .raw ++ [.leaf .g1 .edge, .set .g1 100, .set .phi 4, .get .g0]) =
      [.ok none, .ok none, .ok none, .ok none, .ok none, .crash] := by
  refine ⟨?_, ?_, ?_, ?_⟩ <;> decide

/-- The user replaces the first model of the group: the others stay at the values they had and follow the inputs no
more, with only a message (EdgeSubModel.cc:71-76). -/
theorem replaced_producer (pol : Policy) :
    answers (mk pol ++ [.set .phi 5, .get .g1, .leaf .g0 .edge, .set .phi 7, .get .g1, .get .g2]) =
      [.ok none, .ok none, .ok none, .ok (some 10), .ok none, .ok none, .ok (some 10), .ok (some 15)] := by
  cases pol <;> decide

/-- Values written to the first model of the group hide a change of the inputs from the others: they keep the values
made from the old inputs. -/
theorem written_producer (pol : Policy) :
    answers (mk pol ++ [.set .phi 5, .get .g1, .set .phi 7, .set .g0 100, .get .g1, .get .g2, .get .phi]) =
      [.ok none, .ok none, .ok none, .ok (some 10), .ok none, .ok none, .ok (some 10), .ok (some 15), .ok (some 7)] := by
  cases pol <;> decide

/-- A group one of whose names belongs to a model of another kind is refused, and half of it stays: the producer is
there, computes or not according to its kind. -/
theorem half_a_group :
    answers [.leaf .phi .node, .leaf .g2 .node, .group .g0 .edge .guard [.phi] [.g1, .g2] f3, .set .phi 5, .get .g0, .get .g1] =
      [.ok none, .ok none, .error, .ok none, .ok (some 5), .ok (some 10)] ∧
    answers [.leaf .phi .node, .leaf .g2 .node, .group .g0 .edge .byName [.phi] [.g1, .g2] f3, .set .phi 5, .get .g0] =
      [.ok none, .ok none, .error, .ok none, .error] ∧
    answers [.leaf .phi .node, .leaf .g2 .node, .group .g0 .edge .raw [.phi] [.g1, .g2] f3, .set .phi 5, .get .g0] =
      [.ok none, .ok none, .error, .ok none, .crash] := by
  refine ⟨?_, ?_, ?_⟩ <;> decide

/-- A history the theorems apply to: the declarations after it. -/
theorem example_reach (pol : Policy) : ∃ E s, ReachNoDelete (N := X) (V := Int) 0 E s ∧ E .g2 = some (.out [.phi] f3 2) ∧
    Val E .g2 15 := by
  have h0 : ReachNoDelete (N := X) (V := Int) 0 (fun _ => none) (init 0) := .init
  have h1 := ReachNoDelete.ok (op := .leaf .phi .node) (fuel := 0) h0 rfl (by intro n h; cases h) (s' := (step 0 0 (init 0) (.leaf .phi .node)).1) rfl
  have h2 := ReachNoDelete.ok (op := .group .g0 .edge pol [.phi] [.g1, .g2] f3) (fuel := 0) h1
    ⟨by decide, (by intro c hc; simp only [List.mem_cons, List.not_mem_nil, or_false] at hc; rcases hc with rfl | rfl | rfl <;> rfl),
      (by intro m hm; simp only [List.mem_cons, List.not_mem_nil, or_false] at hm; subst hm; simp [declare])⟩ (by intro n h; cases h)
    (s' := (step 0 0 (step 0 0 (init 0) (.leaf .phi .node)).1 (.group .g0 .edge pol [.phi] [.g1, .g2] f3)).1) (by cases pol <;> rfl)
  have h3 := ReachNoDelete.ok (op := .set .phi 5) (fuel := 0) h2 ⟨0, by rfl⟩ (by intro n h; cases h)
    (s' := (step 0 0 (step 0 0 (step 0 0 (init 0) (.leaf .phi .node)).1 (.group .g0 .edge pol [.phi] [.g1, .g2] f3)).1 (.set .phi 5)).1)
    (by cases pol <;> rfl)
  refine ⟨_, _, h3, rfl, ?_⟩
  have := Val.out (E := declare 0 (declare 0 (declare 0 (fun _ => none) (.leaf .phi .node)) (.group .g0 .edge pol [.phi] [.g1, .g2] f3)) (.set .phi 5))
    (n := X.g2) (ins := [.phi]) (f := f3) (k := 2) (vs := [5]) rfl rfl (by
      intro j m v hm hv
      cases j with
      | zero =>
        simp only [List.getElem?_cons_zero, Option.some.injEq] at hm hv
        subst hm; subst hv
        exact .given rfl
      | succ j => simp at hm)
  exact this

end Verif.Multi
