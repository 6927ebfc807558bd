import Verif.Newton.History
/-!
# `set_initial_condition` and the history of each precision

`TimeData<double>` and `TimeData<float128>`, `TimeData.cc`; `setInitialConditionCmd`, `MathCommands.cc` 436-526;
which of them `solve` uses, `MathCommands.cc` 327-348; `ResetAllData.cc` 19-35.

The solve is `Newton.Call.run`. Numbers are ℝ: that a number is rounded differently in the two precisions is
not modelled. Messages are not modelled.
-/
namespace Verif.Past
open Newton

/-- What is given for a list. -/
inductive Arg
  /-- the option is not given: `GetArgs.cc`, `requiredType::REQUIRED` -/
  | missing
  /-- not a sequence: `ObjectHolder::IsList`, `ObjectHolder.cc` 278-292 -/
  | other
  /-- a sequence: the number each entry is converted to, if it is -/
  | entries (l : List (Option ℝ))

/-- `GetFromList<double>`, `ObjectHolder.cc` 364-397: cleared at the first entry that is no number. -/
def getDoubles (l : List (Option ℝ)) : List ℝ :=
  if l.all Option.isSome then l.filterMap id else []

/-- `processOptions` and lines 461-481 of `setInitialConditionCmd`: the two lists, or an error. -/
noncomputable def lists : Arg → Arg → Option (List ℝ × List ℝ)
  | .entries a, .entries b =>
    let i := getDoubles a
    let q := getDoubles b
    if (i = [] ∨ q = []) ∨ i.length ≠ q.length then none else some (i, q)
  | _, _ => none

/-- `CopyI`, `SetI`, `CopyQ`, `SetQ`, in the order of `MathCommands.cc` 514-523. -/
def push (h : History) (i q : List ℝ) : History :=
  let h := { h with i2 := h.i1 }
  let h := { h with i1 := h.i0 }
  let h := { h with i0 := i }
  let h := { h with q2 := h.q1 }
  let h := { h with q1 := h.q0 }
  { h with q0 := q }

/-- A history nobody has written to: `TimeData::TimeData`, `TimeData.cc` 20-22. -/
def noHistory : History := ⟨[], [], [], [], [], []⟩

/-- The simulator: everything `solve` can change but the history, the global parameter `extended_solver` (true if it is
there and converts to true), and the two instances of `TimeData`. -/
structure Sim where
  world : World
  flag : Bool
  hists : Bool → History

/-- What the user does. `reset w` is `reset_devsim`; the world is then any (there are no devices). -/
inductive Do
  | solve (c : Call)
  | initial (static dynamic : Arg)
  | extended (b : Bool)
  | reset (w : World)

/-- `extended_type` is another type than `double` exactly if `quad`; which instance is used. -/
def Sim.mode (quad : Bool) (s : Sim) : Bool := quad && s.flag

/-- `solve` in the precision chosen, `MathCommands.cc` 327-348. -/
noncomputable def Sim.solve (quad : Bool) (s : Sim) (c : Call) : Sim × Outcome :=
  let m := s.mode quad
  let r := c.run { s.world with hist := s.hists m }
  ({ s with world := r.1, hists := fun x => if x = m then r.1.hist else s.hists x }, r.2)

/-- `setInitialConditionCmd`, `MathCommands.cc` 436-526, and whether it is done. -/
noncomputable def Sim.initial (quad : Bool) (s : Sim) (a b : Arg) : Sim × Bool :=
  match lists a b with
  | none => (s, false)
  | some (i, q) =>
    let m := s.mode quad
    ({ s with hists := fun x => if x = m then push (s.hists m) i q else s.hists x }, true)

/-- One step. `ResetAllData`, `ResetAllData.cc` 19-35. -/
noncomputable def step (quad : Bool) (s : Sim) : Do → Sim
  | .solve c => (s.solve quad c).1
  | .initial a b => (s.initial quad a b).1
  | .extended b => { s with flag := b }
  | .reset w => ⟨w, false, fun _ => noHistory⟩

noncomputable def runs (quad : Bool) (s : Sim) (l : List Do) : Sim := l.foldl (step quad) s

end Verif.Past
