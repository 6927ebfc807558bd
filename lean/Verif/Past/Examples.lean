import Verif.Past.Main
/-!
# Concrete sessions
-/
namespace Verif.Past
open Newton Classical

/-- Two rows. -/
def I : Arg := .entries [some 1, some 2]
def Q : Arg := .entries [some 3, some 4]

theorem given : Given I Q [1, 2] [3, 4] := by simp [Given, I, Q]

/-- Refused: lengths that differ, an entry that is no number, no list, an empty list. -/
theorem refusals (quad : Bool) (s : Sim) :
    (s.initial quad I (.entries [some 3])).2 = false ∧
    (s.initial quad I (.entries [some 3, none])).2 = false ∧
    (s.initial quad I .other).2 = false ∧
    (s.initial quad .missing Q).2 = false ∧
    (s.initial quad (.entries []) (.entries [])).2 = false := by
  simp [Sim.initial, lists, I, getDoubles]

/-- A session: an initial condition in double precision, then the extended precision is chosen. -/
theorem story (w : World) : Story true ⟨w, false, fun _ => noHistory⟩ (fun _ => []) [.initial I Q, .extended true]
    (fun x => if x = false then [([1, 2], [3, 4])] else []) :=
  .cons (.given (m := false) (by simp) given) (.cons .extended .nil)

/-- A first order step with a step of 1: `a0 = 1, a1 = -1, b0 = 1`. -/
noncomputable def euler : TimeParams := ⟨.bdf1, 1, 1, -1, 0, 1, 0, 0⟩

/-- F151: the initial condition is given, and then the precision changed: the first time step is an error, whatever
the devices. -/
theorem switch_loses (w : World) (P : Problem) (lim : Limits) (f : World → World) :
    ((runs true ⟨w, false, fun _ => noHistory⟩ [.initial I Q, .extended true]).solve true ⟨f, P, lim, euler⟩).2
      = .raised := by
  unfold Sim.solve
  refine no_constant _ _ ?_
  have h := (lists_iff I Q _ _).2 given
  simp [runs, step, Sim.initial, h, Sim.mode, noHistory, rhsConstant, euler, TimeParams.isDCMethod, assembleIf,
    assembleAt]

/-- Without the change the constant part of the step is minus the charge given. -/
theorem step_uses (w : World) : rhsConstant ((runs true ⟨w, false, fun _ => noHistory⟩ [.initial I Q]).hists false)
    euler 2 = some [-3, -4] := by
  have h := (lists_iff I Q _ _).2 given
  simp [runs, step, Sim.initial, h, Sim.mode, push, rhsConstant, euler, TimeParams.isDCMethod, assembleIf,
    assembleAt, List.replicate]

/-- F152: lists that do not fit the system are accepted; the next step is an error. -/
theorem wrong_size (w : World) : (Sim.initial true ⟨w, false, fun _ => noHistory⟩ I Q).2 = true ∧
    rhsConstant ((step true ⟨w, false, fun _ => noHistory⟩ (.initial I Q)).hists false) euler 3 = none :=
  ⟨((initial_answer _ _ _ _).1).2 ⟨_, _, given⟩,
    (initial_size true ⟨w, false, fun _ => noHistory⟩ given (t := euler) (by simp [euler, TimeParams.isDCMethod])
      (by simp [euler]) rfl rfl 3).2 (by simp)⟩

end Verif.Past
