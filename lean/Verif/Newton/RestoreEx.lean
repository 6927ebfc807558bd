import Verif.Newton.Restore
import Verif.Newton.Integrate

/-!
# C27: examples and counterexamples
-/

namespace Verif.Newton
open Classical

/-- A world with one device of one region with one node, and no circuit. -/
def oneRegion (eqs : List Eqn) (vars : List String) (ms : Models) : World :=
  ⟨[[⟨1, 0, eqs, vars, ms⟩]], none, ⟨[], [], [], [], [], []⟩⟩

/-- `solve(type="dc")` with one iteration. -/
noncomputable def exLim : Limits := ⟨1e-3, 1e-3, 1e-3, 1e10, 1, 20⟩
/-- The linear solver fails. -/
def failing : Problem := ⟨1, fun _ _ _ => .failed, fun _ => some [], fun _ => some [], fun _ => true⟩
/-- The linear solver returns 1 for every unknown. -/
def ones : Problem := ⟨1, fun _ _ _ => .ok fun _ => 1, fun _ => some [], fun _ => some [], fun _ => true⟩

/-- The variable `"V"` of the equation `"E"`. -/
noncomputable def eqV (name var : String) (i : Nat) (ut : UpdateType) : Eqn := ⟨name, var, i, ut, 1e-10⟩

/-- The value of a solution in a world of one region. -/
def readSol (w : World) (x : String) : Option ℝ :=
  match w.devices with
  | [[r]] => match r.models x with
    | some (.solution v) => some (v 0)
    | _ => none
  | _ => none

/-- A table with two solutions. -/
def twoSol (x y : String) (a b : ℝ) : Models := fun n =>
  if n = x then some (.solution fun _ => a) else if n = y then some (.solution fun _ => b) else none

theorem a_prev : "A" ++ "_prev" = "A_prev" := by decide
theorem b_prev : "B" ++ "_prev" = "B_prev" := by decide
theorem v_prev : "V" ++ "_prev" = "V_prev" := by decide
theorem v_prev_prev : "V_prev" ++ "_prev" = "V_prev_prev" := by decide

theorem ne_A_B : ("A" = "B") ↔ False := by decide
theorem ne_A_A_prev : ("A" = "A_prev") ↔ False := by decide
theorem ne_A_B_prev : ("A" = "B_prev") ↔ False := by decide
theorem ne_A_V_prev : ("A" = "V_prev") ↔ False := by decide
theorem ne_B_A : ("B" = "A") ↔ False := by decide
theorem ne_B_A_prev : ("B" = "A_prev") ↔ False := by decide
theorem ne_B_B_prev : ("B" = "B_prev") ↔ False := by decide
theorem ne_B_V_prev : ("B" = "V_prev") ↔ False := by decide
theorem ne_V_A_prev : ("V" = "A_prev") ↔ False := by decide
theorem ne_V_B_prev : ("V" = "B_prev") ↔ False := by decide
theorem ne_V_V_prev : ("V" = "V_prev") ↔ False := by decide
theorem ne_W_A_prev : ("W" = "A_prev") ↔ False := by decide
theorem ne_W_B_prev : ("W" = "B_prev") ↔ False := by decide
theorem ne_W_V_prev : ("W" = "V_prev") ↔ False := by decide
theorem ne_A_prev_A : ("A_prev" = "A") ↔ False := by decide
theorem ne_A_prev_B : ("A_prev" = "B") ↔ False := by decide
theorem ne_A_prev_V : ("A_prev" = "V") ↔ False := by decide
theorem ne_A_prev_W : ("A_prev" = "W") ↔ False := by decide
theorem ne_A_prev_B_prev : ("A_prev" = "B_prev") ↔ False := by decide
theorem ne_A_prev_V_prev : ("A_prev" = "V_prev") ↔ False := by decide
theorem ne_B_prev_A : ("B_prev" = "A") ↔ False := by decide
theorem ne_B_prev_B : ("B_prev" = "B") ↔ False := by decide
theorem ne_B_prev_V : ("B_prev" = "V") ↔ False := by decide
theorem ne_B_prev_W : ("B_prev" = "W") ↔ False := by decide
theorem ne_B_prev_A_prev : ("B_prev" = "A_prev") ↔ False := by decide
theorem ne_B_prev_V_prev : ("B_prev" = "V_prev") ↔ False := by decide
theorem ne_V_prev_A : ("V_prev" = "A") ↔ False := by decide
theorem ne_V_prev_B : ("V_prev" = "B") ↔ False := by decide
theorem ne_V_prev_V : ("V_prev" = "V") ↔ False := by decide
theorem ne_V_prev_W : ("V_prev" = "W") ↔ False := by decide
theorem ne_V_prev_A_prev : ("V_prev" = "A_prev") ↔ False := by decide
theorem ne_V_prev_B_prev : ("V_prev" = "B_prev") ↔ False := by decide

/-- **C27 fails: a variable called like the backup of another.** The solution `V_prev` is 2 before and 1 after the
failed solve. -/
theorem prev_variable_counterexample :
    ∃ w w' log, w = oneRegion [eqV "E" "V" 0 .default, eqV "F" "V_prev" 1 .default] ["V", "V_prev"]
        (twoSol "V" "V_prev" 1 2) ∧
      solve failing exLim dcOnly w = (w', .returned false log) ∧
      readSol w "V_prev" = some 2 ∧ readSol w' "V_prev" = some 1 := by
  refine ⟨_, (solve failing exLim dcOnly (oneRegion [eqV "E" "V" 0 .default, eqV "F" "V_prev" 1 .default]
    ["V", "V_prev"] (twoSol "V" "V_prev" 1 2))).1, [], rfl, ?_, ?_, ?_⟩ <;>
  simp [a_prev, b_prev, v_prev, v_prev_prev, solve, backup, loopDevices, loopRegions, loopVars, backupVar, oneRegion, twoSol, Models.set, value,
    rhsConstant, TimeParams.isDCMethod, dcOnly, iterate, St.start, exLim, failing, finish, TimeParams.isTransient,
    finishFailed, restore, restoreVar, readSol]

/-- **C27 fails: a node model called like the backup.** The user has created a node model `V_prev` (not a solution);
the failed solve sets `V`, which was 1, to its value. -/
theorem prev_model_counterexample :
    ∃ w w' log, w = oneRegion [eqV "E" "V" 0 .default] ["V"]
        (fun n => if n = "V" then some (.solution fun _ => 1) else if n = "V_prev" then some (.derived fun _ _ => 7)
          else none) ∧
      solve failing exLim dcOnly w = (w', .returned false log) ∧
      readSol w "V" = some 1 ∧ readSol w' "V" = some 7 := by
  refine ⟨_, (solve failing exLim dcOnly (oneRegion [eqV "E" "V" 0 .default] ["V"]
        (fun n => if n = "V" then some (.solution fun _ => 1) else if n = "V_prev" then some (.derived fun _ _ => 7)
          else none))).1, [], rfl, ?_, ?_, ?_⟩ <;>
  simp [a_prev, b_prev, v_prev, v_prev_prev, solve, backup, loopDevices, loopRegions, loopVars, backupVar, oneRegion, Models.set, value,
    rhsConstant, TimeParams.isDCMethod, dcOnly, iterate, St.start, exLim, failing, finish, TimeParams.isTransient,
    finishFailed, restore, restoreVar, readSol]

/-- **C27 fails: a variable that is missing from the table** (what `Verif.Equations.variable_table_counterexample`
leaves behind): it is updated, but neither saved nor restored. -/
theorem unlisted_counterexample :
    ∃ w w' log, w = oneRegion [eqV "E" "V" 0 .default] [] (twoSol "V" "W" 0 0) ∧
      solve ones exLim dcOnly w = (w', .returned false log) ∧
      readSol w "V" = some 0 ∧ readSol w' "V" = some 1 := by
  refine ⟨_, (solve ones exLim dcOnly (oneRegion [eqV "E" "V" 0 .default] [] (twoSol "V" "W" 0 0))).1, [⟨[(1, 1 / (1 + 1e-10))], none⟩], rfl, ?_, ?_, ?_⟩ <;>
  norm_num [ne_A_B, ne_A_A_prev, ne_A_B_prev, ne_A_V_prev, ne_B_A, ne_B_A_prev, ne_B_B_prev, ne_B_V_prev, ne_V_A_prev, ne_V_B_prev, ne_V_V_prev, ne_W_A_prev, ne_W_B_prev, ne_W_V_prev, ne_A_prev_A, ne_A_prev_B, ne_A_prev_V, ne_A_prev_W, ne_A_prev_B_prev, ne_A_prev_V_prev, ne_B_prev_A, ne_B_prev_B, ne_B_prev_V, ne_B_prev_W, ne_B_prev_A_prev, ne_B_prev_V_prev, ne_V_prev_A, ne_V_prev_B, ne_V_prev_V, ne_V_prev_W, ne_V_prev_A_prev, ne_V_prev_B_prev,
    a_prev, b_prev, v_prev, v_prev_prev, solve, backup, loopDevices, loopRegions, loopVars, backupVar, oneRegion, twoSol, Models.set, value,
    rhsConstant, TimeParams.isDCMethod, dcOnly, iterate, St.start, exLim, ones, finish, TimeParams.isTransient,
    finishFailed, restore, restoreVar, readSol, updWorld, updDevices, updDevice, updEqs, Eqn.update, eqV, damp, maxUp,
    judge, judgeDevice]

/-- **C27 fails: an error during the call.** The equation for `B` has update type positive and the value of `B` is 0:
`solve` raises an error, and the variable `A`, updated before, keeps its new value. -/
theorem error_counterexample :
    ∃ w w', w = oneRegion [eqV "E" "A" 0 .default, eqV "F" "B" 1 .positive] ["A", "B"] (twoSol "A" "B" 0 0) ∧
      GoodWorld w ∧ solve ones exLim dcOnly w = (w', .raised) ∧
      readSol w "A" = some 0 ∧ readSol w' "A" = some 1 := by
  refine ⟨_, (solve ones exLim dcOnly (oneRegion [eqV "E" "A" 0 .default, eqV "F" "B" 1 .positive] ["A", "B"]
    (twoSol "A" "B" 0 0))).1, rfl, ?_, ?_, ?_, ?_⟩
  · intro d hd r hr
    simp only [oneRegion, List.mem_singleton] at hd
    subst hd
    simp only [List.mem_singleton] at hr
    subst hr
    exact ⟨by simp [twoSol], by simp [eqV], by simp, by simp [twoSol]⟩
  all_goals
    norm_num [ne_A_B, ne_A_A_prev, ne_A_B_prev, ne_A_V_prev, ne_B_A, ne_B_A_prev, ne_B_B_prev, ne_B_V_prev, ne_V_A_prev, ne_V_B_prev, ne_V_V_prev, ne_W_A_prev, ne_W_B_prev, ne_W_V_prev, ne_A_prev_A, ne_A_prev_B, ne_A_prev_V, ne_A_prev_W, ne_A_prev_B_prev, ne_A_prev_V_prev, ne_B_prev_A, ne_B_prev_B, ne_B_prev_V, ne_B_prev_W, ne_B_prev_A_prev, ne_B_prev_V_prev, ne_V_prev_A, ne_V_prev_B, ne_V_prev_V, ne_V_prev_W, ne_V_prev_A_prev, ne_V_prev_B_prev,
    a_prev, b_prev, v_prev, v_prev_prev, solve, backup, loopDevices, loopRegions, loopVars, backupVar, oneRegion, twoSol, Models.set, value,
      rhsConstant, TimeParams.isDCMethod, dcOnly, iterate, St.start, exLim, ones, finish, TimeParams.isTransient,
      finishFailed, restore, restoreVar, readSol, updWorld, updDevices, updDevice, updEqs, Eqn.update, eqV, damp, maxUp,
      judge, judgeDevice]

/-- Not vacuous: an iteration that moves `V` from 0 to 1, then the iteration limit; the solve reports failure. -/
example : GoodWorld (oneRegion [eqV "E" "V" 0 .default] ["V"] (twoSol "V" "W" 0 5)) ∧
    ∃ w', solve ones exLim dcOnly (oneRegion [eqV "E" "V" 0 .default] ["V"] (twoSol "V" "W" 0 5)) =
      (w', .returned false [⟨[(1, 1 / (1 + 1e-10))], none⟩]) := by
  refine ⟨?_, (solve ones exLim dcOnly (oneRegion [eqV "E" "V" 0 .default] ["V"] (twoSol "V" "W" 0 5))).1, ?_⟩
  · intro d hd r hr
    simp only [oneRegion, List.mem_singleton] at hd
    subst hd
    simp only [List.mem_singleton] at hr
    subst hr
    exact ⟨by simp [twoSol], by simp [eqV], by simp, by simp [twoSol]⟩
  · norm_num [ne_A_B, ne_A_A_prev, ne_A_B_prev, ne_A_V_prev, ne_B_A, ne_B_A_prev, ne_B_B_prev, ne_B_V_prev, ne_V_A_prev, ne_V_B_prev, ne_V_V_prev, ne_W_A_prev, ne_W_B_prev, ne_W_V_prev, ne_A_prev_A, ne_A_prev_B, ne_A_prev_V, ne_A_prev_W, ne_A_prev_B_prev, ne_A_prev_V_prev, ne_B_prev_A, ne_B_prev_B, ne_B_prev_V, ne_B_prev_W, ne_B_prev_A_prev, ne_B_prev_V_prev, ne_V_prev_A, ne_V_prev_B, ne_V_prev_V, ne_V_prev_W, ne_V_prev_A_prev, ne_V_prev_B_prev,
    a_prev, b_prev, v_prev, v_prev_prev, solve, backup, loopDevices, loopRegions, loopVars, backupVar, oneRegion, twoSol, Models.set, value,
      rhsConstant, TimeParams.isDCMethod, dcOnly, iterate, St.start, exLim, ones, finish, TimeParams.isTransient,
      finishFailed, restore, restoreVar, readSol, updWorld, updDevices, updDevice, updEqs, Eqn.update, eqV, damp, maxUp,
      judge, judgeDevice]

end Verif.Newton
