import Verif.Solve.Cmds
import Verif.Newton.Diverge

/-!
# Examples and counterexamples for C90, C91
-/

namespace Verif.Solve.Examples

open Classical
open Verif.Newton
open Verif.PyArg (F64 Py Lib)

/-! ### The node of the relative error -/

def eqA : Eqn := ⟨"E", "A", 0, .default, 1⟩
def old2 : Nat → ℝ := fun i => if i = 0 then 0 else 100
def upd2 : Nat → ℝ := fun i => if i = 0 then 1 else 2
def new2 : Nat → ℝ := fun i => if i = 0 then 1 else if i = 1 then 102 else 100

/-- F133: the relative error is at node 0, but `relative_error_node` says node 1, where the absolute error is. -/
theorem wrong_node : ∃ i, report eqA 2 0 old2 upd2 = some (new2, i) ∧ EqTells 2 eqA old2 new2 i ∧ i.abs = 2 ∧ i.absNode = 1 ∧ i.rel = 1 / 2 ∧
    ratio eqA.minError old2 new2 0 = 1 / 2 ∧ i.relNode = 1 ∧ ¬ RelNodeTells 2 eqA old2 new2 i := by
  have hr : report eqA 2 0 old2 upd2 = some (new2, ⟨"E", 1 / 2, 1, 2, 1⟩) := by
    unfold report
    rw [if_pos (by intro i _; rfl)]
    simp only [Option.some.injEq, Prod.mk.injEq, EqInfo.mk.injEq]
    refine ⟨?_, rfl, ?_, ?_, ?_, ?_⟩
    · funext i
      rcases i with _ | _ | i
      · norm_num [damp, eqA, old2, upd2, new2]
      · norm_num [damp, eqA, old2, upd2, new2]
      · simp [new2, old2]
    all_goals norm_num [damp, eqA, old2, upd2, maxUp, maxAt, List.range_succ]
  refine ⟨_, hr, report_tells hr, rfl, rfl, rfl, by norm_num [ratio, eqA, old2, new2], rfl, ?_⟩
  norm_num [RelNodeTells, ratio, eqA, old2, new2]

/-! ### A call -/

def eqB : Eqn := ⟨"E", "A", 0, .default, 1⟩
/-- a device "dev" with a region "bulk" with two nodes -/
def world : World := ⟨[[⟨2, 0, [eqB], ["A"], twoSol "A" "B" 0 0⟩]], none, ⟨[], [], [], [], [], []⟩⟩
/-- the linear solver gives 1 and 2, and then no change -/
def linear : Problem := ⟨2, fun k _ _ => .ok fun i => if k = 0 then (if i = 0 then 1 else 2) else 0, fun _ => some [], fun _ => some [], fun _ => true⟩
noncomputable def lim : Limits := ⟨1, 1, 0, 1e10, 20, 20⟩
def names : Names := ⟨fun _ => "dev", fun _ _ => "bulk"⟩

theorem one_each : OneEach world := by
  intro d hd r hr
  simp only [world, List.mem_singleton] at hd
  subst hd
  simp only [List.mem_singleton] at hr
  subst hr
  simp [OneEquationPerVar]

/-- what is told: two iterations; 1 → the change 2 of the second node, 2 / 3 of its value; then no change -/
noncomputable def told : Dict := ⟨2, [⟨0, [⟨"dev", 2 / 3, 2, [⟨"bulk", 2 / 3, 2, [⟨"E", 2 / 3, 1, 2, 1⟩]⟩]⟩], none⟩,
  ⟨1, [⟨"dev", 0, 0, [⟨"bulk", 0, 0, [⟨"E", 0, 0, 0, 0⟩]⟩]⟩], none⟩], none, true⟩

theorem call : ∃ w', solveI linear lim dcOnly names world = (w', .returned told) := by
  refine ⟨(solveI linear lim dcOnly names world).1, ?_⟩
  norm_num [told, world, linear, lim, names, eqB, ne_A_prev_A, ne_A_A_prev, ne_A_prev_B, ne_B_A_prev, ne_A_B, ne_B_A, a_prev, solveI, backup,
    loopDevices, loopRegions, loopVars, backupVar, twoSol, Models.set, value, rhsConstant, TimeParams.isDCMethod, dcOnly, iterateI, St.start,
    finishI, finish, finishConverged, TimeParams.isTransient, TimeParams.isIntegration, updWorldI, updDevicesI, updDeviceI, updEqsI, report, damp, maxUp, maxAt,
    List.range_succ, judge, judgeDevice, errors]
  intro h; exact absurd h (by decide)

/-- the theorems apply to it -/
example : ∃ last, told.iterations.getLast? = some last ∧ Below lim last := by
  obtain ⟨w', h⟩ := call
  exact ((converged_iff linear lim dcOnly names world w' told h).1.mp rfl).1

example : ∃ w1 rhsc w2, Trail linear rhsc names 0 w1 told.iterations w2 := by
  obtain ⟨w', h⟩ := call
  obtain ⟨_, _, w1, rhsc, w2, _, _, h, _⟩ := info_tells_partial linear lim dcOnly names world w' told one_each h
  exact ⟨w1, rhsc, w2, h⟩

/-! ### The default limits -/

theorem eq_abs_nonneg {n : Nat} {e : Eqn} {old new : Nat → ℝ} {i : EqInfo} (h : EqTells n e old new i) : 0 ≤ i.abs := by
  rcases h.absAt with h | ⟨_, h⟩
  · exact h.ge
  · rw [← h]; exact abs_nonneg _

theorem reg_abs_nonneg {name : String} {r r' : Region} {i : RegInfo} (h : RegTells name r r' i) : 0 ≤ i.abs := by
  rw [h.abs]
  refine List.sum_nonneg ?_
  intro x hx
  obtain ⟨q, hq, rfl⟩ := List.mem_map.mp hx
  obtain ⟨k, hk, rfl⟩ := List.mem_iff_getElem.mp hq
  have := (List.forall₂_iff_get.mp h.eqs).2 k (by rw [(List.forall₂_iff_get.mp h.eqs).1]; exact hk) hk
  obtain ⟨_, _, _, _, ht⟩ := this
  exact eq_abs_nonneg ht

theorem trail_last {P : Problem} {rhsc : List ℝ} {nm : Names} {k : Nat} {w w' : World} {is : List IterRep} (h : Trail P rhsc nm k w is w') :
    ∀ last, is.getLast? = some last → ∃ a b, a.devices.length = w.devices.length ∧
      List.Forall₂ (fun d d' => d'.length = d.length) a.devices b.devices ∧ IterTells nm a b last := by
  induction h with
  | nil k w => intro last hl; simp at hl
  | cons k w w1 w2 x i is hl hk hu ht h ih =>
    intro last hlast
    cases is with
    | nil =>
      simp only [List.getLast?_singleton, Option.some.injEq] at hlast
      subst hlast
      refine ⟨w, w1, rfl, ?_, ht⟩
      exact hu.imp fun d d' h => h.length_eq.symm
    | cons j js =>
      rw [List.getLast?_cons_cons] at hlast
      obtain ⟨a, b, h1, h2⟩ := ih last hlast
      exact ⟨a, b, by rw [h1]; exact hu.length_eq.symm, h2⟩

/-- F135: with a device, an absolute error of 0 (the default of the command) is a limit that no iteration meets, not even one that changes
nothing: the test is strict. -/
theorem zero_limit_never_converges (P : Problem) (lim : Limits) (t : TimeParams) (nm : Names) (w w' : World) (d : Dict) (hone : OneEach w)
    (hd : w.devices ≠ []) (hl : lim.abs ≤ 0) (h : solveI P lim t nm w = (w', .returned d)) : d.converged = false := by
  by_contra hc
  have hc : d.converged = true := by simpa using hc
  obtain ⟨last, h1, h2⟩ := ((converged_iff P lim t nm w w' d h).1.mp hc).1
  obtain ⟨_, _, w1, rhsc, w2, hb, _, htr, _⟩ := info_tells_partial P lim t nm w w' d hone h
  obtain ⟨a, b, g1, g2, g3⟩ := trail_last htr last h1
  have hw1 : w1.devices.length = w.devices.length := by
    have := congrArg List.length (backup_shape hb)
    simpa [shape] using this
  have hpos : 0 < a.devices.length := by
    rw [g1, hw1]
    exact List.length_pos_of_ne_nil hd
  have hb' : 0 < b.devices.length := by rw [← g2.length_eq]; exact hpos
  have hq : 0 < last.devices.length := by rw [g3.length]; exact hpos
  have ht := g3.devices 0 a.devices[0] b.devices[0] last.devices[0] (List.getElem?_eq_getElem hpos) (List.getElem?_eq_getElem hb')
    (List.getElem?_eq_getElem hq)
  have hlt := (h2.1 last.devices[0] (List.getElem_mem hq)).1
  rcases ht.absAt with h0 | ⟨q, hq1, hq2⟩
  · linarith
  · obtain ⟨j, hj, rfl⟩ := List.mem_iff_getElem.mp hq1
    have hlen := (List.forall₂_iff_get.mp g2).2 0 hpos hb'
    simp only [List.get_eq_getElem] at hlen
    have hj1 : j < (a.devices[0]).length := by rw [← ht.length]; exact hj
    have hj2 : j < (b.devices[0]).length := by rw [hlen]; exact hj1
    have := reg_abs_nonneg (ht.regions j _ _ _ (List.getElem?_eq_getElem hj1) (List.getElem?_eq_getElem hj2) (List.getElem?_eq_getElem hj))
    linarith

/-! ### The command -/

/-- a library that reads the texts of the defaults, with the number itself as bits -/
def lib : Lib := { parseInt := fun s => if s = "20" then some 20 else if s = "1" then some 1 else none,
                   parseFloat := fun s => if s = "1.0" then some 1 else if s = "0" ∨ s = "0.0" then some 0 else none,
                   ofInt := fun n => some (BitVec.ofInt 64 n), text := fun _ => "", repr := fun _ => "" }

noncomputable def env : Env := { problem := fun _ _ => linear, ac := fun _ _ w => (w, some true), noise := fun _ _ _ w => (w, none), iterative := false,
                                 names := names, fmt := fun x => if x = 0 then "0" else "?", val := fun x => x.toNat, maxD := 1000, minD := 0 }

theorem opts_given (kw : List (String × Py)) (a : Args) (h : ∃ sel, PyArg.processOptions lib (opts lib) kw = .ok sel ∧ args lib env sel = a) (w : World) :
    solveCmd lib env w kw = solveImpl env a w := by
  obtain ⟨sel, h1, rfl⟩ := h
  unfold solveCmd
  rw [h1]

/-- the arguments of `solve(type="dc", absolute_error=1, relative_error=1, info=True)` -/
def dcArgs : Args := { type := "dc", solverType := "direct", tdelta := 0, gamma := 1, info := true, abs := 1, rel := 1, charge := 0, max := 1000,
                       maxIter := 20, maxDiv := 20, symbolic := 1, frequency := 0, output := "" }

def kwDc : List (String × Py) := [("type", .str "dc"), ("absolute_error", .int 1), ("relative_error", .int 1), ("info", .bool true)]

theorem solve_dc : solveCmd lib env world kwDc = solveImpl env dcArgs world := opts_given _ _ ⟨kwDc.reverse, rfl, rfl⟩ world

/-- the dictionary of the call above -/
theorem solve_dc_told : (solveCmd lib env world kwDc).2 = .info told := by
  rw [solve_dc]
  have hl : limits env dcArgs = ⟨1, 1, 0, 1000, 20, 20⟩ := by
    simp [limits, env, dcArgs, PyArg.toSize]
  have hc : complaint env dcArgs = "" := by simp [complaint, dcArgs]
  unfold solveImpl
  rw [if_neg (by simpa using hc), if_neg (by simp [dcArgs]), if_neg (by simp [dcArgs]), if_pos (by simp [dcArgs])]
  unfold runSolve
  rw [hl]
  have : ∃ w', solveI linear ⟨1, 1, 0, 1000, 20, 20⟩ dcOnly names world = (w', .returned told) := by
    refine ⟨(solveI linear ⟨1, 1, 0, 1000, 20, 20⟩ dcOnly names world).1, ?_⟩
    norm_num [told, world, linear, names, eqB, ne_A_prev_A, ne_A_A_prev, ne_A_prev_B, ne_B_A_prev, ne_A_B, ne_B_A, a_prev, solveI, backup,
      loopDevices, loopRegions, loopVars, backupVar, twoSol, Models.set, value, rhsConstant, TimeParams.isDCMethod, dcOnly, iterateI, St.start,
      finishI, finish, finishConverged, TimeParams.isTransient, TimeParams.isIntegration, updWorldI, updDevicesI, updDeviceI, updEqsI, report, damp,
      maxUp, maxAt, List.range_succ, judge, judgeDevice, errors]
    intro h; exact absurd h (by decide)
  obtain ⟨w', h⟩ := this
  show (match solveI linear ⟨1, 1, 0, 1000, 20, 20⟩ dcOnly names world with
    | (w', .raised) => (w', Res.raised)
    | (w', .returned d) => (w', answer true d)).2 = _
  rw [h]
  rfl

/-- F136: of two things that are wrong, only the last is told: `tdelta` is 0 too. -/
theorem one_complaint (w : World) : (solveCmd lib env w [("type", .str "transient_tr"), ("gamma", .int 0)]).2 =
    .err "\"gamma\" cannot be 0 for type transient_tr\n" := by
  rw [opts_given _ { dcArgs with type := "transient_tr", gamma := 0, info := false, abs := 0, rel := 0 } ⟨[("gamma", .int 0), ("type", .str "transient_tr")], rfl, rfl⟩]
  simp [solveImpl, complaint, env, dcArgs]

/-- F135: the defaults of the limits are 0, so that `solve(type="dc")` without limits is an error even if nothing changes. -/
theorem default_limits_fail (w w' : World) (r : Res) (hone : OneEach w) (hd : w.devices ≠ [])
    (h : solveCmd lib env w [("type", .str "dc")] = (w', r)) : r = .raised ∨ r = .err "Convergence failure!\n" := by
  rw [opts_given _ { dcArgs with info := false, abs := 0, rel := 0 } ⟨[("type", .str "dc")], rfl, rfl⟩] at h
  unfold solveImpl at h
  rw [if_neg (by simp [complaint, dcArgs]), if_neg (by simp [dcArgs]), if_neg (by simp [dcArgs]), if_pos (by simp [dcArgs])] at h
  unfold runSolve at h
  split at h
  · exact .inl (Prod.mk.inj h).2.symm
  · rename_i w2 d hs
    have := zero_limit_never_converges _ _ _ _ _ _ _ hone hd (by simp [limits, env]) hs
    refine .inr ?_
    rw [← (Prod.mk.inj h).2]
    simp [answer, this, dcArgs]

/-- F134: `maximum_iterations=-1` allows 2^64 - 1 iterations. -/
theorem negative_iterations (a : Args) (h : a.maxIter = -1) : (limits env a).maxIter = 2 ^ 64 - 1 := by
  simp only [limits, h]
  exact bound_toSize (.neg 1 (by omega) (by omega))

end Verif.Solve.Examples
