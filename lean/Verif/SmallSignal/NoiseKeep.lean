import Verif.SmallSignal.Backends

/-! # C61 fails at hybrid interfaces, and a concrete noise analysis -/

namespace Verif.SmallSignal
open Verif.Assembly

noncomputable section

/-- one region with one node and one equation `E` for `u` -/
def oneNode (base : Nat) : Newton.Region :=
  ⟨1, base, [⟨"E", "u", 0, .default, 1⟩], ["u"], fun x => if x = "u" then some (.solution fun _ => 0) else none⟩

/-- two regions with one node each, joined by a hybrid interface (row 1 is added to row 0 and kept), and a circuit node in row 2 which
a contact ties to the unknown 1 -/
def keepLoad : Load :=
  ⟨3, [(1, ⟨some 0, true⟩)], [(([(2, 2, 1), (2, 1, -1)], []), ([(0, 0, 1), (1, 1, 1)], []))], [],
    (([], []), ([], [])), (([], []), ([], []))⟩
def keepWorld : World := ⟨[[oneNode 0, oneNode 1]], some ⟨2, [("GND", none), ("out", some 0)], [], fun _ => none⟩⟩

theorem keepLoad_perm (i : Nat) : keepLoad.perm i = if i = 1 then ⟨some 0, true⟩ else ⟨some i, false⟩ := by
  simp only [Load.perm, keepLoad, setPerms, identityPerm]

theorem keep_bounded : Bounded keepLoad keepWorld := by
  refine ⟨?_, by simp [keepLoad], ?_, ?_, ?_, ?_, ?_⟩
  · intro d hd
    simp only [keepLoad, List.mem_singleton] at hd
    subst hd
    simp [PiecesIn, EntriesIn, keepLoad]
  · simp [PiecesIn, EntriesIn, keepLoad]
  · simp [PiecesIn, EntriesIn, keepLoad]
  · simp [circStatic, circBase, keepWorld, Elements.assembleDC, shiftM, EntriesIn]
  · simp [circDynamic, circBase, keepWorld, Elements.assembleTran, shiftM, EntriesIn]
  · intro i hi r hr
    rw [keepLoad_perm] at hr
    split_ifs at hr with h
    · simp only [Option.some.injEq] at hr
      rw [← hr]; simp [keepLoad]
    · simp only [Option.some.injEq] at hr
      omega

theorem keep_nodes : NodesIn keepLoad keepWorld := by
  intro c hc n i hi
  simp only [keepWorld, Option.some.injEq] at hc
  subst hc
  simp at hi
  rw [hi.2]
  simp [keepLoad]

theorem keep_realEntries (w : World) (hw : (circStatic w).1 = []) :
    realEntries keepLoad w = [(2, 2, 1), (2, 1, -1), (0, 0, 1), (0, 1, 1), (1, 1, 1)] := by
  have h0 : (keepLoad.perm 0) = ⟨some 0, false⟩ := by simp [keepLoad_perm]
  have h1 : (keepLoad.perm 1) = ⟨some 0, true⟩ := by simp [keepLoad_perm]
  have hs : keepLoad.static = [(([(2, 2, 1), (2, 1, -1)], []), ([(0, 0, 1), (1, 1, 1)], []))] := rfl
  have hcu : keepLoad.customStatic = (([], []), ([], [])) := rfl
  unfold realEntries loadAll loadCustom loadSystem
  rw [hs, hcu, hw]
  simp only [loadDevices, loadMatrix, loadMatrixPerm, List.flatMap_cons, List.flatMap_nil, h0, h1, List.map_cons, List.map_nil]
  simp

theorem keep_cpxEntries (f : ℝ) (w : World) (hw : (circDynamic w).1 = []) : cpxEntries keepLoad f w = [] := by
  have hd : keepLoad.dynamic = [] := rfl
  have hcu : keepLoad.customDynamic = (([], []), ([], [])) := rfl
  unfold cpxEntries loadAll loadCustom loadSystem
  rw [hd, hcu, hw]
  simp [loadDevices, loadMatrix, loadMatrixPerm, liftM, liftP]

theorem keep_row (w : World) (h1 : (circStatic w).1 = []) (h2 : (circDynamic w).1 = []) (hb : Bounded keepLoad w) (f : ℝ)
    (X : Nat → ℂ) (r : Nat) (hr : r < 3) :
    staticRow keepLoad w X r + 2 * Real.pi * f * Complex.I * dynamicRow keepLoad w X r =
      if r = 0 then X 0 + X 1 else if r = 1 then X 1 else X 2 - X 1 := by
  rw [← realEntries_row hb]
  have : jOmega f * dynamicRow keepLoad w X r = 0 := by
    rw [← cpxEntries_row f hb, keep_cpxEntries f w h2]; simp
  have e : 2 * Real.pi * f * Complex.I * dynamicRow keepLoad w X r = 0 := by
    rw [← this, jOmega]; ring
  rw [e, keep_realEntries w h1]
  have hr' : r = 0 ∨ r = 1 ∨ r = 2 := by omega
  rcases hr' with rfl | rfl | rfl
  · simp [liftM, matVec]
  · simp [liftM, matVec]
  · simp [liftM, matVec]; ring

theorem keep_columns (w : World) (h1 : (circStatic w).1 = []) (h2 : (circDynamic w).1 = []) (f : ℝ) (Y : Nat → ℂ) (c : Nat)
    (hc : c < 3) : ∑ r ∈ Finset.range 3, acCell keepLoad f w r c * Y r =
      if c = 0 then Y 0 else if c = 1 then Y 0 + Y 1 - Y 2 else Y 2 := by
  have hr' : c = 0 ∨ c = 1 ∨ c = 2 := by omega
  have hcell : ∀ r c, acCell keepLoad f w r c =
      cell (liftM [(2, 2, (1 : ℝ)), (2, 1, -1), (0, 0, 1), (0, 1, 1), (1, 1, 1)]) r c := by
    intro r c
    rw [acCell, keep_realEntries w h1, keep_cpxEntries f w h2]
    simp [cell]
  simp only [Finset.sum_range_succ, Finset.sum_range_zero, hcell]
  rcases hr' with rfl | rfl | rfl
  · simp [liftM, cell]
  · simp [liftM, cell]; ring
  · simp [liftM, cell]

/-- **C61, refuted part**: at the node of a hybrid interface whose equation is copied, the analysis stores zero, although the response
of the output to a unit source in that equation is 1. -/
theorem noise_keep_counterexample (f : ℝ) :
    (∃ w' c' r0 r1, noiseSolve (exact false) keepLoad "out" f keepWorld = some (w', true) ∧
      w' = ⟨[[r0, r1]], some c'⟩ ∧ ∃ re im : Nat → ℝ, r1.models "out_E_real" = some (.solution re) ∧
      r1.models "out_E_imag" = some (.solution im) ∧ re 0 = 0 ∧ im 0 = 0) ∧
    (∃ X, Response keepLoad keepWorld f (bulkSource keepLoad 1) X) ∧
    (∀ X, Response keepLoad keepWorld f (bulkSource keepLoad 1) X → X 2 = 1) := by
  have hN : keepLoad.N = 3 := rfl
  have hbs : ∀ r, bulkSource keepLoad 1 r = (if r = 0 then 1 else 0) + if r = 1 then 1 else 0 := by
    intro r
    rw [bulkSource_eq _ _ (by simp [keepLoad]), permCoef, keepLoad_perm]
    simp only [if_true, eq_comm, true_and]
  refine ⟨?_, ?_, ?_⟩
  · set c1 := noiseInit "out" ⟨2, [("GND", none), ("out", some 0)], [], fun _ => none⟩ with hc1
    set w1 : World := { keepWorld with circuit := some c1 } with hw1
    have hS : (circStatic w1).1 = [] := by simp [circStatic, hw1, hc1, noiseInit, Elements.assembleDC]
    have hD : (circDynamic w1).1 = [] := by simp [circDynamic, hw1, hc1, noiseInit, Elements.assembleTran]
    have hb1 : Bounded keepLoad w1 := ⟨keep_bounded.static, keep_bounded.dynamic, keep_bounded.customS, keep_bounded.customD,
      by rw [hS]; simp [shiftM, EntriesIn], by rw [hD]; simp [shiftM, EntriesIn], keep_bounded.perm⟩
    obtain ⟨m, e1, hrep⟩ := ac_matrix keepLoad f w1 hb1 false
    obtain ⟨y, hy⟩ := exact_succeeds false true keepLoad.N m.ap m.ai _ _ hrep (Function.update (fun _ => 0) 2 1)
      (fun r => if r = 0 then 0 else 1) (by
        refine ⟨fun _ c hc => ?_, by simp⟩
        rw [hN] at hc ⊢
        rw [keep_columns w1 hS hD f _ c hc]
        have hr' : c = 0 ∨ c = 1 ∨ c = 2 := by omega
        rcases hr' with rfl | rfl | rfl <;> simp [Function.update_apply])
    have hy0 : y 0 = 0 := by
      have := (exact_solves hy _ hrep).1 rfl 0 (by simp [keepLoad])
      rw [hN, keep_columns w1 hS hD f _ 0 (by omega)] at this
      simpa using this
    obtain ⟨c', e3, h3⟩ := acCircuit_spec ("noise_" ++ "out" ++ "_real") ("noise_" ++ "out" ++ "_imag")
      (noise_real_ne_imag _ _) y ⟨2, [("GND", none), ("out", some 0)], [], fun _ => none⟩ _ rfl
    have e4 : acCircuit ("noise_" ++ "out" ++ "_real") ("noise_" ++ "out" ++ "_imag") y c1 = some c' := e3
    have hout : outputEqn ⟨2, [("GND", none), ("out", some 0)], [], fun _ => none⟩ "out" = some 2 := by
      simp [outputEqn]
    have hcrm : (exact false).crm = false := rfl
    refine ⟨⟨noiseDevices "out" keepLoad.perm y keepWorld.devices, some c'⟩, c',
      { oneNode 0 with models := noiseEqs (oneNode 0) "out" keepLoad.perm y (oneNode 0).eqs (oneNode 0).models },
      { oneNode 1 with models := noiseEqs (oneNode 1) "out" keepLoad.perm y (oneNode 1).eqs (oneNode 1).models }, ?_, rfl, ?_⟩
    · unfold noiseSolve
      have hk : keepWorld.circuit = some ⟨2, [("GND", none), ("out", some 0)], [], fun _ => none⟩ := rfl
      simp only [hk, hout]
      simp only [← hc1, ← hw1, hcrm, e1, hy, e4]
    · obtain ⟨a, b⟩ := noiseEqs_shows (oneNode 1) "out" keepLoad.perm y (oneNode 1).eqs (by simp [oneNode]) (oneNode 1).models
        ⟨"E", "u", 0, .default, 1⟩ (by simp [oneNode])
      refine ⟨_, _, a, b, ?_, ?_⟩ <;> simp [eqRow, oneNode, noiseValue, keepLoad_perm, hy0]
  · refine ⟨fun r => if r = 0 then 0 else 1, fun r hr => ?_⟩
    rw [hN] at hr
    rw [keep_row keepWorld (by simp [circStatic, keepWorld, Elements.assembleDC])
      (by simp [circDynamic, keepWorld, Elements.assembleTran]) keep_bounded f _ r hr, hbs]
    have hr' : r = 0 ∨ r = 1 ∨ r = 2 := by omega
    rcases hr' with rfl | rfl | rfl <;> simp
  · intro X hX
    have h1 := hX 1 (by simp [keepLoad])
    have h2 := hX 2 (by simp [keepLoad])
    rw [keep_row keepWorld (by simp [circStatic, keepWorld, Elements.assembleDC])
      (by simp [circDynamic, keepWorld, Elements.assembleTran]) keep_bounded f _ _ (by omega), hbs] at h1 h2
    simp at h1 h2
    linear_combination h1 + h2

/-- the hypotheses of `noise_analysis_partial` are met by this case (whose other region is not copied) -/
example (f : ℝ) : ∃ w' ok, noiseSolve (exact false) keepLoad "out" f keepWorld = some (w', ok) := by
  obtain ⟨w', ok, h, -⟩ := noise_analysis_partial (exact false) (exact_correct false) keepLoad f keepWorld keep_bounded
    keep_nodes (by simp [EquationNamesDistinct, keepWorld, oneNode])
    ⟨2, [("GND", none), ("out", some 0)], [], fun _ => none⟩ rfl "out" 0 (by simp [outputEqn])
  exact ⟨w', ok, h⟩

end
end Verif.SmallSignal
