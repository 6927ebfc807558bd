import Verif.SmallSignal.Steady
import Verif.SmallSignal.Backends

/-! # C62: `get_matrix_and_rhs` -/

namespace Verif.SmallSignal
open Verif.Assembly

noncomputable section

/-- The returned arrays are a compressed representation (by columns or rows, as `format` says) of the Jacobian whose rows are `row`,
and the returned vector is minus the residual `res`. -/
def IsSystem (N : Nat) (format : String) (arrays : List Nat × List Nat × List ℝ × (Nat → ℝ)) (row : (Nat → ℝ) → Nat → ℝ)
    (res : Nat → ℝ) : Prop :=
  ∃ A : Nat → Nat → ℝ,
    (format = "csc" → Matrix.Spec.Represents N arrays.1 arrays.2.1 arrays.2.2.1 fun c r => A r c) ∧
    (format = "csr" → Matrix.Spec.Represents N arrays.1 arrays.2.1 arrays.2.2.1 fun r c => A r c) ∧
    (∀ x, ∀ r, ∑ c ∈ Finset.range N, A r c * x c = row x r) ∧ ∀ r, arrays.2.2.2 r = -res r

/-- The arrays `row` and `copy` describe the row operator of the bulk equations. -/
def IsPermutation (N : Nat) (row copy : Nat → Int) (bulkRow : (Nat → ℝ) → Nat → ℝ) : Prop :=
  ∀ F r, bulkRow F r = ((List.range N).map fun o =>
    ((if row o = (r : Int) then 1 else 0) + (if row o ≠ -1 ∧ copy o = 1 ∧ o = r then 1 else 0)) * F o).sum

theorem permCoef_int (p : Nat → PermEntry) (r o : Nat) : (permCoef p r o : ℝ) =
    (if rowInt (p o) = (r : Int) then 1 else 0) + (if rowInt (p o) ≠ -1 ∧ (if (p o).keep then (1 : Int) else 0) = 1 ∧ o = r then 1 else 0) := by
  unfold permCoef
  generalize p o = e
  obtain ⟨row, keep⟩ := e
  cases row with
  | none =>
    have : rowInt ⟨none, keep⟩ = -1 := rfl
    rw [this]
    have h2 : ¬ (-1 : Int) = (r : Int) := by omega
    simp [h2]
  | some q =>
    have : rowInt ⟨some q, keep⟩ = (q : Int) := rfl
    rw [this]
    have h2 : ((q : Int) ≠ -1) := by omega
    cases keep <;> simp [h2]

theorem value_map_add (r c : Nat) (m : List (MEntry ℝ)) : Matrix.Spec.value false r c 0 (realOps m) = cell m r c := by
  have := value_adds false r c m 0 []
  simp only [List.append_nil, Matrix.Spec.value, Bool.false_eq_true, if_false, zero_add] at this
  exact this

theorem realOps_in {N : Nat} {m : List (MEntry ℝ)} (h : EntriesIn N m) :
    ∀ o ∈ realOps m, Matrix.Spec.InRange N false o ∧ ¬ Matrix.Spec.IsClear o := by
  intro o ho
  obtain ⟨e, he, rfl⟩ := List.mem_map.1 ho
  exact ⟨⟨(h e he).1, (h e he).2, by simp⟩, by simp [Matrix.Spec.IsClear]⟩

theorem byLine_format (crm : Bool) (A : Nat → Nat → ℝ) :
    Matrix.byLine crm A = if crm then (fun r c => A r c) else fun c r => A r c := by
  funext l k
  unfold Matrix.byLine
  cases crm <;> simp

theorem value_after_clear (r c : Nat) (a : List (Matrix.Op ℝ)) (os : List (Matrix.Op ℝ)) (x : ℝ) :
    Matrix.Spec.value false r c x (a ++ .clear :: os) = Matrix.Spec.value false r c 0 os := by
  induction a generalizing x with
  | nil => rfl
  | cons o a ih =>
    cases o <;> simp only [List.cons_append, Matrix.Spec.value, ih]

theorem extInit_same (w : World) : circStatic (extInit w) = circStatic w ∧ circDynamic (extInit w) = circDynamic w ∧
    circBase (extInit w) = circBase w := by
  obtain ⟨ds, c⟩ := w
  cases c with
  | none => exact ⟨rfl, rfl, rfl⟩
  | some c => simp only [circStatic, circDynamic, circBase, extInit, Option.map_some, initSol_getD, and_self]

theorem loads_same (ld : Load) (w : World) : loadStatic ld (extInit w) = loadStatic ld w ∧
    loadDynamic ld (extInit w) = loadDynamic ld w := by
  obtain ⟨h1, h2, h3⟩ := extInit_same w
  simp only [loadStatic, loadDynamic, h1, h2, h3, and_self]

theorem isSystem_of (N : Nat) (crm : Bool) (ap ai : List Nat) (av : List ℝ) (l : List (MEntry ℝ) × (Nat → ℝ))
    (hin : EntriesIn N l.1) (row : (Nat → ℝ) → Nat → ℝ) (res : Nat → ℝ)
    (hrep : Matrix.Spec.Represents N ap ai av (Matrix.byLine crm fun r c => cell l.1 r c))
    (hrow : ∀ x r, matVec l.1 x r = row x r) (hres : ∀ r, l.2 r = -res r) :
    IsSystem N (if crm then "csr" else "csc") (ap, ai, av, l.2) row res := by
  refine ⟨fun r c => cell l.1 r c, ?_, ?_, ?_, hres⟩
  · intro hf
    cases crm with
    | true => exact absurd hf (by decide)
    | false => rw [byLine_format] at hrep; exact hrep
  · intro hf
    cases crm with
    | false => exact absurd hf (by decide)
    | true => rw [byLine_format] at hrep; exact hrep
  · intro x r
    rw [matVec_eq_sum N l.1 hin x r, hrow]

/-- **C62 (partial)** `get_matrix_and_rhs`: the arrays it returns under "static" and "dynamic" represent the assembled Jacobians of the
static equations and of the charges, in the format it names, with minus the residuals as right hand sides, and the permutation arrays
describe the row operator; provided that the static matrix stores at least as many entries as there are equations.  Without that
condition it may access memory outside of its tables (`external_counterexample`). -/
theorem external_partial (ld : Load) (crm : Bool) (w : World) (hb : Bounded ld w)
    (hnnz : ∀ m, Matrix.run (Matrix.new ld.N false crm) (realOps (loadStatic ld w).1 ++ [.finalize]) = some m →
      ld.N ≤ m.ai.length) :
    ∃ ext, getMatrixAndRHS ld crm w = some ext ∧
      IsSystem ld.N ext.format ext.static (staticRowR ld w)
        (systemRes ld.perm ld.N ld.static (circStatic w).2 (circBase w) ld.customStatic) ∧
      IsSystem ld.N ext.format ext.dynamic (dynamicRowR ld w)
        (systemRes ld.perm ld.N ld.dynamic (circDynamic w).2 (circBase w) ld.customDynamic) ∧
      IsPermutation ld.N ext.row ext.copy (permRow ld.perm ld.N) ∧
      ext.format = if crm then "csr" else "csc" := by
  have hinS : EntriesIn ld.N (loadStatic ld w).1 := realEntries_in hb
  have hinD : EntriesIn ld.N (loadDynamic ld w).1 :=
    loadAll_in hb.perm (fun d hd => ⟨(hb.dynamic d hd).1, (hb.dynamic d hd).2.1⟩) hb.circD ⟨hb.customD.1, hb.customD.2.1⟩
  have hS := realOps_in hinS
  have hD := realOps_in hinD
  obtain ⟨m1, e1, hc1, hr1⟩ := Matrix.assembled_sum ld.N false crm (realOps (loadStatic ld w).1)
    (fun o ho => (hS o ho).1) (fun o ho => (hS o ho).2)
  have hn1 := hnnz m1 e1
  have hrun1 : ∀ t, Matrix.run (Matrix.new ld.N false crm : Matrix.Mat ℝ)
      (realOps (loadStatic ld w).1 ++ [.finalize]) = some t → t = m1 := by
    intro t ht; rw [e1] at ht; simpa using ht.symm
  have hm1n : m1.n = ld.N := by
    obtain ⟨hi, hr, h0⟩ := Matrix.new_inv (R := ℝ) ld.N false crm
    obtain ⟨t, et, -, -, sm, -⟩ := Matrix.run_spec _ hi hr (realOps (loadStatic ld w).1 ++ [.finalize]) (by
      intro o ho
      rcases List.mem_append.1 ho with ho | ho
      · exact (hS o ho).1
      · simp only [List.mem_singleton] at ho; subst ho; trivial) (by
      intro pre post t hsplit
      exfalso
      have : Matrix.Op.clear ∈ realOps (loadStatic ld w).1 ++ [Matrix.Op.finalize] := by rw [hsplit]; simp
      rcases List.mem_append.1 this with ho | ho
      · exact (hS _ ho).2 trivial
      · simp at ho)
    rw [hrun1 t et] at sm
    exact sm.n
  obtain ⟨m2, e2, hc2, hr2⟩ := Matrix.assemble_history ld.N false crm
    (realOps (loadStatic ld w).1 ++ [.finalize] ++ .clear :: realOps (loadDynamic ld w).1) (by
      intro o ho
      simp only [List.mem_append, List.mem_cons, List.not_mem_nil, or_false] at ho
      rcases ho with (ho | rfl) | rfl | ho
      · exact (hS o ho).1
      · trivial
      · trivial
      · exact (hD o ho).1) (by
      intro pre post t hsplit ht
      -- the only clearing is the one between the two loads
      have hpre : pre = realOps (loadStatic ld w).1 ++ [.finalize] := by
        have hnot1 : ∀ o ∈ realOps (loadStatic ld w).1 ++ [Matrix.Op.finalize], ¬ Matrix.Spec.IsClear o := by
          intro o ho
          rcases List.mem_append.1 ho with ho | ho
          · exact (hS o ho).2
          · simp only [List.mem_singleton] at ho; subst ho; simp [Matrix.Spec.IsClear]
        rcases List.append_eq_append_iff.1 hsplit with ⟨as, h1, h2⟩ | ⟨bs, h1, h2⟩
        · cases as with
          | nil => simpa using h1
          | cons a as =>
            exfalso
            simp only [List.cons_append, List.cons.injEq] at h2
            have : Matrix.Op.clear ∈ realOps (loadDynamic ld w).1 := by rw [h2.2]; simp
            exact (hD _ this).2 trivial
        · cases bs with
          | nil => simpa using h1.symm
          | cons b bs =>
            exfalso
            simp only [List.cons_append, List.cons.injEq] at h2
            have : Matrix.Op.clear ∈ realOps (loadStatic ld w).1 ++ [Matrix.Op.finalize] := by
              rw [h1, ← h2.1]; simp
            exact hnot1 _ this trivial
      rw [hpre] at ht
      rw [hrun1 t ht]
      exact ⟨hc1, by rw [hm1n]; exact hn1⟩)
  have e3 : Matrix.run m1 ([.clear] ++ realOps (loadDynamic ld w).1 ++ [.finalize]) = some m2 := by
    have : realOps (loadStatic ld w).1 ++ [.finalize] ++ .clear :: realOps (loadDynamic ld w).1 ++ [Matrix.Op.finalize] =
        (realOps (loadStatic ld w).1 ++ [.finalize]) ++ ([.clear] ++ realOps (loadDynamic ld w).1 ++ [.finalize]) := by simp
    rw [this, Matrix.run_append, e1] at e2
    simpa using e2
  have hrowS := loadAll_rows ld.perm ld.N 1 ld.static (fun d hd => (hb.static d hd).inRange) (circStatic w) (circBase w)
    ld.customStatic hb.customS.inRange ([], fun _ => 0)
  have hrowD := loadAll_rows ld.perm ld.N 1 ld.dynamic (fun d hd => (hb.dynamic d hd).inRange) (circDynamic w) (circBase w)
    ld.customDynamic hb.customD.inRange ([], fun _ => 0)
  obtain ⟨l1, l2⟩ := loads_same ld w
  refine ⟨_, by simp only [getMatrixAndRHS, l1, l2, e1, e3]; rfl, ?_, ?_, ?_, rfl⟩
  · refine isSystem_of ld.N crm m1.ap m1.ai (m1.x false) (loadStatic ld w) hinS _ _ ?_ ?_ ?_
    · simpa only [value_map_add] using hr1 false (by simp)
    · intro x r
      have := hrowS.2 x r
      simp only [matVec_nil, zero_add, one_mul] at this
      exact this
    · intro r
      have := hrowS.1 r
      simp only [zero_sub, one_mul] at this
      exact this
  · refine isSystem_of ld.N crm m2.ap m2.ai (m2.x false) (loadDynamic ld w) hinD _ _ ?_ ?_ ?_
    · simpa only [value_after_clear, value_map_add] using hr2 false (by simp)
    · intro x r
      have := hrowD.2 x r
      simp only [matVec_nil, zero_add, one_mul] at this
      exact this
    · intro r
      have := hrowD.1 r
      simp only [zero_sub, one_mul] at this
      exact this
  · intro F r
    unfold permRow
    congr 1
    refine List.map_congr_left fun o _ => ?_
    rw [permCoef_int]

/-- a circuit that consists of one capacitor -/
def capWorld : World := ⟨[], some ⟨0, [("GND", none), ("a", some 0)], [(.capacitor (some 0) none 3, 0)], fun _ => none⟩⟩
def capLoad : Load := ⟨1, [], [], [], (([], []), ([], [])), (([], []), ([], []))⟩

/-- **C62, refuted part**: for a circuit of one capacitor the static matrix is empty, and loading the second matrix accesses memory
outside of the tables. -/
theorem external_counterexample (crm : Bool) : getMatrixAndRHS capLoad crm capWorld = none := by
  have hs : (loadStatic capLoad (extInit capWorld)).1 = [] := by
    simp [loadStatic, loadAll, loadCustom, loadSystem, loadDevices, loadMatrix, loadMatrixPerm, capLoad, capWorld, extInit,
      circStatic, Elements.assembleDC, Elements.dcMat]
  have hd : (loadDynamic capLoad (extInit capWorld)).1 = [(0, 0, (3 : ℝ))] := by
    simp [loadDynamic, loadAll, loadCustom, loadSystem, loadDevices, loadMatrix, loadMatrixPerm, capLoad, capWorld, extInit,
      circDynamic, circBase, Elements.assembleTran, Elements.tranMat, Elements.push2]
  have h3 : (3 : ℝ) ≠ 0 := by norm_num
  obtain ⟨m1, e1, e2⟩ : ∃ m1 : Matrix.Mat ℝ, Matrix.run (Matrix.new 1 false crm) [.finalize] = some m1 ∧
      Matrix.add (Matrix.clear m1) false 0 0 3 = none := by
    obtain ⟨hi, hr, -⟩ := Matrix.new_inv (R := ℝ) 1 false crm
    obtain ⟨m1, e1, i1, -, sm, -⟩ := Matrix.run_spec _ hi hr [.finalize] (by intro o ho; simp at ho; subst ho; trivial) (by
      intro pre post t hsplit
      exfalso
      have : Matrix.Op.clear ∈ [(Matrix.Op.finalize : Matrix.Op ℝ)] := by rw [hsplit]; simp
      simp at this)
    refine ⟨m1, e1, ?_⟩
    have e1' : Matrix.run (Matrix.new 1 false crm : Matrix.Mat ℝ) [.finalize] = some (Matrix.clearOob (Matrix.createMatrix
        { Matrix.new 1 false crm with sameSym := false }) false 1) := by cases crm <;> rfl
    rw [e1, Option.some.injEq] at e1'
    have hsym : m1.sym = [[]] := by rw [e1']; cases crm <;> rfl
    have hai : m1.ai = [] := by rw [e1']; cases crm <;> rfl
    have hcp : m1.compressed = true := by rw [e1']; cases crm <;> rfl
    unfold Matrix.add
    rw [ite_self]
    refine Matrix.clear_small_out_of_bounds m1 i1 hcp false (by simp) 0 0 3 h3 ?_ ?_ ?_
    · rw [sm.n]; exact Nat.one_pos
    · rintro ⟨m, hm, hh⟩
      rw [hsym] at hm
      simp only [List.getElem?_cons_zero, Option.some.injEq] at hm
      subst hm
      exact absurd hh (by decide)
    · rw [hai]; simp
  unfold getMatrixAndRHS
  simp only [hs, hd, realOps, List.map_nil, List.map_cons, List.nil_append]
  have hN : capLoad.N = 1 := rfl
  rw [hN, e1]
  simp only [List.cons_append, List.nil_append, Matrix.run, Matrix.step, e2]

/-- The storage condition of `external_partial` holds when every column (row for "csr") has a contribution from the static equations that
is not zero. -/
theorem static_stored (ld : Load) (crm : Bool) (w : World) (hb : Bounded ld w)
    (hfull : ∀ l < ld.N, ∃ e ∈ (loadStatic ld w).1, (if crm then e.1 else e.2.1) = l ∧ e.2.2 ≠ 0) :
    ∀ m, Matrix.run (Matrix.new ld.N false crm) (realOps (loadStatic ld w).1 ++ [.finalize]) = some m →
      ld.N ≤ m.ai.length := by
  intro m hm
  have hinS : EntriesIn ld.N (loadStatic ld w).1 := realEntries_in hb
  have hS := realOps_in hinS
  obtain ⟨hi, hr, -⟩ := Matrix.new_inv (R := ℝ) ld.N false crm
  obtain ⟨s1, e1, i1, r1, sm1, -, q1⟩ := Matrix.run_adds _ hi hr (realOps (loadStatic ld w).1)
    (fun o ho => (hS o ho).1) (fun o ho => (hS o ho).2)
  obtain ⟨s2, e2, i2, r2, sm2, c2, -, k2⟩ := Matrix.finalize_spec s1 i1 r1
  rw [Matrix.run_append, e1] at hm
  simp only [Option.bind_some, Matrix.run, Matrix.step, e2, Option.some.injEq] at hm
  subst hm
  have hC : Matrix.COk s2 := by
    rcases i2.st with h | h
    · exact h
    · exact absurd (h.unc ▸ c2) (by simp)
  have hn : s2.n = ld.N := (sm1.trans sm2).n
  rw [← hn]
  refine Matrix.nnz_ge s2 hC fun l hl => ?_
  rw [hn] at hl
  obtain ⟨e, he, h1, h2⟩ := hfull l hl
  obtain ⟨k, hk⟩ := q1 l ⟨_, List.mem_map_of_mem he, h1, h2⟩
  exact ⟨k, k2 _ _ hk⟩

/-- a source and a capacitor meet the hypotheses of `external_partial` -/
example (crm : Bool) : ∃ ext, getMatrixAndRHS emptyLoad crm rcWorld = some ext ∧
    IsSystem 2 ext.format ext.static (staticRowR emptyLoad rcWorld)
      (systemRes emptyLoad.perm 2 [] (circStatic rcWorld).2 0 (([], []), ([], []))) := by
  have hs : (loadStatic emptyLoad rcWorld).1 = [(0, 1, 1), (1, 0, 1)] := by
    simp [loadStatic, loadAll, loadCustom, loadSystem, loadDevices, loadMatrix, loadMatrixPerm, emptyLoad, rcWorld,
      circStatic, circBase, Elements.assembleDC, Elements.dcMat, Elements.push2]
  obtain ⟨ext, h1, h2, -⟩ := external_partial emptyLoad crm rcWorld rc_bounded
    (static_stored emptyLoad crm rcWorld rc_bounded (by
      rw [hs]
      intro l hl
      have h : l = 0 ∨ l = 1 := by simp [emptyLoad] at hl; omega
      rcases h with rfl | rfl <;> cases crm <;> simp))
  exact ⟨ext, h1, h2⟩

end
end Verif.SmallSignal
