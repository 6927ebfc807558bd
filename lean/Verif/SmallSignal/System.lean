import Verif.SmallSignal.Spec

/-! # The complex system that is solved -/

namespace Verif.SmallSignal
open Verif.Assembly

noncomputable section

section
variable {K : Type} [CommRing K]

theorem loadCustom_eq (p : Nat → PermEntry) (N : Nat) (scl : K) (d : Pieces K) (hd : InRange N d)
    (s : List (MEntry K) × (Nat → K)) :
    (∀ r, (loadCustom p scl d s).2 r = s.2 r - scl * deviceRow p N (rowSum d.1.2) (rowSum d.2.2) r) ∧
    (∀ x r, matVec (loadCustom p scl d s).1 x r =
      matVec s.1 x r + scl * deviceRow p N (matVec d.1.1 x) (matVec d.2.1 x) r) := by
  constructor
  · intro r
    simp only [loadCustom, loadRHSPerm_eq, loadRHS_eq, deviceRow, sum_permCoef_rowSum p N _ hd.2, Nat.add_zero,
      List.map_id']
    ring
  · intro x r
    simp only [loadCustom, matVec_append, matVec_loadMatrix, matVec_loadMatrixPerm, deviceRow,
      sum_permCoef_matVec p N _ hd.1, Nat.add_zero, List.map_id']
    ring

/-- **C25 with custom equations**: row by row, what is loaded is the assembled residual (with the opposite sign) and the assembled
matrix, both times the scale. -/
theorem loadAll_rows (p : Nat → PermEntry) (N : Nat) (scl : K) (devs : List (Pieces K))
    (hN : ∀ d ∈ devs, InRange N d) (circuit : List (MEntry K) × List (VEntry K)) (offset : Nat) (custom : Pieces K)
    (hc : InRange N custom) (s : List (MEntry K) × (Nat → K)) :
    (∀ r, (loadAll p scl devs circuit offset custom s).2 r =
      s.2 r - scl * systemRes p N devs circuit.2 offset custom r) ∧
    (∀ x r, matVec (loadAll p scl devs circuit offset custom s).1 x r =
      matVec s.1 x r + scl * systemRow p N devs circuit.1 offset custom x r) := by
  obtain ⟨a1, a2⟩ := loadSystem_rows p N scl devs hN circuit offset s
  obtain ⟨b1, b2⟩ := loadCustom_eq p N scl custom hc (loadSystem p scl devs circuit offset s)
  constructor
  · intro r; rw [loadAll, b1, a1, systemRes]; ring
  · intro x r; rw [loadAll, b2, a2, systemRow]; ring

theorem matVec_eq_sum (N : Nat) (m : List (MEntry K)) (hm : EntriesIn N m) (x : Nat → K) (r : Nat) :
    ∑ c ∈ Finset.range N, cell m r c * x c = matVec m x r := by
  induction m with
  | nil => simp [cell]
  | cons e es ih =>
    have ih' := ih fun a ha => hm a (by simp [ha])
    have he := hm e (by simp)
    have : ∀ c, cell (e :: es) r c = (if e.1 = r ∧ e.2.1 = c then e.2.2 else 0) + cell es r c := by
      intro c; simp [cell]
    simp only [this, add_mul, Finset.sum_add_distrib, ih', matVec_cons]
    congr 1
    by_cases h : e.1 = r
    · simp [h, ite_mul, Finset.sum_ite_eq, he.2]
    · simp [h]

theorem EntriesIn.append {N : Nat} {a b : List (MEntry K)} (ha : EntriesIn N a) (hb : EntriesIn N b) :
    EntriesIn N (a ++ b) := by
  intro e he
  rcases List.mem_append.1 he with h | h
  · exact ha e h
  · exact hb e h

theorem loadMatrix_in {N : Nat} {m : List (MEntry K)} {scl : K} {offset : Nat}
    (h : EntriesIn N (shiftM offset m)) : EntriesIn N (loadMatrix m scl offset) := by
  intro e he
  obtain ⟨x, hx, rfl⟩ := List.mem_map.1 he
  exact h (x.1 + offset, x.2.1 + offset, x.2.2) (List.mem_map.2 ⟨x, hx, rfl⟩)

theorem loadMatrix_in0 {N : Nat} {m : List (MEntry K)} {scl : K} (h : EntriesIn N m) :
    EntriesIn N (loadMatrix m scl 0) := by
  intro e he
  obtain ⟨x, hx, rfl⟩ := List.mem_map.1 he
  exact h x hx

theorem loadMatrixPerm_in {N : Nat} {p : Nat → PermEntry} (hp : ∀ i < N, ∀ r, (p i).row = some r → r < N)
    {m : List (MEntry K)} {scl : K} (h : EntriesIn N m) : EntriesIn N (loadMatrixPerm p m scl) := by
  intro e he
  obtain ⟨x, hx, hex⟩ := List.mem_flatMap.1 he
  have hb := h x hx
  cases hr : (p x.1).row with
  | none => simp [hr] at hex
  | some row =>
    simp only [hr, List.mem_cons] at hex
    rcases hex with rfl | hex
    · exact ⟨hp _ hb.1 _ hr, hb.2⟩
    · split at hex
      · simp only [List.mem_singleton] at hex; subst hex; exact hb
      · simp at hex

theorem loadDevices_in {N : Nat} {p : Nat → PermEntry} (hp : ∀ i < N, ∀ r, (p i).row = some r → r < N) {scl : K}
    {devs : List (Pieces K)} (h : ∀ d ∈ devs, EntriesIn N d.1.1 ∧ EntriesIn N d.2.1) {s : List (MEntry K) × (Nat → K)}
    (hs : EntriesIn N s.1) : EntriesIn N (loadDevices p scl devs s).1 := by
  induction devs generalizing s with
  | nil => exact hs
  | cons d ds ih =>
    obtain ⟨mat, rhs⟩ := s
    rw [loadDevices]
    refine ih (fun x hx => h x (by simp [hx])) ?_
    have := h d (by simp)
    exact (hs.append (loadMatrix_in0 this.1)).append (loadMatrixPerm_in hp this.2)

theorem loadAll_in {N : Nat} {p : Nat → PermEntry} (hp : ∀ i < N, ∀ r, (p i).row = some r → r < N) {scl : K}
    {devs : List (Pieces K)} (h : ∀ d ∈ devs, EntriesIn N d.1.1 ∧ EntriesIn N d.2.1)
    {circuit : List (MEntry K) × List (VEntry K)} {offset : Nat} (hc : EntriesIn N (shiftM offset circuit.1))
    {custom : Pieces K} (hcu : EntriesIn N custom.1.1 ∧ EntriesIn N custom.2.1) :
    EntriesIn N (loadAll p scl devs circuit offset custom ([], fun _ => 0)).1 := by
  have h1 : EntriesIn N (loadDevices p scl devs ([], fun _ => 0)).1 :=
    loadDevices_in hp h (fun e he => absurd he (by simp))
  have h2 : EntriesIn N (loadSystem p scl devs circuit offset ([], fun _ => 0)).1 := h1.append (loadMatrix_in hc)
  exact (h2.append (loadMatrixPerm_in hp hcu.2)).append (loadMatrix_in0 hcu.1)

end

theorem liftM_in {N : Nat} {m : List (MEntry ℝ)} (h : EntriesIn N m) : EntriesIn N (liftM m) := by
  intro e he
  obtain ⟨x, hx, rfl⟩ := List.mem_map.1 he
  exact h x hx

theorem shiftM_liftM (o : Nat) (m : List (MEntry ℝ)) : shiftM o (liftM m) = liftM (shiftM o m) := by
  simp [shiftM, liftM, List.map_map, Function.comp_def]

theorem PiecesIn.inRange {N : Nat} {d : Pieces ℝ} (h : PiecesIn N d) : InRange N d :=
  ⟨fun e he => (h.2.1 e he).1, h.2.2.2⟩
theorem PiecesIn.lift {N : Nat} {d : Pieces ℝ} (h : PiecesIn N d) :
    InRange N (liftP d) ∧ EntriesIn N (liftP d).1.1 ∧ EntriesIn N (liftP d).2.1 := by
  refine ⟨⟨fun e he => ?_, fun e he => ?_⟩, liftM_in h.1, liftM_in h.2.1⟩
  · exact (liftM_in h.2.1 e he).1
  · obtain ⟨x, hx, rfl⟩ := List.mem_map.1 he
    exact h.2.2.2 x hx

theorem realEntries_in {ld : Load} {w : World} (h : Bounded ld w) : EntriesIn ld.N (realEntries ld w) :=
  loadAll_in h.perm (fun d hd => ⟨(h.static d hd).1, (h.static d hd).2.1⟩) h.circS ⟨h.customS.1, h.customS.2.1⟩

theorem cpxEntries_in {ld : Load} {w : World} (f : ℝ) (h : Bounded ld w) : EntriesIn ld.N (cpxEntries ld f w) := by
  refine loadAll_in h.perm ?_ ?_ h.customD.lift.2
  · intro d hd
    obtain ⟨x, hx, rfl⟩ := List.mem_map.1 hd
    exact (h.dynamic x hx).lift.2
  · rw [shiftM_liftM]; exact liftM_in h.circD

/-! ### cells of the assembled complex matrix -/

theorem value_adds (im : Bool) (r c : Nat) (m : List (MEntry ℝ)) (a : ℝ) (os : List (Matrix.Op ℝ)) :
    Matrix.Spec.value im r c a ((m.map fun e => Matrix.Op.add false e.1 e.2.1 e.2.2) ++ os) =
      Matrix.Spec.value im r c (a + if im then 0 else cell m r c) os := by
  induction m generalizing a with
  | nil => simp [cell]
  | cons e es ih =>
    simp only [List.map_cons, List.cons_append, Matrix.Spec.value]
    rw [ih]
    congr 1
    simp only [cell, List.map_cons, List.sum_cons]
    cases im with
    | true => simp
    | false =>
      by_cases h : e.1 = r ∧ e.2.1 = c
      · simp only [h, and_self, if_true, Bool.false_eq_true, if_false]; ring
      · simp [h]

theorem value_cadds (im : Bool) (r c : Nat) (m : List (MEntry ℂ)) (a : ℝ) :
    Matrix.Spec.value im r c a (m.map fun e => Matrix.Op.addComplex e.1 e.2.1 e.2.2.re e.2.2.im) =
      a + if im then (cell m r c).im else (cell m r c).re := by
  induction m generalizing a with
  | nil => simp [cell, Matrix.Spec.value]
  | cons e es ih =>
    simp only [List.map_cons, Matrix.Spec.value]
    rw [ih]
    have : cell (e :: es) r c = (if e.1 = r ∧ e.2.1 = c then e.2.2 else 0) + cell es r c := by simp [cell]
    rw [this]
    by_cases h : e.1 = r ∧ e.2.1 = c
    · cases im <;> simp [h] <;> ring
    · cases im <;> simp [h]

theorem cell_liftM (m : List (MEntry ℝ)) (r c : Nat) : cell (liftM m) r c = ((cell m r c : ℝ) : ℂ) := by
  induction m with
  | nil => simp [cell, liftM]
  | cons e es ih =>
    have h1 : cell (e :: es) r c = (if e.1 = r ∧ e.2.1 = c then e.2.2 else 0) + cell es r c := by simp [cell]
    have h2 : cell (liftM (e :: es)) r c = (if e.1 = r ∧ e.2.1 = c then (e.2.2 : ℂ) else 0) + cell (liftM es) r c := by
      simp [cell, liftM]
    rw [h1, h2, ih]
    push_cast
    split_ifs <;> simp

/-- the cell of the matrix of the analysis -/
def acCell (ld : Load) (f : ℝ) (w : World) (r c : Nat) : ℂ :=
  cell (liftM (realEntries ld w)) r c + cell (cpxEntries ld f w) r c

theorem acOps_value (ld : Load) (f : ℝ) (w : World) (r c : Nat) :
    Complex.mk (Matrix.Spec.value false r c 0 (acOps ld f w)) (Matrix.Spec.value true r c 0 (acOps ld f w)) =
      acCell ld f w r c := by
  unfold acOps acCell
  rw [value_adds, value_adds, value_cadds, value_cadds, cell_liftM]
  apply Complex.ext <;> simp

theorem acOps_in {ld : Load} {w : World} (f : ℝ) (h : Bounded ld w) :
    (∀ o ∈ acOps ld f w, Matrix.Spec.InRange ld.N true o) ∧ ∀ o ∈ acOps ld f w, ¬ Matrix.Spec.IsClear o := by
  constructor
  · intro o ho
    rcases List.mem_append.1 ho with h1 | h1
    · obtain ⟨e, he, rfl⟩ := List.mem_map.1 h1
      have := realEntries_in h e he
      exact ⟨this.1, this.2, fun _ => rfl⟩
    · obtain ⟨e, he, rfl⟩ := List.mem_map.1 h1
      have := cpxEntries_in f h e he
      exact ⟨this.1, this.2, rfl⟩
  · intro o ho
    rcases List.mem_append.1 ho with h1 | h1 <;> obtain ⟨e, he, rfl⟩ := List.mem_map.1 h1 <;> simp [Matrix.Spec.IsClear]

/-- The compressed arrays handed to the solver represent the matrix with cells `acCell`; nothing outside of the arrays is accessed. -/
theorem ac_matrix (ld : Load) (f : ℝ) (w : World) (h : Bounded ld w) (crm : Bool) :
    ∃ m, Matrix.run (Matrix.new ld.N true crm) (acOps ld f w ++ [.finalize]) = some m ∧
      Matrix.Spec.Represents ld.N m.ap m.ai (Matrix.getComplex Complex.mk m) (Matrix.byLine crm (acCell ld f w)) := by
  obtain ⟨h1, h2⟩ := acOps_in f h
  obtain ⟨m, e, -, hr⟩ := Matrix.assembled_sum ld.N true crm (acOps ld f w) h1 h2
  refine ⟨m, e, ?_⟩
  have := Matrix.represents_complex Complex.mk (by rfl) (hr false (by simp)) (hr true (by simp))
  have e2 : (fun l k => Complex.mk (Matrix.byLine crm (fun r c => Matrix.Spec.value false r c 0 (acOps ld f w)) l k)
      (Matrix.byLine crm (fun r c => Matrix.Spec.value true r c 0 (acOps ld f w)) l k)) =
      Matrix.byLine crm (acCell ld f w) := by
    funext l k
    unfold Matrix.byLine
    split_ifs <;> rw [acOps_value]
  rw [e2] at this
  exact this

theorem realEntries_row {ld : Load} {w : World} (h : Bounded ld w) (X : Nat → ℂ) (r : Nat) :
    matVec (liftM (realEntries ld w)) X r = staticRow ld w X r := by
  have key : liftM (realEntries ld w) = (loadAll ld.perm 1 (ld.static.map liftP)
      (liftM (circStatic w).1, liftV (circStatic w).2) (circBase w) (liftP ld.customStatic) ([], fun _ => 0)).1 := by
    have hm : ∀ (m : List (MEntry ℝ)) (o : Nat), liftM (loadMatrix m 1 o) = loadMatrix (liftM m) 1 o := by
      intro m o; simp [liftM, loadMatrix, List.map_map, Function.comp_def]
    have hmp : ∀ (m : List (MEntry ℝ)), liftM (loadMatrixPerm ld.perm m 1) = loadMatrixPerm ld.perm (liftM m) 1 := by
      intro m
      simp only [liftM, loadMatrixPerm, List.map_flatMap, List.flatMap_map]
      congr 1
      funext e
      cases (ld.perm e.1).row with
      | none => rfl
      | some row => dsimp only; split_ifs <;> simp
    have happ : ∀ a b : List (MEntry ℝ), liftM (a ++ b) = liftM a ++ liftM b := by intro a b; simp [liftM]
    have hd : ∀ (ds : List (Pieces ℝ)) (s : List (MEntry ℝ) × (Nat → ℝ)) (t : List (MEntry ℂ) × (Nat → ℂ)),
        liftM s.1 = t.1 → liftM (loadDevices ld.perm 1 ds s).1 = (loadDevices ld.perm 1 (ds.map liftP) t).1 := by
      intro ds
      induction ds with
      | nil => intro s t hst; exact hst
      | cons d ds ih =>
        rintro ⟨m, v⟩ ⟨m', v'⟩ hst
        simp only [List.map_cons, loadDevices]
        apply ih
        dsimp only at hst ⊢
        rw [happ, happ, hm, hmp, hst]
        rfl
    simp only [realEntries, loadAll, loadCustom, loadSystem]
    rw [happ, happ, happ, hm, hm, hmp, hd _ _ ([], fun _ => 0) rfl]
    rfl
  rw [key, (loadAll_rows ld.perm ld.N 1 _ _ _ _ _ h.customS.lift.1 _).2, staticRow]
  · simp
  · intro d hd
    obtain ⟨x, hx, rfl⟩ := List.mem_map.1 hd
    exact (h.static x hx).lift.1

theorem cpxEntries_row {ld : Load} {w : World} (f : ℝ) (h : Bounded ld w) (X : Nat → ℂ) (r : Nat) :
    matVec (cpxEntries ld f w) X r = jOmega f * dynamicRow ld w X r := by
  rw [cpxEntries, (loadAll_rows ld.perm ld.N (jOmega f) _ _ _ _ _ h.customD.lift.1 _).2, dynamicRow]
  · simp
  · intro d hd
    obtain ⟨x, hx, rfl⟩ := List.mem_map.1 hd
    exact (h.dynamic x hx).lift.1

/-- The matrix of the analysis applied to amplitudes: `J X + jω C X`. -/
theorem acCell_row {ld : Load} {w : World} (f : ℝ) (h : Bounded ld w) (X : Nat → ℂ) (r : Nat) :
    ∑ c ∈ Finset.range ld.N, acCell ld f w r c * X c =
      staticRow ld w X r + 2 * Real.pi * f * Complex.I * dynamicRow ld w X r := by
  simp only [acCell, add_mul, Finset.sum_add_distrib]
  rw [matVec_eq_sum _ _ (liftM_in (realEntries_in h)), matVec_eq_sum _ _ (cpxEntries_in f h), realEntries_row h,
    cpxEntries_row f h, jOmega]
  ring

end
end Verif.SmallSignal
