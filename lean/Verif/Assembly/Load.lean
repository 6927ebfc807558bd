import Verif.Assembly.Interface

/-!
# Loading the assembled lists into the linear system (`src/math/Newton.cc` 130-148, 224-369)

Bulk entries go through the row permutation, contact, interface and circuit entries do not.  The theorems say
that matrix and right hand side go through the same row operator, so that the matrix that is handed to the
linear solver is the Jacobian of minus the right hand side.
-/

namespace Verif.Assembly

/-- `PermutationEntry`, `src/math/…` (`row = size_t(-1)` = `none`). -/
structure PermEntry where
  row : Option Nat
  keep : Bool
deriving DecidableEq, Repr

/-- `permvec[i] = PermutationEntry(i, false)`, `Newton.cc` 537-541, 647-651. -/
def identityPerm : Nat → PermEntry := fun i => ⟨some i, false⟩

/-- `permvec.at(row) = entry` for the entries of the map, `Newton.cc` 137-142. Simplification: the vector is a
function; rows are in range (C19). -/
def setPerms (p : Nat → PermEntry) : List (Nat × PermEntry) → (Nat → PermEntry)
  | [] => p
  | e :: es => setPerms (fun i => if i = e.1 then e.2 else p i) es

section
variable {K : Type} [CommRing K]

/-- `LoadIntoMatrix`, `Newton.cc` 224-237: the entries handed to `AddEntry`. -/
def loadMatrix (rcv : List (MEntry K)) (scl : K) (offset : Nat) : List (MEntry K) :=
  rcv.map fun e => (e.1 + offset, e.2.1 + offset, scl * e.2.2)

/-- `LoadIntoMatrixPermutated`, `Newton.cc` 239-266 (always called with offset 0). -/
def loadMatrixPerm (p : Nat → PermEntry) (rcv : List (MEntry K)) (scl : K) : List (MEntry K) :=
  rcv.flatMap fun e =>
    match (p e.1).row with
    | none => []
    | some row => (row, e.2.1, scl * e.2.2) :: if (p e.1).keep then [(e.1, e.2.1, scl * e.2.2)] else []

/-- `rhs[row] += val`. -/
def addAt (rhs : Nat → K) (row : Nat) (x : K) : Nat → K := fun i => if i = row then rhs i + x else rhs i

/-- `LoadIntoRHS`, `Newton.cc` 268-279; `rhssign` is `-1.0` (`Newton.hh` 177). -/
def loadRHS (rhs : Nat → K) (scl : K) (offset : Nat) : List (VEntry K) → (Nat → K)
  | [] => rhs
  | e :: es => loadRHS (addAt rhs (e.1 + offset) (scl * (-1) * e.2)) scl offset es

/-- `LoadIntoRHSPermutated`, `Newton.cc` 281-304. -/
def loadRHSPerm (p : Nat → PermEntry) (rhs : Nat → K) (scl : K) : List (VEntry K) → (Nat → K)
  | [] => rhs
  | e :: es =>
    match (p e.1).row with
    | none => loadRHSPerm p rhs scl es
    | some row =>
      let rhs1 := addAt rhs row (scl * (-1) * e.2)
      loadRHSPerm p (if (p e.1).keep then addAt rhs1 e.1 (scl * (-1) * e.2) else rhs1) scl es

/-- What is assembled for one device: contacts and interfaces, and the bulk. -/
abbrev Pieces (K : Type) := (List (MEntry K) × List (VEntry K)) × (List (MEntry K) × List (VEntry K))

/-- The loop of `LoadMatrixAndRHS` over the devices, `Newton.cc` 318-344. -/
def loadDevices (p : Nat → PermEntry) (scl : K) :
    List (Pieces K) → List (MEntry K) × (Nat → K) → List (MEntry K) × (Nat → K)
  | [], s => s
  | d :: ds, (mat, rhs) =>
    loadDevices p scl ds
      ((mat ++ loadMatrix d.1.1 scl 0) ++ loadMatrixPerm p d.2.1 scl,
        loadRHSPerm p (loadRHS rhs scl 0 d.1.2) scl d.2.2)

/-- `LoadMatrixAndRHS` with `w ≠ PERMUTATIONSONLY`, `Newton.cc` 308-369: devices, then the circuit (offset by its
first equation number). The custom (Tcl) equations are not modelled. -/
def loadSystem (p : Nat → PermEntry) (scl : K) (devs : List (Pieces K))
    (circuit : List (MEntry K) × List (VEntry K)) (offset : Nat) (s : List (MEntry K) × (Nat → K)) :
    List (MEntry K) × (Nat → K) :=
  let r := loadDevices p scl devs s
  (r.1 ++ loadMatrix circuit.1 scl offset, loadRHS r.2 scl offset circuit.2)

/-! ## Specification -/

/-- The row operator: row `o` of the bulk goes to `p o` (nowhere if `none`), and stays in place as well if the
entry keeps a copy. -/
def permCoef (p : Nat → PermEntry) (r o : Nat) : K :=
  match (p o).row with
  | none => 0
  | some row => (if row = r then 1 else 0) + (if (p o).keep ∧ o = r then 1 else 0)

/-- Row `r` of what the operator makes of the vector `F` with `N` rows. -/
def permRow (p : Nat → PermEntry) (N : Nat) (F : Nat → K) (r : Nat) : K :=
  ((List.range N).map fun o => permCoef p r o * F o).sum

theorem loadRHS_eq (v : List (VEntry K)) (rhs : Nat → K) (scl : K) (offset r : Nat) :
    loadRHS rhs scl offset v r = rhs r - scl * rowSum (v.map fun e => (e.1 + offset, e.2)) r := by
  induction v generalizing rhs with
  | nil => simp [loadRHS]
  | cons e es ih =>
    simp only [loadRHS, ih, List.map_cons, rowSum_cons, addAt]
    by_cases h : e.1 + offset = r
    · simp only [h, if_true]; ring
    · have h' : ¬ r = e.1 + offset := fun h' => h h'.symm
      simp [h, h']

/-- Sum over the entries of the coefficient of their row. -/
theorem sum_permCoef_rowSum (p : Nat → PermEntry) (N : Nat) (v : List (VEntry K)) (hv : ∀ e ∈ v, e.1 < N)
    (r : Nat) : permRow p N (rowSum v) r = (v.map fun e => permCoef p r e.1 * e.2).sum := by
  unfold permRow
  induction v with
  | nil => simp
  | cons e es ih =>
    have ih' := ih fun x hx => hv x (by simp [hx])
    simp only [rowSum_cons, mul_add, List.sum_map_add, ih', List.map_cons, List.sum_cons]
    congr 1
    have : (fun o => permCoef p r o * if e.1 = o then e.2 else 0) =
        fun o => if e.1 = o then permCoef p r e.1 * e.2 else 0 := by
      funext o
      by_cases h : e.1 = o
      · subst h; simp
      · simp [h]
    rw [this, sum_ite_mem _ _ _ List.nodup_range, if_pos (List.mem_range.2 (hv e (by simp)))]

theorem loadRHSPerm_eq (p : Nat → PermEntry) (v : List (VEntry K)) (rhs : Nat → K) (scl : K) (r : Nat) :
    loadRHSPerm p rhs scl v r = rhs r - scl * (v.map fun e => permCoef p r e.1 * e.2).sum := by
  induction v generalizing rhs with
  | nil => simp [loadRHSPerm]
  | cons e es ih =>
    simp only [loadRHSPerm, List.map_cons, List.sum_cons]
    cases hp : (p e.1).row with
    | none => simp only [ih, permCoef, hp]; ring
    | some row =>
      simp only [ih, permCoef, hp]
      by_cases hk : (p e.1).keep = true
      · simp only [hk, if_true, true_and, addAt]
        by_cases h1 : row = r <;> by_cases h2 : e.1 = r
        · simp only [h1, h2, if_true]; ring
        · have : ¬ r = e.1 := fun h => h2 h.symm
          simp only [h1, h2, this, if_true, if_false]; ring
        · have : ¬ r = row := fun h => h1 h.symm
          simp only [h1, h2, this, if_true, if_false]; ring
        · have h3 : ¬ r = row := fun h => h1 h.symm
          have h4 : ¬ r = e.1 := fun h => h2 h.symm
          simp only [h1, h2, h3, h4, if_false]; ring
      · have hk' : (p e.1).keep = false := by simpa using hk
        simp only [hk', addAt]
        by_cases h1 : row = r
        · simp [h1, addAt]; ring
        · have : ¬ r = row := fun h => h1 h.symm
          simp [h1, this, addAt]

theorem matVec_loadMatrix (m : List (MEntry K)) (scl : K) (offset : Nat) (d : Nat → K) (r : Nat) :
    matVec (loadMatrix m scl offset) d r =
      scl * matVec (m.map fun e => (e.1 + offset, e.2.1 + offset, e.2.2)) d r := by
  induction m with
  | nil => simp [loadMatrix]
  | cons e es ih =>
    simp only [loadMatrix, List.map_cons, matVec_cons] at ih ⊢
    rw [ih]
    split <;> ring

theorem matVec_loadMatrixPerm (p : Nat → PermEntry) (m : List (MEntry K)) (scl : K) (d : Nat → K) (r : Nat) :
    matVec (loadMatrixPerm p m scl) d r =
      scl * (m.map fun e => permCoef p r e.1 * (e.2.2 * d e.2.1)).sum := by
  rw [loadMatrixPerm, matVec_flatMap, ← list_sum_mul_left]
  congr 1
  refine List.map_congr_left fun e _ => ?_
  cases hp : (p e.1).row with
  | none => simp [permCoef, hp]
  | some row =>
    by_cases hk : (p e.1).keep = true
    · simp only [permCoef, hp, hk, if_true, matVec_cons, matVec_nil, true_and]
      split <;> split <;> ring
    · have hk' : (p e.1).keep = false := by simpa using hk
      simp only [permCoef, hp, hk', matVec_cons, matVec_nil]
      split <;> simp <;> ring

theorem sum_permCoef_matVec (p : Nat → PermEntry) (N : Nat) (m : List (MEntry K)) (hm : ∀ e ∈ m, e.1 < N)
    (d : Nat → K) (r : Nat) :
    permRow p N (matVec m d) r = (m.map fun e => permCoef p r e.1 * (e.2.2 * d e.2.1)).sum := by
  have h := sum_permCoef_rowSum p N (m.map fun e => (e.1, e.2.2 * d e.2.1)) (by
    intro e he
    obtain ⟨x, hx, rfl⟩ := List.mem_map.1 he
    exact hm x hx) r
  rw [List.map_map] at h
  rw [← List.map_map, ] at h
  have e1 : (fun o => matVec m d o) = rowSum (m.map fun e => (e.1, e.2.2 * d e.2.1)) := by
    funext o; simp only [matVec, rowSum, List.map_map]; rfl
  have e2 : permRow p N (matVec m d) r = permRow p N (rowSum (m.map fun e => (e.1, e.2.2 * d e.2.1))) r := by
    rw [← e1]
  rw [e2, h, List.map_map]
  rfl

/-- Row `r` of the device equations after permutation: contacts and interfaces directly, bulk through the row
operator. -/
def deviceRow (p : Nat → PermEntry) (N : Nat) (direct bulk : Nat → K) (r : Nat) : K :=
  direct r + permRow p N bulk r

/-- The bulk rows are equations of the system. -/
def InRange (N : Nat) (d : Pieces K) : Prop := (∀ e ∈ d.2.1, e.1 < N) ∧ (∀ e ∈ d.2.2, e.1 < N)

theorem loadDevices_eq (p : Nat → PermEntry) (N : Nat) (scl : K) (devs : List (Pieces K))
    (hN : ∀ d ∈ devs, InRange N d) (s : List (MEntry K) × (Nat → K)) :
    (∀ r, (loadDevices p scl devs s).2 r = s.2 r - scl * (devs.map fun d =>
      deviceRow p N (rowSum d.1.2) (rowSum d.2.2) r).sum) ∧
    (∀ x r, matVec (loadDevices p scl devs s).1 x r = matVec s.1 x r + scl * (devs.map fun d =>
      deviceRow p N (matVec d.1.1 x) (matVec d.2.1 x) r).sum) := by
  induction devs generalizing s with
  | nil => simp [loadDevices]
  | cons d ds ih =>
    obtain ⟨mat, rhs⟩ := s
    obtain ⟨h1, h2⟩ := hN d (by simp)
    obtain ⟨i1, i2⟩ := ih (fun x hx => hN x (by simp [hx]))
      ((mat ++ loadMatrix d.1.1 scl 0) ++ loadMatrixPerm p d.2.1 scl,
        loadRHSPerm p (loadRHS rhs scl 0 d.1.2) scl d.2.2)
    constructor
    · intro r
      rw [loadDevices, i1]
      simp only [loadRHSPerm_eq, loadRHS_eq, List.map_cons, List.sum_cons, deviceRow,
        sum_permCoef_rowSum p N _ h2, Nat.add_zero, List.map_id']
      ring
    · intro x r
      rw [loadDevices, i2]
      simp only [matVec_append, matVec_loadMatrix, matVec_loadMatrixPerm, List.map_cons, List.sum_cons,
        deviceRow, sum_permCoef_matVec p N _ h1, Nat.add_zero, List.map_id']
      ring

/-- Circuit rows are shifted by the first equation number of the circuit. -/
def shiftV (offset : Nat) (v : List (VEntry K)) : List (VEntry K) := v.map fun e => (e.1 + offset, e.2)
/-- Circuit rows and columns are shifted. -/
def shiftM (offset : Nat) (m : List (MEntry K)) : List (MEntry K) :=
  m.map fun e => (e.1 + offset, e.2.1 + offset, e.2.2)

/-- **C25** The linear system handed to the solver: both the right hand side and the matrix (here applied to an
arbitrary vector `x`) are what the devices and the circuit assembled, with the bulk rows moved by one and the
same row operator; the right hand side has the opposite sign. -/
theorem loadSystem_rows (p : Nat → PermEntry) (N : Nat) (scl : K) (devs : List (Pieces K))
    (hN : ∀ d ∈ devs, InRange N d) (circuit : List (MEntry K) × List (VEntry K)) (offset : Nat)
    (s : List (MEntry K) × (Nat → K)) :
    (∀ r, (loadSystem p scl devs circuit offset s).2 r = s.2 r - scl * ((devs.map fun d =>
      deviceRow p N (rowSum d.1.2) (rowSum d.2.2) r).sum + rowSum (shiftV offset circuit.2) r)) ∧
    (∀ x r, matVec (loadSystem p scl devs circuit offset s).1 x r = matVec s.1 x r + scl * ((devs.map fun d =>
      deviceRow p N (matVec d.1.1 x) (matVec d.2.1 x) r).sum + matVec (shiftM offset circuit.1) x r)) := by
  obtain ⟨h1, h2⟩ := loadDevices_eq p N scl devs hN s
  constructor
  · intro r
    simp only [loadSystem, loadRHS_eq, h1, shiftV]
    ring
  · intro x r
    simp only [loadSystem, matVec_append, matVec_loadMatrix, h2, shiftM]
    ring

/-- **C25, the cells of the matrix.** -/
theorem loadSystem_cells (p : Nat → PermEntry) (N : Nat) (scl : K) (devs : List (Pieces K))
    (hN : ∀ d ∈ devs, InRange N d) (circuit : List (MEntry K) × List (VEntry K)) (offset : Nat)
    (s : List (MEntry K) × (Nat → K)) (r c : Nat) :
    cell (loadSystem p scl devs circuit offset s).1 r c = cell s.1 r c + scl * ((devs.map fun d =>
      deviceRow p N (fun o => cell d.1.1 o c) (fun o => cell d.2.1 o c) r).sum +
        cell (shiftM offset circuit.1) r c) := by
  simp only [cell_eq_matVec]
  rw [(loadSystem_rows p N scl devs hN circuit offset s).2]

/-! ### What the operator does on rows of contacts and interfaces -/

theorem permRow_single (p : Nat → PermEntry) (N : Nat) (F : Nat → K) (r : Nat)
    (S : List Nat) (hS : S.Nodup) (hin : ∀ o ∈ S, o < N)
    (hcoef : ∀ o, o < N → permCoef p r o = if o ∈ S then (1 : K) else 0) :
    permRow p N F r = (S.map F).sum := by
  have hp : (List.range N).Perm (S ++ (List.range N).filter fun n => ¬ n ∈ S) := by
    apply (List.perm_ext_iff_of_nodup List.nodup_range _).2
    · intro a
      simp only [List.mem_range, List.mem_append, List.mem_filter, decide_eq_true_eq]
      constructor
      · intro ha
        by_cases hm : a ∈ S
        · exact Or.inl hm
        · exact Or.inr ⟨ha, hm⟩
      · rintro (ha | ha)
        · exact hin a ha
        · exact ha.1
    · refine List.nodup_append.2 ⟨hS, List.Nodup.filter _ List.nodup_range, ?_⟩
      intro a ha b hb
      rw [List.mem_filter] at hb
      rintro rfl
      simp only [decide_eq_true_eq] at hb
      exact hb.2 ha
  unfold permRow
  rw [(hp.map _).sum_eq, List.map_append, List.sum_append]
  have h1 : (S.map fun o => permCoef p r o * F o) = S.map F :=
    List.map_congr_left fun o ho => by rw [hcoef o (hin o ho), if_pos ho, one_mul]
  have h2 : (((List.range N).filter fun n => ¬ n ∈ S).map fun o => permCoef p r o * F o).sum = 0 := by
    apply List.sum_eq_zero
    intro x hx
    obtain ⟨o, ho, rfl⟩ := List.mem_map.1 hx
    rw [List.mem_filter] at ho
    rw [hcoef o (List.mem_range.1 ho.1), if_neg (by simpa using ho.2), zero_mul]
  rw [h1, h2, add_zero]

/-- **C25, contact rows**: at a row which a contact removes (and into which no interface moves another row) only
the contact equation remains. -/
theorem contact_row (p : Nat → PermEntry) (N : Nat) (direct bulk : Nat → K) (r : Nat)
    (hr : (p r).row = none) (hother : ∀ o, (p o).row ≠ some r) :
    deviceRow p N direct bulk r = direct r := by
  rw [deviceRow, permRow_single p N bulk r [] List.nodup_nil (by simp), List.map_nil, List.sum_nil, add_zero]
  intro o _
  simp only [permCoef]
  cases ho : (p o).row with
  | none => simp
  | some row =>
    have h1 : row ≠ r := fun h => hother o (by rw [ho, h])
    have h2 : ¬ o = r := by
      rintro rfl; rw [ho] at hr; cases hr
    simp [h1, h2]

/-- **C25, continuous interfaces**: the rows of a pair of nodes joined by a continuous interface become the sum of
the two bulk equations (nothing is lost) and the interface equation. -/
theorem continuous_rows (p : Nat → PermEntry) (N : Nat) (direct bulk : Nat → K) (r0 r1 : Nat) (hne : r0 ≠ r1)
    (h0N : r0 < N) (h1N : r1 < N) (h0 : p r0 = ⟨some r0, false⟩) (h1 : p r1 = ⟨some r0, false⟩)
    (hother : ∀ o, o ≠ r0 → o ≠ r1 → (p o).row ≠ some r0) (hother1 : ∀ o, (p o).row ≠ some r1) :
    deviceRow p N direct bulk r0 = direct r0 + (bulk r0 + bulk r1) ∧
    deviceRow p N direct bulk r1 = direct r1 := by
  constructor
  · rw [deviceRow, permRow_single p N bulk r0 [r0, r1] (by simp [hne]) (by simp [h0N, h1N])]
    · simp
    · intro o _
      simp only [permCoef, List.mem_cons, List.not_mem_nil, or_false]
      by_cases e0 : o = r0
      · subst e0; simp [h0]
      · by_cases e1 : o = r1
        · subst e1; simp [h1]
        · cases ho : (p o).row with
          | none => simp [e0, e1]
          | some row =>
            have : row ≠ r0 := fun h => hother o e0 e1 (by rw [ho, h])
            simp [this, e0, e1]
  · rw [deviceRow, permRow_single p N bulk r1 [] List.nodup_nil (by simp)]
    · simp
    · intro o _
      simp only [permCoef]
      cases ho : (p o).row with
      | none => simp
      | some row =>
        have h2 : row ≠ r1 := fun h => hother1 o (by rw [ho, h])
        by_cases e1 : o = r1
        · subst e1
          rw [h1] at ho ⊢
          simp [h2]
        · simp [h2, e1]

/-- **C25, hybrid interfaces**: the bulk row of region 1 stays in place and is also added to the row of
region 0. -/
theorem hybrid_rows (p : Nat → PermEntry) (N : Nat) (direct bulk : Nat → K) (r0 r1 : Nat) (hne : r0 ≠ r1)
    (h0N : r0 < N) (h1N : r1 < N) (h0 : p r0 = ⟨some r0, false⟩) (h1 : p r1 = ⟨some r0, true⟩)
    (hother : ∀ o, o ≠ r0 → o ≠ r1 → (p o).row ≠ some r0) (hother1 : ∀ o, (p o).row ≠ some r1) :
    deviceRow p N direct bulk r0 = direct r0 + (bulk r0 + bulk r1) ∧
    deviceRow p N direct bulk r1 = direct r1 + bulk r1 := by
  constructor
  · rw [deviceRow, permRow_single p N bulk r0 [r0, r1] (by simp [hne]) (by simp [h0N, h1N])]
    · simp
    · intro o _
      simp only [permCoef, List.mem_cons, List.not_mem_nil, or_false]
      by_cases e0 : o = r0
      · subst e0; simp [h0]
      · by_cases e1 : o = r1
        · subst e1; simp [h1, e0]
        · cases ho : (p o).row with
          | none => simp [e0, e1]
          | some row =>
            have : row ≠ r0 := fun h => hother o e0 e1 (by rw [ho, h])
            simp [this, e0, e1]
  · rw [deviceRow, permRow_single p N bulk r1 [r1] (by simp) (by simp [h1N])]
    · simp
    · intro o _
      simp only [permCoef, List.mem_singleton]
      by_cases e1 : o = r1
      · subst e1
        simp [h1, hne]
      · cases ho : (p o).row with
        | none => simp [e1]
        | some row =>
          have h2 : row ≠ r1 := fun h => hother1 o (by rw [ho, h])
          simp [h2, e1]

/-- The permutation vector after the permutation pass: the entries that were set, otherwise the identity. -/
theorem setPerms_eq (p : Nat → PermEntry) (es : List (Nat × PermEntry)) (hnd : (es.map Prod.fst).Nodup) (i : Nat) :
    (∀ e ∈ es, e.1 = i → setPerms p es i = e.2) ∧ ((∀ e ∈ es, e.1 ≠ i) → setPerms p es i = p i) := by
  induction es generalizing p with
  | nil => simp [setPerms]
  | cons a as ih =>
    rw [List.map_cons, List.nodup_cons] at hnd
    obtain ⟨h1, h2⟩ := ih (fun j => if j = a.1 then a.2 else p j) hnd.2
    constructor
    · intro e he hei
      rcases List.mem_cons.1 he with rfl | he
      · rw [setPerms, h2]
        · simp [hei]
        · intro x hx hxi
          exact hnd.1 (List.mem_map.2 ⟨x, hx, hxi.trans hei.symm⟩)
      · rw [setPerms]; exact h1 e he hei
    · intro h
      rw [setPerms, h2 fun e he => h e (by simp [he])]
      have := h a (by simp)
      have h' : ¬ i = a.1 := fun h' => this h'.symm
      simp [h']

end

/-- **C25 and C39 together**: along a curve on which every device's contact, interface and bulk assembly and the
circuit assembly have exact Jacobians, the matrix that is loaded is, row by row, minus the derivative of the
right hand side that is loaded.  (`devs t` are the pieces at time `t`; `scl = 1`, empty matrix and zero right
hand side at the start, as in `Newton::Solve`.) -/
theorem system_jacobian (p : Nat → PermEntry) (N : Nat) (n : Nat) (dev : Nat → ℝ → Pieces ℝ)
    (circuit : ℝ → List (MEntry ℝ) × List (VEntry ℝ)) (offset : Nat) (scl t0 : ℝ) (x : Nat → ℝ)
    (hN : ∀ i t, i < n → InRange N (dev i t))
    (hdirect : ∀ i, i < n → ∀ r, HasDerivAt (fun t => rowSum (dev i t).1.2 r) (matVec (dev i t0).1.1 x r) t0)
    (hbulk : ∀ i, i < n → ∀ r, HasDerivAt (fun t => rowSum (dev i t).2.2 r) (matVec (dev i t0).2.1 x r) t0)
    (hcirc : ∀ r, HasDerivAt (fun t => rowSum (shiftV offset (circuit t).2) r)
      (matVec (shiftM offset (circuit t0).1) x r) t0) (r : Nat) :
    HasDerivAt (fun t => -(loadSystem p scl ((List.range n).map fun i => dev i t) (circuit t) offset
        ([], fun _ => 0)).2 r)
      (matVec (loadSystem p scl ((List.range n).map fun i => dev i t0) (circuit t0) offset
        ([], fun _ => 0)).1 x r) t0 := by
  have hR : ∀ t, ∀ d ∈ (List.range n).map fun i => dev i t, InRange N d := by
    intro t d hd
    obtain ⟨i, hi, rfl⟩ := List.mem_map.1 hd
    exact hN i t (List.mem_range.1 hi)
  have e1 : (fun t => -(loadSystem p scl ((List.range n).map fun i => dev i t) (circuit t) offset
        ([], fun _ => 0)).2 r) = fun t => scl * (((List.range n).map fun i =>
          deviceRow p N (rowSum (dev i t).1.2) (rowSum (dev i t).2.2) r).sum +
            rowSum (shiftV offset (circuit t).2) r) := by
    funext t
    rw [(loadSystem_rows p N scl _ (hR t) _ _ _).1, List.map_map]
    simp only [Function.comp_def]
    ring
  rw [e1, (loadSystem_rows p N scl _ (hR t0) _ _ _).2, List.map_map]
  simp only [Function.comp_def, matVec_nil, zero_add]
  refine HasDerivAt.const_mul scl (HasDerivAt.add ?_ (hcirc r))
  refine hasDerivAt_list_sum _ (fun i t => _) _ _ fun i hi => ?_
  have hi' := List.mem_range.1 hi
  simp only [deviceRow, permRow]
  exact (hdirect i hi' r).add
    (hasDerivAt_list_sum _ (fun o t => _) _ _ fun o _ => (hbulk i hi' o).const_mul _)

end Verif.Assembly
