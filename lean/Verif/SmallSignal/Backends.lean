import Verif.SmallSignal.Noise

/-!
# The direct solvers: PARDISO through the compressed-column matrix, and an exact solver

`Backend.Correct` is what the analyses assume.  Here it is derived for the PARDISO back end from the documented meaning of PARDISO's
`iparm[11]`, and it is shown to be satisfiable: the exact solver is correct and succeeds whenever the system can be solved.
-/

namespace Verif.SmallSignal
open Verif.Assembly

noncomputable section

/-- The documented behaviour of PARDISO on compressed rows `ia`, `ja`, `a` of a matrix `M`: `iparm[11] = 0` solves `M x = b`, `1` with
the conjugate transpose, `2` with the transpose. -/
def PardisoSpec (raw : Nat → Nat → List Nat → List Nat → List ℂ → (Nat → ℂ) → Option (Nat → ℂ)) : Prop :=
  ∀ (n : Nat) (ia ja : List Nat) (a : List ℂ) (M : Nat → Nat → ℂ) (b x : Nat → ℂ), Matrix.Spec.Represents n ia ja a M →
    (raw 0 n ia ja a b = some x → ∀ r < n, ∑ c ∈ Finset.range n, M r c * x c = b r) ∧
    (raw 1 n ia ja a b = some x → ∀ c < n, ∑ r ∈ Finset.range n, (starRingEnd ℂ) (M r c) * x r = b c) ∧
    (raw 2 n ia ja a b = some x → ∀ c < n, ∑ r ∈ Finset.range n, M r c * x r = b c)

/-- `MKLPardisoData::SetTranspose` and `LUFactorMatrixImpl` with `USE_CCM`, `MKLPardisoPreconditioner.cc` 29, 153-172, 194-213: the
columns of the compressed-column matrix are passed as rows, and the flag is the opposite of the one asked for. -/
def pardiso (raw : Nat → Nat → List Nat → List Nat → List ℂ → (Nat → ℂ) → Option (Nat → ℂ)) : Backend where
  crm := false
  solve := fun trans n ap ai xs b => raw (if trans then 0 else 2) n ap ai xs b

/-- **C60, C61**: with the documented behaviour of PARDISO the back end solves the system asked for. -/
theorem pardiso_correct (raw : Nat → Nat → List Nat → List Nat → List ℂ → (Nat → ℂ) → Option (Nat → ℂ))
    (h : PardisoSpec raw) : (pardiso raw).Correct := by
  intro n ap ai xs A b x hrep
  obtain ⟨h0, -, h2⟩ := h n ap ai xs (Matrix.byLine false A) b x hrep
  constructor
  · intro hs r hr
    have := h2 (by simpa [pardiso] using hs) r hr
    simpa [Matrix.byLine] using this
  · intro hs c hc
    have := h0 (by simpa [pardiso] using hs) c hc
    simpa [Matrix.byLine] using this

/-- the entries are determined by the arrays -/
theorem represents_unique {n : Nat} {ap ai : List Nat} {xs : List ℂ} {A B : Nat → Nat → ℂ}
    (hA : Matrix.Spec.Represents n ap ai xs A) (hB : Matrix.Spec.Represents n ap ai xs B) :
    ∀ l < n, ∀ k < n, A l k = B l k := by
  intro l hl k hk
  obtain ⟨b, e, g1, g2, g3, g4, g5, g6⟩ := hA.line l hl
  obtain ⟨b', e', g1', g2', g3', g4', g5', g6'⟩ := hB.line l hl
  rw [g1] at g1'; rw [g2] at g2'
  simp only [Option.some.injEq] at g1' g2'
  subst g1' g2'
  by_cases h : ∀ j, b ≤ j → j < e → ai[j]? ≠ some k
  · rw [g6 k hk h, g6' k hk h]
  · push Not at h
    obtain ⟨j, hj1, hj2, hj3⟩ := h
    obtain ⟨k1, -, a1, a2⟩ := g4 j hj1 hj2
    obtain ⟨k2, -, b1, b2⟩ := g4' j hj1 hj2
    rw [hj3] at a1 b1
    simp only [Option.some.injEq] at a1 b1
    subst a1
    subst b1
    rw [a2] at b2
    simpa using b2

/-- `x` solves the system with every matrix the arrays represent (there is only one, `represents_unique`), or the transposed one -/
def Solves (crm trans : Bool) (n : Nat) (ap ai : List Nat) (xs : List ℂ) (b x : Nat → ℂ) : Prop :=
  ∀ A, Matrix.Spec.Represents n ap ai xs (Matrix.byLine crm A) →
    (trans = true → ∀ c < n, ∑ r ∈ Finset.range n, A r c * x r = b c) ∧
    (trans = false → ∀ r < n, ∑ c ∈ Finset.range n, A r c * x c = b r)

open Classical in
/-- an exact solver -/
def exact (crm : Bool) : Backend where
  crm := crm
  solve := fun trans n ap ai xs b => if h : ∃ x, Solves crm trans n ap ai xs b x then some h.choose else none

theorem exact_solves {crm trans : Bool} {n : Nat} {ap ai : List Nat} {xs : List ℂ} {b x : Nat → ℂ}
    (hs : (exact crm).solve trans n ap ai xs b = some x) : Solves crm trans n ap ai xs b x := by
  simp only [exact] at hs
  by_cases h : ∃ x, Solves crm trans n ap ai xs b x
  · rw [dif_pos h, Option.some.injEq] at hs
    have := h.choose_spec
    rwa [hs] at this
  · rw [dif_neg h] at hs
    simp at hs

theorem exact_correct (crm : Bool) : (exact crm).Correct := by
  intro n ap ai xs A b x hrep
  exact ⟨fun hs => (exact_solves hs A hrep).2 rfl, fun hs => (exact_solves hs A hrep).1 rfl⟩

theorem exact_succeeds (crm trans : Bool) (n : Nat) (ap ai : List Nat) (xs : List ℂ) (A : Nat → Nat → ℂ)
    (hrep : Matrix.Spec.Represents n ap ai xs (Matrix.byLine crm A)) (b x : Nat → ℂ)
    (hx : (trans = true → ∀ c < n, ∑ r ∈ Finset.range n, A r c * x r = b c) ∧
      (trans = false → ∀ r < n, ∑ c ∈ Finset.range n, A r c * x c = b r)) :
    ∃ y, (exact crm).solve trans n ap ai xs b = some y := by
  simp only [exact]
  rw [dif_pos]
  · exact ⟨_, rfl⟩
  · refine ⟨x, fun A' hA' => ?_⟩
    have hu := represents_unique hA' hrep
    have hAA : ∀ r < n, ∀ c < n, A' r c = A r c := by
      intro r hr c hc
      cases crm with
      | true => simpa [Matrix.byLine] using hu r hr c hc
      | false => simpa [Matrix.byLine] using hu c hc r hr
    refine ⟨fun ht c hc => ?_, fun ht r hr => ?_⟩
    · rw [← hx.1 ht c hc]
      exact Finset.sum_congr rfl fun r hr => by rw [hAA r (Finset.mem_range.1 hr) c hc]
    · rw [← hx.2 ht r hr]
      exact Finset.sum_congr rfl fun c hc => by rw [hAA r hr c (Finset.mem_range.1 hc)]

/-- With an exact solver, AC analysis reports success whenever the linearized equations have a solution. -/
theorem ac_succeeds (crm : Bool) (ld : Load) (f : ℝ) (w : World) (hb : Bounded ld w) (hv : VarsExist w)
    (hu : OneEquationPerVariable w) (X : Nat → ℂ)
    (hX : ∀ r < ld.N, staticRow ld w X r + 2 * Real.pi * f * Complex.I * dynamicRow ld w X r = acRhs w r) :
    ∃ w', acSolve (exact crm) ld f w = some (w', true) := by
  have hb' := bounded_init hb
  obtain ⟨m, e1, hrep⟩ := ac_matrix ld f (acInit w) hb' crm
  obtain ⟨y, hy⟩ := exact_succeeds crm false ld.N m.ap m.ai _ _ hrep (acRhs (acInit w)) X (by
    refine ⟨by simp, fun _ r hr => ?_⟩
    rw [acCell_row f hb', staticRow_init, dynamicRow_init, acRhs_init]
    exact hX r hr)
  obtain ⟨ds, e2⟩ := acDevices_some y w.devices hv
  have hdev : (acInit w).devices = w.devices := rfl
  have hcrm : (exact crm).crm = crm := rfl
  unfold acSolve
  simp only [hcrm, e1, hy, hdev, e2]
  cases hc : w.circuit with
  | none =>
    have : (acInit w).circuit = none := by simp [acInit, hc]
    simp only [this]
    exact ⟨_, rfl⟩
  | some c =>
    have : (acInit w).circuit =
        some { c with sols := initSol (initSol (initSol c.sols "ssac_real") "ssac_imag") "dcop" } := by
      simp [acInit, hc]
    simp only [this]
    obtain ⟨c', e3, h3⟩ := acCircuit_spec "ssac_real" "ssac_imag" (by decide) y c _ rfl
    simp only [e3]
    exact ⟨_, rfl⟩

/-! ### examples -/

/-- a capacitor of 3 F driven by a source of amplitude 1: rows 0 (node) and 1 (branch) -/
def rcWorld : World := ⟨[], some ⟨0, [("GND", none), ("a", some 0), ("V1.I", some 1)],
  [(.voltage (some 0) none 1 0, 1), (.capacitor (some 0) none 3, 0)], fun _ => none⟩⟩
def emptyLoad : Load := ⟨2, [], [], [], (([], []), ([], [])), (([], []), ([], []))⟩

theorem rc_bounded : Bounded emptyLoad rcWorld := by
  have hperm : emptyLoad.perm = identityPerm := rfl
  refine ⟨by simp [emptyLoad], by simp [emptyLoad], ?_, ?_, ?_, ?_, ?_⟩
  · simp [PiecesIn, EntriesIn, emptyLoad]
  · simp [PiecesIn, EntriesIn, emptyLoad]
  · simp [circStatic, circBase, rcWorld, Elements.assembleDC, Elements.dcMat, Elements.push2, shiftM, EntriesIn, emptyLoad]
  · simp [circDynamic, circBase, rcWorld, Elements.assembleTran, Elements.tranMat, Elements.push2, shiftM, EntriesIn, emptyLoad]
  · intro i hi r hr
    rw [hperm] at hr
    simp [identityPerm] at hr
    omega

/-- the hypotheses of `ac_analysis` and `ac_circuit_laws` are met, and success is reported -/
example : ∃ w', acSolve (exact false) emptyLoad 1 rcWorld = some (w', true) := by
  refine ac_succeeds false emptyLoad 1 rcWorld rc_bounded (by simp [VarsExist, rcWorld])
    (by simp [OneEquationPerVariable, rcWorld]) (fun r => if r = 0 then 1 else -(2 * Real.pi * Complex.I * 3)) ?_
  intro r hr
  have h : r = 0 ∨ r = 1 := by simp [emptyLoad] at hr; omega
  have hz : ∀ r' : Nat, permRow (K := ℂ) emptyLoad.perm 2 (fun _ => 0) r' = 0 := by
    intro r'; simp [permRow]
  rcases h with rfl | rfl
  · simp [staticRow, dynamicRow, systemRow, emptyLoad, rcWorld, circStatic, circDynamic, circBase, Elements.assembleDC,
      Elements.assembleTran, Elements.dcMat, Elements.tranMat, Elements.push2, shiftM, liftM, liftP, deviceRow, matVec, acRhs,
      acRhsEntries, assignAll, permRow]
  · simp [staticRow, dynamicRow, systemRow, emptyLoad, rcWorld, circStatic, circDynamic, circBase, Elements.assembleDC,
      Elements.assembleTran, Elements.dcMat, Elements.tranMat, Elements.push2, shiftM, liftM, liftP, deviceRow, matVec, acRhs,
      acRhsEntries, assignAll, permRow]

example : BranchesOwn (((rcWorld.circuit.map Circ.els).getD [])) := by
  refine ⟨by simp [rcWorld, Elements.branch], ?_⟩
  simp [rcWorld, Elements.branch, Elements.terminals]

end
end Verif.SmallSignal
