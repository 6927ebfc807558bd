import Verif.Newton.History
import Verif.Newton.Integrate
import Mathlib.Analysis.SpecialFunctions.Trigonometric.Basic

/-!
# C43: the equation that a time step solves, and the small-signal system

`Newton.cc` 674-700 (transient loop), 806-858 (charge and current of the new solution), 402-423 (AC).
-/

namespace Verif.Newton
open Verif.Assembly

section
variable {K : Type} [CommRing K]

/-! ### Model -/

/-- What the devices and the circuit assemble in one of the two time modes (`TimeMode::DC`, `TimeMode::TIME`). -/
structure Assembled (K : Type) where
  devs : List (Pieces K)
  circuit : List (MEntry K) × List (VEntry K)

/-- `LoadMatrixAndRHS`, `Newton.cc` 308-369. -/
def Assembled.load (A : Assembled K) (p : Nat → PermEntry) (offset : Nat) (scl : K)
    (s : List (MEntry K) × (Nat → K)) : List (MEntry K) × (Nat → K) :=
  loadSystem p scl A.devs A.circuit offset s

/-! ### Specification -/

/-- Row `r` of the assembled equations: contacts, interfaces and bulk of all devices (the bulk through the row operator
`p`), and the circuit. -/
def Assembled.row (A : Assembled K) (p : Nat → PermEntry) (N offset : Nat) (r : Nat) : K :=
  (A.devs.map fun d => deviceRow p N (rowSum d.1.2) (rowSum d.2.2) r).sum + rowSum (shiftV offset A.circuit.2) r

/-- Entry `(r, c)` of the assembled Jacobian. -/
def Assembled.jac (A : Assembled K) (p : Nat → PermEntry) (N offset : Nat) (r c : Nat) : K :=
  (A.devs.map fun d => deviceRow p N (fun o => cell d.1.1 o c) (fun o => cell d.2.1 o c) r).sum +
    cell (shiftM offset A.circuit.1) r c

/-- The rows are equations of the system. -/
def Assembled.InRange (A : Assembled K) (N : Nat) : Prop := ∀ d ∈ A.devs, Verif.Assembly.InRange N d

theorem load_rhs (A : Assembled K) (p : Nat → PermEntry) (N offset : Nat) (scl : K) (hN : A.InRange N)
    (s : List (MEntry K) × (Nat → K)) (r : Nat) : (A.load p offset scl s).2 r = s.2 r - scl * A.row p N offset r :=
  (loadSystem_rows p N scl A.devs hN A.circuit offset s).1 r

theorem load_mat (A : Assembled K) (p : Nat → PermEntry) (N offset : Nat) (scl : K) (hN : A.InRange N)
    (s : List (MEntry K) × (Nat → K)) (r c : Nat) :
    cell (A.load p offset scl s).1 r c = cell s.1 r c + scl * A.jac p N offset r c :=
  loadSystem_cells p N scl A.devs hN A.circuit offset s r c

end

open Classical in
/-- The linear system of an iteration of `Solve`, `Newton.cc` 684-702. -/
noncomputable def stepSystem (p : Nat → PermEntry) (offset : Nat) (t : TimeParams) (rhsc : List ℝ) (I Q : Assembled ℝ) :
    List (MEntry ℝ) × (Nat → ℝ) :=
  let s0 := ([], fun r => rhsc.getD r 0)
  if t.method = .dcOnly then I.load p offset 1 s0
  else
    let s1 := I.load p offset t.b0 s0
    if t.a0 ≠ 0 then Q.load p offset t.a0 s1 else s1

/-- `newQ`, `newI`: `WhatToLoad::RHS` with scale 1 into a zero vector of length `numeqns`, `Newton.cc` 811-813,
853-855. -/
def rhsVector (p : Nat → PermEntry) (offset n : Nat) (A : Assembled ℝ) : List ℝ :=
  (List.range n).map (A.load p offset 1 ([], fun _ => 0)).2

theorem rhsVector_get (p : Nat → PermEntry) (N offset n : Nat) (A : Assembled ℝ) (hN : A.InRange N) {r : Nat} (hr : r < n) :
    (rhsVector p offset n A).getD r 0 = -A.row p N offset r := by
  rw [rhsVector, List.getD_eq_getElem?_getD, List.getElem?_map, List.getElem?_range hr, Option.map_some, Option.getD_some,
    load_rhs A p N offset 1 hN]
  ring

/-- **C43** The linear system of every iteration of a time step: the right hand side is minus the discretised equation
`b0 I + b1 I' + b2 I'' + a0 Q + a1 Q' + a2 Q''`, where `I`, `Q` are the assembled equations (without and with time
derivative) of the present iterate, `I'`, `Q'` and `I''`, `Q''` those of the two newest accepted time points, and the
matrix is `b0 ∂I + a0 ∂Q`.  (`H1`, `H2`: the history holds the vectors assembled at those points, which is what C29
says; a missing older point is only needed when its coefficient is not zero.) -/
theorem transient_system (p : Nat → PermEntry) (N offset n : Nat) (t : TimeParams) (h : History) (rhsc : List ℝ)
    (I Q I1 Q1 I2 Q2 : Assembled ℝ) (hI : I.InRange N) (hQ : Q.InRange N) (hI1 : I1.InRange N) (hQ1 : Q1.InRange N)
    (hI2 : I2.InRange N) (hQ2 : Q2.InRange N)
    (H1 : h.i0 = rhsVector p offset n I1 ∧ h.q0 = rhsVector p offset n Q1)
    (H2 : (t.a2 ≠ 0 → h.q1 = rhsVector p offset n Q2) ∧ (t.b2 ≠ 0 → h.i1 = rhsVector p offset n I2))
    (hm : t.isIntegration = true) (hc : rhsConstant h t n = some rhsc) :
    (∀ r < n, (stepSystem p offset t rhsc I Q).2 r =
      -(t.b0 * I.row p N offset r + t.b1 * I1.row p N offset r + t.b2 * I2.row p N offset r +
        t.a0 * Q.row p N offset r + t.a1 * Q1.row p N offset r + t.a2 * Q2.row p N offset r)) ∧
    (∀ r c, cell (stepSystem p offset t rhsc I Q).1 r c =
      t.b0 * I.jac p N offset r c + t.a0 * Q.jac p N offset r c) := by
  have hdc : t.isDCMethod = false := by
    unfold TimeParams.isIntegration at hm
    unfold TimeParams.isDCMethod
    cases hme : t.method <;> simp_all
  have hno : t.method ≠ .dcOnly := by
    unfold TimeParams.isDCMethod at hdc
    intro h; simp [h] at hdc
  obtain ⟨_, hg⟩ := rhsConstant_get hdc hc
  have hq2 : ∀ r < n, t.a2 * h.q1.getD r 0 = -(t.a2 * Q2.row p N offset r) := by
    intro r hr
    by_cases hz : t.a2 = 0
    · simp [hz]
    · rw [H2.1 hz, rhsVector_get p N offset n Q2 hQ2 hr]; ring
  have hi2 : ∀ r < n, t.b2 * h.i1.getD r 0 = -(t.b2 * I2.row p N offset r) := by
    intro r hr
    by_cases hz : t.b2 = 0
    · simp [hz]
    · rw [H2.2 hz, rhsVector_get p N offset n I2 hI2 hr]; ring
  constructor
  · intro r hr
    unfold stepSystem
    dsimp only
    rw [if_neg hno]
    have e := hg r hr
    rw [H1.1, H1.2, rhsVector_get p N offset n I1 hI1 hr, rhsVector_get p N offset n Q1 hQ1 hr, hq2 r hr, hi2 r hr] at e
    split
    · rw [load_rhs Q p N offset _ hQ, load_rhs I p N offset _ hI]; dsimp only; rw [e]; ring
    · rename_i hz
      rw [not_not] at hz
      rw [load_rhs I p N offset _ hI]; dsimp only; rw [e, hz]; ring
  · intro r c
    unfold stepSystem
    dsimp only
    rw [if_neg hno]
    split
    · rw [load_mat Q p N offset _ hQ, load_mat I p N offset _ hI]; simp [cell]
    · rename_i hz
      rw [not_not] at hz
      rw [load_mat I p N offset _ hI, hz]; simp [cell]

/-- **C43** The `dc` and `transient_dc` solves: right hand side minus the equations without their time derivative terms,
matrix their Jacobian. -/
theorem dc_system (p : Nat → PermEntry) (N offset n : Nat) (type : String) (tdelta gamma : ℝ) (t : TimeParams) (h : History)
    (rhsc : List ℝ) (I Q : Assembled ℝ) (hI : I.InRange N) (ht : timeParams type tdelta gamma = some t)
    (htype : type = "dc" ∨ type = "transient_dc") (hc : rhsConstant h t n = some rhsc) (r : Nat) (hr : r < n) :
    (stepSystem p offset t rhsc I Q).2 r = -I.row p N offset r ∧
    ∀ c, cell (stepSystem p offset t rhsc I Q).1 r c = I.jac p N offset r c := by
  have hd : t = dcOnly ∨ t = transientDC := by
    rcases htype with rfl | rfl
    · left; simpa [timeParams, eq_comm] using ht
    · right
      have : ("transient_dc" = "dc") = False := by simp
      simpa [timeParams, eq_comm] using ht
  have hz : rhsc.getD r 0 = 0 := by
    have : t.isDCMethod = true := by rcases hd with rfl | rfl <;> simp [TimeParams.isDCMethod, dcOnly, transientDC]
    rw [rhsConstant, this, if_pos rfl] at hc
    rw [← Option.some.inj hc]
    simp [List.getD_eq_getElem?_getD, hr]
  unfold stepSystem
  dsimp only
  rcases hd with rfl | rfl
  · rw [if_pos (by rfl)]
    refine ⟨?_, fun c => ?_⟩
    · rw [load_rhs I p N offset _ hI]; dsimp only; rw [hz]; ring
    · rw [load_mat I p N offset _ hI]; simp [cell]
  · rw [if_neg (by simp [transientDC]), if_neg (by simp [transientDC])]
    refine ⟨?_, fun c => ?_⟩
    · rw [load_rhs I p N offset _ hI]; dsimp only; rw [hz]; simp [transientDC]
    · rw [load_mat I p N offset _ hI]; simp [cell, transientDC]

/-- `LoadMatrixAndRHSAC`, `Newton.cc` 402-423: the matrix of the small-signal and noise analyses at a frequency.  The
entries of both parts are real; here they are complex numbers. -/
noncomputable def acMatrix (p : Nat → PermEntry) (offset : Nat) (frequency : ℝ) (I Q : Assembled ℂ) : List (MEntry ℂ) :=
  let s1 := I.load p offset 1 ([], fun _ => 0)
  (Q.load p offset (2 * Real.pi * Complex.I * frequency) (s1.1, fun _ => 0)).1

/-- **C43** The small-signal matrix is `∂I + 2 π f j ∂Q`. -/
theorem ac_system (p : Nat → PermEntry) (N offset : Nat) (f : ℝ) (I Q : Assembled ℂ) (hI : I.InRange N)
    (hQ : Q.InRange N) (r c : Nat) :
    cell (acMatrix p offset f I Q) r c =
      I.jac p N offset r c + 2 * Real.pi * f * Complex.I * Q.jac p N offset r c := by
  unfold acMatrix
  dsimp only
  rw [load_mat Q p N offset _ hQ, load_mat I p N offset _ hI]
  simp only [cell, List.filter_nil, List.map_nil, List.sum_nil]
  ring

/-- Not vacuous: one bulk row, one accepted time point. -/
example : ∃ (h : History) (rhsc : List ℝ) (I Q : Assembled ℝ), I.InRange 1 ∧ Q.InRange 1 ∧
    h.i0 = rhsVector identityPerm 0 1 I ∧ h.q0 = rhsVector identityPerm 0 1 Q ∧
    rhsConstant h (bdf1 1 1) 1 = some rhsc := by
  let I : Assembled ℝ := ⟨[(([], []), ([(0, 0, 1)], [(0, 2)]))], ([], [])⟩
  refine ⟨⟨rhsVector identityPerm 0 1 I, [], [], rhsVector identityPerm 0 1 I, [], []⟩, ?_⟩
  have hl : (rhsVector identityPerm 0 1 I).length = 1 := by simp [rhsVector]
  have hne : rhsVector identityPerm 0 1 I ≠ [] := by intro h; rw [h] at hl; simp at hl
  refine ⟨List.zipWith (fun a b => a + -1 * b) (List.replicate 1 0) (rhsVector identityPerm 0 1 I), I, I, ?_, ?_, rfl, rfl, ?_⟩
  · intro d hd; simp [I] at hd; subst hd; simp [Verif.Assembly.InRange]
  · intro d hd; simp [I] at hd; subst hd; simp [Verif.Assembly.InRange]
  · simp [rhsConstant, bdf1, TimeParams.isDCMethod, assembleIf, assembleAt, hl, hne]

end Verif.Newton
