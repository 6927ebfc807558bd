import Verif.Assembly.Load
import Mathlib.Analysis.Calculus.Deriv.Pow
import Mathlib.Tactic.NormNum

/-!
# Concrete instances of the hypotheses, and the cases in which the full statement fails
-/

namespace Verif.Assembly

/-! ## A one dimensional region with three nodes and a nonlinear flux -/

/-- Three nodes on a line, one equation `E` for the variable `u`. -/
def exG : Topo where
  numNodes := 3
  dim := 1
  base := 0
  edges := [(0, 1), (1, 2)]
  tris := []
  tets := []
  vars := ["u"]
  eqOfVar := fun _ => "E"
  eqIndex := fun n => if n = "E" then some 0 else none
  nodeVolume := "NV"
  edgeCouple := "EC"
  edgeNode0Volume := "X"
  edgeNode1Volume := "X"
  elementEdgeCouple := "X"
  elementNode0Volume := "X"
  elementNode1Volume := "X"

/-- The unknowns move along a line. -/
def exU (t : ℝ) (i : Nat) : ℝ := i + t * (i + 1)

/-- Flux `u@n0^2 - u@n1` with its derivative models, edge couple 2; with respect to the circuit node `C` (unknown
3, velocity 5) it has the derivative 7. -/
def exT (t : ℝ) : Tables ℝ where
  node := fun n => if n = "NV" then some fun _ => 1 else none
  edge := fun n =>
    if n = "F" then some fun i => exU t i ^ 2 - exU t (i + 1)
    else if n = "EC" then some fun _ => 2
    else if n = "F:u@n0" then some fun i => 2 * exU t i
    else if n = "F:u@n1" then some fun _ => -1
    else none
  tri := fun _ => none
  tet := fun _ => none

theorem exU_deriv (t0 : ℝ) (i : Nat) : HasDerivAt (fun t => exU t i) ((i : ℝ) + 1) t0 := by
  have := ((hasDerivAt_id t0).mul_const ((i : ℝ) + 1)).const_add (i : ℝ)
  simpa [exU] using this

theorem ex_site (t0 : ℝ) :
    SiteExact exG (edgeShape exG) (fun t => (exT t).edge) t0 (fun i => (i : ℝ) + 1) "F" := by
  intro s hs
  have h0 := (exU_deriv t0 s.idx).pow 2
  have h1 := exU_deriv t0 (s.idx + 1)
  have h := h0.sub h1
  simp only [edgeShape, Topo.edgeSites, exG, List.zipIdx, List.map_cons, List.map_nil, List.mem_cons,
    List.not_mem_nil, or_false] at hs
  have e : siteDeriv exG (edgeShape exG) (exT t0).edge (fun i => (i : ℝ) + 1) "F" s =
      2 * exU t0 s.idx * ((s.n0 : ℝ) + 1) - ((s.n1 : ℝ) + 1) := by
    rcases hs with rfl | rfl <;>
      simp [siteDeriv, exG, edgeShape, exT, val, derName, Topo.col, Topo.num] <;> ring
  rw [e]
  have hidx : s.n0 = s.idx ∧ s.n1 = s.idx + 1 := by rcases hs with rfl | rfl <;> simp
  rw [hidx.1, hidx.2]
  have hf : (fun t => val ((exT t).edge "F") s.idx) = fun t => exU t s.idx ^ 2 - exU t (s.idx + 1) := by
    funext t; simp [exT, val]
  rw [hf]
  refine HasDerivAt.congr_deriv (f := fun t => exU t s.idx ^ 2 - exU t (s.idx + 1)) h ?_
  simp

/-- The equation `E` with flux `F`. -/
def exE : EqSpec := ⟨"E", "", "F", "", "", "", "", ""⟩

theorem ex_fixed : GeometryFixed exG exT := by
  constructor <;> intro t t' i <;> simp [exT, exG]

/-- The hypotheses of `bulk_jacobian` hold and the assembly succeeds. -/
theorem ex_bulk (t0 : ℝ) : EqExact exG exT t0 (fun i => (i : ℝ) + 1) exE ∧
    ∀ t, ∃ out, exprAssemble exG (exT t) exE .matrixAndRhs .dc = some out := by
  refine ⟨⟨by simp [exE], by simp [exE], fun _ => ex_site t0, by simp [exE], by simp [exG], by simp [exG],
    by simp [exG], by simp [exG]⟩, fun t => ?_⟩
  simp [exprAssemble, exE, edgeCoupleAssemble, coupleAssemble, exG, exT, collect, coupleVar, edgeShape,
    derName, whenA, andThen, What.doRhs, What.doMat, allSome]

/-- Hence the matrix is the Jacobian. -/
example (t0 : ℝ) : IsJacobianAlong (fun t => exprAssemble exG (exT t) exE .matrixAndRhs .dc) t0
    (fun i => (i : ℝ) + 1) :=
  bulk_jacobian _ _ _ _ _ _ ex_fixed (ex_bulk t0).1

theorem ex_good : GoodSites exG exG.edgeSites := by
  intro s hs
  simp only [Topo.edgeSites, exG, List.zipIdx, List.map_cons, List.map_nil, List.mem_cons,
    List.not_mem_nil, or_false] at hs
  rcases hs with rfl | rfl <;> simp [exG]

/-- Conservation and Kirchhoff's law apply to it: contacts at node 0 and node 2. -/
example (t : ℝ) : ∃ m v, edgeCoupleAssemble exG (exT t) "E" "F" .matrixAndRhs = some (m, v) ∧
    exG.eqIndex "E" = some 0 ∧ GoodSites exG exG.edgeSites ∧ ([[0], [2]] : List (List Nat)).flatten.Nodup := by
  have h : ∃ out, edgeCoupleAssemble exG (exT t) "E" "F" .matrixAndRhs = some out := by
    simp [edgeCoupleAssemble, coupleAssemble, exG, exT, collect, coupleVar, edgeShape,
      derName, What.doRhs, What.doMat, allSome]
  obtain ⟨⟨m, v⟩, h⟩ := h
  exact ⟨m, v, h, by simp [exG], ex_good, by decide⟩

/-- The current into a contact at node 0 is twice the flux of the first edge. -/
example (t : ℝ) : integrateSites (edgeShape exG) (exT t).edge [0] "F" "EC" 1 (-1) =
    some (2 * (exU t 0 ^ 2 - exU t 1)) := by
  simp [integrateSites, exT, nodeFlux, sitesAt, edgeShape, Topo.edgeSites, exG, List.zipIdx, bothOn, headOrTail,
    times]

/-! ## Contacts -/

/-- A contact equation at node 0 with the flux `F` and a circuit node `C` with row 3: the hypotheses of
`contact_dc_jacobian_partial` hold (no derivative with respect to the circuit node). -/
def exC : ContactSpec :=
  ⟨"E", "C", "", "F", "", "", "", "", "", "F", "", "", "", ""⟩

theorem ex_contact (t0 : ℝ) :
    ContactExact exG exT (some 3) t0 (fun i => (i : ℝ) + 1) exC ∧
    CircuitExact exG exT (some 3) "C" t0 (fun i => (i : ℝ) + 1) "" "F" "" := by
  have h1 : ContactSiteExact exG (edgeShape exG) (fun t => (exT t).edge) (some 3) "C" t0
      (fun i => (i : ℝ) + 1) "F" := by
    intro s hs
    have := ex_site t0 s hs
    have e : circDeriv (some 3) ((exT t0).edge (derName "F" "C")) (fun i => (i : ℝ) + 1) s.idx = 0 := by
      simp [circDeriv, exT, derName, val]
    rw [e, add_zero]
    exact this
  have h2 : ∀ t, Complete exG (edgeShape exG) (exT t).edge "F" := by
    intro t var hvar h
    simp [exG] at hvar
    subst hvar
    simp [exT, derName, edgeShape] at h
  refine ⟨⟨by simp [exC], ?_, by simp [exG], by simp [exG]⟩, ⟨by simp, fun _ => ⟨h1, h2, ?_⟩, by simp, by simp⟩⟩
  · intro model hne hm
    have : model = "F" := by
      rcases hm with h | h
      · exact h
      · simp [exC] at h; exact absurd h hne
    subst this
    exact ⟨h1, h2⟩
  · right; right
    simp [exT, derName]

example (t : ℝ) : ∃ out, contactAssemble exG (exT t) (fun n => if n = "C" then some (some 3) else none) [0] exC
    .matrixAndRhs .dc = some out := by
  simp [contactAssemble, contactInterior, contactCircuit, exC, whenA, andThen, contactSiteAssemble,
    circuitSiteAssemble, exG, exT, circuitCol, What.doRhs, What.doMat, collect, contactSiteVar,
    contactVarModels, edgeShape, derName, allSome, circuitSiteVar]

/-! ## F30: with two variables the derivative with respect to the circuit node is loaded twice -/

/-- Two nodes, two variables. -/
def exG2 : Topo :=
  { exG with numNodes := 2, edges := [(0, 1)], vars := ["u", "v"], eqOfVar := fun v => "E" ++ v,
             eqIndex := fun n => if n = "Eu" then some 0 else if n = "Ev" then some 1 else none }

/-- The current depends on the circuit node only. -/
def exT2 (t : ℝ) : String → Option (Nat → ℝ) := fun n =>
  if n = "I" then some fun _ => t
  else if n = "EC" then some fun _ => 1
  else if n = "I:C" then some fun _ => 1
  else none

theorem exT2_deriv (var suf : String) (h : derName "I" var ++ suf ≠ "I") (h1 : derName "I" var ++ suf ≠ "EC")
    (h2 : derName "I" var ++ suf ≠ "I:C") (t : ℝ) : exT2 t (derName "I" var ++ suf) = none := by
  simp [exT2, h, h1, h2]

/-- **F30** The full statement of C39 is false on circuit rows: all derivative models are right and complete, and
the assembled matrix has twice the derivative. -/
theorem circuit_row_counterexample :
    ∃ (g : Topo) (tbl : ℝ → String → Option (Nat → ℝ)) (circ : String → Option (Option Nat)) (active : List Nat)
      (d : Nat → ℝ), circ "C" = some (some 4) ∧
      ContactSiteExact g (edgeShape g) tbl (some 4) "C" 0 d "I" ∧ Fixed tbl "EC" ∧
      (∀ t, Complete g (edgeShape g) (tbl t) "I") ∧
      ¬ IsJacobianAlong (fun t => circuitSiteAssemble g (edgeShape g) true (tbl t) circ active "C" "I" "EC" 1 (-1)
        .matrixAndRhs) 0 d := by
  have hzero : ∀ (t : ℝ) (s : Site) (d : Nat → ℝ), siteDeriv exG2 (edgeShape exG2) (exT2 t) d "I" s = 0 := by
    intro t s d
    simp [siteDeriv, exG2, edgeShape, exT2, derName, val]
  have hcomp : ∀ t, Complete exG2 (edgeShape exG2) (exT2 t) "I" := by
    intro t var hvar h
    simp [exG2] at hvar
    rcases hvar with rfl | rfl <;> simp [exT2, derName, edgeShape]
  refine ⟨exG2, exT2, fun n => if n = "C" then some (some 4) else none, [0], fun _ => 1, by simp, ?_, ?_, hcomp, ?_⟩
  · intro s hs
    rw [hzero]
    have : circDeriv (some 4) (exT2 0 (derName "I" "C")) (fun _ => (1 : ℝ)) s.idx = 1 := by
      simp [circDeriv, exT2, derName, val]
    rw [this, zero_add]
    simpa [exT2, val] using hasDerivAt_id' (0 : ℝ)
  · intro t t' i
    simp [exT2]
  · intro hj
    have hsucc : ∀ t, ∃ out, circuitSiteAssemble exG2 (edgeShape exG2) true (exT2 t)
        (fun n => if n = "C" then some (some 4) else none) [0] "C" "I" "EC" 1 (-1) .matrixAndRhs = some out := by
      intro t
      simp [circuitSiteAssemble, exG2, exT2, What.doRhs, What.doMat, collect, circuitSiteVar,
        contactVarModels, edgeShape, derName]
    choose out hout using hsucc
    have h := hj out hout 4
    have hs : ∀ t, _ := fun t => circuitSiteAssemble_spec (hout t) (crow := 4) (by simp) (hcomp t)
    have hl : liveSites (edgeShape exG2).sites [0] (1 : ℝ) (-1) 0 = [⟨0, 0, 1, []⟩] := by
      simp [liveSites, sitesAt, edgeShape, Topo.edgeSites, exG2, bothOn, List.zipIdx]
    have e1 : (fun t => rowSum (out t).2 4) = fun t => t := by
      funext t
      rw [(hs t).1]
      simp [hl, headOrTail, exT2, val]
    have e2 : matVec (out 0).1 (fun _ => (1 : ℝ)) 4 = 2 := by
      rw [(hs 0).2]
      have hlen : exG2.vars.length = 2 := rfl
      simp only [hzero, hlen, List.map_cons, List.map_nil, hl]
      simp [headOrTail, exT2, val, derName, selfCount]
    rw [e1, e2] at h
    have := h.unique (hasDerivAt_id (0 : ℝ))
    norm_num at this

/-! ## F31: a contact ignores the derivative at one end if the one at the other end is missing -/

/-- The flux depends on `u@n1` only and has no derivative model for `u@n0`. -/
def exT3 (t : ℝ) : String → Option (Nat → ℝ) := fun n =>
  if n = "I" then some fun _ => t
  else if n = "EC" then some fun _ => 1
  else if n = "I:u@n1" then some fun _ => 1
  else none

/-- **F31** Completeness of the derivative models is needed: here every derivative model is right (a missing one
stands for zero), the bulk equation refuses this input, the contact equation accepts it and drops the
derivative. -/
theorem contact_incomplete_counterexample :
    ∃ (tbl : ℝ → String → Option (Nat → ℝ)) (d : Nat → ℝ),
      ContactSiteExact exG (edgeShape exG) tbl none "" 0 d "I" ∧ Fixed tbl "EC" ∧
      (∀ t, coupleAssemble exG (edgeShape exG) (tbl t) "E" "I" "EC" 1 (-1) .matrixAndRhs = none) ∧
      ¬ IsJacobianAlong (fun t => contactSiteAssemble exG (edgeShape exG) (tbl t) (fun _ => none) [0] "E" "" "I"
        "EC" 1 (-1) .matrixAndRhs) 0 d := by
  refine ⟨exT3, fun _ => 1, ?_, ?_, ?_, ?_⟩
  · intro s hs
    have h1 : siteDeriv exG (edgeShape exG) (exT3 0) (fun _ => (1 : ℝ)) "I" s = 1 := by
      simp [siteDeriv, exG, edgeShape, exT3, derName, val]
    rw [h1]
    simpa [exT3, val, circDeriv] using hasDerivAt_id' (0 : ℝ)
  · intro t t' i
    simp [exT3]
  · intro t
    simp [coupleAssemble, exG, exT3, What.doRhs, What.doMat, collect, coupleVar, edgeShape, derName, allSome]
  · intro hj
    have hval : ∀ t, contactSiteAssemble exG (edgeShape exG) (exT3 t) (fun _ => none) [0] "E" "" "I" "EC" 1 (-1)
        .matrixAndRhs = some ([], [(0, t)]) := by
      intro t
      simp [contactSiteAssemble, exG, exT3, What.doRhs, What.doMat, collect, contactSiteVar, circuitCol,
        contactVarModels, edgeShape, derName, contactSiteCirc, contactSiteRHS, sitesAt, Topo.edgeSites,
        List.zipIdx, Topo.num, times]
    have h := hj (fun t => ([], [(0, t)])) hval 0
    simp only [rowSum_cons, rowSum_nil, add_zero, if_true, matVec_nil] at h
    have := h.unique (hasDerivAt_id (0 : ℝ))
    norm_num at this

/-! ## Interfaces and loading -/

/-- The interface model `u@r0 - u@r1` of two regions. -/
example (t0 : ℝ) : IfaceExact exG { exG with base := 3 }
    (fun t n => if n = "c" then some fun i => exU t i - exU t (i + 3)
      else if n = "c:u@r0" then some fun _ => 1 else if n = "c:u@r1" then some fun _ => -1 else none)
    t0 (fun i => (i : ℝ) + 1) "c" [(1, 1, 1)] := by
  intro q hq
  simp only [List.mem_singleton] at hq
  subst hq
  have h := (exU_deriv t0 1).sub (exU_deriv t0 4)
  refine HasDerivAt.congr_deriv (f := fun t => exU t 1 - exU t 4) h ?_
  simp [ifaceDeriv, exG, derName, val, Topo.col, Topo.num]
  norm_num

/-- The rows set by the permutation pass: contact rows `C` are removed, `(r1, r0, keep)` are interface pairs. -/
def passEntries (C : List Nat) (I : List (Nat × Nat × Bool)) : List (Nat × PermEntry) :=
  (C.map fun c => (c, ⟨none, false⟩)) ++ I.map fun q => (q.1, ⟨some q.2.1, q.2.2⟩)

/-- **C25/C37** If no row is both a contact row and an interface row and no row belongs to two interface pairs
(what C37 provides), the permutation vector satisfies the hypotheses of `contact_row`, `continuous_rows` and
`hybrid_rows`. -/
theorem pass_spec (C : List Nat) (I : List (Nat × Nat × Bool))
    (hnd : (C ++ I.map fun q => q.1).Nodup) (hnd0 : (I.map fun q => q.2.1).Nodup)
    (hdis : ∀ q ∈ I, q.2.1 ∉ C ∧ q.2.1 ∉ I.map fun q => q.1) :
    let p := setPerms identityPerm (passEntries C I)
    (∀ c ∈ C, (p c).row = none ∧ ∀ o, (p o).row ≠ some c) ∧
    (∀ q ∈ I, p q.2.1 = ⟨some q.2.1, false⟩ ∧ p q.1 = ⟨some q.2.1, q.2.2⟩ ∧ q.2.1 ≠ q.1 ∧
      (∀ o, o ≠ q.2.1 → o ≠ q.1 → (p o).row ≠ some q.2.1) ∧ ∀ o, (p o).row ≠ some q.1) ∧
    (∀ o, o ∉ C → o ∉ (I.map fun q => q.1) → p o = ⟨some o, false⟩) := by
  intro p
  have hfst : (passEntries C I).map Prod.fst = C ++ I.map fun q => q.1 := by
    simp [passEntries, List.map_map, Function.comp_def]
  have hset := setPerms_eq identityPerm (passEntries C I) (by rw [hfst]; exact hnd)
  have hC : ∀ c ∈ C, p c = ⟨none, false⟩ := fun c hc =>
    (hset c).1 (c, ⟨none, false⟩) (List.mem_append_left _ (List.mem_map.2 ⟨c, hc, rfl⟩)) rfl
  have hI : ∀ q ∈ I, p q.1 = ⟨some q.2.1, q.2.2⟩ := fun q hq =>
    (hset q.1).1 (q.1, ⟨some q.2.1, q.2.2⟩) (List.mem_append_right _ (List.mem_map.2 ⟨q, hq, rfl⟩)) rfl
  have hid : ∀ o, o ∉ C → o ∉ (I.map fun q => q.1) → p o = ⟨some o, false⟩ := by
    intro o h1 h2
    refine (hset o).2 ?_
    rintro e he rfl
    have : e.1 ∈ (passEntries C I).map Prod.fst := List.mem_map.2 ⟨e, he, rfl⟩
    rw [hfst, List.mem_append] at this
    exact this.elim h1 h2
  have hcases : ∀ o x, (p o).row = some x → (o = x ∧ o ∉ C ∧ o ∉ I.map fun q => q.1) ∨
      ∃ q ∈ I, q.1 = o ∧ q.2.1 = x := by
    intro o x h
    by_cases h1 : o ∈ C
    · rw [hC o h1] at h; cases h
    · by_cases h2 : o ∈ I.map fun q => q.1
      · obtain ⟨q, hq, rfl⟩ := List.mem_map.1 h2
        rw [hI q hq] at h
        simp only [Option.some.injEq] at h
        exact Or.inr ⟨q, hq, rfl, h⟩
      · rw [hid o h1 h2] at h
        simp only [Option.some.injEq] at h
        exact Or.inl ⟨h, h1, h2⟩
  refine ⟨fun c hc => ⟨by rw [hC c hc], fun o h => ?_⟩, fun q hq => ⟨?_, hI q hq, ?_, ?_, ?_⟩, hid⟩
  · rcases hcases o c h with ⟨rfl, h1, -⟩ | ⟨q, hq, -, h2⟩
    · exact h1 hc
    · exact (hdis q hq).1 (h2 ▸ hc)
  · exact hid _ (hdis q hq).1 (hdis q hq).2
  · intro h
    exact (hdis q hq).2 (h ▸ List.mem_map.2 ⟨q, hq, rfl⟩)
  · intro o h1 h2 h
    rcases hcases o _ h with ⟨h3, -, -⟩ | ⟨q', hq', h3, h4⟩
    · exact h1 h3
    · have : q' = q := List.inj_on_of_nodup_map hnd0 hq' hq h4
      subst this
      exact h2 h3.symm
  · intro o h
    rcases hcases o _ h with ⟨h3, -, h4⟩ | ⟨q', hq', h3, h4⟩
    · exact h4 (h3 ▸ List.mem_map.2 ⟨q, hq, rfl⟩)
    · exact (hdis q' hq').2 (h4 ▸ List.mem_map.2 ⟨q, hq, rfl⟩)

/-- Not vacuous: contact row 0, continuous interface (row 5 into row 2), hybrid interface (row 6 into row 3). -/
example : let C := [0]; let I := [(5, 2, false), (6, 3, true)]
    (C ++ I.map fun q => q.1).Nodup ∧ (I.map fun q => q.2.1).Nodup ∧
    ∀ q ∈ I, q.2.1 ∉ C ∧ q.2.1 ∉ I.map fun q => q.1 := by decide

end Verif.Assembly
