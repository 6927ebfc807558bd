import Verif.Fields.Average
import Mathlib.Tactic.IntervalCases

/-!
# Fields on triangles

`src/Geometry/TriangleElementField.cc`: vectors on the edges of a triangle from scalar values on its edges, for the
commands `element_from_edge_model`, `element_pair_from_edge_model` and their derivatives
(`src/models/TriangleEdgeFromEdgeModel.cc`, `TriangleEdgeFromEdgeModelDerivative.cc`, `TriangleEdgePairFromEdgeModel.cc`,
`TriangleEdgePairFromEdgeModelDerivative.cc`), and `src/models/TriangleEdgeFromNodeModel.cc` for `element_from_node_model`.
-/

namespace Verif.Fields

open Verif.Geom

/-! ### Model -/

/-- `DenseMatrix` of size two (`DenseMatrix.cc:22-120`): `LUFactor` and `Solve`. The factorization of LAPACK or Eigen is not
modelled: it gives the solution when there is exactly one, and fails (`none`) when the matrix is singular. -/
noncomputable def solve2 (u v : V3) (b0 b1 : ℝ) : Option V3 := open Classical in
  if u.x * v.y - u.y * v.x = 0 then none
  else some ⟨(b0 * v.y - b1 * u.y) / (u.x * v.y - u.y * v.x), (u.x * b1 - v.x * b0) / (u.x * v.y - u.y * v.x), 0⟩

/-- `row0_`, `row1_`, `node_shared_` (`TriangleElementField.cc:37-45`) -/
def row0 (mi : Nat) : Nat := [0, 0, 1].getD mi 0
def row1 (mi : Nat) : Nat := [1, 2, 2].getD mi 0
def nodeShared (mi : Nat) : Nat := [2, 1, 0].getD mi 0

/-- The nodes of a triangle (`Triangle::GetNodeList`). -/
def triNode (m : Mesh) (t k : Nat) : Nat := (nodesOf m.tris t).getD k 0

/-- `CalcMatrices` (`:73-130`) and `GetEdgePairVectors` (`:162-192`): the vector for each pair of edges. -/
noncomputable def edgePairVectors (m : Mesh) (pos : Pos) (t : Nat) (ed : Nat → ℝ) : Option (List V3) :=
  [0, 1, 2].mapM fun mi =>
    solve2 (unitVec m pos (triangleEdge m t (row0 mi))) (unitVec m pos (triangleEdge m t (row1 mi))) (ed (row0 mi)) (ed (row1 mi))

/-- The end of the edge that is the given node (`:212-240`): `0` for the head, `1` for the tail. -/
def endOf (m : Mesh) (e np : Nat) : Option Nat :=
  if edgeNode m e 0 = np then some 0 else if edgeNode m e 1 = np then some 1 else none

/-- Writing one entry of an array of arrays. -/
def set2 {α : Type} (a : Nat → Nat → α) (i k : Nat) (x : α) : Nat → Nat → α :=
  fun i' k' => if i' = i ∧ k' = k then x else a i' k'

/-- `TuplePairs_t`: for each edge of the triangle and each of its ends a vector and a weight. The variables are
`thread_local`, so they hold the values of another triangle at the start. -/
structure Pairs where
  vec : Nat → Nat → V3
  weight : Nat → Nat → ℝ

/-- One turn of the loop of `GetFieldPairs` (`:204-247`). -/
noncomputable def pairStep (m : Mesh) (t : Nat) (couple : Nat → ℝ) (results : List V3) (s : Pairs) (mi : Nat) : Option Pairs := do
  let i := row0 mi
  let j := row1 mi
  let np := triNode m t (nodeShared mi)
  let npi ← endOf m (triangleEdge m t i) np
  let npj ← endOf m (triangleEdge m t j) np
  let r := results.getD mi ⟨0, 0, 0⟩
  pure ⟨set2 (set2 s.vec i npi r) j npj r, set2 (set2 s.weight i npi (couple j)) j npj (couple i)⟩

/-- `GetFieldPairs` (`:194-248`); `couple` are the three values of `ElementEdgeCouple` on the triangle. -/
noncomputable def fieldPairs (m : Mesh) (pos : Pos) (t : Nat) (couple ed : Nat → ℝ) (s : Pairs) : Option Pairs := do
  let results ← edgePairVectors m pos t ed
  [0, 1, 2].foldlM (pairStep m t couple results) s

/-- The weighted average of the two vectors on edge `i` (`:276-287`, `:470-481`). -/
noncomputable def weighted (s : Pairs) (i : Nat) : Option V3 := open Classical in
  if s.weight i 0 + s.weight i 1 = 0 then none
  else some (V3.smul (V3.add (V3.smul (s.vec i 0) (s.weight i 0)) (V3.smul (s.vec i 1) (s.weight i 1)))
    (1 / (s.weight i 0 + s.weight i 1)))

/-- `GetTriangleElementField` (`:266-289`): `element_from_edge_model` on a triangle. -/
noncomputable def elementField (m : Mesh) (pos : Pos) (t : Nat) (couple ed : Nat → ℝ) (s : Pairs) : Option (List V3) := do
  let p ← fieldPairs m pos t couple ed s
  [0, 1, 2].mapM (weighted p)

/-- `GetTriangleElementFieldPairs` (`:250-264`): `element_pair_from_edge_model` on a triangle, the vectors of the first and
of the second end of every edge. -/
noncomputable def elementPairs (m : Mesh) (pos : Pos) (t : Nat) (couple ed : Nat → ℝ) (s : Pairs) : Option (List V3 × List V3) := do
  let p ← fieldPairs m pos t couple ed s
  pure ([0, 1, 2].map fun i => p.vec i 0, [0, 1, 2].map fun i => p.vec i 1)

/-- `PopulateEdgeData` (`:59-71`): the values of an edge model on the edges of the triangle. -/
def edgeData (m : Mesh) (t : Nat) (ev : Nat → ℝ) (i : Nat) : ℝ := ev (triangleEdge m t i)

/-- The value on one edge in the right side of the derivative (`:327-347`). -/
def nodeValue (m : Mesh) (e np : Nat) (ev0 ev1 : Nat → ℝ) : ℝ :=
  if edgeNode m e 0 = np then ev0 e else if edgeNode m e 1 = np then ev1 e else 0

/-- `GetDerivativeEdgePairVectors` (`:291-361`), for the derivative by node `ni` of the triangle. -/
noncomputable def derivativePairVectors (m : Mesh) (pos : Pos) (t : Nat) (ev0 ev1 : Nat → ℝ) (ni : Nat) : Option (List V3) :=
  [0, 1, 2].mapM fun mi =>
    let e0 := triangleEdge m t (row0 mi)
    let e1 := triangleEdge m t (row1 mi)
    solve2 (unitVec m pos e0) (unitVec m pos e1) (nodeValue m e0 (triNode m t ni) ev0 ev1) (nodeValue m e1 (triNode m t ni) ev0 ev1)

/-- The number of the derivative for node `nd`, seen from edge `e` (`:394-413`): `0` for the head, `1` for the tail, `2` for
the node across. -/
def derIndex (m : Mesh) (e nd : Nat) : Nat := if edgeNode m e 0 = nd then 0 else if edgeNode m e 1 = nd then 1 else 2

/-- `DerivativeTuplePairs_t` -/
abbrev DPairs := Nat → Pairs

def DPairs.setVec (s : DPairs) (d i k : Nat) (x : V3) (w : ℝ) : DPairs :=
  fun d' => if d' = d then ⟨set2 (s d').vec i k x, set2 (s d').weight i k w⟩ else s d'

/-- One turn of the loops of `GetDerivativeFieldPairs` (`:381-448`), for node `ni` and pair `mi`. -/
noncomputable def dpairStep (m : Mesh) (t : Nat) (couple : Nat → ℝ) (results : List V3) (ni : Nat) (s : DPairs) (mi : Nat) :
    Option DPairs := do
  let nd := triNode m t ni
  let i := row0 mi
  let j := row1 mi
  let np := triNode m t (nodeShared mi)
  let deri := derIndex m (triangleEdge m t i) nd
  let derj := derIndex m (triangleEdge m t j) nd
  let npi ← endOf m (triangleEdge m t i) np
  let npj ← endOf m (triangleEdge m t j) np
  let r := results.getD mi ⟨0, 0, 0⟩
  pure ((s.setVec deri i npi r (couple j)).setVec derj j npj r (couple i))

/-- `GetDerivativeFieldPairs` (`:363-449`); `ev0` and `ev1` are the edge models `model:variable@n0` and
`model:variable@n1`. -/
noncomputable def dfieldPairs (m : Mesh) (pos : Pos) (t : Nat) (couple ev0 ev1 : Nat → ℝ) (s : DPairs) : Option DPairs := do
  let results ← [0, 1, 2].mapM (derivativePairVectors m pos t ev0 ev1)
  [0, 1, 2].foldlM (fun s ni => [0, 1, 2].foldlM (dpairStep m t couple (results.getD ni []) ni) s) s

/-- `GetTriangleElementField` with derivatives (`:455-484`): a list for `@en0`, `@en1`, `@en2`, and in it a vector for each
edge. -/
noncomputable def elementFieldD (m : Mesh) (pos : Pos) (t : Nat) (couple ev0 ev1 : Nat → ℝ) (s : DPairs) :
    Option (List (List V3)) := do
  let p ← dfieldPairs m pos t couple ev0 ev1 s
  [0, 1, 2].mapM fun nd => [0, 1, 2].mapM (weighted (p nd))

/-- `GetTriangleElementFieldPairs` with derivatives (`:486-506`). -/
noncomputable def elementPairsD (m : Mesh) (pos : Pos) (t : Nat) (couple ev0 ev1 : Nat → ℝ) (s : DPairs) :
    Option (List (List V3) × List (List V3)) := do
  let p ← dfieldPairs m pos t couple ev0 ev1 s
  pure ([0, 1, 2].map fun nd => [0, 1, 2].map fun i => (p nd).vec i 0, [0, 1, 2].map fun nd => [0, 1, 2].map fun i => (p nd).vec i 1)

/-- `TriangleEdgeFromNodeModel` (`TriangleEdgeFromNodeModel.cc:33-84`): the values of `model@en0`, `model@en1` and
`model@en2` on edge `j` of triangle `t`. -/
def elementFromNode (m : Mesh) (nv : Nat → ℝ) (t j : Nat) : ℝ × ℝ × ℝ :=
  (nv (edgeNode m (triangleEdge m t j) 0), nv (edgeNode m (triangleEdge m t j) 1), nv (triNode m t j))

/-! ### Solutions -/

/-- The determinant of two vectors in the plane. -/
def det2 (u v : V3) : ℝ := u.x * v.y - u.y * v.x

/-- The scalar product in the plane. -/
def dot2 (u v : V3) : ℝ := u.x * v.x + u.y * v.y

theorem solve2_eq_some {u v : V3} {b0 b1 : ℝ} {w : V3} :
    solve2 u v b0 b1 = some w ↔ det2 u v ≠ 0 ∧ w.z = 0 ∧ dot2 u w = b0 ∧ dot2 v w = b1 := by
  unfold solve2 det2 dot2
  by_cases h : u.x * v.y - u.y * v.x = 0
  · simp [h]
  · rw [if_neg h]
    constructor
    · intro e
      obtain rfl := Option.some.inj e
      refine ⟨h, rfl, ?_, ?_⟩
      · rw [mul_div_assoc', mul_div_assoc', ← add_div, div_eq_iff h]; ring
      · rw [mul_div_assoc', mul_div_assoc', ← add_div, div_eq_iff h]; ring
    · rintro ⟨-, hz, e0, e1⟩
      congr 1
      ext
      · rw [div_eq_iff h]; linear_combination u.y * e1 - v.y * e0
      · rw [div_eq_iff h]; linear_combination v.x * e0 - u.x * e1
      · exact hz.symm

theorem solve2_some {u v : V3} (h : det2 u v ≠ 0) (b0 b1 : ℝ) :
    solve2 u v b0 b1 = some ⟨(b0 * v.y - b1 * u.y) / det2 u v, (u.x * b1 - v.x * b0) / det2 u v, 0⟩ :=
  if_neg h

/-- The solution as a function. -/
noncomputable def sol2 (u v : V3) (b0 b1 : ℝ) : V3 := ⟨(b0 * v.y - b1 * u.y) / det2 u v, (u.x * b1 - v.x * b0) / det2 u v, 0⟩

theorem sol2_spec {u v : V3} (h : det2 u v ≠ 0) (b0 b1 : ℝ) :
    (sol2 u v b0 b1).z = 0 ∧ dot2 u (sol2 u v b0 b1) = b0 ∧ dot2 v (sol2 u v b0 b1) = b1 :=
  (solve2_eq_some.1 (solve2_some h b0 b1)).2

theorem sol2_unique {u v w : V3} {b0 b1 : ℝ} (h : det2 u v ≠ 0) (hz : w.z = 0) (h0 : dot2 u w = b0) (h1 : dot2 v w = b1) :
    sol2 u v b0 b1 = w := by
  have := solve2_eq_some.2 ⟨h, hz, h0, h1⟩
  rw [solve2_some h] at this
  exact Option.some.inj this

/-! ### Closed forms -/

/-- A triangle of a region, its nodes and edges. -/
structure TriOf (m : Mesh) (t a b c : Nat) : Prop where
  nodes : ∀ k, triNode m t k = [a, b, c].getD k 0
  e0 : edgeNode m (triangleEdge m t 0) 0 = b ∧ edgeNode m (triangleEdge m t 0) 1 = c
  e1 : edgeNode m (triangleEdge m t 1) 0 = a ∧ edgeNode m (triangleEdge m t 1) 1 = c
  e2 : edgeNode m (triangleEdge m t 2) 0 = a ∧ edgeNode m (triangleEdge m t 2) 1 = b
  ab : a ≠ b
  ac : a ≠ c
  bc : b ≠ c

theorem triOf {m : Mesh} (h : m.Good) (hc : m.Complete) {t : Nat} (ht : t < m.tris.length) :
    ∃ a b c, TriOf m t a b c := by
  have hE := h.tris _ (List.mem_of_getElem? (nodesOf_get ht))
  have h0 := triangleEdge_spec h hc ht (j := 0) (by omega)
  have h1 := triangleEdge_spec h hc ht (j := 1) (by omega)
  have h2 := triangleEdge_spec h hc ht (j := 2) (by omega)
  obtain ⟨a, b, c, he⟩ : ∃ a b c, nodesOf m.tris t = [a, b, c] := by
    match nodesOf m.tris t, hE.1 with
    | [a, b, c], _ => exact ⟨a, b, c, rfl⟩
  rw [he] at h0 h1 h2 hE
  have hord := hE.2.1
  simp only [List.pairwise_cons, List.mem_cons, List.not_mem_nil, or_false, forall_eq_or_imp, forall_eq,
    false_imp_iff, implies_true, List.Pairwise.nil, and_true] at hord
  refine ⟨a, b, c, fun k => by rw [triNode, he], ?_, ?_, ?_, by omega, by omega, by omega⟩ <;>
    simp [edgeNode, h0, h1, h2]

/-- The unit vector of edge `j` of the triangle. -/
noncomputable def triUnit (m : Mesh) (pos : Pos) (t j : Nat) : V3 := unitVec m pos (triangleEdge m t j)

/-- The vector for the two edges `i` and `j` of the triangle. -/
noncomputable def pairVec (m : Mesh) (pos : Pos) (t : Nat) (ed : Nat → ℝ) (i j : Nat) : V3 :=
  sol2 (triUnit m pos t i) (triUnit m pos t j) (ed i) (ed j)

/-- No two edges of the triangle are parallel. -/
structure Regular (m : Mesh) (pos : Pos) (t : Nat) : Prop where
  d01 : det2 (triUnit m pos t 0) (triUnit m pos t 1) ≠ 0
  d02 : det2 (triUnit m pos t 0) (triUnit m pos t 2) ≠ 0
  d12 : det2 (triUnit m pos t 1) (triUnit m pos t 2) ≠ 0

/-- The vector at each end of each edge. -/
noncomputable def endVec (m : Mesh) (pos : Pos) (t : Nat) (ed : Nat → ℝ) (i k : Nat) : V3 :=
  if i = 0 then (if k = 0 then pairVec m pos t ed 0 2 else pairVec m pos t ed 0 1)
  else if i = 1 then (if k = 0 then pairVec m pos t ed 1 2 else pairVec m pos t ed 0 1)
  else (if k = 0 then pairVec m pos t ed 1 2 else pairVec m pos t ed 0 2)

/-- The weight of each end of each edge: the couple of the other edge at that node. -/
def endWeight (couple : Nat → ℝ) (i k : Nat) : ℝ :=
  if i = 0 then (if k = 0 then couple 2 else couple 1)
  else if i = 1 then (if k = 0 then couple 2 else couple 0)
  else (if k = 0 then couple 1 else couple 0)

theorem edgePairVectors_eq {m : Mesh} {pos : Pos} {t : Nat} (hr : Regular m pos t) (ed : Nat → ℝ) :
    edgePairVectors m pos t ed = some [pairVec m pos t ed 0 1, pairVec m pos t ed 0 2, pairVec m pos t ed 1 2] := by
  have h1 := solve2_some hr.d01 (ed 0) (ed 1)
  have h2 := solve2_some hr.d02 (ed 0) (ed 2)
  have h3 := solve2_some hr.d12 (ed 1) (ed 2)
  unfold triUnit at h1 h2 h3
  simp [edgePairVectors, row0, row1, h1, h2, h3, pairVec, sol2, triUnit]

theorem fieldPairs_eq {m : Mesh} {pos : Pos} {t a b c : Nat} (hT : TriOf m t a b c) (hr : Regular m pos t)
    (couple ed : Nat → ℝ) (s : Pairs) :
    ∃ p, fieldPairs m pos t couple ed s = some p ∧ ∀ i < 3, ∀ k < 2, p.vec i k = endVec m pos t ed i k ∧
      p.weight i k = endWeight couple i k := by
  obtain ⟨hn, ⟨a0, a1⟩, ⟨b0, b1⟩, ⟨c0, c1⟩, ab, ac, bc⟩ := hT
  have e01 : endOf m (triangleEdge m t 0) c = some 1 := by simp [endOf, a0, a1, bc]
  have e02 : endOf m (triangleEdge m t 0) b = some 0 := by simp [endOf, a0]
  have e11 : endOf m (triangleEdge m t 1) c = some 1 := by simp [endOf, b0, b1, ac]
  have e12 : endOf m (triangleEdge m t 1) a = some 0 := by simp [endOf, b0]
  have e21 : endOf m (triangleEdge m t 2) b = some 1 := by simp [endOf, c0, c1, ab]
  have e22 : endOf m (triangleEdge m t 2) a = some 0 := by simp [endOf, c0]
  simp only [fieldPairs, edgePairVectors_eq hr, List.foldlM, pairStep, row0, row1, nodeShared, hn, Option.bind_eq_bind,
    Option.bind_some, List.getD_cons_zero, List.getD_cons_succ, e01, e02, e11, e12, e21, e22, Option.pure_def,
    Option.some.injEq, exists_eq_left']
  intro i hi k hk
  interval_cases i <;> interval_cases k <;> simp [set2, endVec, endWeight]

theorem weighted_congr {p q : Pairs} {i : Nat} (h : ∀ k < 2, p.vec i k = q.vec i k ∧ p.weight i k = q.weight i k) :
    weighted p i = weighted q i := by
  unfold weighted
  rw [(h 0 (by omega)).1, (h 0 (by omega)).2, (h 1 (by omega)).1, (h 1 (by omega)).2]

/-- The weighted average as a function. -/
noncomputable def mean (x y : V3) (wx wy : ℝ) : V3 := V3.smul (V3.add (V3.smul x wx) (V3.smul y wy)) (1 / (wx + wy))

theorem weighted_eq {p : Pairs} {i : Nat} (h : p.weight i 0 + p.weight i 1 ≠ 0) :
    weighted p i = some (mean (p.vec i 0) (p.vec i 1) (p.weight i 0) (p.weight i 1)) := if_neg h

/-- The vector on edge `i`. -/
noncomputable def fieldVec (m : Mesh) (pos : Pos) (t : Nat) (couple ed : Nat → ℝ) (i : Nat) : V3 :=
  mean (endVec m pos t ed i 0) (endVec m pos t ed i 1) (endWeight couple i 0) (endWeight couple i 1)

/-- The weights that `GetTriangleElementField` divides by. -/
def GoodWeights (couple : Nat → ℝ) : Prop := couple 1 + couple 2 ≠ 0 ∧ couple 0 + couple 2 ≠ 0 ∧ couple 0 + couple 1 ≠ 0

theorem GoodWeights.ne {couple : Nat → ℝ} (h : GoodWeights couple) (i : Nat) : endWeight couple i 0 + endWeight couple i 1 ≠ 0 := by
  obtain ⟨h0, h1, h2⟩ := h
  unfold endWeight
  split
  · simpa [add_comm] using h0
  split
  · simpa [add_comm] using h1
  · simpa [add_comm] using h2

theorem elementField_eq {m : Mesh} {pos : Pos} {t a b c : Nat} (hT : TriOf m t a b c) (hr : Regular m pos t)
    {couple : Nat → ℝ} (hw : GoodWeights couple) (ed : Nat → ℝ) (s : Pairs) :
    elementField m pos t couple ed s =
      some [fieldVec m pos t couple ed 0, fieldVec m pos t couple ed 1, fieldVec m pos t couple ed 2] := by
  obtain ⟨p, hp, h⟩ := fieldPairs_eq hT hr couple ed s
  have hk : ∀ i < 3, weighted p i = some (fieldVec m pos t couple ed i) := by
    intro i hi
    rw [weighted_eq (by rw [(h i hi 0 (by omega)).2, (h i hi 1 (by omega)).2]; exact hw.ne i)]
    rw [(h i hi 0 (by omega)).1, (h i hi 0 (by omega)).2, (h i hi 1 (by omega)).1, (h i hi 1 (by omega)).2]
    rfl
  simp [elementField, hp, hk 0, hk 1, hk 2]

theorem elementPairs_eq {m : Mesh} {pos : Pos} {t a b c : Nat} (hT : TriOf m t a b c) (hr : Regular m pos t)
    (couple ed : Nat → ℝ) (s : Pairs) :
    elementPairs m pos t couple ed s =
      some ([0, 1, 2].map fun i => endVec m pos t ed i 0, [0, 1, 2].map fun i => endVec m pos t ed i 1) := by
  obtain ⟨p, hp, h⟩ := fieldPairs_eq hT hr couple ed s
  simp only [elementPairs, hp, Option.bind_eq_bind, Option.bind_some, Option.pure_def, Option.some.injEq, Prod.mk.injEq,
    List.map_cons, List.map_nil, (h 0 (by omega) 0 (by omega)).1, (h 1 (by omega) 0 (by omega)).1, (h 2 (by omega) 0 (by omega)).1,
    (h 0 (by omega) 1 (by omega)).1, (h 1 (by omega) 1 (by omega)).1, (h 2 (by omega) 1 (by omega)).1, and_self]

end Verif.Fields
