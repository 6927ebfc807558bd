import Verif.Fields.TriSpec
import Verif.Geom.Volume3
import Mathlib.LinearAlgebra.Matrix.ToLinearEquiv

/-!
# Fields on tetrahedra

`src/Geometry/TetrahedronElementField.cc`, for the commands `element_from_edge_model`, `element_pair_from_edge_model` and their
derivatives in three dimensions, and `src/models/TetrahedronEdgeFromNodeModel.cc` for `element_from_node_model`.
-/

namespace Verif.Fields

open Verif.Geom

/-! ### Model -/

/-- The determinant of three vectors. -/
def det3 (u v w : V3) : ℝ := V3.dot u (V3.cross v w)

/-- `DenseMatrix` of size three (`DenseMatrix.cc:22-120`): `LUFactor` and `Solve`. As for `solve2`, the factorization is not
modelled: it gives the solution when there is exactly one, and fails (`none`) when the matrix is singular. -/
noncomputable def solve3 (u v w : V3) (b0 b1 b2 : ℝ) : Option V3 := open Classical in
  if det3 u v w = 0 then none
  else some (V3.smul (V3.add (V3.add (V3.smul (V3.cross v w) b0) (V3.smul (V3.cross w u) b1)) (V3.smul (V3.cross u v) b2)) (1 / det3 u v w))

/-- The nodes of a tetrahedron (`Tetrahedron::GetNodeList`). -/
def tetNode (m : Mesh) (t k : Nat) : Nat := (nodesOf m.tets t).getD k 0

/-- The edge number `j` of tetrahedron `t` as an edge of the region. -/
def tetEdgeNo (m : Mesh) (t j : Nat) : Nat := (edgeDataAt m t j).edge

/-- The edges at node `i` of the tetrahedron (`TetrahedronElementField.cc:107-123`), by their number in the tetrahedron:
`edgeIndexes`. -/
def nodeEdges (m : Mesh) (t i : Nat) : List Nat :=
  (List.range ((tables m).tetEdge.getD t []).length).filter fun j =>
    edgeNode m (tetEdgeNo m t j) 0 = tetNode m t i ∨ edgeNode m (tetEdgeNo m t j) 1 = tetNode m t i

/-- `CalcMatrices` (`:70-149`) and the solution for one node in `GetNodeVectors` (`:190-206`); without exactly three edges at the
node the check fails (`:126`). -/
noncomputable def nodeVector (m : Mesh) (pos : Pos) (t : Nat) (ed : Nat → ℝ) (i : Nat) : Option V3 :=
  match nodeEdges m t i with
  | [j0, j1, j2] => solve3 (unitVec m pos (tetEdgeNo m t j0)) (unitVec m pos (tetEdgeNo m t j1)) (unitVec m pos (tetEdgeNo m t j2))
      (ed j0) (ed j1) (ed j2)
  | _ => none

/-- One turn of the loops of `GetFieldPairs` (`:217-246`): node `i` with its vector, edge `j`. -/
def pairStep3 (m : Mesh) (t : Nat) (i : Nat) (val : V3) (s : Nat → Nat → V3) (j : Nat) : Option (Nat → Nat → V3) := do
  let nei ← endOf m (tetEdgeNo m t j) (tetNode m t i)
  pure (set2 s j nei val)

/-- `GetFieldPairs` (`:210-247`); `node_based` is `thread_local` and holds the values of another tetrahedron at the start. -/
noncomputable def fieldPairs3 (m : Mesh) (pos : Pos) (t : Nat) (ed : Nat → ℝ) (s : Nat → Nat → V3) : Option (Nat → Nat → V3) := do
  let vs ← [0, 1, 2, 3].mapM (nodeVector m pos t ed)
  [0, 1, 2, 3].foldlM (fun s i => (nodeEdges m t i).foldlM (pairStep3 m t i (vs.getD i ⟨0, 0, 0⟩)) s) s

/-- The average of the two vectors on an edge (`:257-264`, `:442-451`). -/
noncomputable def half (x y : V3) : V3 := V3.smul (V3.add x y) (1 / 2)

/-- `GetTetrahedronElementField` (`:249-265`): `element_from_edge_model` on a tetrahedron. -/
noncomputable def elementField3 (m : Mesh) (pos : Pos) (t : Nat) (ed : Nat → ℝ) (s : Nat → Nat → V3) : Option (List V3) := do
  let p ← fieldPairs3 m pos t ed s
  pure ((List.range 6).map fun j => half (p j 0) (p j 1))

/-- `GetTetrahedronElementFieldPairs` (`:267-283`): `element_pair_from_edge_model` on a tetrahedron. -/
noncomputable def elementPairs3 (m : Mesh) (pos : Pos) (t : Nat) (ed : Nat → ℝ) (s : Nat → Nat → V3) : Option (List V3 × List V3) := do
  let p ← fieldPairs3 m pos t ed s
  pure ((List.range 6).map fun j => p j 0, (List.range 6).map fun j => p j 1)

/-- `PopulateEdgeData` (`:52-66`) -/
def edgeData3 (m : Mesh) (t : Nat) (ev : Nat → ℝ) (j : Nat) : ℝ := ev (tetEdgeNo m t j)

/-- The right sides of `GetDerivativeNodeVectors` (`:312-342`) for the derivative by node `v`. -/
def dvals3 (m : Mesh) (t : Nat) (ev0 ev1 : Nat → ℝ) (v j : Nat) : ℝ := nodeValue m (tetEdgeNo m t j) v ev0 ev1

/-- `GetDerivativeNodeVectors` (`:285-350`): the derivative by node `jd` of the vector of node `i`. -/
noncomputable def dnodeVector (m : Mesh) (pos : Pos) (t : Nat) (ev0 ev1 : Nat → ℝ) (i jd : Nat) : Option V3 :=
  nodeVector m pos t (dvals3 m t ev0 ev1 (tetNode m t jd)) i

/-- The number of the derivative for node `v`, seen from edge `j` of the tetrahedron (`:394-415`). -/
def derIndex3 (m : Mesh) (t j v : Nat) : Option Nat :=
  if edgeNode m (tetEdgeNo m t j) 0 = v then some 0
  else if edgeNode m (tetEdgeNo m t j) 1 = v then some 1
  else if (edgeDataAt m t j).opp.getD 0 none = some v then some 2
  else if (edgeDataAt m t j).opp.getD 1 none = some v then some 3
  else none

/-- Writing one entry of `DerivativeVectorPairs_t`. -/
def set3 {α : Type} (a : Nat → Nat → Nat → α) (d i k : Nat) (x : α) : Nat → Nat → Nat → α :=
  fun d' i' k' => if d' = d ∧ i' = i ∧ k' = k then x else a d' i' k'

/-- One turn of the loops of `GetDerivativeFieldPairs` (`:368-434`): node `i`, derivative by node `jd`, edge `j`. -/
def dpairStep3 (m : Mesh) (t i jd : Nat) (val : V3) (s : Nat → Nat → Nat → V3) (j : Nat) : Option (Nat → Nat → Nat → V3) := do
  let nd ← derIndex3 m t j (tetNode m t jd)
  let nei ← endOf m (tetEdgeNo m t j) (tetNode m t i)
  pure (set3 s nd j nei val)

/-- `GetDerivativeFieldPairs` (`:351-435`) -/
noncomputable def dfieldPairs3 (m : Mesh) (pos : Pos) (t : Nat) (ev0 ev1 : Nat → ℝ) (s : Nat → Nat → Nat → V3) :
    Option (Nat → Nat → Nat → V3) := do
  let vs ← [0, 1, 2, 3].mapM fun i => [0, 1, 2, 3].mapM (dnodeVector m pos t ev0 ev1 i)
  [0, 1, 2, 3].foldlM (fun s i => [0, 1, 2, 3].foldlM (fun s jd =>
    (nodeEdges m t i).foldlM (dpairStep3 m t i jd ((vs.getD i []).getD jd ⟨0, 0, 0⟩)) s) s) s

/-- `GetTetrahedronElementField` with derivatives (`:437-458`): a list for `@en0` to `@en3`, and in it a vector for each edge. -/
noncomputable def elementFieldD3 (m : Mesh) (pos : Pos) (t : Nat) (ev0 ev1 : Nat → ℝ) (s : Nat → Nat → Nat → V3) : Option (List (List V3)) := do
  let p ← dfieldPairs3 m pos t ev0 ev1 s
  pure ((List.range 4).map fun nd => (List.range 6).map fun j => half (p nd j 0) (p nd j 1))

/-- `GetTetrahedronElementFieldPairs` with derivatives (`:460-477`). -/
noncomputable def elementPairsD3 (m : Mesh) (pos : Pos) (t : Nat) (ev0 ev1 : Nat → ℝ) (s : Nat → Nat → Nat → V3) :
    Option (List (List V3) × List (List V3)) := do
  let p ← dfieldPairs3 m pos t ev0 ev1 s
  pure ((List.range 4).map fun nd => (List.range 6).map fun j => p nd j 0, (List.range 4).map fun nd => (List.range 6).map fun j => p nd j 1)

/-- `TetrahedronEdgeFromNodeModel` (`TetrahedronEdgeFromNodeModel.cc:40-97`): the values of `model@en0` to `model@en3` on edge `j` of
tetrahedron `t`; a missing node (null pointer) is not modelled. -/
def elementFromNode3 (m : Mesh) (nv : Nat → ℝ) (t j : Nat) : ℝ × ℝ × ℝ × ℝ :=
  (nv (edgeNode m (tetEdgeNo m t j) 0), nv (edgeNode m (tetEdgeNo m t j) 1), nv (((edgeDataAt m t j).opp.getD 0 none).getD 0),
    nv (((edgeDataAt m t j).opp.getD 1 none).getD 0))

/-! ### Specification -/

/-- The tetrahedron has a volume. -/
def GoodTet (m : Mesh) (pos : Pos) (t : Nat) : Prop :=
  det4 (corner4 m pos t 0) (corner4 m pos t 1) (corner4 m pos t 2) (corner4 m pos t 3) ≠ 0

/-- The unit vector of edge `j` of the tetrahedron. -/
noncomputable def tetUnit (m : Mesh) (pos : Pos) (t j : Nat) : V3 := unitVec m pos (tetEdgeNo m t j)

/-- The node of edge `j` of tetrahedron `t` that belongs to `@en0` (first node of the edge), `@en1` (second node), `@en2` and `@en3`
(the two nodes that are not on the edge). -/
def localNode3 (m : Mesh) (t j nd : Nat) : Nat :=
  if nd = 0 then edgeNode m (tetEdgeNo m t j) 0 else if nd = 1 then edgeNode m (tetEdgeNo m t j) 1
  else ((edgeDataAt m t j).opp.getD (nd - 2) none).getD 0

/-! ### Solutions -/

theorem solve3_spec {u v w : V3} (h : det3 u v w ≠ 0) (b0 b1 b2 : ℝ) :
    ∃ x, solve3 u v w b0 b1 b2 = some x ∧ V3.dot u x = b0 ∧ V3.dot v x = b1 ∧ V3.dot w x = b2 := by
  refine ⟨_, if_neg h, ?_, ?_, ?_⟩ <;>
  · simp only [det3, V3.dot, V3.cross, V3.smul, V3.add] at h ⊢
    rw [← mul_assoc, ← mul_assoc, ← mul_assoc, ← add_mul, ← add_mul, mul_one_div, div_eq_iff h]
    ring

/-- A singular system has a solution of the homogeneous system other than zero. -/
theorem kernel_of_det3 {u v w : V3} (h : det3 u v w = 0) :
    ∃ x : V3, x ≠ ⟨0, 0, 0⟩ ∧ V3.dot u x = 0 ∧ V3.dot v x = 0 ∧ V3.dot w x = 0 := by
  let M : Matrix (Fin 3) (Fin 3) ℝ := !![u.x, u.y, u.z; v.x, v.y, v.z; w.x, w.y, w.z]
  have hM : M.det = 0 := by
    rw [Matrix.det_fin_three]
    simp only [M, det3, V3.dot, V3.cross] at h ⊢
    simp
    linarith
  obtain ⟨y, hy, e⟩ := Matrix.exists_mulVec_eq_zero_iff.2 hM
  have e0 := congrFun e 0
  have e1 := congrFun e 1
  have e2 := congrFun e 2
  simp [M, Matrix.mulVec, dotProduct, Fin.sum_univ_three] at e0 e1 e2
  refine ⟨⟨y 0, y 1, y 2⟩, fun h0 => hy ?_, ?_, ?_, ?_⟩
  · simp only [V3.mk.injEq] at h0
    funext k
    fin_cases k
    · exact h0.1
    · exact h0.2.1
    · exact h0.2.2
  · simpa [V3.dot] using e0
  · simpa [V3.dot] using e1
  · simpa [V3.dot] using e2

/-- A vector that is perpendicular to the three sides of a tetrahedron at a corner is zero. -/
theorem perp_zero {a b c d x : V3} (h : det4 a b c d ≠ 0) (hb : V3.dot x (V3.sub b a) = 0) (hc : V3.dot x (V3.sub c a) = 0)
    (hd : V3.dot x (V3.sub d a) = 0) : x = ⟨0, 0, 0⟩ := by
  unfold det4 at h
  generalize V3.sub b a = u at *
  generalize V3.sub c a = v at *
  generalize V3.sub d a = w at *
  simp only [V3.dot, V3.cross] at *
  ext
  · refine mul_left_cancel₀ h ?_
    linear_combination (v.y * w.z - v.z * w.y) * hb + (w.y * u.z - w.z * u.y) * hc + (u.y * v.z - u.z * v.y) * hd
  · refine mul_left_cancel₀ h ?_
    linear_combination (v.z * w.x - v.x * w.z) * hb + (w.z * u.x - w.x * u.z) * hc + (u.z * v.x - u.x * v.z) * hd
  · refine mul_left_cancel₀ h ?_
    linear_combination (v.x * w.y - v.y * w.x) * hb + (w.x * u.y - w.y * u.x) * hc + (u.x * v.y - u.y * v.x) * hd

/-! ### The edges of a tetrahedron -/

/-- A tetrahedron with its nodes: its edges are the six pairs of nodes, in some order. -/
structure TetOf (m : Mesh) (t a b c d : Nat) : Prop where
  nodes : nodesOf m.tets t = [a, b, c, d]
  ab : a < b
  bc : b < c
  cd : c < d
  perm : (((tables m).tetEdge.getD t []).map fun x => nodesOf m.edges x.edge).Perm [[a, b], [a, c], [a, d], [b, c], [b, d], [c, d]]

theorem tetOf {m : Mesh} (h : m.Good) (hc : m.Complete) {t : Nat} (ht : t < m.tets.length) : ∃ a b c d, TetOf m t a b c d := by
  have htt := nodesOf_get ht
  have hE := h.tets _ (List.mem_of_getElem? htt)
  obtain ⟨a, b, c, d, he⟩ : ∃ a b c d, nodesOf m.tets t = [a, b, c, d] := by
    match nodesOf m.tets t, hE.1 with
    | [a, b, c, d], _ => exact ⟨a, b, c, d, rfl⟩
  rw [he] at hE htt
  have hord := hE.2.1
  simp only [List.pairwise_cons, List.mem_cons, List.not_mem_nil, or_false, forall_eq_or_imp, forall_eq,
    false_imp_iff, implies_true, List.Pairwise.nil, and_true] at hord
  refine ⟨a, b, c, d, he, by omega, by omega, by omega, ?_⟩
  obtain ⟨h1, h2⟩ := tet_edges h htt
  have hcomp : (((tables m).tetEdge.getD t []).map fun x => nodesOf m.edges x.edge) =
      (((tables m).tetEdge.getD t []).map (·.edge)).map (nodesOf m.edges) := by rw [List.map_map]; rfl
  rw [hcomp]
  have hmem : ∀ i ∈ ((tables m).tetEdge.getD t []).map (·.edge), i < m.edges.length := fun i hi => by
    obtain ⟨s, hs, -⟩ := (h2 i).1 hi
    exact (List.getElem?_eq_some_iff.1 hs).1
  rw [List.perm_ext_iff_of_nodup]
  · intro s
    rw [List.mem_map]
    constructor
    · rintro ⟨i, hi, rfl⟩
      obtain ⟨s, hs, hsub⟩ := (h2 i).1 hi
      have hS := h.edges s (List.mem_of_getElem? hs)
      rw [(get_nodesOf hs).1]
      obtain ⟨x, y, rfl⟩ : ∃ x y, s = [x, y] := by
        match s, hS.1 with
        | [x, y], _ => exact ⟨x, y, rfl⟩
      have hxy := hS.2.1
      simp only [List.pairwise_cons, List.mem_cons, List.not_mem_nil, or_false, forall_eq_or_imp, forall_eq,
        false_imp_iff, implies_true, List.Pairwise.nil, and_true] at hxy hsub
      obtain ⟨hx, hy⟩ := hsub
      simp only [List.mem_cons, List.cons.injEq, and_true, List.not_mem_nil, or_false]
      rcases hx with rfl | rfl | rfl | rfl <;> rcases hy with rfl | rfl | rfl | rfl <;>
        first | (exfalso; omega) | simp
    · intro hs
      have hin : s ∈ m.edges ∧ ∀ v ∈ s, v ∈ [a, b, c, d] := by
        have k : ∀ j < 4, ∀ k < 3, (([a, b, c, d] : List Nat).eraseIdx j).eraseIdx k ∈ m.edges := fun j hj k hk =>
          hc.tris _ (hc.tets _ (List.mem_of_getElem? htt) j hj) k hk
        simp only [List.mem_cons, List.not_mem_nil, or_false] at hs
        rcases hs with rfl | rfl | rfl | rfl | rfl | rfl
        · exact ⟨k 3 (by omega) 2 (by omega), by simp⟩
        · exact ⟨k 3 (by omega) 1 (by omega), by simp⟩
        · exact ⟨k 2 (by omega) 1 (by omega), by simp⟩
        · exact ⟨k 3 (by omega) 0 (by omega), by simp⟩
        · exact ⟨k 2 (by omega) 0 (by omega), by simp⟩
        · exact ⟨k 1 (by omega) 0 (by omega), by simp⟩
      obtain ⟨i, hi⟩ := List.mem_iff_getElem?.1 hin.1
      exact ⟨i, (h2 i).2 ⟨s, hi, hin.2⟩, (get_nodesOf hi).1⟩
  · refine List.Nodup.map_on (fun i hi j hj e => ?_) (h1.imp fun h => ne_of_lt h)
    have hi' := nodesOf_get (hmem i hi)
    have hj' := nodesOf_get (hmem j hj)
    rw [e, ← hj'] at hi'
    exact (List.getElem?_inj (hmem i hi) h.nodupEdges).1 hi'
  · have n1 : a ≠ b := by omega
    have n2 : a ≠ c := by omega
    have n3 : b ≠ c := by omega
    have n4 : b ≠ d := by omega
    have n5 : c ≠ d := by omega
    simp [n1, n2, n3, n4, n5]

end Verif.Fields
