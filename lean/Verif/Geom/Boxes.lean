import Verif.Geom.Volume3

/-!
# The box of an edge

The volume an edge gives to each of its nodes is the product of its length and its couple, divided by twice the
dimension; the volume of a node is the sum over its edges.
-/

namespace Verif.Geom

open Finset

/-- `EdgeCouple` in three dimensions (`EdgeCouple.cc:69-76`) -/
noncomputable def edgeCouple3 (eps : ℝ) (m : Mesh) (pos : Pos) (i : Nat) : ℝ :=
  onEdges3 (tables m) (elementEdgeCouple3 eps m pos) i

/-- The position of an edge in each of its triangles is that of the edge. -/
theorem triangleEdge_index {m : Mesh} (h : m.Good) {i t : Nat} (hi : i < m.edges.length)
    (ht : t ∈ (tables m).edgeTri.getD i []) : triangleEdge m t ((edgeIndexOnTriangle (tables m) t i).getD 3) = i := by
  have hii := nodesOf_get hi
  obtain ⟨e, he, hsub⟩ := ((edge_tris h hii).2 t).1 ht
  have hE := h.tris _ (List.mem_of_getElem? he)
  have hS := h.edges _ (List.mem_of_getElem? hii)
  have key := edgeIndexOnTriangle_iff h he hii
  have hex : ∃ j, e.findIdx? (· ∉ nodesOf m.edges i) = some j := by
    cases hf : e.findIdx? (· ∉ nodesOf m.edges i) with
    | some j => exact ⟨j, rfl⟩
    | none =>
      rw [List.findIdx?_eq_none_iff] at hf
      have hsub' : e ⊆ nodesOf m.edges i := by
        intro v hv; simpa using hf v hv
      have := (List.subperm_of_subset (hE.2.1.imp fun h => ne_of_lt h) hsub').length_le
      rw [hE.1, hS.1] at this
      omega
  obtain ⟨j, hj⟩ := hex
  obtain ⟨hj1, hj2⟩ := (missing_one hS.2.1 hE.2.1 (by rw [hE.1, hS.1]) j).1 ⟨hsub, hj⟩
  rw [hE.1] at hj1
  rw [(key j).2 ⟨hj1, hj2⟩, Option.getD_some, triangleEdge, (tri_edges h he hj1 i).2 (by rw [hii, hj2])]
  rfl

theorem onEdges_congr {T : Tables} {f g : Nat → Nat → ℝ} {i : Nat} {c : ℝ}
    (h : ∀ t ∈ T.edgeTri.getD i [], f t ((edgeIndexOnTriangle T t i).getD 3) = c * g t ((edgeIndexOnTriangle T t i).getD 3)) :
    onEdges T f i = c * onEdges T g i := by
  simp only [onEdges, foldl_add_eq, zero_add]
  rw [← List.sum_map_mul_left]
  congr 1
  exact List.map_congr_left h

/-- **Boxes in two dimensions** -/
theorem edgeNodeVolume_2d (eps : ℝ) {m : Mesh} (h : m.Good) (hd : m.dim ≠ 1) (pos : Pos) {i : Nat} (hi : i < m.edges.length) :
    edgeNodeVolume eps m pos i = edgeLength m pos i * edgeCouple eps m pos i / 4 := by
  simp only [edgeNodeVolume, edgeCouple, if_neg hd]
  rw [onEdges_congr (c := edgeLength m pos i / 4) (g := elementEdgeCouple eps m pos)]
  · ring
  · intro t ht
    rw [elementNodeVolume, triangleEdge_index h hi ht]
    ring

/-- **Boxes in one dimension** -/
theorem edgeNodeVolume_1d (eps : ℝ) {m : Mesh} (hd : m.dim = 1) (pos : Pos) (i : Nat) :
    edgeNodeVolume eps m pos i = edgeLength m pos i / 2 := by
  simp only [edgeNodeVolume, edgeCouple, if_pos hd]; ring

theorem edgeDataAt_index {m : Mesh} (h : m.Good) {i t : Nat} (hi : i < m.edges.length)
    (ht : t ∈ (tables m).edgeTet.getD i []) : (edgeDataAt m t ((edgeIndexOnTetrahedron (tables m) t i).getD 6)).edge = i := by
  have hii := nodesOf_get hi
  obtain ⟨e, he, hsub⟩ := ((edge_tets h hii).2 t).1 ht
  have hm := ((tet_edges h he).2 i).2 ⟨_, hii, hsub⟩
  unfold edgeDataAt edgeIndexOnTetrahedron
  generalize (tables m).tetEdge.getD t [] = L at hm ⊢
  obtain ⟨d, hdL, hde⟩ := List.mem_map.1 hm
  cases hf : L.findIdx? (fun x => x.edge == i) with
  | none =>
    rw [List.findIdx?_eq_none_iff] at hf
    have := hf d hdL
    simp [hde] at this
  | some k =>
    obtain ⟨hk, h1, -⟩ := List.findIdx?_eq_some_iff_getElem.1 hf
    rw [Option.getD_some, List.getD_eq_getElem?_getD, List.getElem?_eq_getElem hk, Option.getD_some]
    simpa using h1

/-- **Boxes in three dimensions** -/
theorem edgeNodeVolume_3d (eps : ℝ) {m : Mesh} (h : m.Good) (pos : Pos) {i : Nat} (hi : i < m.edges.length) :
    edgeNodeVolume3 eps m pos i = edgeLength m pos i * edgeCouple3 eps m pos i / 6 := by
  simp only [edgeNodeVolume3, edgeCouple3, onEdges3, foldl_add_eq, zero_add]
  have : edgeLength m pos i * (((tables m).edgeTet.getD i []).map fun x => elementEdgeCouple3 eps m pos x
      ((edgeIndexOnTetrahedron (tables m) x i).getD 6)).sum / 6 = (edgeLength m pos i / 6) *
      (((tables m).edgeTet.getD i []).map fun x => elementEdgeCouple3 eps m pos x
        ((edgeIndexOnTetrahedron (tables m) x i).getD 6)).sum := by ring
  rw [this, ← List.sum_map_mul_left]
  congr 1
  refine List.map_congr_left fun t ht => ?_
  rw [elementNodeVolume3, edgeDataAt_index h hi ht]
  ring

/-- **Volume of a node**: the sum over its edges. -/
theorem nodeVolume_edges (eps : ℝ) {m : Mesh} (h : m.Good) (pos : Pos) {v : Nat} (hv : v < m.n) :
    nodeVolume eps m pos v = ∑ i ∈ range m.edges.length, if v ∈ nodesOf m.edges i then edgeNodeVolume eps m pos i else 0 := by
  obtain ⟨h1, h2⟩ := node_edges h hv
  rw [nodeVolume, onNodes, foldl_add_eq, zero_add]
  exact sum_list (h1.imp fun h => ne_of_lt h) (fun i => (h2 i).trans exists_get) _

theorem nodeVolume3_edges (eps : ℝ) {m : Mesh} (h : m.Good) (pos : Pos) {v : Nat} (hv : v < m.n) :
    nodeVolume3 eps m pos v = ∑ i ∈ range m.edges.length, if v ∈ nodesOf m.edges i then edgeNodeVolume3 eps m pos i else 0 := by
  obtain ⟨h1, h2⟩ := node_edges h hv
  rw [nodeVolume3, onNodes, foldl_add_eq, zero_add]
  exact sum_list (h1.imp fun h => ne_of_lt h) (fun i => (h2 i).trans exists_get) _

end Verif.Geom
