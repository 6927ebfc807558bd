import Verif.Geom.Finalize
import Mathlib.Data.Real.Basic
import Mathlib.Tactic.Ring
import Mathlib.Algebra.BigOperators.Group.List.Basic
import Mathlib.Algebra.BigOperators.Ring.Finset
import Mathlib.Algebra.BigOperators.Fin

/-!
# Sums over the elements of a region

What is added up over the edges of a node and the elements of an edge.
-/

namespace Verif.Geom

open Finset

/-! ### Model -/

/-- `TriangleEdgeModel::GetValuesOnEdges` (`TriangleEdgeModel.cc:303-328`): for each edge the sum of the values
of its triangles. `size_t(-1)` as a position is not modelled: the value is then that of position 3. -/
noncomputable def onEdges (T : Tables) (f : Nat → Nat → ℝ) (i : Nat) : ℝ :=
  (T.edgeTri.getD i []).foldl (fun vol t => vol + f t ((edgeIndexOnTriangle T t i).getD 3)) 0

/-- `TetrahedronEdgeModel::GetValuesOnEdges` (`TetrahedronEdgeModel.cc:311-336`) -/
noncomputable def onEdges3 (T : Tables) (f : Nat → Nat → ℝ) (i : Nat) : ℝ :=
  (T.edgeTet.getD i []).foldl (fun vol t => vol + f t ((edgeIndexOnTetrahedron T t i).getD 6)) 0

/-- The sum over the edges of a node: `NodeVolume::calcNodeScalarValues` (`NodeVolume.cc:28-56`). -/
noncomputable def onNodes (T : Tables) (g : Nat → ℝ) (v : Nat) : ℝ :=
  (T.nodeEdge.getD v []).foldl (fun vol i => vol + g i) 0

/-! ### Theorems -/

theorem foldl_add_eq {α : Type} (l : List α) (g : α → ℝ) (a : ℝ) : l.foldl (fun acc x => acc + g x) a = a + (l.map g).sum := by
  induction l generalizing a with
  | nil => simp
  | cons x l ih => rw [List.foldl_cons, ih, List.map_cons, List.sum_cons]; ring

theorem sum_list {l : List Nat} {N : Nat} {P : Nat → Prop} [DecidablePred P] (hnd : l.Nodup)
    (hm : ∀ i, i ∈ l ↔ i < N ∧ P i) (g : Nat → ℝ) :
    (l.map g).sum = ∑ i ∈ range N, if P i then g i else 0 := by
  rw [← List.sum_toFinset g hnd, ← Finset.sum_filter]
  refine Finset.sum_congr ?_ fun _ _ => rfl
  ext i
  simp [hm]

/-- The nodes of element `i`. -/
def nodesOf (els : List Elem) (i : Nat) : Elem := els.getD i []

theorem nodesOf_get {els : List Elem} {i : Nat} (hi : i < els.length) : els[i]? = some (nodesOf els i) := by
  rw [nodesOf, List.getD_eq_getElem?_getD, List.getElem?_eq_getElem hi]; rfl

theorem get_nodesOf {els : List Elem} {i : Nat} {e : Elem} (h : els[i]? = some e) : nodesOf els i = e ∧ i < els.length := by
  refine ⟨?_, (List.getElem?_eq_some_iff.1 h).1⟩
  rw [nodesOf, List.getD_eq_getElem?_getD, h]; rfl

theorem exists_get {els : List Elem} {i : Nat} {Q : Elem → Prop} :
    (∃ e, els[i]? = some e ∧ Q e) ↔ i < els.length ∧ Q (nodesOf els i) := by
  constructor
  · rintro ⟨e, he, hq⟩
    obtain ⟨h1, h2⟩ := get_nodesOf he
    exact ⟨h2, by rw [h1]; exact hq⟩
  · rintro ⟨h, hq⟩
    exact ⟨_, nodesOf_get h, hq⟩

/-- **Every edge counts for its two nodes**: the sum over all nodes is twice the sum over all edges. -/
theorem sum_onNodes {m : Mesh} (h : m.Good) (g : Nat → ℝ) :
    ∑ v ∈ range m.n, onNodes (tables m) g v = 2 * ∑ i ∈ range m.edges.length, g i := by
  have h1 : ∀ v ∈ range m.n, onNodes (tables m) g v =
      ∑ i ∈ range m.edges.length, if v ∈ nodesOf m.edges i then g i else 0 := by
    intro v hv
    obtain ⟨h1, h2⟩ := node_edges h (mem_range.1 hv)
    rw [onNodes, foldl_add_eq, zero_add]
    exact sum_list (h1.imp fun h => ne_of_lt h) (fun i => (h2 i).trans exists_get) g
  rw [sum_congr rfl h1, sum_comm, mul_sum]
  refine sum_congr rfl fun i hi => ?_
  have hE := h.edges _ (List.mem_of_getElem? (nodesOf_get (mem_range.1 hi)))
  generalize nodesOf m.edges i = e at hE
  obtain ⟨a, b, rfl⟩ : ∃ a b, e = [a, b] := by
    match e, hE.1 with
    | [a, b], _ => exact ⟨a, b, rfl⟩
  have hab : a < b := by simpa using hE.2.1
  have ha : a < m.n := hE.2.2 a (by simp)
  have hb : b < m.n := hE.2.2 b (by simp)
  have : ∀ v ∈ range m.n, (if v ∈ [a, b] then g i else 0) = (if v = a then g i else 0) + if v = b then g i else 0 := by
    intro v _
    by_cases h1 : v = a
    · have : v ≠ b := by omega
      simp [h1, show a ≠ b by omega]
    · simp [h1]
  rw [sum_congr rfl this, sum_add_distrib, sum_ite_eq' , sum_ite_eq']
  rw [if_pos (mem_range.2 ha), if_pos (mem_range.2 hb)]
  ring

/-- **Each edge**: the sum over the triangles of which it is a side. -/
theorem onEdges_eq {m : Mesh} (h : m.Good) (f : Nat → Nat → ℝ) {i : Nat} (hi : i < m.edges.length) :
    onEdges (tables m) f i = ∑ t ∈ range m.tris.length, ∑ j ∈ range 3,
      if nodesOf m.edges i = (nodesOf m.tris t).eraseIdx j then f t j else 0 := by
  have hi := mem_range.2 hi
  have h1 : onEdges (tables m) f i =
      ∑ t ∈ range m.tris.length, if ∀ v ∈ nodesOf m.edges i, v ∈ nodesOf m.tris t then
        f t ((edgeIndexOnTriangle (tables m) t i).getD 3) else 0 := by
    obtain ⟨h1, h2⟩ := edge_tris h (nodesOf_get (mem_range.1 hi))
    rw [onEdges, foldl_add_eq, zero_add]
    exact sum_list (h1.imp fun h => ne_of_lt h) (fun t => (h2 t).trans exists_get) _
  rw [h1]
  refine sum_congr rfl fun t ht => ?_
  have htt := nodesOf_get (mem_range.1 ht)
  have hE := h.tris _ (List.mem_of_getElem? htt)
  have hii := nodesOf_get (mem_range.1 hi)
  have hS := h.edges _ (List.mem_of_getElem? hii)
  have key := edgeIndexOnTriangle_iff h htt hii
  by_cases hsub : ∀ v ∈ nodesOf m.edges i, v ∈ nodesOf m.tris t
  · rw [if_pos hsub]
    have hex : ∃ j, (nodesOf m.tris t).findIdx? (· ∉ nodesOf m.edges i) = some j := by
      cases hf : (nodesOf m.tris t).findIdx? (· ∉ nodesOf m.edges i) with
      | some j => exact ⟨j, rfl⟩
      | none =>
        rw [List.findIdx?_eq_none_iff] at hf
        have hsub' : nodesOf m.tris t ⊆ nodesOf m.edges i := by
          intro v hv; simpa using hf v hv
        have := (List.subperm_of_subset (hE.2.1.imp fun h => ne_of_lt h) hsub').length_le
        rw [hE.1, hS.1] at this
        omega
    obtain ⟨j, hj⟩ := hex
    obtain ⟨hj1, hj2⟩ := (missing_one hS.2.1 hE.2.1 (by rw [hE.1, hS.1]) j).1 ⟨hsub, hj⟩
    rw [hE.1] at hj1
    have hidx := (key j).2 ⟨hj1, hj2⟩
    rw [hidx, Option.getD_some, Finset.sum_eq_single j]
    · rw [if_pos hj2]
    · intro j' hj' hne
      rw [if_neg]
      intro hc
      have := (key j').2 ⟨mem_range.1 hj', hc⟩
      rw [hidx] at this
      exact hne (Option.some.inj this).symm
    · intro hn; exact absurd (mem_range.2 hj1) hn
  · rw [if_neg hsub]
    symm
    refine sum_eq_zero fun j _ => ?_
    rw [if_neg]
    intro hc
    apply hsub
    intro v hv
    rw [hc] at hv
    exact List.mem_of_mem_eraseIdx hv

/-- **Every side of every triangle counts once.** -/
theorem sum_onEdges {m : Mesh} (h : m.Good) (hc : m.Complete) (f : Nat → Nat → ℝ) :
    ∑ i ∈ range m.edges.length, onEdges (tables m) f i = ∑ t ∈ range m.tris.length, ∑ j ∈ range 3, f t j := by
  rw [sum_congr rfl fun i hi => onEdges_eq h f (mem_range.1 hi), sum_comm]
  refine sum_congr rfl fun t ht => ?_
  have htt := nodesOf_get (mem_range.1 ht)
  rw [sum_comm]
  refine sum_congr rfl fun j hj => ?_
  obtain ⟨i, hi⟩ := List.mem_iff_getElem?.1 (hc.tris _ (List.mem_of_getElem? htt) j (mem_range.1 hj))
  obtain ⟨g1, g2⟩ := get_nodesOf hi
  rw [Finset.sum_eq_single i]
  · rw [if_pos g1]
  · intro i' hi' hne
    rw [if_neg]
    intro hc
    have := nodesOf_get (mem_range.1 hi')
    rw [hc] at this
    obtain ⟨hl, e1⟩ := List.getElem?_eq_some_iff.1 hi
    obtain ⟨hl', e2⟩ := List.getElem?_eq_some_iff.1 this
    exact hne ((List.Nodup.getElem_inj_iff h.nodupEdges).1 (e2.trans e1.symm))
  · intro hn; exact absurd (mem_range.2 g2) hn

theorem sum_range_getElem (l : List ℝ) : l.sum = ∑ k ∈ range l.length, l.getD k 0 := by
  induction l with
  | nil => simp
  | cons a l ih =>
    rw [List.sum_cons, List.length_cons, Finset.sum_range_succ', ih]
    simp [add_comm]

/-- **Every edge of every tetrahedron counts once.** -/
theorem sum_onEdges3 {m : Mesh} (h : m.Good) (f : Nat → Nat → ℝ) :
    ∑ i ∈ range m.edges.length, onEdges3 (tables m) f i =
      ∑ t ∈ range m.tets.length, ∑ k ∈ range ((tables m).tetEdge.getD t []).length, f t k := by
  have h1 : ∀ i ∈ range m.edges.length, onEdges3 (tables m) f i =
      ∑ t ∈ range m.tets.length, if ∀ v ∈ nodesOf m.edges i, v ∈ nodesOf m.tets t then
        f t ((edgeIndexOnTetrahedron (tables m) t i).getD 6) else 0 := by
    intro i hi
    obtain ⟨h1, h2⟩ := edge_tets h (nodesOf_get (mem_range.1 hi))
    rw [onEdges3, foldl_add_eq, zero_add]
    exact sum_list (h1.imp fun h => ne_of_lt h) (fun t => (h2 t).trans exists_get) _
  rw [sum_congr rfl h1, sum_comm]
  refine sum_congr rfl fun t ht => ?_
  have htt := nodesOf_get (mem_range.1 ht)
  obtain ⟨h2, h3⟩ := tet_edges h htt
  have hnd : (((tables m).tetEdge.getD t []).map (·.edge)).Nodup := h2.imp fun h => ne_of_lt h
  rw [← sum_list hnd (fun i => (h3 i).trans exists_get) (fun i => f t ((edgeIndexOnTetrahedron (tables m) t i).getD 6))]
  rw [sum_range_getElem, List.length_map, List.length_map]
  refine sum_congr rfl fun k hk => ?_
  have hk := mem_range.1 hk
  unfold edgeIndexOnTetrahedron
  generalize (tables m).tetEdge.getD t [] = L at hnd hk ⊢
  have hf : L.findIdx? (fun x => x.edge == L[k].edge) = some k := by
    rw [List.findIdx?_eq_some_iff_getElem]
    refine ⟨hk, by simp, ?_⟩
    intro j hj
    simp only [beq_iff_eq]
    intro hc
    have h1 : (L.map (·.edge))[j]'(by simp; omega) = (L.map (·.edge))[k]'(by simpa using hk) := by simpa using hc
    have := (List.Nodup.getElem_inj_iff hnd).1 h1
    omega
  rw [List.getD_eq_getElem?_getD, List.map_map, List.getElem?_map, List.getElem?_eq_getElem hk]
  simp only [Option.map_some, Option.getD_some, Function.comp]
  rw [hf]; rfl

end Verif.Geom
