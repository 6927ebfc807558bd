import Verif.Cyl.Region

/-!
# Areas of boxes and of boundaries
-/

namespace Verif.Cyl
open Verif.Geom Finset

/-- Both points are on one side of the axis (or on it). -/
def OneSide (r1 r2 : ℝ) : Prop := (0 ≤ r1 ∧ 0 ≤ r2) ∨ (r1 ≤ 0 ∧ r2 ≤ 0)

theorem mag_sub_comm (p q : V3) : V3.mag (V3.sub p q) = V3.mag (V3.sub q p) := by
  simp only [V3.mag, V3.dot, V3.sub]; congr 1; ring

/-- **The face between two boxes**: what an edge gets from a triangle is the surface that the segment from the center of the triangle to
the mid point of the edge makes when it turns around the axis. -/
theorem element_couple {eps : ℝ} {m : Mesh} {pos : Pos} {ax : Axis} {r0 : ℝ} {t j : ℕ}
    (h : OneSide (radius ax r0 (triangleCenter eps m pos t)) (radius ax r0 (edgeCenter m pos (triangleEdge m t j)))) :
    elementEdgeCouple eps m pos ax r0 t j =
      sweep (radius ax r0 (triangleCenter eps m pos t)) (radius ax r0 (edgeCenter m pos (triangleEdge m t j)))
        (V3.mag (V3.sub (triangleCenter eps m pos t) (edgeCenter m pos (triangleEdge m t j)))) := by
  rw [sweep_eq h, elementEdgeCouple, abs_mul, abs_mul, abs_of_pos Real.pi_pos, abs_of_nonneg (V3.mag_nonneg _), mag_sub_comm]

/-- The face of edge `i` in triangle `t`: from the center of the circle to the mid point of the edge. -/
noncomputable def face (eps : ℝ) (m : Mesh) (pos : Pos) (ax : Axis) (r0 : ℝ) (t i : ℕ) : ℝ :=
  sweep (radius ax r0 (triangleCenter eps m pos t)) (radius ax r0 (edgeCenter m pos i))
    (V3.mag (V3.sub (triangleCenter eps m pos t) (edgeCenter m pos i)))

/-- **`CylindricalEdgeCouple`**: the faces of the edge in all the triangles that have it as a side. -/
theorem edge_couple {eps : ℝ} {m : Mesh} (h : m.Good) (hc : m.Complete) {pos : Pos} {ax : Axis} {r0 : ℝ} {i : ℕ} (hi : i < m.edges.length)
    (hs : ∀ t < m.tris.length, OneSide (radius ax r0 (triangleCenter eps m pos t)) (radius ax r0 (edgeCenter m pos i))) :
    edgeCouple eps m pos ax r0 i = ∑ t ∈ range m.tris.length,
      if ∀ v ∈ nodesOf m.edges i, v ∈ nodesOf m.tris t then face eps m pos ax r0 t i else 0 := by
  rw [edgeCouple, onEdges_eq h _ hi]
  refine sum_congr rfl fun t ht => ?_
  have ht := mem_range.1 ht
  have hii := nodesOf_get hi
  have hS := h.edges _ (List.mem_of_getElem? hii)
  have hE := h.tris _ (List.mem_of_getElem? (nodesOf_get ht))
  have hedge : ∀ j ∈ range 3, (if nodesOf m.edges i = (nodesOf m.tris t).eraseIdx j then elementEdgeCouple eps m pos ax r0 t j else 0) =
      if nodesOf m.edges i = (nodesOf m.tris t).eraseIdx j then face eps m pos ax r0 t i else 0 := by
    intro j hj
    split_ifs with e
    · have h1 := triangleEdge_spec h hc ht (mem_range.1 hj)
      have : triangleEdge m t j = i := by
        have hlt : triangleEdge m t j < m.edges.length := by
          by_contra hn
          have : nodesOf m.edges (triangleEdge m t j) = [] := by
            unfold nodesOf
            rw [List.getD_eq_getElem?_getD, List.getElem?_eq_none (by omega)]; rfl
          rw [this, ← e] at h1
          rw [← h1] at hS
          exact absurd hS.1 (by decide)
        have h2 := nodesOf_get hlt
        rw [h1, ← e] at h2
        obtain ⟨a1, e1⟩ := List.getElem?_eq_some_iff.1 h2
        obtain ⟨a2, e2⟩ := List.getElem?_eq_some_iff.1 hii
        exact (List.Nodup.getElem_inj_iff h.nodupEdges).1 (e1.trans e2.symm)
      rw [element_couple (by rw [this]; exact hs t ht), this, face]
    · rfl
  rw [sum_congr rfl hedge]
  obtain ⟨a, b, c, he⟩ : ∃ a b c, nodesOf m.tris t = [a, b, c] := by
    match nodesOf m.tris t, hE.1 with
    | [a, b, c], _ => exact ⟨a, b, c, rfl⟩
  obtain ⟨u, v, hu⟩ : ∃ u v, nodesOf m.edges i = [u, v] := by
    match nodesOf m.edges i, hS.1 with
    | [u, v], _ => exact ⟨u, v, rfl⟩
  rw [he] at hE
  rw [hu] at hS
  have huv : u < v := by simpa using hS.2.1
  have habc : a < b ∧ a < c ∧ b < c := by
    have := hE.2.1
    simp at this
    omega
  rw [he, hu, sum_range_succ, sum_range_succ, sum_range_succ, sum_range_zero, zero_add]
  simp only [List.eraseIdx_zero, List.tail_cons, List.eraseIdx_cons_succ, List.cons.injEq, and_true, List.mem_cons, List.not_mem_nil,
    or_false, forall_eq_or_imp, forall_eq]
  by_cases c1 : u = b ∧ v = c
  · obtain ⟨rfl, rfl⟩ := c1
    rw [if_pos ⟨rfl, rfl⟩, if_neg (by omega), if_neg (by omega), if_pos (by simp)]; ring
  · by_cases c2 : u = a ∧ v = c
    · obtain ⟨rfl, rfl⟩ := c2
      rw [if_neg c1, if_pos ⟨rfl, rfl⟩, if_neg (by omega), if_pos (by simp)]; ring
    · by_cases c3 : u = a ∧ v = b
      · obtain ⟨rfl, rfl⟩ := c3
        rw [if_neg c1, if_neg c2, if_pos ⟨rfl, rfl⟩, if_pos (by simp)]; ring
      · rw [if_neg c1, if_neg c2, if_neg c3, if_neg (by omega)]; ring

/-! ### Boundaries -/

theorem processEdge_area (m : Mesh) (pos : Pos) (ax : Axis) (r0 : ℝ) (A : Acc) (i u : ℕ) :
    (processEdge m pos ax r0 A i).area u = A.area u +
      ((if u = edgeNode m i 0 then Real.pi * |(radius ax r0 (pos (edgeNode m i 0)) + radius ax r0 (pos (edgeNode m i 1))) / 2 +
          radius ax r0 (pos (edgeNode m i 0))| * (edgeLength m pos i / 2) else 0) +
       if u = edgeNode m i 1 then Real.pi * |(radius ax r0 (pos (edgeNode m i 0)) + radius ax r0 (pos (edgeNode m i 1))) / 2 +
          radius ax r0 (pos (edgeNode m i 1))| * (edgeLength m pos i / 2) else 0) := by
  have hl : V3.mag (V3.smul (V3.sub (pos (edgeNode m i 1)) (pos (edgeNode m i 0))) (1 / 2)) = edgeLength m pos i / 2 := by
    rw [mag_smul, edgeLength, mag_sub_comm, abs_of_pos (by norm_num)]; ring
  simp only [processEdge, add_area, hl]
  rw [add_comm (radius ax r0 (pos (edgeNode m i 1))) (1 / 2 * _)]
  rw [show (1 / 2 : ℝ) * (radius ax r0 (pos (edgeNode m i 0)) + radius ax r0 (pos (edgeNode m i 1))) =
    (radius ax r0 (pos (edgeNode m i 0)) + radius ax r0 (pos (edgeNode m i 1))) / 2 by ring]
  ring

/-- The surface of the half of edge `i` at node `v`. -/
noncomputable def half (m : Mesh) (pos : Pos) (ax : Axis) (r0 : ℝ) (v i : ℕ) : ℝ :=
  sweep (radius ax r0 (pos v)) (radius ax r0 (edgeCenter m pos i)) (V3.mag (V3.sub (edgeCenter m pos i) (pos v)))

/-- The edge does not cross the axis. -/
def EdgeSide (m : Mesh) (pos : Pos) (ax : Axis) (r0 : ℝ) (i : ℕ) : Prop :=
  OneSide (radius ax r0 (pos (edgeNode m i 0))) (radius ax r0 (pos (edgeNode m i 1)))

theorem radius_center (m : Mesh) (pos : Pos) (ax : Axis) (r0 : ℝ) (i : ℕ) : radius ax r0 (edgeCenter m pos i) =
    (radius ax r0 (pos (edgeNode m i 0)) + radius ax r0 (pos (edgeNode m i 1))) / 2 := by
  cases ax <;> simp only [radius, edgeCenter, V3.smul, V3.add] <;> ring

theorem half_length (m : Mesh) (pos : Pos) (i : ℕ) :
    V3.mag (V3.sub (edgeCenter m pos i) (pos (edgeNode m i 0))) = edgeLength m pos i / 2 ∧
    V3.mag (V3.sub (edgeCenter m pos i) (pos (edgeNode m i 1))) = edgeLength m pos i / 2 := by
  constructor
  · have : V3.sub (edgeCenter m pos i) (pos (edgeNode m i 0)) = V3.smul (V3.sub (pos (edgeNode m i 1)) (pos (edgeNode m i 0))) (1 / 2) := by
      ext <;> simp only [edgeCenter, V3.sub, V3.smul, V3.add] <;> ring
    rw [this, mag_smul, edgeLength, mag_sub_comm, abs_of_pos (by norm_num)]; ring
  · have : V3.sub (edgeCenter m pos i) (pos (edgeNode m i 1)) = V3.smul (V3.sub (pos (edgeNode m i 0)) (pos (edgeNode m i 1))) (1 / 2) := by
      ext <;> simp only [edgeCenter, V3.sub, V3.smul, V3.add] <;> ring
    rw [this, mag_smul, edgeLength, abs_of_pos (by norm_num)]; ring

theorem half_eq {m : Mesh} {pos : Pos} {ax : Axis} {r0 : ℝ} {i : ℕ} (hs : EdgeSide m pos ax r0 i) :
    half m pos ax r0 (edgeNode m i 0) i = Real.pi * |(radius ax r0 (pos (edgeNode m i 0)) + radius ax r0 (pos (edgeNode m i 1))) / 2 +
          radius ax r0 (pos (edgeNode m i 0))| * (edgeLength m pos i / 2) ∧
    half m pos ax r0 (edgeNode m i 1) i = Real.pi * |(radius ax r0 (pos (edgeNode m i 0)) + radius ax r0 (pos (edgeNode m i 1))) / 2 +
          radius ax r0 (pos (edgeNode m i 1))| * (edgeLength m pos i / 2) := by
  rw [half, half, radius_center, (half_length m pos i).1, (half_length m pos i).2]
  have h : OneSide _ _ := hs
  constructor
  · rw [sweep_eq (by rcases h with ⟨a, b⟩ | ⟨a, b⟩; · exact .inl ⟨a, by linarith⟩
                     · exact .inr ⟨a, by linarith⟩), add_comm (radius ax r0 (pos (edgeNode m i 0))) (_ / 2)]
  · rw [sweep_eq (by rcases h with ⟨a, b⟩ | ⟨a, b⟩; · exact .inl ⟨b, by linarith⟩
                     · exact .inr ⟨b, by linarith⟩), add_comm (radius ax r0 (pos (edgeNode m i 1))) (_ / 2)]

/-- **`CylindricalSurfaceArea` of a node**: the surfaces of the halves of the boundary edges at the node; an edge that is several times
in the list counts once. -/
theorem surface_area {m : Mesh} (h : m.Good) {pos : Pos} {ax : Axis} {r0 : ℝ} {l : List ℕ} (hl : ∀ i ∈ l, i < m.edges.length)
    (hs : ∀ i ∈ l, EdgeSide m pos ax r0 i) (v : ℕ) :
    surfaceArea m pos ax r0 l v = ∑ i ∈ range m.edges.length, if i ∈ l ∧ v ∈ nodesOf m.edges i then half m pos ax r0 v i else 0 := by
  obtain ⟨d, hnd, hmem, hd⟩ := visitOnce_spec (processEdge m pos ax r0) l Acc.init
  rw [surfaceArea, hd, foldl_area (fun A i _ u => processEdge_area m pos ax r0 A i u)]
  have h0 : Acc.init.area v = 0 := rfl
  rw [h0, zero_add, sum_list hnd (N := m.edges.length) (P := fun i => i ∈ l)
    (fun i => ⟨fun hi => ⟨hl i ((hmem i).1 hi), (hmem i).1 hi⟩, fun hi => (hmem i).2 hi.2⟩)]
  refine sum_congr rfl fun i hi => ?_
  obtain ⟨he, hlt, _⟩ := edgeNode_spec h (mem_range.1 hi)
  by_cases hil : i ∈ l
  · obtain ⟨a1, a2⟩ := half_eq (hs i hil)
    rw [if_pos hil, he, ← a1, ← a2]
    by_cases c0 : v = edgeNode m i 0
    · rw [if_pos c0, if_neg (by omega), if_pos ⟨hil, by simp [c0]⟩, c0, add_zero]
    · by_cases c1 : v = edgeNode m i 1
      · rw [if_neg c0, if_pos c1, if_pos ⟨hil, by simp [c1]⟩, c1, zero_add]
      · rw [if_neg c0, if_neg c1, if_neg (by simp [c0, c1]), add_zero]
  · rw [if_neg hil, if_neg (fun h => hil h.1)]

/-- **Total**: the areas of all the nodes add up to the surface of the boundary edges. -/
theorem surface_total {m : Mesh} (h : m.Good) {pos : Pos} {ax : Axis} {r0 : ℝ} {l : List ℕ} (hl : ∀ i ∈ l, i < m.edges.length)
    (hs : ∀ i ∈ l, EdgeSide m pos ax r0 i) :
    ∑ v ∈ range m.n, surfaceArea m pos ax r0 l v = ∑ i ∈ range m.edges.length,
      if i ∈ l then sweep (radius ax r0 (pos (edgeNode m i 0))) (radius ax r0 (pos (edgeNode m i 1))) (edgeLength m pos i) else 0 := by
  simp only [surface_area h hl hs]
  rw [sum_comm]
  refine sum_congr rfl fun i hi => ?_
  obtain ⟨he, h1, h2⟩ := edgeNode_spec h (mem_range.1 hi)
  by_cases hil : i ∈ l
  · have hsd : OneSide (radius ax r0 (pos (edgeNode m i 0))) (radius ax r0 (pos (edgeNode m i 1))) := hs i hil
    obtain ⟨a1, a2⟩ := half_eq (hs i hil)
    simp only [hil, true_and, if_true, he]
    have : ∀ v ∈ range m.n, (if v ∈ [edgeNode m i 0, edgeNode m i 1] then half m pos ax r0 v i else 0) =
        (if v = edgeNode m i 0 then half m pos ax r0 (edgeNode m i 0) i else 0) +
          if v = edgeNode m i 1 then half m pos ax r0 (edgeNode m i 1) i else 0 := by
      intro v _
      by_cases h3 : v = edgeNode m i 0
      · rw [if_pos (by simp [h3]), if_pos h3, if_neg (by omega), h3, add_zero]
      · by_cases h4 : v = edgeNode m i 1
        · rw [if_pos (by simp [h4]), if_neg h3, if_pos h4, h4, zero_add]
        · rw [if_neg (by simp [h3, h4]), if_neg h3, if_neg h4, add_zero]
    rw [sum_congr rfl this, sum_add_distrib, sum_ite_eq', sum_ite_eq', if_pos (mem_range.2 (by omega)), if_pos (mem_range.2 h2), a1, a2,
      sweep_eq hsd]
    generalize radius ax r0 (pos (edgeNode m i 0)) = p at hsd ⊢
    generalize radius ax r0 (pos (edgeNode m i 1)) = q at hsd ⊢
    rcases hsd with ⟨u, v⟩ | ⟨u, v⟩
    · rw [abs_of_nonneg (by linarith), abs_of_nonneg (by linarith), abs_of_nonneg (by linarith)]; ring
    · rw [abs_of_nonpos (by linarith), abs_of_nonpos (by linarith), abs_of_nonpos (by linarith)]; ring
  · simp [hil]

end Verif.Cyl
