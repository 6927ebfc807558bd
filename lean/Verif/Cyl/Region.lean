import Verif.Cyl.Volume

/-!
# Volumes of the nodes of a region
-/

namespace Verif.Cyl
open Verif.Geom Finset

/-! ### The pieces of a triangle -/

/-- The mid point of two points. -/
noncomputable def mid (a b : Pt) : Pt := pt ((a.z + b.z) / 2) ((a.r + b.r) / 2)

/-- The six pieces of a triangle around its center, from corners and mid points of sides. -/
noncomputable def fan (f : Pt → Pt → Pt → ℝ) (a b c o : Pt) : ℝ :=
  (f b o (mid b c) + f c o (mid b c)) + (f a o (mid a c) + f c o (mid a c)) + (f a o (mid a b) + f b o (mid a b))

theorem half_piece {a b o : Pt} : |cross a o (mid a b)| = |cross o a b| / 2 := by
  have : cross a o (mid a b) = -(cross o a b / 2) := by simp only [cross, mid, pt_z, pt_r]; ring
  rw [this, abs_neg, abs_div]; norm_num

theorem half_piece' {a b o : Pt} : |cross b o (mid a b)| = |cross o a b| / 2 := by
  have : cross b o (mid a b) = cross o a b / 2 := by simp only [cross, mid, pt_z, pt_r]; ring
  rw [this, abs_div]; norm_num

/-- **The pieces fill the triangle** when the center is in it. -/
theorem fan_revolve {a b c o : Pt} {s1 s2 s3 : ℝ} (hd : cross a b c ≠ 0) (h1 : cross o b c = s1 * cross a b c)
    (h2 : cross o c a = s2 * cross a b c) (h3 : cross o a b = s3 * cross a b c) (p1 : 0 ≤ s1) (p2 : 0 ≤ s2) (p3 : 0 ≤ s3)
    (hs : s1 + s2 + s3 = 1) : fan revolve a b c o = revolve a b c := by
  have h2' : |cross o a c| = s2 * |cross a b c| := by
    have : cross o a c = - cross o c a := by simp only [cross]; ring
    rw [this, abs_neg, h2, abs_mul, abs_of_nonneg p2]
  have hr : o.r = s1 * a.r + s2 * b.r + s3 * c.r := by
    have : cross a b c * o.r = cross o b c * a.r + cross o c a * b.r + cross o a b * c.r := by simp only [cross]; ring
    rw [h1, h2, h3] at this
    have h : cross a b c * o.r = cross a b c * (s1 * a.r + s2 * b.r + s3 * c.r) := by rw [this]; ring
    exact mul_left_cancel₀ hd h
  simp only [fan, revolve, half_piece, half_piece']
  rw [h1, h2', h3, abs_mul, abs_mul, abs_of_nonneg p1, abs_of_nonneg p3]
  simp only [mid, pt_r]
  rw [hr]
  have hs3 : s3 = 1 - s1 - s2 := by linarith
  subst hs3
  ring

theorem place_mid (ax : Axis) (r0 : ℝ) (p q : V3) :
    place ax r0 (V3.smul (V3.add p q) (1 / 2)) = mid (place ax r0 p) (place ax r0 q) := by
  cases ax <;> simp only [place, mid, pt, height, radius, V3.smul, V3.add, Pt.z, Pt.r, ofLex_toLex] <;> congr 1 <;> ext <;> simp <;> ring

/-- The orientation of a triangle in cylindrical coordinates. -/
def sgn : Axis → ℝ
  | .x => -1
  | .y => 1

theorem cross_place (ax : Axis) (r0 : ℝ) (a b c : V3) :
    cross (place ax r0 a) (place ax r0 b) (place ax r0 c) = sgn ax * (normal a b c).z := by
  cases ax <;> simp only [cross, place, pt_z, pt_r, height, radius, sgn, normal, V3.cross, V3.sub] <;> ring

/-- The triangle is in the plane of the first two coordinates. -/
def Planar (a b c : V3) : Prop := a.z = 0 ∧ b.z = 0 ∧ c.z = 0

theorem planar_cross {a b c : V3} (hp : Planar a b c) (hnd : NonDeg a b c) (ax : Axis) (r0 : ℝ) :
    cross (place ax r0 a) (place ax r0 b) (place ax r0 c) ≠ 0 := by
  rw [cross_place]
  have : (normal a b c).z ≠ 0 := by
    intro h
    apply hnd
    obtain ⟨ha, hb, hc⟩ := hp
    ext
    · simp only [normal, V3.cross, V3.sub, ha, hb, hc]; ring
    · simp only [normal, V3.cross, V3.sub, ha, hb, hc]; ring
    · exact h
  cases ax <;> simpa [sgn] using this

/-- **The pieces of a triangle without obtuse angles** fill it. -/
theorem fan_triangle {a b c o : V3} (hp : Planar a b c) (hnd : NonDeg a b c) (ho : IsCircumcenter a b c o)
    (h1 : NonObtuse a b c) (h2 : NonObtuse b c a) (h3 : NonObtuse c a b) (ax : Axis) (r0 : ℝ) :
    fan revolve (place ax r0 a) (place ax r0 b) (place ax r0 c) (place ax r0 o) =
      revolve (place ax r0 a) (place ax r0 b) (place ax r0 c) := by
  obtain ⟨s1, s2, s3, n1, n2, n3, hs, k1, k2, k3⟩ := side_normal hnd ho
  have hn := V3.dot_self_pos hnd
  have pos : ∀ {s l x : ℝ}, 0 ≤ l → 0 ≤ x → 2 * s * V3.dot (normal a b c) (normal a b c) = l * x → 0 ≤ s := by
    intro s l x hl hx e
    have : 0 ≤ s * (2 * V3.dot (normal a b c) (normal a b c)) := by
      have h := mul_nonneg hl hx
      rw [← e] at h; linarith
    exact nonneg_of_mul_nonneg_left this (by linarith)
  refine fan_revolve (planar_cross hp hnd ax r0) (s1 := s1) (s2 := s2) (s3 := s3) ?_ ?_ ?_ (pos (V3.dot_self_nonneg _) h1 k1)
    (pos (V3.dot_self_nonneg _) h2 k2) (pos (V3.dot_self_nonneg _) h3 k3) hs
  · rw [cross_place, cross_place, n1]; simp only [V3.smul]; ring
  · rw [cross_place, cross_place, n2]; simp only [V3.smul]; ring
  · rw [cross_place, cross_place, n3]; simp only [V3.smul]; ring

/-! ### A region -/

/-- The triangles of the region are in the plane, not degenerate, without obtuse angles, and the mesh tolerance does not matter. -/
def Fine (eps : ℝ) (m : Mesh) (pos : Pos) : Prop :=
  GoodTris eps m pos ∧ ∀ t < m.tris.length, NonObtuseTri m pos t ∧ Planar (corner m pos t 0) (corner m pos t 1) (corner m pos t 2)

/-- The corner `k` of triangle `t` in cylindrical coordinates. -/
noncomputable def at_ (m : Mesh) (pos : Pos) (ax : Axis) (r0 : ℝ) (t k : ℕ) : Pt := place ax r0 (corner m pos t k)

/-- The volume swept by triangle `t`. -/
noncomputable def swept (m : Mesh) (pos : Pos) (ax : Axis) (r0 : ℝ) (t : ℕ) : ℝ :=
  revolve (at_ m pos ax r0 t 0) (at_ m pos ax r0 t 1) (at_ m pos ax r0 t 2)

theorem element_sum {eps : ℝ} {m : Mesh} (h : m.Good) (hc : m.Complete) (pos : Pos) (ax : Axis) (r0 : ℝ) {t : ℕ} (ht : t < m.tris.length) :
    ∑ j ∈ range 3, (elementNodeVolume eps m pos ax r0 0 t j + elementNodeVolume eps m pos ax r0 1 t j) =
      fan (fun a b c => triVolume [a, b, c]) (at_ m pos ax r0 t 0) (at_ m pos ax r0 t 1) (at_ m pos ax r0 t 2)
        (place ax r0 (triangleCenter eps m pos t)) := by
  have hE := h.tris _ (List.mem_of_getElem? (nodesOf_get ht))
  have h0 := triangleEdge_spec h hc ht (j := 0) (by omega)
  have h1 := triangleEdge_spec h hc ht (j := 1) (by omega)
  have h2 := triangleEdge_spec h hc ht (j := 2) (by omega)
  obtain ⟨a, b, c, he⟩ : ∃ a b c, nodesOf m.tris t = [a, b, c] := by
    match nodesOf m.tris t, hE.1 with
    | [a, b, c], _ => exact ⟨a, b, c, rfl⟩
  rw [he] at h0 h1 h2
  rw [Finset.sum_range_succ, Finset.sum_range_succ, Finset.sum_range_succ, Finset.sum_range_zero]
  simp only [elementNodeVolume, edgeCenter, edgeNode, corner, h0, h1, h2, at_, place_mid,
    he, List.eraseIdx_zero, List.tail_cons, List.eraseIdx_cons_succ, List.getD_cons_zero, List.getD_cons_succ, fan]
  ring

theorem nodeVolume_eq {eps : ℝ} {m : Mesh} (pos : Pos) (ax : Axis) (r0 : ℝ) (v : ℕ) :
    nodeVolume eps m pos ax r0 v = ∑ i ∈ range m.edges.length,
      ((if edgeNode m i 0 = v then onEdges (tables m) (elementNodeVolume eps m pos ax r0 0) i else 0) +
       if edgeNode m i 1 = v then onEdges (tables m) (elementNodeVolume eps m pos ax r0 1) i else 0) := by
  have key : ∀ (l : List ℕ) (x : ℝ), l.foldl (fun nv i =>
      let nv := if edgeNode m i 0 = v then nv + onEdges (tables m) (elementNodeVolume eps m pos ax r0 0) i else nv
      if edgeNode m i 1 = v then nv + onEdges (tables m) (elementNodeVolume eps m pos ax r0 1) i else nv) x = x +
      (l.map fun i => (if edgeNode m i 0 = v then onEdges (tables m) (elementNodeVolume eps m pos ax r0 0) i else 0) +
       if edgeNode m i 1 = v then onEdges (tables m) (elementNodeVolume eps m pos ax r0 1) i else 0).sum := by
    intro l
    induction l with
    | nil => simp
    | cons i l ih =>
      intro x
      rw [List.foldl_cons, ih, List.map_cons, List.sum_cons]
      by_cases h0 : edgeNode m i 0 = v <;> by_cases h1 : edgeNode m i 1 = v <;> simp [h0, h1] <;> ring
  rw [nodeVolume, key, zero_add, ← List.sum_toFinset _ List.nodup_range, List.toFinset_range]

/-- **Nothing is lost between elements and nodes**: the volumes of the nodes add up to those of the pieces of the triangles. -/
theorem sum_nodes {eps : ℝ} {m : Mesh} (h : m.Good) (hc : m.Complete) (pos : Pos) (ax : Axis) (r0 : ℝ) :
    ∑ v ∈ range m.n, nodeVolume eps m pos ax r0 v = ∑ t ∈ range m.tris.length,
      ∑ j ∈ range 3, (elementNodeVolume eps m pos ax r0 0 t j + elementNodeVolume eps m pos ax r0 1 t j) := by
  simp only [nodeVolume_eq]
  rw [sum_comm]
  have hin : ∀ i < m.edges.length, edgeNode m i 0 < m.n ∧ edgeNode m i 1 < m.n := by
    intro i hi
    have hE := h.edges _ (List.mem_of_getElem? (nodesOf_get hi))
    unfold edgeNode
    generalize nodesOf m.edges i = e at hE
    obtain ⟨a, b, rfl⟩ : ∃ a b, e = [a, b] := by
      match e, hE.1 with
      | [a, b], _ => exact ⟨a, b, rfl⟩
    exact ⟨hE.2.2 a (by simp), hE.2.2 b (by simp)⟩
  have : ∀ i ∈ range m.edges.length, ∑ v ∈ range m.n,
      ((if edgeNode m i 0 = v then onEdges (tables m) (elementNodeVolume eps m pos ax r0 0) i else 0) +
       if edgeNode m i 1 = v then onEdges (tables m) (elementNodeVolume eps m pos ax r0 1) i else 0) =
      onEdges (tables m) (elementNodeVolume eps m pos ax r0 0) i + onEdges (tables m) (elementNodeVolume eps m pos ax r0 1) i := by
    intro i hi
    obtain ⟨g0, g1⟩ := hin i (mem_range.1 hi)
    rw [sum_add_distrib, sum_ite_eq, sum_ite_eq, if_pos (mem_range.2 g0), if_pos (mem_range.2 g1)]
  rw [sum_congr rfl this, sum_add_distrib, sum_onEdges h hc, sum_onEdges h hc, ← sum_add_distrib]
  exact sum_congr rfl fun t _ => (sum_add_distrib).symm

theorem fan_le {f g : Pt → Pt → Pt → ℝ} (h : ∀ a b c, f a b c ≤ g a b c) (a b c o : Pt) : fan f a b c o ≤ fan g a b c o := by
  simp only [fan]
  have := h b o (mid b c); have := h c o (mid b c); have := h a o (mid a c); have := h c o (mid a c)
  have := h a o (mid a b); have := h b o (mid a b)
  linarith

/-- The six pieces of a triangle point away from the axis, or have no area. -/
def FanOutward (a b c o : Pt) : Prop :=
  ∀ q ∈ [(b, mid b c), (c, mid b c), (a, mid a c), (c, mid a c), (a, mid a b), (b, mid a b)],
    cross q.1 o q.2 = 0 ∨ Outward q.1 o q.2

theorem degenerate_zero (a b c : Pt) (hd : cross a b c = 0) : triVolume [a, b, c] = 0 ∧ revolve a b c = 0 := by
  refine ⟨?_, by simp [revolve, hd]⟩
  revert hd
  refine sorted_cases (Q := fun a b c => cross a b c = 0 → triVolume [a, b, c] = 0) ?_ ?_ ?_ a b c
  · intro a b c h hd
    have hd' : cross a b c = 0 := by
      have : cross b a c = - cross a b c := by simp only [cross]; ring
      rw [this] at hd; simpa using hd
    rw [triVolume_perm (List.Perm.swap a b [c])]; exact h hd'
  · intro a b c h hd
    have hd' : cross a b c = 0 := by
      have : cross a c b = - cross a b c := by simp only [cross]; ring
      rw [this] at hd; simpa using hd
    rw [triVolume_perm (List.Perm.cons a (List.Perm.swap b c []))]; exact h hd'
  · intro a b c hab hbc hd
    rw [triVolume_sorted hab hbc]
    rcases (le_z hab).eq_or_lt with h1 | h1
    · rw [sortedVolume, if_pos h1]
      have : (a.z - c.z) * (b.r - a.r) = 0 := by rw [← hd]; simp only [cross, h1]; ring
      rcases mul_eq_zero.1 this with h | h
      · simp [flat, h]
      · have : b.r = a.r := by linarith
        simp [flat, this]
    · rcases (le_z hbc).eq_or_lt with h2 | h2
      · rw [sortedVolume, if_neg (ne_of_lt h1), if_pos h2]
        have : (b.z - a.z) * (c.r - b.r) = 0 := by rw [← hd]; simp only [cross, h2]; ring
        rcases mul_eq_zero.1 this with h | h
        · simp [flat, h]
        · have : c.r = b.r := by linarith
          simp [flat, this]
      · have hr : (across a b c).r = b.r := by
          rw [cross_split (by intro e; linarith)] at hd
          rcases mul_eq_zero.1 hd with h | h <;> linarith
        rw [sorted_split h1 h2, hr]
        simp only [revolve, excess, sub_self, abs_zero]
        rw [show cross a b c = 0 by rw [cross_split (by intro e; linarith), hr]; ring]
        simp

theorem piece_exact (a b c : Pt) : triVolume [a, b, c] = revolve a b c ↔ cross a b c = 0 ∨ Outward a b c := by
  by_cases hd : cross a b c = 0
  · obtain ⟨h1, h2⟩ := degenerate_zero a b c hd
    simp [h1, h2, hd]
  · rw [triVolume_exact a b c hd]; simp [hd]

theorem fan_exact (a b c o : Pt) : fan (fun a b c => triVolume [a, b, c]) a b c o = fan revolve a b c o ↔ FanOutward a b c o := by
  have h := fun a b c => triVolume_ge a b c
  simp only [FanOutward, List.mem_cons, List.not_mem_nil, or_false, forall_eq_or_imp, forall_eq, ← piece_exact, fan]
  have h1 := h b o (mid b c); have h2 := h c o (mid b c); have h3 := h a o (mid a c); have h4 := h c o (mid a c)
  have h5 := h a o (mid a b); have h6 := h b o (mid a b)
  constructor
  · intro e
    refine ⟨?_, ?_, ?_, ?_, ?_, ?_⟩ <;> linarith
  · rintro ⟨e1, e2, e3, e4, e5, e6⟩
    rw [e1, e2, e3, e4, e5, e6]

/-- **The volumes of the nodes** add up to at least the volume of the solid, and to exactly that volume if and only if every piece of
every triangle points away from the axis. -/
theorem node_volumes_partial {eps : ℝ} (he : 0 < eps) {m : Mesh} (h : m.Good) (hc : m.Complete) {pos : Pos} (hf : Fine eps m pos)
    (ax : Axis) (r0 : ℝ) :
    ∑ t ∈ range m.tris.length, swept m pos ax r0 t ≤ ∑ v ∈ range m.n, nodeVolume eps m pos ax r0 v ∧
    (∑ v ∈ range m.n, nodeVolume eps m pos ax r0 v = ∑ t ∈ range m.tris.length, swept m pos ax r0 t ↔
      ∀ t < m.tris.length, FanOutward (at_ m pos ax r0 t 0) (at_ m pos ax r0 t 1) (at_ m pos ax r0 t 2)
        (place ax r0 (triangleCenter eps m pos t))) := by
  have hsw : ∀ t < m.tris.length, swept m pos ax r0 t = fan revolve (at_ m pos ax r0 t 0) (at_ m pos ax r0 t 1) (at_ m pos ax r0 t 2)
        (place ax r0 (triangleCenter eps m pos t)) := by
    intro t ht
    obtain ⟨hs, hnd⟩ := hf.1 t ht
    obtain ⟨⟨o1, o2, o3⟩, hp⟩ := hf.2 t ht
    exact (fan_triangle hp hnd (triCenter_spec he hs hnd) o1 o2 o3 ax r0).symm
  have hle : ∀ t ∈ range m.tris.length, swept m pos ax r0 t ≤
      ∑ j ∈ range 3, (elementNodeVolume eps m pos ax r0 0 t j + elementNodeVolume eps m pos ax r0 1 t j) := by
    intro t ht
    rw [element_sum h hc pos ax r0 (mem_range.1 ht), hsw t (mem_range.1 ht)]
    exact fan_le (fun a b c => triVolume_ge a b c) _ _ _ _
  rw [sum_nodes h hc]
  refine ⟨sum_le_sum hle, ?_⟩
  rw [eq_comm, sum_eq_sum_iff_of_le hle]
  constructor
  · intro e t ht
    have := e t (mem_range.2 ht)
    rw [element_sum h hc pos ax r0 ht, hsw t ht] at this
    exact (fan_exact _ _ _ _).1 this.symm
  · intro e t ht
    have ht := mem_range.1 ht
    rw [element_sum h hc pos ax r0 ht, hsw t ht]
    exact ((fan_exact _ _ _ _).2 (e t ht)).symm

/-- **`CylindricalEdgeNodeVolume@n0` is zero**: whatever the mesh, the values are as many zeros as there are nodes. -/
theorem edge_node_volume_zero (eps : ℝ) (m : Mesh) (pos : Pos) (ax : Axis) (r0 : ℝ) :
    (edgeNodeVolumes eps m pos ax r0).1 = List.replicate m.n 0 := rfl

/-- The other one is right. -/
theorem edge_node_volume_tail {eps : ℝ} {m : Mesh} {pos : Pos} {ax : Axis} {r0 : ℝ} {i : ℕ} (hi : i < m.edges.length) :
    (edgeNodeVolumes eps m pos ax r0).2[i]? = some (onEdges (tables m) (elementNodeVolume eps m pos ax r0 1) i) := by
  simp [edgeNodeVolumes, hi]

end Verif.Cyl
