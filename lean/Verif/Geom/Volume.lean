import Verif.Geom.Sums
import Verif.Geom.Center

/-!
# Node volumes

`src/GeomModels/EdgeLength.cc`, `EdgeCouple.cc`, `TriangleEdgeCouple.cc`, `TriangleNodeVolume.cc`,
`EdgeNodeVolume.cc`, `NodeVolume.cc`.
-/

namespace Verif.Geom

open Finset

/-! ### Model -/

/-- The position of a node (`Node::Position`). -/
abbrev Pos := Nat → V3

/-- The head (`k = 0`) or tail (`k = 1`) of edge `i`. -/
def edgeNode (m : Mesh) (i k : Nat) : Nat := (nodesOf m.edges i).getD k 0

/-- `EdgeLength::calcEdgeLength` (`EdgeLength.cc:37-47`) -/
noncomputable def edgeLength (m : Mesh) (pos : Pos) (i : Nat) : ℝ :=
  V3.mag (V3.sub (pos (edgeNode m i 0)) (pos (edgeNode m i 1)))

/-- The mid point of edge `i` (`TriangleEdgeCouple.cc:67-72`, `TetrahedronEdgeCouple.cc:56-62`). -/
noncomputable def edgeCenter (m : Mesh) (pos : Pos) (i : Nat) : V3 :=
  V3.smul (V3.add (pos (edgeNode m i 0)) (pos (edgeNode m i 1))) (1 / 2)

/-- The center of triangle `t` (`Region::SetTriangleCenters`, `Region.cc:694-713`). -/
noncomputable def triangleCenter (eps : ℝ) (m : Mesh) (pos : Pos) (t : Nat) : V3 :=
  triCenter eps (pos ((nodesOf m.tris t).getD 0 0)) (pos ((nodesOf m.tris t).getD 1 0))
    (pos ((nodesOf m.tris t).getD 2 0))

/-- The edge in slot `j` of triangle `t`; an empty slot (null pointer) is not modelled. -/
def triangleEdge (m : Mesh) (t j : Nat) : Nat := (slot (tables m).triEdge t j).getD 0

/-- `ElementEdgeCouple` in two dimensions (`TriangleEdgeCouple.cc:50-79`) -/
noncomputable def elementEdgeCouple (eps : ℝ) (m : Mesh) (pos : Pos) (t j : Nat) : ℝ :=
  V3.mag (V3.sub (edgeCenter m pos (triangleEdge m t j)) (triangleCenter eps m pos t))

/-- `ElementNodeVolume` in two dimensions (`TriangleNodeVolume.cc:30-73`) -/
noncomputable def elementNodeVolume (eps : ℝ) (m : Mesh) (pos : Pos) (t j : Nat) : ℝ :=
  edgeLength m pos (triangleEdge m t j) * (elementEdgeCouple eps m pos t j * (1 / 4))

/-- `EdgeCouple` (`EdgeCouple.cc:35-66`) in one and two dimensions. -/
noncomputable def edgeCouple (eps : ℝ) (m : Mesh) (pos : Pos) (i : Nat) : ℝ :=
  if m.dim = 1 then 1 else onEdges (tables m) (elementEdgeCouple eps m pos) i

/-- `EdgeNodeVolume` (`EdgeNodeVolume.cc:42-83`) in one and two dimensions. -/
noncomputable def edgeNodeVolume (eps : ℝ) (m : Mesh) (pos : Pos) (i : Nat) : ℝ :=
  if m.dim = 1 then edgeCouple eps m pos i * edgeLength m pos i * (1 / 2)
  else onEdges (tables m) (elementNodeVolume eps m pos) i

/-- `NodeVolume` (`NodeVolume.cc:28-56`) -/
noncomputable def nodeVolume (eps : ℝ) (m : Mesh) (pos : Pos) (v : Nat) : ℝ :=
  onNodes (tables m) (edgeNodeVolume eps m pos) v

/-! ### Specification -/

/-- The area of a triangle. -/
noncomputable def area (a b c : V3) : ℝ := V3.mag (normal a b c) / 2

/-- The angle at `a` is not obtuse. -/
def NonObtuse (a b c : V3) : Prop := 0 ≤ V3.dot (V3.sub b a) (V3.sub c a)

/-- The three corners of triangle `t`. -/
def corner (m : Mesh) (pos : Pos) (t k : Nat) : V3 := pos ((nodesOf m.tris t).getD k 0)

/-- The triangles of the region can be used: the mesh tolerance does not matter, and no triangle is
degenerate. -/
def GoodTris (eps : ℝ) (m : Mesh) (pos : Pos) : Prop :=
  ∀ t < m.tris.length, SharpTri eps (corner m pos t 0) (corner m pos t 1) (corner m pos t 2) ∧
    NonDeg (corner m pos t 0) (corner m pos t 1) (corner m pos t 2)

/-- No angle of triangle `t` is obtuse. -/
def NonObtuseTri (m : Mesh) (pos : Pos) (t : Nat) : Prop :=
  NonObtuse (corner m pos t 0) (corner m pos t 1) (corner m pos t 2) ∧
  NonObtuse (corner m pos t 1) (corner m pos t 2) (corner m pos t 0) ∧
  NonObtuse (corner m pos t 2) (corner m pos t 0) (corner m pos t 1)

noncomputable def triArea (m : Mesh) (pos : Pos) (t : Nat) : ℝ :=
  area (corner m pos t 0) (corner m pos t 1) (corner m pos t 2)

/-! ### One dimension -/

/-- **One dimension**: the volumes of the nodes add up to the lengths of the edges. -/
theorem nodeVolume_sum_1d (eps : ℝ) {m : Mesh} (h : m.Good) (hd : m.dim = 1) (pos : Pos) :
    ∑ v ∈ range m.n, nodeVolume eps m pos v = ∑ i ∈ range m.edges.length, edgeLength m pos i := by
  simp only [nodeVolume]
  rw [sum_onNodes h, mul_sum]
  refine sum_congr rfl fun i _ => ?_
  simp only [edgeNodeVolume, edgeCouple, hd, if_true]
  ring

/-! ### The geometry of one triangle -/

/-- The length of a side times the distance of the center from it is twice the area of the triangle made by
the side and the center. -/
theorem side_area {b c o : V3} (h : dist2 o b = dist2 o c) :
    V3.mag (V3.sub b c) * V3.mag (V3.sub (V3.smul (V3.add b c) (1 / 2)) o) = V3.mag (normal o b c) := by
  apply V3.eq_of_mul_self (mul_nonneg (V3.mag_nonneg _) (V3.mag_nonneg _)) (V3.mag_nonneg _)
  have h1 := V3.mag_sq (V3.sub b c)
  have h2 := V3.mag_sq (V3.sub (V3.smul (V3.add b c) (1 / 2)) o)
  have h3 := V3.mag_sq (normal o b c)
  have e : V3.mag (V3.sub b c) * V3.mag (V3.sub (V3.smul (V3.add b c) (1 / 2)) o) *
      (V3.mag (V3.sub b c) * V3.mag (V3.sub (V3.smul (V3.add b c) (1 / 2)) o)) =
      (V3.mag (V3.sub b c) * V3.mag (V3.sub b c)) *
      (V3.mag (V3.sub (V3.smul (V3.add b c) (1 / 2)) o) * V3.mag (V3.sub (V3.smul (V3.add b c) (1 / 2)) o)) := by ring
  rw [e, h1, h2, h3]
  simp only [dist2] at h
  simp only [V3.dot, normal, V3.cross, V3.sub, V3.add, V3.smul]
  have hp : ((b.x + c.x) * (1 / 2) - o.x) * (b.x - c.x) + ((b.y + c.y) * (1 / 2) - o.y) * (b.y - c.y) +
      ((b.z + c.z) * (1 / 2) - o.z) * (b.z - c.z) = 0 := by linear_combination h / 2
  linear_combination (((b.x + c.x) * (1 / 2) - o.x) * (b.x - c.x) + ((b.y + c.y) * (1 / 2) - o.y) * (b.y - c.y) +
      ((b.z + c.z) * (1 / 2) - o.z) * (b.z - c.z)) * hp

/-- A point in the plane of a triangle is a combination of its sides. -/
theorem plane_coords {a b c o : V3} (hnd : NonDeg a b c) (h : V3.dot (normal a b c) (V3.sub o a) = 0) :
    ∃ al be, o = V3.add a (V3.add (V3.smul (V3.sub b a) al) (V3.smul (V3.sub c a) be)) := by
  have hn := V3.dot_self_pos hnd
  refine ⟨V3.dot (V3.cross (V3.sub o a) (V3.sub c a)) (normal a b c) / V3.dot (normal a b c) (normal a b c),
    V3.dot (V3.cross (V3.sub b a) (V3.sub o a)) (normal a b c) / V3.dot (normal a b c) (normal a b c), ?_⟩
  have key : V3.smul (V3.sub o a) (V3.dot (normal a b c) (normal a b c)) =
      V3.add (V3.smul (V3.sub b a) (V3.dot (V3.cross (V3.sub o a) (V3.sub c a)) (normal a b c)))
        (V3.smul (V3.sub c a) (V3.dot (V3.cross (V3.sub b a) (V3.sub o a)) (normal a b c))) := by
    have h' := h
    ext
    · have : (V3.smul (V3.sub o a) (V3.dot (normal a b c) (normal a b c))).x =
        (V3.add (V3.smul (V3.sub b a) (V3.dot (V3.cross (V3.sub o a) (V3.sub c a)) (normal a b c)))
          (V3.smul (V3.sub c a) (V3.dot (V3.cross (V3.sub b a) (V3.sub o a)) (normal a b c)))).x +
          V3.dot (normal a b c) (V3.sub o a) * (normal a b c).x := by
        simp only [V3.dot, normal, V3.cross, V3.sub, V3.add, V3.smul]; ring
      rw [this, h, zero_mul, add_zero]
    · have : (V3.smul (V3.sub o a) (V3.dot (normal a b c) (normal a b c))).y =
        (V3.add (V3.smul (V3.sub b a) (V3.dot (V3.cross (V3.sub o a) (V3.sub c a)) (normal a b c)))
          (V3.smul (V3.sub c a) (V3.dot (V3.cross (V3.sub b a) (V3.sub o a)) (normal a b c)))).y +
          V3.dot (normal a b c) (V3.sub o a) * (normal a b c).y := by
        simp only [V3.dot, normal, V3.cross, V3.sub, V3.add, V3.smul]; ring
      rw [this, h, zero_mul, add_zero]
    · have : (V3.smul (V3.sub o a) (V3.dot (normal a b c) (normal a b c))).z =
        (V3.add (V3.smul (V3.sub b a) (V3.dot (V3.cross (V3.sub o a) (V3.sub c a)) (normal a b c)))
          (V3.smul (V3.sub c a) (V3.dot (V3.cross (V3.sub b a) (V3.sub o a)) (normal a b c)))).z +
          V3.dot (normal a b c) (V3.sub o a) * (normal a b c).z := by
        simp only [V3.dot, normal, V3.cross, V3.sub, V3.add, V3.smul]; ring
      rw [this, h, zero_mul, add_zero]
  have hd : V3.dot (normal a b c) (normal a b c) ≠ 0 := ne_of_gt hn
  generalize V3.dot (V3.cross (V3.sub o a) (V3.sub c a)) (normal a b c) = u at *
  generalize V3.dot (V3.cross (V3.sub b a) (V3.sub o a)) (normal a b c) = w at *
  generalize V3.dot (normal a b c) (normal a b c) = d at *
  have k1 := congrArg V3.x key
  have k2 := congrArg V3.y key
  have k3 := congrArg V3.z key
  simp only [V3.smul, V3.add, V3.sub] at k1 k2 k3
  ext <;> simp only [V3.smul, V3.add, V3.sub] <;> field_simp <;> linarith

/-- The part of the area, with a sign, that belongs to each side, for the center of the triangle. -/
theorem side_normal {a b c o : V3} (hnd : NonDeg a b c) (h : IsCircumcenter a b c o) :
    ∃ s1 s2 s3, normal o b c = V3.smul (normal a b c) s1 ∧ normal o c a = V3.smul (normal a b c) s2 ∧
      normal o a b = V3.smul (normal a b c) s3 ∧ s1 + s2 + s3 = 1 ∧
      2 * s1 * V3.dot (normal a b c) (normal a b c) =
        V3.dot (V3.sub b c) (V3.sub b c) * V3.dot (V3.sub b a) (V3.sub c a) ∧
      2 * s2 * V3.dot (normal a b c) (normal a b c) =
        V3.dot (V3.sub c a) (V3.sub c a) * V3.dot (V3.sub c b) (V3.sub a b) ∧
      2 * s3 * V3.dot (normal a b c) (normal a b c) =
        V3.dot (V3.sub a b) (V3.sub a b) * V3.dot (V3.sub a c) (V3.sub b c) := by
  obtain ⟨p1, e1, e2⟩ := h
  obtain ⟨al, be, rfl⟩ := plane_coords hnd p1
  obtain ⟨A, hA⟩ : ∃ A, A = V3.dot (V3.sub b a) (V3.sub b a) := ⟨_, rfl⟩
  obtain ⟨B, hB⟩ : ∃ B, B = V3.dot (V3.sub c a) (V3.sub c a) := ⟨_, rfl⟩
  obtain ⟨C, hC⟩ : ∃ C, C = V3.dot (V3.sub b a) (V3.sub c a) := ⟨_, rfl⟩
  have h1 : 2 * (al * A + be * C) = A := by
    rw [hA, hC]
    simp only [dist2, V3.add, V3.smul, V3.sub, V3.dot] at e1 ⊢
    linear_combination e1
  have h2 : 2 * (al * C + be * B) = B := by
    rw [hB, hC]
    simp only [dist2, V3.add, V3.smul, V3.sub, V3.dot] at e2 ⊢
    linear_combination e2
  have hD : V3.dot (normal a b c) (normal a b c) = A * B - C * C := by
    rw [hA, hB, hC]; simp only [V3.dot, normal, V3.cross, V3.sub]; ring
  have g1 : V3.dot (V3.sub b c) (V3.sub b c) = A - 2 * C + B := by
    rw [hA, hB, hC]; simp only [V3.dot, V3.sub]; ring
  have g2 : V3.dot (V3.sub c b) (V3.sub a b) = A - C := by
    rw [hA, hC]; simp only [V3.dot, V3.sub]; ring
  have g3 : V3.dot (V3.sub a b) (V3.sub a b) = A := by
    rw [hA]; simp only [V3.dot, V3.sub]; ring
  have g4 : V3.dot (V3.sub a c) (V3.sub b c) = B - C := by
    rw [hB, hC]; simp only [V3.dot, V3.sub]; ring
  refine ⟨1 - al - be, al, be, ?_, ?_, ?_, by ring, ?_, ?_, ?_⟩
  · ext <;> simp only [normal, V3.cross, V3.sub, V3.add, V3.smul] <;> ring
  · ext <;> simp only [normal, V3.cross, V3.sub, V3.add, V3.smul] <;> ring
  · ext <;> simp only [normal, V3.cross, V3.sub, V3.add, V3.smul] <;> ring
  · rw [hD, g1, ← hC]
    linear_combination (C - B) * h1 + (C - A) * h2
  · rw [hD, ← hB, g2]
    linear_combination B * h1 - C * h2
  · rw [hD, g3, g4]
    linear_combination A * h2 - C * h1

theorem mag_smul (n : V3) (s : ℝ) : V3.mag (V3.smul n s) = |s| * V3.mag n := by
  apply V3.eq_of_mul_self (V3.mag_nonneg _) (mul_nonneg (abs_nonneg _) (V3.mag_nonneg _))
  have h1 := V3.mag_sq (V3.smul n s)
  have h2 := V3.mag_sq n
  have h3 : |s| * |s| = s * s := abs_mul_abs_self s
  rw [h1]
  have : |s| * V3.mag n * (|s| * V3.mag n) = (|s| * |s|) * (V3.mag n * V3.mag n) := by ring
  rw [this, h2, h3]
  simp only [V3.dot, V3.smul]; ring

theorem mag_pos_of_nonDeg {a b c : V3} (h : NonDeg a b c) : 0 < V3.mag (normal a b c) := by
  have := V3.dot_self_pos h
  rw [← V3.mag_sq] at this
  exact lt_of_le_of_ne (V3.mag_nonneg _) fun e => by rw [← e] at this; simp at this

/-- What the sides of a triangle with center `o` contribute. -/
noncomputable def boxes (a b c o : V3) : ℝ :=
  V3.mag (V3.sub b c) * V3.mag (V3.sub (V3.smul (V3.add b c) (1 / 2)) o) +
  V3.mag (V3.sub a c) * V3.mag (V3.sub (V3.smul (V3.add a c) (1 / 2)) o) +
  V3.mag (V3.sub a b) * V3.mag (V3.sub (V3.smul (V3.add a b) (1 / 2)) o)

theorem boxes_area {a b c o : V3} (hnd : NonDeg a b c) (h : IsCircumcenter a b c o) :
    2 * area a b c ≤ boxes a b c o ∧
    (boxes a b c o = 2 * area a b c ↔ NonObtuse a b c ∧ NonObtuse b c a ∧ NonObtuse c a b) := by
  have hn := V3.dot_self_pos hnd
  have hm := mag_pos_of_nonDeg hnd
  have e3 : dist2 o b = dist2 o c := h.eq1.symm.trans h.eq2
  obtain ⟨s1, s2, s3, n1, n2, n3, hs, k1, k2, k3⟩ := side_normal hnd h
  have hsym : V3.mag (normal o a c) = V3.mag (normal o c a) := by
    simp only [V3.mag, normal, V3.cross, V3.sub]; congr 1; ring
  have hb : boxes a b c o = (|s1| + |s2| + |s3|) * V3.mag (normal a b c) := by
    rw [boxes, side_area e3, side_area h.eq2, side_area h.eq1, hsym, n1, n2, n3, mag_smul, mag_smul, mag_smul]; ring
  have h2 : 2 * area a b c = V3.mag (normal a b c) := by rw [area]; ring
  rw [hb, h2]
  have hA := V3.dot_self_nonneg (V3.sub b c)
  -- no side has length zero
  have hl : ∀ {p q : V3}, (V3.sub p q = ⟨0, 0, 0⟩ → False) → 0 < V3.dot (V3.sub p q) (V3.sub p q) :=
    fun h => V3.dot_self_pos fun e => h e
  have l1 : 0 < V3.dot (V3.sub b c) (V3.sub b c) := hl fun e => hnd (by
    have x := congrArg V3.x e; have y := congrArg V3.y e; have z := congrArg V3.z e
    simp only [V3.sub, sub_eq_zero] at x y z
    ext <;> simp only [normal, V3.cross, V3.sub, x, y, z] <;> ring)
  have l2 : 0 < V3.dot (V3.sub c a) (V3.sub c a) := hl fun e => hnd (by
    have x := congrArg V3.x e; have y := congrArg V3.y e; have z := congrArg V3.z e
    simp only [V3.sub, sub_eq_zero] at x y z
    ext <;> simp only [normal, V3.cross, V3.sub, x, y, z] <;> ring)
  have l3 : 0 < V3.dot (V3.sub a b) (V3.sub a b) := hl fun e => hnd (by
    have x := congrArg V3.x e; have y := congrArg V3.y e; have z := congrArg V3.z e
    simp only [V3.sub, sub_eq_zero] at x y z
    ext <;> simp only [normal, V3.cross, V3.sub, x, y, z] <;> ring)
  have sgn : ∀ {s d l x : ℝ}, 0 < d → 0 < l → 2 * s * d = l * x → (0 ≤ s ↔ 0 ≤ x) := by
    intro s d l x hd hl e
    constructor
    · intro hs
      have : 0 ≤ l * x := by rw [← e]; positivity
      exact nonneg_of_mul_nonneg_right this hl
    · intro hx
      have : 0 ≤ s * (2 * d) := by
        have : s * (2 * d) = l * x := by linarith
        rw [this]; positivity
      exact nonneg_of_mul_nonneg_left this (by linarith)
  have i1 : 0 ≤ s1 ↔ NonObtuse a b c := sgn hn l1 k1
  have i2 : 0 ≤ s2 ↔ NonObtuse b c a := sgn hn l2 k2
  have i3 : 0 ≤ s3 ↔ NonObtuse c a b := sgn hn l3 k3
  have a1 := le_abs_self s1
  have a2 := le_abs_self s2
  have a3 := le_abs_self s3
  refine ⟨?_, ?_⟩
  · nlinarith
  · rw [← i1, ← i2, ← i3]
    constructor
    · intro he
      have : |s1| + |s2| + |s3| = 1 := by
        have := mul_right_cancel₀ (ne_of_gt hm) (he.trans (one_mul _).symm)
        exact this
      refine ⟨?_, ?_, ?_⟩
      · rw [← abs_eq_self]; linarith
      · rw [← abs_eq_self]; linarith
      · rw [← abs_eq_self]; linarith
    · rintro ⟨p1, p2, p3⟩
      rw [abs_of_nonneg p1, abs_of_nonneg p2, abs_of_nonneg p3, hs, one_mul]

/-! ### Two dimensions -/

theorem triangleEdge_spec {m : Mesh} (h : m.Good) (hc : m.Complete) {t : Nat} (ht : t < m.tris.length) {j : Nat} (hj : j < 3) :
    nodesOf m.edges (triangleEdge m t j) = (nodesOf m.tris t).eraseIdx j := by
  have htt := nodesOf_get ht
  obtain ⟨i, hi⟩ := List.mem_iff_getElem?.1 (hc.tris _ (List.mem_of_getElem? htt) j hj)
  have := (tri_edges h htt hj i).2 hi
  rw [triangleEdge, this]
  exact (get_nodesOf hi).1

theorem elementNodeVolume_sum {eps : ℝ} {m : Mesh} (h : m.Good) (hc : m.Complete) (pos : Pos) {t : Nat}
    (ht : t < m.tris.length) :
    4 * ∑ j ∈ range 3, elementNodeVolume eps m pos t j =
      boxes (corner m pos t 0) (corner m pos t 1) (corner m pos t 2)
        (triCenter eps (corner m pos t 0) (corner m pos t 1) (corner m pos t 2)) := by
  have hE := h.tris _ (List.mem_of_getElem? (nodesOf_get ht))
  have h0 := triangleEdge_spec h hc ht (j := 0) (by omega)
  have h1 := triangleEdge_spec h hc ht (j := 1) (by omega)
  have h2 := triangleEdge_spec h hc ht (j := 2) (by omega)
  obtain ⟨a, b, c, he⟩ : ∃ a b c, nodesOf m.tris t = [a, b, c] := by
    match nodesOf m.tris t, hE.1 with
    | [a, b, c], _ => exact ⟨a, b, c, rfl⟩
  rw [he] at h0 h1 h2
  rw [Finset.sum_range_succ, Finset.sum_range_succ, Finset.sum_range_succ, Finset.sum_range_zero]
  simp only [elementNodeVolume, elementEdgeCouple, edgeLength, edgeCenter, edgeNode, triangleCenter, corner, h0, h1, h2,
    he, List.eraseIdx_zero, List.tail_cons, List.eraseIdx_cons_succ, List.getD_cons_zero, List.getD_cons_succ, boxes]
  ring

/-- **Two dimensions**: the volumes of the nodes add up to at least the area of the triangles. -/
theorem nodeVolume_sum_2d_le {eps : ℝ} (he : 0 < eps) {m : Mesh} (h : m.Good) (hc : m.Complete) (hd : m.dim = 2)
    {pos : Pos} (hg : GoodTris eps m pos) :
    ∑ t ∈ range m.tris.length, triArea m pos t ≤ ∑ v ∈ range m.n, nodeVolume eps m pos v := by
  have hd1 : m.dim ≠ 1 := by omega
  have e : ∑ v ∈ range m.n, nodeVolume eps m pos v =
      ∑ t ∈ range m.tris.length, 2 * ∑ j ∈ range 3, elementNodeVolume eps m pos t j := by
    simp only [nodeVolume]
    rw [sum_onNodes h]
    simp only [edgeNodeVolume, if_neg hd1]
    rw [sum_onEdges h hc, mul_sum]
  rw [e]
  refine sum_le_sum fun t ht => ?_
  have ht := mem_range.1 ht
  obtain ⟨hs, hnd⟩ := hg t ht
  have h1 := (boxes_area hnd (triCenter_spec he hs hnd)).1
  have h2 := elementNodeVolume_sum (eps := eps) h hc pos ht
  rw [triArea]
  linarith

/-- **Two dimensions**: the volumes of the nodes add up to exactly the area of the triangles when, and only
when, no triangle has an obtuse angle. -/
theorem nodeVolume_sum_2d {eps : ℝ} (he : 0 < eps) {m : Mesh} (h : m.Good) (hc : m.Complete) (hd : m.dim = 2)
    {pos : Pos} (hg : GoodTris eps m pos) :
    ∑ v ∈ range m.n, nodeVolume eps m pos v = ∑ t ∈ range m.tris.length, triArea m pos t ↔
      ∀ t < m.tris.length, NonObtuseTri m pos t := by
  have hd1 : m.dim ≠ 1 := by omega
  have e : ∑ v ∈ range m.n, nodeVolume eps m pos v =
      ∑ t ∈ range m.tris.length, 2 * ∑ j ∈ range 3, elementNodeVolume eps m pos t j := by
    simp only [nodeVolume]
    rw [sum_onNodes h]
    simp only [edgeNodeVolume, if_neg hd1]
    rw [sum_onEdges h hc, mul_sum]
  have hle : ∀ t ∈ range m.tris.length, triArea m pos t ≤ 2 * ∑ j ∈ range 3, elementNodeVolume eps m pos t j := by
    intro t ht
    have ht := mem_range.1 ht
    obtain ⟨hs, hnd⟩ := hg t ht
    have h1 := (boxes_area hnd (triCenter_spec he hs hnd)).1
    have h2 := elementNodeVolume_sum (eps := eps) h hc pos ht
    rw [triArea]
    linarith
  rw [e, eq_comm, Finset.sum_eq_sum_iff_of_le hle]
  refine ⟨fun hh t ht => ?_, fun hh t ht => ?_⟩
  · obtain ⟨hs, hnd⟩ := hg t ht
    have h1 := (boxes_area hnd (triCenter_spec he hs hnd)).2
    have h2 := elementNodeVolume_sum (eps := eps) h hc pos ht
    have h3 := hh t (mem_range.2 ht)
    rw [triArea] at h3
    exact h1.1 (by linarith)
  · have ht := mem_range.1 ht
    obtain ⟨hs, hnd⟩ := hg t ht
    have h1 := (boxes_area hnd (triCenter_spec he hs hnd)).2
    have h2 := elementNodeVolume_sum (eps := eps) h hc pos ht
    have h3 := h1.2 (hh t ht)
    rw [triArea]
    linarith

end Verif.Geom
