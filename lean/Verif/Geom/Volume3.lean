import Verif.Geom.Volume

/-!
# Node volumes in three dimensions

`src/GeomModels/TetrahedronEdgeCouple.cc`, `TetrahedronNodeVolume.cc`, `EdgeNodeVolume.cc`, `NodeVolume.cc`.
-/

namespace Verif.Geom

open Finset

/-! ### Model -/

/-- The center of tetrahedron `t` (`Region::SetTetrahedronCenters`, `Region.cc:715-735`). -/
noncomputable def tetrahedronCenter (m : Mesh) (pos : Pos) (t : Nat) : V3 :=
  tetCenter (pos ((nodesOf m.tets t).getD 0 0)) (pos ((nodesOf m.tets t).getD 1 0))
    (pos ((nodesOf m.tets t).getD 2 0)) (pos ((nodesOf m.tets t).getD 3 0))

/-- The triangle in slot `j` of tetrahedron `t`. -/
def tetFace (m : Mesh) (t j : Nat) : Nat := (slot (tables m).tetTri t j).getD 0

/-- `ElementEdgeCouple` in three dimensions, for an edge of a tetrahedron (`TetrahedronEdgeCouple.cc:70-101`) -/
noncomputable def edgeCoupleOf (eps : ℝ) (m : Mesh) (pos : Pos) (t : Nat) (d : EdgeData) : ℝ :=
  let v0 := V3.sub (tetrahedronCenter m pos t) (edgeCenter m pos d.edge)
  let v1 := V3.sub (triangleCenter eps m pos (tetFace m t (d.idx.getD 0 0))) (tetrahedronCenter m pos t)
  let v2 := V3.sub (triangleCenter eps m pos (tetFace m t (d.idx.getD 1 0))) (tetrahedronCenter m pos t)
  (1 / 2) * (V3.mag (V3.cross v0 v1) + V3.mag (V3.cross v0 v2))

/-- The data of edge `k` of tetrahedron `t`. -/
def edgeDataAt (m : Mesh) (t k : Nat) : EdgeData := ((tables m).tetEdge.getD t []).getD k ⟨0, [], []⟩

noncomputable def elementEdgeCouple3 (eps : ℝ) (m : Mesh) (pos : Pos) (t k : Nat) : ℝ :=
  edgeCoupleOf eps m pos t (edgeDataAt m t k)

/-- `ElementNodeVolume` in three dimensions (`TetrahedronNodeVolume.cc:32-73`) -/
noncomputable def elementNodeVolume3 (eps : ℝ) (m : Mesh) (pos : Pos) (t k : Nat) : ℝ :=
  edgeLength m pos (edgeDataAt m t k).edge * (elementEdgeCouple3 eps m pos t k * (1 / 6))

/-- `EdgeNodeVolume` in three dimensions (`EdgeNodeVolume.cc:86-92`) -/
noncomputable def edgeNodeVolume3 (eps : ℝ) (m : Mesh) (pos : Pos) (i : Nat) : ℝ :=
  onEdges3 (tables m) (elementNodeVolume3 eps m pos) i

/-- `NodeVolume` in three dimensions (`NodeVolume.cc:28-56`) -/
noncomputable def nodeVolume3 (eps : ℝ) (m : Mesh) (pos : Pos) (v : Nat) : ℝ :=
  onNodes (tables m) (edgeNodeVolume3 eps m pos) v

/-! ### Specification -/

/-- The corners of tetrahedron `t`. -/
def corner4 (m : Mesh) (pos : Pos) (t k : Nat) : V3 := pos ((nodesOf m.tets t).getD k 0)

/-- The volume of a tetrahedron. -/
noncomputable def volume (a b c d : V3) : ℝ := |det4 a b c d| / 6

noncomputable def tetVolume (m : Mesh) (pos : Pos) (t : Nat) : ℝ :=
  volume (corner4 m pos t 0) (corner4 m pos t 1) (corner4 m pos t 2) (corner4 m pos t 3)

/-- `o` is on the same side of the triangle `a b c` as `d`, or in its plane. -/
def SameSide (a b c d o : V3) : Prop := 0 ≤ det4 a b c o * det4 a b c d

/-- No angle of the triangle is obtuse. -/
def NonObtuse3 (a b c : V3) : Prop := NonObtuse a b c ∧ NonObtuse b c a ∧ NonObtuse c a b

/-- The center `o` of the tetrahedron `a b c d` is not beyond the face `a b c`, and this face has no obtuse
angle unless the center is in its plane. -/
def FaceOK (a b c d o : V3) : Prop := SameSide a b c d o ∧ (NonObtuse3 a b c ∨ det4 a b c o = 0)

/-- All four faces. -/
def TetOK (a b c d o : V3) : Prop := FaceOK a b c d o ∧ FaceOK a b d c o ∧ FaceOK a c d b o ∧ FaceOK b c d a o

/-- A tetrahedron is usable: it is not flat, and the coordinates of its nodes do not differ by less than the
tolerance. -/
structure GoodTet (eps : ℝ) (a b c d : V3) : Prop where
  flat : det4 a b c d ≠ 0
  s0 : SharpTri eps b c d
  s1 : SharpTri eps a c d
  s2 : SharpTri eps a b d
  s3 : SharpTri eps a b c

/-! ### One face -/

/-- An edge, the center of a face and the center of the tetrahedron. -/
theorem edge_box {a b f o : V3} (hf : dist2 f a = dist2 f b) (ho : dist2 o a = dist2 o b) :
    V3.mag (V3.sub a b) * V3.mag (V3.cross (V3.sub o (V3.smul (V3.add a b) (1 / 2))) (V3.sub f o)) =
      |V3.dot (normal f a b) (V3.sub o a)| := by
  apply V3.eq_of_mul_self (mul_nonneg (V3.mag_nonneg _) (V3.mag_nonneg _)) (abs_nonneg _)
  have h1 := V3.mag_sq (V3.sub a b)
  have h2 := V3.mag_sq (V3.cross (V3.sub o (V3.smul (V3.add a b) (1 / 2))) (V3.sub f o))
  rw [abs_mul_abs_self]
  have e : V3.mag (V3.sub a b) * V3.mag (V3.cross (V3.sub o (V3.smul (V3.add a b) (1 / 2))) (V3.sub f o)) *
      (V3.mag (V3.sub a b) * V3.mag (V3.cross (V3.sub o (V3.smul (V3.add a b) (1 / 2))) (V3.sub f o))) =
      (V3.mag (V3.sub a b) * V3.mag (V3.sub a b)) *
      (V3.mag (V3.cross (V3.sub o (V3.smul (V3.add a b) (1 / 2))) (V3.sub f o)) *
        V3.mag (V3.cross (V3.sub o (V3.smul (V3.add a b) (1 / 2))) (V3.sub f o))) := by ring
  rw [e, h1, h2]
  -- both vectors are perpendicular to the edge
  have p0 : V3.dot (V3.sub a b) (V3.sub o (V3.smul (V3.add a b) (1 / 2))) = 0 := by
    simp only [dist2] at ho
    simp only [V3.dot, V3.sub, V3.smul, V3.add]
    linear_combination -ho / 2
  have p1 : V3.dot (V3.sub a b) (V3.sub f o) = 0 := by
    simp only [dist2] at ho hf
    simp only [V3.dot, V3.sub]
    linear_combination (ho - hf) / 2
  have lag : ∀ n u w : V3, V3.dot n n * V3.dot (V3.cross u w) (V3.cross u w) =
      V3.dot n (V3.cross u w) * V3.dot n (V3.cross u w) +
      (V3.dot n w * V3.dot n w * V3.dot u u + V3.dot n u * V3.dot n u * V3.dot w w -
        2 * (V3.dot n w * V3.dot n u * V3.dot u w)) := by
    intro n u w; simp only [V3.dot, V3.cross]; ring
  rw [lag, p0, p1]
  have : V3.dot (V3.sub a b) (V3.cross (V3.sub o (V3.smul (V3.add a b) (1 / 2))) (V3.sub f o)) =
      V3.dot (normal f a b) (V3.sub o a) := by
    simp only [V3.dot, normal, V3.sub, V3.cross, V3.smul, V3.add]; ring
  rw [this]; ring

/-- What the three edges of a face contribute. -/
noncomputable def faceBoxes (a b c f o : V3) : ℝ :=
  V3.mag (V3.sub b c) * V3.mag (V3.cross (V3.sub o (V3.smul (V3.add b c) (1 / 2))) (V3.sub f o)) +
  V3.mag (V3.sub a c) * V3.mag (V3.cross (V3.sub o (V3.smul (V3.add a c) (1 / 2))) (V3.sub f o)) +
  V3.mag (V3.sub a b) * V3.mag (V3.cross (V3.sub o (V3.smul (V3.add a b) (1 / 2))) (V3.sub f o))

theorem faceBoxes_spec {a b c f o : V3} (hnd : NonDeg a b c) (hf : IsCircumcenter a b c f) (h1 : dist2 o a = dist2 o b)
    (h2 : dist2 o a = dist2 o c) :
    |det4 a b c o| ≤ faceBoxes a b c f o ∧
    (faceBoxes a b c f o = |det4 a b c o| ↔ NonObtuse3 a b c ∨ det4 a b c o = 0) := by
  have hn := V3.dot_self_pos hnd
  have hm := mag_pos_of_nonDeg hnd
  obtain ⟨s1, s2, s3, n1, n2, n3, hs, k1, k2, k3⟩ := side_normal hnd hf
  have hb := boxes_area hnd hf
  have e3 : dist2 f b = dist2 f c := hf.eq1.symm.trans hf.eq2
  -- the two-dimensional boxes give the sign conditions
  have hsym : V3.mag (normal f a c) = V3.mag (normal f c a) := by
    simp only [V3.mag, normal, V3.cross, V3.sub]; congr 1; ring
  have hb' : boxes a b c f = (|s1| + |s2| + |s3|) * V3.mag (normal a b c) := by
    rw [boxes, side_area e3, side_area hf.eq2, side_area hf.eq1, hsym, n1, n2, n3, mag_smul, mag_smul, mag_smul]; ring
  have hA : 2 * area a b c = V3.mag (normal a b c) := by rw [area]; ring
  rw [hb', hA] at hb
  have hge : 1 ≤ |s1| + |s2| + |s3| := by
    have := hb.1
    by_contra hc
    nlinarith
  have hiff : |s1| + |s2| + |s3| = 1 ↔ NonObtuse3 a b c := by
    rw [NonObtuse3, ← hb.2]
    constructor
    · intro h; rw [h, one_mul]
    · intro h; exact mul_right_cancel₀ (ne_of_gt hm) (h.trans (one_mul _).symm)
  -- heights
  obtain ⟨H, hH⟩ : ∃ H, H = det4 a b c o := ⟨_, rfl⟩
  have d0 : V3.dot (normal a b c) (V3.sub o a) = H := by
    rw [hH]; simp only [det4, normal, V3.dot, V3.cross, V3.sub]; ring
  have ds : ∀ (p : V3) (s : ℝ), V3.dot (V3.smul (normal a b c) s) (V3.sub o p) = s * V3.dot (normal a b c) (V3.sub o p) := by
    intro p s; simp only [V3.dot, V3.smul]; ring
  have db : V3.dot (normal a b c) (V3.sub o b) = H := by
    rw [← d0]; simp only [normal, V3.dot, V3.cross, V3.sub]; ring
  have ho3 : dist2 o b = dist2 o c := h1.symm.trans h2
  have hac : |V3.dot (normal f a c) (V3.sub o a)| = |V3.dot (normal f c a) (V3.sub o a)| := by
    have : V3.dot (normal f a c) (V3.sub o a) = - V3.dot (normal f c a) (V3.sub o a) := by
      simp only [normal, V3.dot, V3.cross, V3.sub]; ring
    rw [this, abs_neg]
  have hfb : faceBoxes a b c f o = (|s1| + |s2| + |s3|) * |H| := by
    rw [faceBoxes, edge_box e3 ho3, edge_box hf.eq2 h2, edge_box hf.eq1 h1, hac, n1, n2, n3, ds, ds, ds, d0, db,
      abs_mul, abs_mul, abs_mul]
    ring
  rw [hfb, ← hH]
  refine ⟨?_, ?_⟩
  · nlinarith [abs_nonneg H]
  · rw [← hiff]
    constructor
    · intro h
      by_cases h0 : H = 0
      · exact .inr h0
      · left
        have : |H| ≠ 0 := by simpa using h0
        exact mul_right_cancel₀ this (h.trans (one_mul _).symm)
    · rintro (h | h)
      · rw [h, one_mul]
      · rw [h]; simp

/-! ### One tetrahedron -/

/-- What the twelve pairs of an edge and a face contribute. -/
noncomputable def tetBoxes (a b c d f0 f1 f2 f3 o : V3) : ℝ :=
  faceBoxes b c d f0 o + faceBoxes a c d f1 o + faceBoxes a b d f2 o + faceBoxes a b c f3 o

theorem nonDeg_of_det {a b c d : V3} (h : det4 a b c d ≠ 0) : NonDeg a b c := by
  intro hn
  apply h
  have : det4 a b c d = V3.dot (normal a b c) (V3.sub d a) := by
    simp only [det4, normal, V3.dot, V3.cross, V3.sub]; ring
  rw [this, hn]
  simp [V3.dot]

theorem det_split (a b c d o : V3) :
    det4 a b c d = det4 a b c o - det4 a b d o + det4 a c d o - det4 b c d o := by
  simp only [det4, V3.dot, V3.cross, V3.sub]; ring

theorem mul_sign_neg {w D : ℝ} (h : D < 0) : 0 ≤ w * D ↔ w ≤ 0 :=
  ⟨fun hw => by by_contra hc; exact absurd hw (not_le.2 (mul_neg_of_pos_of_neg (not_le.1 hc) h)),
   fun hw => mul_nonneg_of_nonpos_of_nonpos hw h.le⟩

theorem mul_sign_pos {w D : ℝ} (h : 0 < D) : 0 ≤ w * D ↔ 0 ≤ w := mul_nonneg_iff_of_pos_right h

theorem signs {w0 w1 w2 w3 F0 F1 F2 F3 D : ℝ} (hd : D ≠ 0) (hs : D = w3 - w2 + w1 - w0)
    (l0 : |w0| ≤ F0) (l1 : |w1| ≤ F1) (l2 : |w2| ≤ F2) (l3 : |w3| ≤ F3) :
    |D| ≤ F0 + F1 + F2 + F3 ∧ (F0 + F1 + F2 + F3 = |D| ↔
      (0 ≤ w3 * D ∧ F3 = |w3|) ∧ (0 ≤ w2 * -D ∧ F2 = |w2|) ∧ (0 ≤ w1 * D ∧ F1 = |w1|) ∧ (0 ≤ w0 * -D ∧ F0 = |w0|)) := by
  rcases lt_or_gt_of_ne hd with hneg | hpos
  · have hp : 0 < -D := by linarith
    rw [abs_of_neg hneg, mul_sign_neg hneg, mul_sign_neg hneg, mul_sign_pos hp, mul_sign_pos hp]
    have a0 := le_abs_self w0
    have a1 := neg_le_abs w1
    have a2 := le_abs_self w2
    have a3 := neg_le_abs w3
    refine ⟨by linarith, ?_⟩
    constructor
    · intro h
      have e0 : |w0| = w0 := by linarith
      have e1 : |w1| = -w1 := by linarith
      have e2 : |w2| = w2 := by linarith
      have e3 : |w3| = -w3 := by linarith
      exact ⟨⟨abs_eq_neg_self.1 e3, by linarith⟩, ⟨abs_eq_self.1 e2, by linarith⟩,
        ⟨abs_eq_neg_self.1 e1, by linarith⟩, ⟨abs_eq_self.1 e0, by linarith⟩⟩
    · rintro ⟨⟨p3, e3⟩, ⟨p2, e2⟩, ⟨p1, e1⟩, ⟨p0, e0⟩⟩
      rw [e0, e1, e2, e3, abs_of_nonneg p0, abs_of_nonneg p2, abs_of_nonpos p1, abs_of_nonpos p3]
      linarith
  · have hp : -D < 0 := by linarith
    rw [abs_of_pos hpos, mul_sign_pos hpos, mul_sign_pos hpos, mul_sign_neg hp, mul_sign_neg hp]
    have a0 := neg_le_abs w0
    have a1 := le_abs_self w1
    have a2 := neg_le_abs w2
    have a3 := le_abs_self w3
    refine ⟨by linarith, ?_⟩
    constructor
    · intro h
      have e0 : |w0| = -w0 := by linarith
      have e1 : |w1| = w1 := by linarith
      have e2 : |w2| = -w2 := by linarith
      have e3 : |w3| = w3 := by linarith
      exact ⟨⟨abs_eq_self.1 e3, by linarith⟩, ⟨abs_eq_neg_self.1 e2, by linarith⟩,
        ⟨abs_eq_self.1 e1, by linarith⟩, ⟨abs_eq_neg_self.1 e0, by linarith⟩⟩
    · rintro ⟨⟨p3, e3⟩, ⟨p2, e2⟩, ⟨p1, e1⟩, ⟨p0, e0⟩⟩
      rw [e0, e1, e2, e3, abs_of_nonneg p1, abs_of_nonneg p3, abs_of_nonpos p0, abs_of_nonpos p2]
      linarith

theorem tetBoxes_spec {a b c d f0 f1 f2 f3 o : V3} (hd : det4 a b c d ≠ 0) (h1 : dist2 o a = dist2 o b)
    (h2 : dist2 o a = dist2 o c) (h3 : dist2 o a = dist2 o d) (g0 : IsCircumcenter b c d f0)
    (g1 : IsCircumcenter a c d f1) (g2 : IsCircumcenter a b d f2) (g3 : IsCircumcenter a b c f3) :
    6 * volume a b c d ≤ tetBoxes a b c d f0 f1 f2 f3 o ∧
    (tetBoxes a b c d f0 f1 f2 f3 o = 6 * volume a b c d ↔ TetOK a b c d o) := by
  have t1 : det4 a b d c = - det4 a b c d := by simp only [det4, V3.dot, V3.cross, V3.sub]; ring
  have t2 : det4 a c d b = det4 a b c d := by simp only [det4, V3.dot, V3.cross, V3.sub]; ring
  have t3 : det4 b c d a = - det4 a b c d := by simp only [det4, V3.dot, V3.cross, V3.sub]; ring
  have n3 : NonDeg a b c := nonDeg_of_det hd
  have n2 : NonDeg a b d := nonDeg_of_det (d := c) (by rw [t1]; simpa using hd)
  have n1 : NonDeg a c d := nonDeg_of_det (d := b) (by rw [t2]; exact hd)
  have n0 : NonDeg b c d := nonDeg_of_det (d := a) (by rw [t3]; simpa using hd)
  obtain ⟨l3, i3⟩ := faceBoxes_spec n3 g3 h1 h2
  obtain ⟨l2, i2⟩ := faceBoxes_spec n2 g2 h1 h3
  obtain ⟨l1, i1⟩ := faceBoxes_spec n1 g1 h2 h3
  obtain ⟨l0, i0⟩ := faceBoxes_spec n0 g0 (h1.symm.trans h2) (h1.symm.trans h3)
  have hsplit := det_split a b c d o
  have hv : 6 * volume a b c d = |det4 a b c d| := by rw [volume]; ring
  rw [hv, tetBoxes, TetOK, FaceOK, FaceOK, FaceOK, FaceOK, ← i0, ← i1, ← i2, ← i3]
  simp only [SameSide, t1, t2, t3]
  generalize faceBoxes b c d f0 o = F0 at *
  generalize faceBoxes a c d f1 o = F1 at *
  generalize faceBoxes a b d f2 o = F2 at *
  generalize faceBoxes a b c f3 o = F3 at *
  generalize det4 a b c o = w3 at *
  generalize det4 a b d o = w2 at *
  generalize det4 a c d o = w1 at *
  generalize det4 b c d o = w0 at *
  generalize det4 a b c d = D at *
  clear i0 i1 i2 i3
  exact signs hd hsplit l0 l1 l2 l3

/-! ### The edges of a tetrahedron, in terms of its corners -/

theorem positions {a b c d p q : Nat} (hab : a < b) (hbc : b < c) (hcd : c < d) (hpq : p < q) (hq : q < 4) :
    (List.range 4).filter (fun j => decide (([a, b, c, d].getD j 0) ∉ ([a, b, c, d].eraseIdx q).eraseIdx p)) = [p, q] := by
  have hr : List.range 4 = [0, 1, 2, 3] := rfl
  have h : p = 0 ∧ q = 1 ∨ p = 0 ∧ q = 2 ∨ p = 0 ∧ q = 3 ∨ p = 1 ∧ q = 2 ∨ p = 1 ∧ q = 3 ∨ p = 2 ∧ q = 3 := by omega
  have n1 : a ≠ b := by omega
  have n2 : a ≠ c := by omega
  have n3 : a ≠ d := by omega
  have n4 : b ≠ c := by omega
  have n5 : b ≠ d := by omega
  have n6 : c ≠ d := by omega
  rw [hr]
  rcases h with ⟨rfl, rfl⟩ | ⟨rfl, rfl⟩ | ⟨rfl, rfl⟩ | ⟨rfl, rfl⟩ | ⟨rfl, rfl⟩ | ⟨rfl, rfl⟩ <;>
    simp [n1, n2, n3, n4, n5, n6, n1.symm, n2.symm, n3.symm, n4.symm, n5.symm, n6.symm, List.filter_cons]

/-- The pairs of faces of the six edges. -/
theorem tet_idx_perm {m : Mesh} (h : m.Good) (hc : m.Complete) {t : Nat} (ht : t < m.tets.length) :
    (((tables m).tetEdge.getD t []).map (·.idx)).Perm [[2, 3], [1, 3], [1, 2], [0, 3], [0, 2], [0, 1]] := by
  have htt := nodesOf_get ht
  have hE := h.tets _ (List.mem_of_getElem? htt)
  obtain ⟨a, b, c, d, he⟩ : ∃ a b c d, nodesOf m.tets t = [a, b, c, d] := by
    match nodesOf m.tets t, hE.1 with
    | [a, b, c, d], _ => exact ⟨a, b, c, d, rfl⟩
  rw [he] at htt hE
  have hord := hE.2.1
  simp only [List.pairwise_cons, List.mem_cons, List.not_mem_nil, or_false, forall_eq_or_imp, forall_eq,
    false_imp_iff, implies_true, List.Pairwise.nil, and_true] at hord
  have hp := (tet_six_edges h hc htt).map fun s : Elem =>
    (List.range 4).filter fun j => decide (([a, b, c, d].getD j 0) ∉ s)
  rw [List.map_map] at hp
  have e1 : ((tables m).tetEdge.getD t []).map (·.idx) = ((tables m).tetEdge.getD t []).map
      ((fun s : Elem => (List.range 4).filter fun j => decide (([a, b, c, d].getD j 0) ∉ s)) ∘
        fun x => m.edges.getD x.edge []) := by
    apply List.map_congr_left
    intro x hx
    obtain ⟨p, q, hpq, hq, hed, hidx, -⟩ := tet_edge_data h hc htt hx
    have : m.edges.getD x.edge [] = ([a, b, c, d].eraseIdx q).eraseIdx p := by
      rw [List.getD_eq_getElem?_getD, hed]; rfl
    rw [hidx, Function.comp, this, positions hord.1.1 hord.2.1.1 hord.2.2 hpq hq]
  rw [e1]
  refine hp.trans (List.Perm.of_eq ?_)
  simp only [pairs, List.map_cons, List.map_nil]
  have q1 := positions (p := 2) (q := 3) hord.1.1 hord.2.1.1 hord.2.2 (by omega) (by omega)
  have q2 := positions (p := 1) (q := 3) hord.1.1 hord.2.1.1 hord.2.2 (by omega) (by omega)
  have q3 := positions (p := 1) (q := 2) hord.1.1 hord.2.1.1 hord.2.2 (by omega) (by omega)
  have q4 := positions (p := 0) (q := 3) hord.1.1 hord.2.1.1 hord.2.2 (by omega) (by omega)
  have q5 := positions (p := 0) (q := 2) hord.1.1 hord.2.1.1 hord.2.2 (by omega) (by omega)
  have q6 := positions (p := 0) (q := 1) hord.1.1 hord.2.1.1 hord.2.2 (by omega) (by omega)
  simp only [List.eraseIdx_zero, List.tail_cons, List.eraseIdx_cons_succ] at q1 q2 q3 q4 q5 q6
  rw [q1, q2, q3, q4, q5, q6]

theorem tetFace_spec {m : Mesh} (h : m.Good) (hc : m.Complete) {t : Nat} (ht : t < m.tets.length) {j : Nat} (hj : j < 4) :
    nodesOf m.tris (tetFace m t j) = (nodesOf m.tets t).eraseIdx j := by
  have htt := nodesOf_get ht
  obtain ⟨i, hi⟩ := List.mem_iff_getElem?.1 (hc.tets _ (List.mem_of_getElem? htt) j hj)
  have := (tet_tris h htt hj i).2 hi
  rw [tetFace, this]
  exact (get_nodesOf hi).1

/-- The value of the edge that joins the nodes other than `p` and `q`, in terms of the corners. -/
noncomputable def pairBox (eps : ℝ) (P : Nat → V3) (e : Elem) (o : V3) (l : List Nat) : ℝ :=
  let s := (e.eraseIdx (l.getD 1 0)).eraseIdx (l.getD 0 0)
  let f := fun j => triCenter eps (P ((e.eraseIdx j).getD 0 0)) (P ((e.eraseIdx j).getD 1 0)) (P ((e.eraseIdx j).getD 2 0))
  V3.mag (V3.sub (P (s.getD 0 0)) (P (s.getD 1 0))) *
    (V3.mag (V3.cross (V3.sub o (V3.smul (V3.add (P (s.getD 0 0)) (P (s.getD 1 0))) (1 / 2)))
        (V3.sub (f (l.getD 0 0)) o)) +
     V3.mag (V3.cross (V3.sub o (V3.smul (V3.add (P (s.getD 0 0)) (P (s.getD 1 0))) (1 / 2)))
        (V3.sub (f (l.getD 1 0)) o)))

/-- The contribution of a tetrahedron. -/
theorem elementNodeVolume3_sum {eps : ℝ} {m : Mesh} (h : m.Good) (hc : m.Complete) (pos : Pos) {t : Nat}
    (ht : t < m.tets.length) :
    12 * ∑ k ∈ range ((tables m).tetEdge.getD t []).length, elementNodeVolume3 eps m pos t k =
      tetBoxes (corner4 m pos t 0) (corner4 m pos t 1) (corner4 m pos t 2) (corner4 m pos t 3)
        (triCenter eps (corner4 m pos t 1) (corner4 m pos t 2) (corner4 m pos t 3))
        (triCenter eps (corner4 m pos t 0) (corner4 m pos t 2) (corner4 m pos t 3))
        (triCenter eps (corner4 m pos t 0) (corner4 m pos t 1) (corner4 m pos t 3))
        (triCenter eps (corner4 m pos t 0) (corner4 m pos t 1) (corner4 m pos t 2))
        (tetrahedronCenter m pos t) := by
  have htt := nodesOf_get ht
  have hE := h.tets _ (List.mem_of_getElem? htt)
  have hF : ∀ d ∈ (tables m).tetEdge.getD t [],
      12 * (edgeLength m pos d.edge * (edgeCoupleOf eps m pos t d * (1 / 6))) =
        pairBox eps pos (nodesOf m.tets t) (tetrahedronCenter m pos t) d.idx := by
    intro d hd
    obtain ⟨p, q, hpq, hq, hed, hidx, -⟩ := tet_edge_data h hc htt hd
    have h1 := (get_nodesOf hed).1
    have hp := tetFace_spec h hc ht (j := p) (by omega)
    have hq' := tetFace_spec h hc ht (j := q) (by omega)
    simp only [edgeCoupleOf, edgeLength, edgeCenter, edgeNode, triangleCenter, pairBox, hidx, h1, hp, hq',
      List.getD_cons_zero, List.getD_cons_succ]
    ring
  have hs : ∑ k ∈ range ((tables m).tetEdge.getD t []).length, elementNodeVolume3 eps m pos t k =
      (((tables m).tetEdge.getD t []).map fun d => edgeLength m pos d.edge * (edgeCoupleOf eps m pos t d * (1 / 6))).sum := by
    rw [sum_range_getElem, List.length_map]
    refine sum_congr rfl fun k hk => ?_
    have hk := mem_range.1 hk
    rw [elementNodeVolume3, elementEdgeCouple3, edgeDataAt]
    generalize (tables m).tetEdge.getD t [] = L at hk ⊢
    simp only [List.getD_eq_getElem?_getD, List.getElem?_map, List.getElem?_eq_getElem hk, Option.map_some, Option.getD_some]
  rw [hs, ← List.sum_map_mul_left, List.map_congr_left hF]
  have hm : ((tables m).tetEdge.getD t []).map (fun d => pairBox eps pos (nodesOf m.tets t) (tetrahedronCenter m pos t) d.idx) =
      (((tables m).tetEdge.getD t []).map (·.idx)).map (pairBox eps pos (nodesOf m.tets t) (tetrahedronCenter m pos t)) := by
    rw [List.map_map]; rfl
  rw [hm, ((tet_idx_perm h hc ht).map _).sum_eq]
  obtain ⟨a, b, c, d, he⟩ : ∃ a b c d, nodesOf m.tets t = [a, b, c, d] := by
    match nodesOf m.tets t, hE.1 with
    | [a, b, c, d], _ => exact ⟨a, b, c, d, rfl⟩
  simp only [List.map_cons, List.map_nil, List.sum_cons, List.sum_nil, pairBox, corner4, he, List.getD_cons_zero,
    List.getD_cons_succ, List.eraseIdx_zero, List.tail_cons, List.eraseIdx_cons_succ, tetBoxes, faceBoxes]
  ring

/-- The tetrahedra of the region can be used. -/
def GoodTets (eps : ℝ) (m : Mesh) (pos : Pos) : Prop :=
  ∀ t < m.tets.length, GoodTet eps (corner4 m pos t 0) (corner4 m pos t 1) (corner4 m pos t 2) (corner4 m pos t 3)

theorem tet_contribution {eps : ℝ} (he : 0 < eps) {m : Mesh} (h : m.Good) (hc : m.Complete) {pos : Pos}
    (hg : GoodTets eps m pos) {t : Nat} (ht : t < m.tets.length) :
    tetVolume m pos t ≤ 2 * ∑ k ∈ range ((tables m).tetEdge.getD t []).length, elementNodeVolume3 eps m pos t k ∧
    (tetVolume m pos t = 2 * ∑ k ∈ range ((tables m).tetEdge.getD t []).length, elementNodeVolume3 eps m pos t k ↔
      TetOK (corner4 m pos t 0) (corner4 m pos t 1) (corner4 m pos t 2) (corner4 m pos t 3) (tetrahedronCenter m pos t)) := by
  have hs := elementNodeVolume3_sum (eps := eps) h hc pos ht
  obtain ⟨hd, s0, s1, s2, s3⟩ := hg t ht
  obtain ⟨o1, o2, o3⟩ := tetCenter_spec hd
  have t1 : det4 (corner4 m pos t 0) (corner4 m pos t 1) (corner4 m pos t 3) (corner4 m pos t 2) ≠ 0 := by
    intro e; apply hd; simp only [det4, V3.dot, V3.cross, V3.sub] at e ⊢; linear_combination -e
  have t2 : det4 (corner4 m pos t 0) (corner4 m pos t 2) (corner4 m pos t 3) (corner4 m pos t 1) ≠ 0 := by
    intro e; apply hd; simp only [det4, V3.dot, V3.cross, V3.sub] at e ⊢; linear_combination e
  have t3 : det4 (corner4 m pos t 1) (corner4 m pos t 2) (corner4 m pos t 3) (corner4 m pos t 0) ≠ 0 := by
    intro e; apply hd; simp only [det4, V3.dot, V3.cross, V3.sub] at e ⊢; linear_combination -e
  have := tetBoxes_spec hd o1 o2 o3 (triCenter_spec he s0 (nonDeg_of_det t3)) (triCenter_spec he s1 (nonDeg_of_det t2))
    (triCenter_spec he s2 (nonDeg_of_det t1)) (triCenter_spec he s3 (nonDeg_of_det hd))
  have hcen : tetCenter (corner4 m pos t 0) (corner4 m pos t 1) (corner4 m pos t 2) (corner4 m pos t 3) =
    tetrahedronCenter m pos t := rfl
  rw [hcen, ← hs] at this
  rw [tetVolume, ← this.2]
  refine ⟨by linarith [this.1], ?_⟩
  constructor <;> intro e <;> linarith

theorem nodeVolume3_sum {eps : ℝ} {m : Mesh} (h : m.Good) (pos : Pos) :
    ∑ v ∈ range m.n, nodeVolume3 eps m pos v =
      ∑ t ∈ range m.tets.length, 2 * ∑ k ∈ range ((tables m).tetEdge.getD t []).length, elementNodeVolume3 eps m pos t k := by
  simp only [nodeVolume3]
  rw [sum_onNodes h]
  simp only [edgeNodeVolume3]
  rw [sum_onEdges3 h, mul_sum]

/-- **Three dimensions**: the volumes of the nodes add up to at least the volume of the tetrahedra. -/
theorem nodeVolume_sum_3d_le {eps : ℝ} (he : 0 < eps) {m : Mesh} (h : m.Good) (hc : m.Complete) {pos : Pos}
    (hg : GoodTets eps m pos) :
    ∑ t ∈ range m.tets.length, tetVolume m pos t ≤ ∑ v ∈ range m.n, nodeVolume3 eps m pos v := by
  rw [nodeVolume3_sum h]
  exact sum_le_sum fun t ht => (tet_contribution he h hc hg (mem_range.1 ht)).1

/-- **Three dimensions**: the volumes of the nodes add up to exactly the volume of the tetrahedra when, and only
when, the center of every tetrahedron is not outside, and no face is obtuse (except when the center is in its
plane). -/
theorem nodeVolume_sum_3d {eps : ℝ} (he : 0 < eps) {m : Mesh} (h : m.Good) (hc : m.Complete) {pos : Pos}
    (hg : GoodTets eps m pos) :
    ∑ v ∈ range m.n, nodeVolume3 eps m pos v = ∑ t ∈ range m.tets.length, tetVolume m pos t ↔
      ∀ t < m.tets.length, TetOK (corner4 m pos t 0) (corner4 m pos t 1) (corner4 m pos t 2) (corner4 m pos t 3)
        (tetrahedronCenter m pos t) := by
  rw [nodeVolume3_sum h, eq_comm, Finset.sum_eq_sum_iff_of_le fun t ht => (tet_contribution he h hc hg (mem_range.1 ht)).1]
  exact ⟨fun hh t ht => (tet_contribution he h hc hg ht).2.1 (hh t (mem_range.2 ht)),
    fun hh t ht => (tet_contribution he h hc hg (mem_range.1 ht)).2.2 (hh t (mem_range.1 ht))⟩

end Verif.Geom
