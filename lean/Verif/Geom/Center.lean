import Verif.Geom.Vec

/-!
# Centers of triangles and tetrahedra

`src/Geometry/Triangle.cc:80-190`, `src/Geometry/Tetrahedron.cc:58-120`.
-/

namespace Verif.Geom

/-! ### Model -/

/-- `GetTriangleCenter3d` (`Triangle.cc:93-120`) -/
noncomputable def triCenter3d (p1 p2 p3 : V3) : V3 :=
  let p12 := V3.sub p1 p2
  let p13 := V3.sub p1 p3
  let p23 := V3.sub p2 p3
  let den1 := V3.cross p12 p23
  let den := 2 * V3.dot den1 den1
  let alpha := V3.dot p23 p23 * V3.dot p12 p13 * (1 / den)
  let beta := V3.dot p13 p13 * V3.dot (V3.neg p12) p23 * (1 / den)
  let gamma := V3.dot p12 p12 * V3.dot p13 p23 * (1 / den)
  V3.add (V3.add (V3.smul p1 alpha) (V3.smul p2 beta)) (V3.smul p3 gamma)

/-- `GetTriangleCenterInPlane` (`Triangle.cc:122-158`); `eps` is `Triangle::EPSILON`. -/
noncomputable def triCenter2d (eps x0 x1 x2 y0 y1 y2 : ℝ) : ℝ × ℝ :=
  if |y1 - y0| < eps then
    let m1 := -(x2 - x1) / (y2 - y1)
    let mx1 := (x1 + x2) / 2
    let my1 := (y1 + y2) / 2
    let xc := (x1 + x0) / 2
    (xc, m1 * (xc - mx1) + my1)
  else if |y2 - y1| < eps then
    let m0 := -(x1 - x0) / (y1 - y0)
    let mx0 := (x0 + x1) / 2
    let my0 := (y0 + y1) / 2
    let xc := (x2 + x1) / 2
    (xc, m0 * (xc - mx0) + my0)
  else
    let m0 := -(x1 - x0) / (y1 - y0)
    let m1 := -(x2 - x1) / (y2 - y1)
    let mx0 := (x0 + x1) / 2
    let mx1 := (x1 + x2) / 2
    let my0 := (y0 + y1) / 2
    let my1 := (y1 + y2) / 2
    let xc := (m0 * mx0 - m1 * mx1 + my1 - my0) / (m0 - m1)
    (xc, m0 * (xc - mx0) + my0)

/-- `GetTriangleCenter` (`Triangle.cc:161-190`) -/
noncomputable def triCenter (eps : ℝ) (v0 v1 v2 : V3) : V3 :=
  let v10 := V3.sub v1 v0
  let v20 := V3.sub v2 v0
  if |v10.z| < eps ∧ |v20.z| < eps then
    let t := triCenter2d eps v0.x v1.x v2.x v0.y v1.y v2.y
    ⟨t.1, t.2, v0.z⟩
  else if |v10.y| < eps ∧ |v20.y| < eps then
    let t := triCenter2d eps v0.x v1.x v2.x v0.z v1.z v2.z
    ⟨t.1, v0.y, t.2⟩
  else if |v10.x| < eps ∧ |v20.x| < eps then
    let t := triCenter2d eps v0.z v1.z v2.z v0.y v1.y v2.y
    ⟨v0.x, t.2, t.1⟩
  else triCenter3d v0 v1 v2

/-- `GetTetrahedronCenter` (`Tetrahedron.cc:58-98`): solution of the three equations
`v_i · x = |v_i|² / 2`. The factorization of the matrix is not modelled: the solution is written with
determinants. -/
noncomputable def tetCenter (a b c d : V3) : V3 :=
  let v1 := V3.sub b a
  let v2 := V3.sub c a
  let v3 := V3.sub d a
  let b1 := (1 / 2) * V3.dot v1 v1
  let b2 := (1 / 2) * V3.dot v2 v2
  let b3 := (1 / 2) * V3.dot v3 v3
  let det := V3.dot v1 (V3.cross v2 v3)
  V3.add (V3.smul (V3.add (V3.add (V3.smul (V3.cross v2 v3) b1) (V3.smul (V3.cross v3 v1) b2))
    (V3.smul (V3.cross v1 v2) b3)) (1 / det)) a

/-! ### Theorems -/

/-- The point on the perpendicular bisector. -/
theorem bisector {xa ya xb yb x y : ℝ} (h : (y - (ya + yb) / 2) * (yb - ya) = -(xb - xa) * (x - (xa + xb) / 2)) :
    (x - xa) ^ 2 + (y - ya) ^ 2 = (x - xb) ^ 2 + (y - yb) ^ 2 := by
  linear_combination 2 * h

/-- A difference of coordinates is either nothing or not below the tolerance. -/
def Sharp (eps : ℝ) (a b : ℝ) : Prop := a = b ∨ eps ≤ |b - a|

theorem Sharp.lt_iff {eps a b : ℝ} (he : 0 < eps) (h : Sharp eps a b) : |b - a| < eps ↔ a = b := by
  constructor
  · intro hl
    rcases h with h | h
    · exact h
    · exact absurd hl (not_lt.2 h)
  · rintro rfl; simpa using he

/-- **Center in a plane**: the same distance to the three nodes. -/
theorem triCenter2d_dist {eps x0 x1 x2 y0 y1 y2 : ℝ} (he : 0 < eps) (h1 : Sharp eps y0 y1) (h2 : Sharp eps y1 y2)
    (hnd : (x1 - x0) * (y2 - y0) - (y1 - y0) * (x2 - x0) ≠ 0) :
    let c := triCenter2d eps x0 x1 x2 y0 y1 y2
    (c.1 - x0) ^ 2 + (c.2 - y0) ^ 2 = (c.1 - x1) ^ 2 + (c.2 - y1) ^ 2 ∧
    (c.1 - x1) ^ 2 + (c.2 - y1) ^ 2 = (c.1 - x2) ^ 2 + (c.2 - y2) ^ 2 := by
  intro c
  simp only [c, triCenter2d, h1.lt_iff he, h2.lt_iff he]
  split
  · rename_i e
    subst e
    have hy : y2 - y0 ≠ 0 := by
      intro h; apply hnd; rw [h]; ring
    constructor
    · apply bisector; ring
    · apply bisector; field_simp; ring
  · split
    · rename_i hne e
      subst e
      have hy : y1 - y0 ≠ 0 := fun h => hne (sub_eq_zero.1 h).symm
      constructor
      · apply bisector; field_simp; ring
      · apply bisector; ring
    · rename_i hne hne'
      have hy : y1 - y0 ≠ 0 := fun h => hne (sub_eq_zero.1 h).symm
      have hy' : y2 - y1 ≠ 0 := fun h => hne' (sub_eq_zero.1 h).symm
      have hm : -(x1 - x0) / (y1 - y0) - -(x2 - x1) / (y2 - y1) ≠ 0 := by
        rw [div_sub_div _ _ hy hy', div_ne_zero_iff]
        refine ⟨?_, mul_ne_zero hy hy'⟩
        intro h; apply hnd; linear_combination -h
      set m0 := -(x1 - x0) / (y1 - y0) with hm0
      set m1 := -(x2 - x1) / (y2 - y1) with hm1
      have e0 : m0 * (y1 - y0) = -(x1 - x0) := by rw [hm0]; field_simp
      have e1 : m1 * (y2 - y1) = -(x2 - x1) := by rw [hm1]; field_simp
      set xc := (m0 * ((x0 + x1) / 2) - m1 * ((x1 + x2) / 2) + (y1 + y2) / 2 - (y0 + y1) / 2) / (m0 - m1) with hxc
      have e2 : xc * (m0 - m1) = m0 * ((x0 + x1) / 2) - m1 * ((x1 + x2) / 2) + (y1 + y2) / 2 - (y0 + y1) / 2 := by
        rw [hxc]; field_simp
      constructor
      · apply bisector; linear_combination (xc - (x0 + x1) / 2) * e0
      · apply bisector
        linear_combination (xc - (x1 + x2) / 2) * e1 + (y2 - y1) * e2

/-- **Center in space**: the point is in the plane of the triangle, with the same distance to its nodes. -/
theorem triCenter3d_spec {p1 p2 p3 : V3} (hnd : NonDeg p1 p2 p3) : IsCircumcenter p1 p2 p3 (triCenter3d p1 p2 p3) := by
  have hn := V3.dot_self_pos hnd
  have hden : V3.dot (V3.cross (V3.sub p1 p2) (V3.sub p2 p3)) (V3.cross (V3.sub p1 p2) (V3.sub p2 p3)) =
      V3.dot (normal p1 p2 p3) (normal p1 p2 p3) := by
    simp only [normal, V3.dot, V3.cross, V3.sub]; ring
  have hAB : V3.dot (normal p1 p2 p3) (normal p1 p2 p3) =
      V3.dot (V3.sub p1 p3) (V3.sub p1 p3) * V3.dot (V3.sub p2 p3) (V3.sub p2 p3) -
        V3.dot (V3.sub p1 p3) (V3.sub p2 p3) * V3.dot (V3.sub p1 p3) (V3.sub p2 p3) := by
    simp only [normal, V3.dot, V3.cross, V3.sub]; ring
  set D := V3.dot (normal p1 p2 p3) (normal p1 p2 p3) with hD
  set A := V3.dot (V3.sub p1 p3) (V3.sub p1 p3) with hA
  set B := V3.dot (V3.sub p2 p3) (V3.sub p2 p3) with hB
  set C := V3.dot (V3.sub p1 p3) (V3.sub p2 p3) with hC
  have h12 : V3.dot (V3.sub p1 p2) (V3.sub p1 p3) = A - C := by
    rw [hA, hC]; simp only [V3.dot, V3.sub]; ring
  have h21 : V3.dot (V3.neg (V3.sub p1 p2)) (V3.sub p2 p3) = B - C := by
    rw [hB, hC]; simp only [V3.dot, V3.sub, V3.neg]; ring
  have h11 : V3.dot (V3.sub p1 p2) (V3.sub p1 p2) = A - 2 * C + B := by
    rw [hA, hB, hC]; simp only [V3.dot, V3.sub]; ring
  obtain ⟨al, hal⟩ : ∃ al, al = B * (A - C) * (1 / (2 * D)) := ⟨_, rfl⟩
  obtain ⟨be, hbe⟩ : ∃ be, be = A * (B - C) * (1 / (2 * D)) := ⟨_, rfl⟩
  obtain ⟨ga, hga⟩ : ∃ ga, ga = (A - 2 * C + B) * C * (1 / (2 * D)) := ⟨_, rfl⟩
  have hD0 : D ≠ 0 := ne_of_gt hn
  have he : 2 * D * (1 / (2 * D)) = 1 := by field_simp
  have hsum : al + be + ga = 1 := by
    rw [hal, hbe, hga]
    linear_combination he - 2 * (1 / (2 * D)) * hAB
  have hA2 : 2 * (al * A + be * C) = A := by
    rw [hal, hbe]
    linear_combination A * he - 2 * A * (1 / (2 * D)) * hAB
  have hB2 : 2 * (al * C + be * B) = B := by
    rw [hal, hbe]
    linear_combination B * he - 2 * B * (1 / (2 * D)) * hAB
  have hc : triCenter3d p1 p2 p3 = V3.add (V3.add (V3.smul p1 al) (V3.smul p2 be)) (V3.smul p3 ga) := by
    simp only [triCenter3d, hden, h12, h21, h11, ← hA, ← hB, ← hC, ← hal, ← hbe, ← hga]
  rw [hc]
  have hga' : ga = 1 - al - be := by linarith
  subst hga'
  clear hga hal hbe hsum hc he h12 h21 h11 hAB hden hn hD0
  clear hD
  clear_value D
  obtain ⟨x1, y1, z1⟩ := p1
  obtain ⟨x2, y2, z2⟩ := p2
  obtain ⟨x3, y3, z3⟩ := p3
  simp only [V3.dot, V3.sub] at hA hB hC
  rw [hA, hC] at hA2
  rw [hB, hC] at hB2
  constructor
  · simp only [normal, V3.dot, V3.cross, V3.sub, V3.add, V3.smul]; ring
  · simp only [dist2, V3.add, V3.smul]
    linear_combination hB2 - hA2
  · simp only [dist2, V3.add, V3.smul]
    linear_combination - hA2

/-- All differences of coordinates are nothing or not below the tolerance. -/
structure SharpTri (eps : ℝ) (a b c : V3) : Prop where
  x1 : Sharp eps a.x b.x
  x2 : Sharp eps a.x c.x
  x3 : Sharp eps b.x c.x
  y1 : Sharp eps a.y b.y
  y2 : Sharp eps a.y c.y
  y3 : Sharp eps b.y c.y
  z1 : Sharp eps a.z b.z
  z2 : Sharp eps a.z c.z
  z3 : Sharp eps b.z c.z

/-- **Center of a triangle**: for every triangle whose nodes are not on a line (and whose coordinates do not
differ by less than the tolerance) the center is the circumcenter. -/
theorem triCenter_spec {eps : ℝ} (he : 0 < eps) {a b c : V3} (hs : SharpTri eps a b c) (hnd : NonDeg a b c) :
    IsCircumcenter a b c (triCenter eps a b c) := by
  have hx1 := hs.x1.lt_iff he
  have hx2 := hs.x2.lt_iff he
  have hy1 := hs.y1.lt_iff he
  have hy2 := hs.y2.lt_iff he
  have hz1 := hs.z1.lt_iff he
  have hz2 := hs.z2.lt_iff he
  have hnd' := hnd
  obtain ⟨x0, y0, z0⟩ := a
  obtain ⟨x1, y1, z1⟩ := b
  obtain ⟨x2, y2, z2⟩ := c
  simp only [triCenter, V3.sub, hx1, hx2, hy1, hy2, hz1, hz2]
  split
  · rename_i h
    obtain ⟨rfl, rfl⟩ := h
    have hn : (x1 - x0) * (y2 - y0) - (y1 - y0) * (x2 - x0) ≠ 0 := by
      intro h0; apply hnd
      ext <;> simp [normal, V3.cross, V3.sub, h0]
    obtain ⟨h1, h2⟩ := triCenter2d_dist he hs.y1 hs.y3 hn
    generalize triCenter2d eps x0 x1 x2 y0 y1 y2 = o at h1 h2 ⊢
    refine ⟨?_, ?_, ?_⟩
    · simp [normal, V3.dot, V3.cross, V3.sub]
    · simp only [dist2]; linear_combination h1
    · simp only [dist2]; linear_combination h1 + h2
  · split
    · rename_i h
      obtain ⟨rfl, rfl⟩ := h
      have hn : (x1 - x0) * (z2 - z0) - (z1 - z0) * (x2 - x0) ≠ 0 := by
        intro h0; apply hnd
        ext
        · simp [normal, V3.cross, V3.sub]
        · simp only [normal, V3.cross, V3.sub]; linear_combination -h0
        · simp [normal, V3.cross, V3.sub]
      obtain ⟨h1, h2⟩ := triCenter2d_dist he hs.z1 hs.z3 hn
      generalize triCenter2d eps x0 x1 x2 z0 z1 z2 = o at h1 h2 ⊢
      refine ⟨?_, ?_, ?_⟩
      · simp [normal, V3.dot, V3.cross, V3.sub]
      · simp only [dist2]; linear_combination h1
      · simp only [dist2]; linear_combination h1 + h2
    · split
      · rename_i h
        obtain ⟨rfl, rfl⟩ := h
        have hn : (z1 - z0) * (y2 - y0) - (y1 - y0) * (z2 - z0) ≠ 0 := by
          intro h0; apply hnd
          ext
          · simp only [normal, V3.cross, V3.sub]; linear_combination -h0
          · simp [normal, V3.cross, V3.sub]
          · simp [normal, V3.cross, V3.sub]
        obtain ⟨h1, h2⟩ := triCenter2d_dist he hs.y1 hs.y3 hn
        generalize triCenter2d eps z0 z1 z2 y0 y1 y2 = o at h1 h2 ⊢
        refine ⟨?_, ?_, ?_⟩
        · simp [normal, V3.dot, V3.cross, V3.sub]
        · simp only [dist2]; linear_combination h1
        · simp only [dist2]; linear_combination h1 + h2
      · exact triCenter3d_spec hnd'

/-- The center is the only point with these properties, whatever the formula. -/
theorem triCenter_unique {eps : ℝ} (he : 0 < eps) {a b c o : V3} (hs : SharpTri eps a b c) (hnd : NonDeg a b c)
    (ho : IsCircumcenter a b c o) : triCenter eps a b c = o :=
  circumcenter_unique hnd (triCenter_spec he hs hnd) ho

/-- **Center of a tetrahedron**: the same distance to the four nodes. -/
theorem tetCenter_spec {a b c d : V3} (hnd : det4 a b c d ≠ 0) :
    dist2 (tetCenter a b c d) a = dist2 (tetCenter a b c d) b ∧
    dist2 (tetCenter a b c d) a = dist2 (tetCenter a b c d) c ∧
    dist2 (tetCenter a b c d) a = dist2 (tetCenter a b c d) d := by
  have key : ∀ (v1 v2 v3 : V3) (D : ℝ), D = V3.dot v1 (V3.cross v2 v3) → D ≠ 0 → ∀ (b1 b2 b3 : ℝ),
      V3.dot v1 (V3.smul (V3.add (V3.add (V3.smul (V3.cross v2 v3) b1) (V3.smul (V3.cross v3 v1) b2))
        (V3.smul (V3.cross v1 v2) b3)) (1 / D)) = b1 ∧
      V3.dot v2 (V3.smul (V3.add (V3.add (V3.smul (V3.cross v2 v3) b1) (V3.smul (V3.cross v3 v1) b2))
        (V3.smul (V3.cross v1 v2) b3)) (1 / D)) = b2 ∧
      V3.dot v3 (V3.smul (V3.add (V3.add (V3.smul (V3.cross v2 v3) b1) (V3.smul (V3.cross v3 v1) b2))
        (V3.smul (V3.cross v1 v2) b3)) (1 / D)) = b3 := by
    intro v1 v2 v3 D hD hD0 b1 b2 b3
    have h1 : D * (1 / D) = 1 := by field_simp
    generalize 1 / D = e at h1 ⊢
    rw [hD] at h1
    simp only [V3.dot, V3.cross] at h1
    refine ⟨?_, ?_, ?_⟩ <;> simp only [V3.dot, V3.cross, V3.add, V3.smul]
    · linear_combination b1 * h1
    · linear_combination b2 * h1
    · linear_combination b3 * h1
  obtain ⟨h1, h2, h3⟩ := key (V3.sub b a) (V3.sub c a) (V3.sub d a) _ rfl hnd
    ((1 / 2) * V3.dot (V3.sub b a) (V3.sub b a)) ((1 / 2) * V3.dot (V3.sub c a) (V3.sub c a))
    ((1 / 2) * V3.dot (V3.sub d a) (V3.sub d a))
  have hc : tetCenter a b c d = V3.add (V3.smul (V3.add (V3.add (V3.smul (V3.cross (V3.sub c a) (V3.sub d a))
      ((1 / 2) * V3.dot (V3.sub b a) (V3.sub b a)))
      (V3.smul (V3.cross (V3.sub d a) (V3.sub b a)) ((1 / 2) * V3.dot (V3.sub c a) (V3.sub c a))))
      (V3.smul (V3.cross (V3.sub b a) (V3.sub c a)) ((1 / 2) * V3.dot (V3.sub d a) (V3.sub d a))))
      (1 / V3.dot (V3.sub b a) (V3.cross (V3.sub c a) (V3.sub d a)))) a := rfl
  rw [hc]
  generalize V3.smul _ _ = o at h1 h2 h3 ⊢
  simp only [V3.dot, V3.sub] at h1 h2 h3
  simp only [dist2, V3.add]
  refine ⟨?_, ?_, ?_⟩
  · linear_combination 2 * h1
  · linear_combination 2 * h2
  · linear_combination 2 * h3

/-- A point with the same distance to the four nodes of a tetrahedron is its center. -/
theorem tetCenter_unique {a b c d o : V3} (hnd : det4 a b c d ≠ 0) (h1 : dist2 o a = dist2 o b)
    (h2 : dist2 o a = dist2 o c) (h3 : dist2 o a = dist2 o d) : o = tetCenter a b c d := by
  obtain ⟨g1, g2, g3⟩ := tetCenter_spec hnd
  generalize tetCenter a b c d = o' at g1 g2 g3 ⊢
  obtain ⟨ax, ay, az⟩ := a
  obtain ⟨bx, by', bz⟩ := b
  obtain ⟨cx, cy, cz⟩ := c
  obtain ⟨dx, dy, dz⟩ := d
  obtain ⟨x, y, z⟩ := o
  obtain ⟨x', y', z'⟩ := o'
  simp only [dist2, det4, V3.dot, V3.cross, V3.sub] at *
  have k1 : (x - x') * (bx - ax) + (y - y') * (by' - ay) + (z - z') * (bz - az) = 0 := by
    linear_combination (h1 - g1) / 2
  have k2 : (x - x') * (cx - ax) + (y - y') * (cy - ay) + (z - z') * (cz - az) = 0 := by
    linear_combination (h2 - g2) / 2
  have k3 : (x - x') * (dx - ax) + (y - y') * (dy - ay) + (z - z') * (dz - az) = 0 := by
    linear_combination (h3 - g3) / 2
  have d1 : x - x' = 0 := by
    refine (mul_eq_zero.1 (?_ : ((bx - ax) * ((cy - ay) * (dz - az) - (cz - az) * (dy - ay)) +
        (by' - ay) * ((cz - az) * (dx - ax) - (cx - ax) * (dz - az)) +
        (bz - az) * ((cx - ax) * (dy - ay) - (cy - ay) * (dx - ax))) * (x - x') = 0)).resolve_left hnd
    linear_combination ((cy - ay) * (dz - az) - (cz - az) * (dy - ay)) * k1 +
      ((dy - ay) * (bz - az) - (dz - az) * (by' - ay)) * k2 + ((by' - ay) * (cz - az) - (bz - az) * (cy - ay)) * k3
  have d2 : y - y' = 0 := by
    refine (mul_eq_zero.1 (?_ : ((bx - ax) * ((cy - ay) * (dz - az) - (cz - az) * (dy - ay)) +
        (by' - ay) * ((cz - az) * (dx - ax) - (cx - ax) * (dz - az)) +
        (bz - az) * ((cx - ax) * (dy - ay) - (cy - ay) * (dx - ax))) * (y - y') = 0)).resolve_left hnd
    linear_combination ((cz - az) * (dx - ax) - (cx - ax) * (dz - az)) * k1 +
      ((dz - az) * (bx - ax) - (dx - ax) * (bz - az)) * k2 + ((bz - az) * (cx - ax) - (bx - ax) * (cz - az)) * k3
  have d3 : z - z' = 0 := by
    refine (mul_eq_zero.1 (?_ : ((bx - ax) * ((cy - ay) * (dz - az) - (cz - az) * (dy - ay)) +
        (by' - ay) * ((cz - az) * (dx - ax) - (cx - ax) * (dz - az)) +
        (bz - az) * ((cx - ax) * (dy - ay) - (cy - ay) * (dx - ax))) * (z - z') = 0)).resolve_left hnd
    linear_combination ((cx - ax) * (dy - ay) - (cy - ay) * (dx - ax)) * k1 +
      ((dx - ax) * (by' - ay) - (dy - ay) * (bx - ax)) * k2 + ((bx - ax) * (cy - ay) - (by' - ay) * (cx - ax)) * k3
  ext
  · simpa using sub_eq_zero.1 d1
  · simpa using sub_eq_zero.1 d2
  · simpa using sub_eq_zero.1 d3

/-! ### Examples -/

/-- A triangle that is in none of the planes: the general formula is used. -/
example : SharpTri (1 / 10) ⟨0, 0, 0⟩ ⟨1, 2, 3⟩ ⟨2, 5, 4⟩ ∧ NonDeg ⟨0, 0, 0⟩ ⟨1, 2, 3⟩ ⟨2, 5, 4⟩ := by
  refine ⟨?_, ?_⟩
  · constructor <;> right <;> norm_num [abs_of_pos]
  · intro h
    have := congrArg V3.x h
    norm_num [normal, V3.cross, V3.sub] at this

example : det4 ⟨0, 0, 0⟩ ⟨1, 0, 0⟩ ⟨0, 1, 0⟩ ⟨0, 0, 1⟩ ≠ 0 := by norm_num [det4, V3.dot, V3.cross, V3.sub]

end Verif.Geom
