import Mathlib.Analysis.SpecialFunctions.Pow.Real
import Mathlib.Tactic.Linarith
import Mathlib.Tactic.LinearCombination
import Mathlib.Tactic.Ring
import Mathlib.Tactic.FieldSimp

/-!
# Vectors

`src/Geometry/Vector.hh`, over the real numbers: the rounding of floating point numbers is not modelled.
-/

namespace Verif.Geom

/-- `Vector` (`Vector.hh:16-150`) -/
@[ext] structure V3 where
  x : ℝ
  y : ℝ
  z : ℝ

namespace V3

/-- `operator-` (`Vector.hh:37-42`) -/
def sub (a b : V3) : V3 := ⟨a.x - b.x, a.y - b.y, a.z - b.z⟩
/-- `operator+` (`Vector.hh:58-63`) -/
def add (a b : V3) : V3 := ⟨a.x + b.x, a.y + b.y, a.z + b.z⟩
/-- `operator*` (`Vector.hh:73-78`) -/
def smul (a : V3) (s : ℝ) : V3 := ⟨a.x * s, a.y * s, a.z * s⟩
/-- `operator-` (`Vector.hh:44-48`) -/
def neg (a : V3) : V3 := ⟨-a.x, -a.y, -a.z⟩
/-- `dot_prod` (`Vector.hh:108-111`) -/
def dot (a b : V3) : ℝ := a.x * b.x + a.y * b.y + a.z * b.z
/-- `cross_prod` (`Vector.hh:113-119`) -/
def cross (a b : V3) : V3 := ⟨a.y * b.z - a.z * b.y, a.z * b.x - a.x * b.z, a.x * b.y - a.y * b.x⟩
/-- `magnitude` (`Vector.hh:103-106`) -/
noncomputable def mag (a : V3) : ℝ := Real.sqrt (a.x * a.x + a.y * a.y + a.z * a.z)

theorem dot_self_nonneg (a : V3) : 0 ≤ dot a a := by
  unfold dot; nlinarith [mul_self_nonneg a.x, mul_self_nonneg a.y, mul_self_nonneg a.z]

theorem mag_nonneg (a : V3) : 0 ≤ mag a := Real.sqrt_nonneg _

theorem mag_sq (a : V3) : mag a * mag a = dot a a := Real.mul_self_sqrt (dot_self_nonneg a)

theorem dot_self_eq_zero {a : V3} (h : dot a a = 0) : a = ⟨0, 0, 0⟩ := by
  unfold dot at h
  have hx := mul_self_nonneg a.x
  have hy := mul_self_nonneg a.y
  have hz := mul_self_nonneg a.z
  ext
  · exact mul_self_eq_zero.1 (by linarith)
  · exact mul_self_eq_zero.1 (by linarith)
  · exact mul_self_eq_zero.1 (by linarith)

theorem dot_self_pos {a : V3} (h : a ≠ ⟨0, 0, 0⟩) : 0 < dot a a :=
  lt_of_le_of_ne (dot_self_nonneg a) fun e => h (dot_self_eq_zero e.symm)

/-- Two numbers that are not negative and have the same square are equal. -/
theorem eq_of_mul_self {a b : ℝ} (ha : 0 ≤ a) (hb : 0 ≤ b) (h : a * a = b * b) : a = b := by
  nlinarith [mul_self_nonneg (a - b), mul_nonneg ha hb, mul_self_nonneg (a + b)]

end V3

/-! ### Specification -/

/-- The square of the distance. -/
def dist2 (p q : V3) : ℝ := (p.x - q.x) ^ 2 + (p.y - q.y) ^ 2 + (p.z - q.z) ^ 2

/-- The vector that is perpendicular to a triangle; its length is twice the area. -/
def normal (a b c : V3) : V3 := V3.cross (V3.sub b a) (V3.sub c a)

/-- The three points are not on a line. -/
def NonDeg (a b c : V3) : Prop := normal a b c ≠ ⟨0, 0, 0⟩

/-- The point is in the plane of the triangle, with the same distance to its three nodes. -/
structure IsCircumcenter (a b c o : V3) : Prop where
  plane : V3.dot (normal a b c) (V3.sub o a) = 0
  eq1 : dist2 o a = dist2 o b
  eq2 : dist2 o a = dist2 o c

/-- Six times the volume of a tetrahedron, with a sign. -/
def det4 (a b c d : V3) : ℝ := V3.dot (V3.sub b a) (V3.cross (V3.sub c a) (V3.sub d a))

/-- There is only one such point. -/
theorem circumcenter_unique {a b c o o' : V3} (hnd : NonDeg a b c) (h : IsCircumcenter a b c o)
    (h' : IsCircumcenter a b c o') : o = o' := by
  obtain ⟨p1, e1, e2⟩ := h
  obtain ⟨p1', e1', e2'⟩ := h'
  have hn := V3.dot_self_pos hnd
  obtain ⟨ax, ay, az⟩ := a
  obtain ⟨bx, by', bz⟩ := b
  obtain ⟨cx, cy, cz⟩ := c
  obtain ⟨x, y, z⟩ := o
  obtain ⟨x', y', z'⟩ := o'
  simp only [normal, V3.dot, V3.cross, V3.sub, dist2] at p1 p1' e1 e1' e2 e2' hn
  -- the difference is perpendicular to both sides and to the normal
  have k1 : (x - x') * (bx - ax) + (y - y') * (by' - ay) + (z - z') * (bz - az) = 0 := by
    linear_combination (e1 - e1') / 2
  have k2 : (x - x') * (cx - ax) + (y - y') * (cy - ay) + (z - z') * (cz - az) = 0 := by
    linear_combination (e2 - e2') / 2
  generalize hu : bx - ax = u1 at *
  generalize hu2 : by' - ay = u2 at *
  generalize hu3 : bz - az = u3 at *
  generalize hw : cx - ax = w1 at *
  generalize hw2 : cy - ay = w2 at *
  generalize hw3 : cz - az = w3 at *
  have k3 : (x - x') * (u2 * w3 - u3 * w2) + (y - y') * (u3 * w1 - u1 * w3) + (z - z') * (u1 * w2 - u2 * w1) = 0 := by
    linear_combination p1 - p1'
  -- determinant is the square of the normal
  have hD : (u2 * w3 - u3 * w2) * (u2 * w3 - u3 * w2) + (u3 * w1 - u1 * w3) * (u3 * w1 - u1 * w3) +
      (u1 * w2 - u2 * w1) * (u1 * w2 - u2 * w1) ≠ 0 := ne_of_gt hn
  have d1 : x - x' = 0 := by
    have : ((u2 * w3 - u3 * w2) * (u2 * w3 - u3 * w2) + (u3 * w1 - u1 * w3) * (u3 * w1 - u1 * w3) +
      (u1 * w2 - u2 * w1) * (u1 * w2 - u2 * w1)) * (x - x') = 0 := by
      linear_combination (u2 * w3 - u3 * w2) * k3 + (w2 * (u1 * w2 - u2 * w1) - w3 * (u3 * w1 - u1 * w3)) * k1 -
        (u2 * (u1 * w2 - u2 * w1) - u3 * (u3 * w1 - u1 * w3)) * k2
    exact (mul_eq_zero.1 this).resolve_left hD
  have d2 : y - y' = 0 := by
    have : ((u2 * w3 - u3 * w2) * (u2 * w3 - u3 * w2) + (u3 * w1 - u1 * w3) * (u3 * w1 - u1 * w3) +
      (u1 * w2 - u2 * w1) * (u1 * w2 - u2 * w1)) * (y - y') = 0 := by
      linear_combination (u3 * w1 - u1 * w3) * k3 + (w3 * (u2 * w3 - u3 * w2) - w1 * (u1 * w2 - u2 * w1)) * k1 -
        (u3 * (u2 * w3 - u3 * w2) - u1 * (u1 * w2 - u2 * w1)) * k2
    exact (mul_eq_zero.1 this).resolve_left hD
  have d3 : z - z' = 0 := by
    have : ((u2 * w3 - u3 * w2) * (u2 * w3 - u3 * w2) + (u3 * w1 - u1 * w3) * (u3 * w1 - u1 * w3) +
      (u1 * w2 - u2 * w1) * (u1 * w2 - u2 * w1)) * (z - z') = 0 := by
      linear_combination (u1 * w2 - u2 * w1) * k3 + (w1 * (u3 * w1 - u1 * w3) - w2 * (u2 * w3 - u3 * w2)) * k1 -
        (u1 * (u3 * w1 - u1 * w3) - u2 * (u2 * w3 - u3 * w2)) * k2
    exact (mul_eq_zero.1 this).resolve_left hD
  ext
  · simpa using sub_eq_zero.1 d1
  · simpa using sub_eq_zero.1 d2
  · simpa using sub_eq_zero.1 d3

end Verif.Geom
