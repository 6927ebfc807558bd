import Verif.Cyl.Model
import Mathlib.Analysis.SpecialFunctions.Integrals.Basic

/-!
# Solids and surfaces of revolution
-/

namespace Verif.Cyl
open Verif.Geom Finset

/-! ### Specification -/

/-- Twice the area of a triangle, with a sign. -/
def cross (a b c : Pt) : ℝ := (b.z - a.z) * (c.r - a.r) - (c.z - a.z) * (b.r - a.r)

/-- The volume of the solid made by a triangle that is swept around the axis (Pappus): its area times the way of its centroid. -/
noncomputable def revolve (a b c : Pt) : ℝ := |cross a b c| / 2 * (2 * Real.pi * ((a.r + b.r + c.r) / 3))

/-! ### The specification is right -/

/-- The radius at height `z` on the line from `a` to `b`. -/
noncomputable def lineAt (a b : Pt) (z : ℝ) : ℝ := a.r + (z - a.z) / (b.z - a.z) * (b.r - a.r)

/-- **Washers**: for a triangle with two corners at the same height, `b` inside and `c` outside, the volume is the integral of the areas of
the rings. -/
theorem revolve_washers {a b c : Pt} (hab : a.z < b.z) (hbc : b.z = c.z) (hr : b.r ≤ c.r) :
    revolve a b c = ∫ z in a.z..b.z, Real.pi * (lineAt a c z ^ 2 - lineAt a b z ^ 2) := by
  have hz : b.z - a.z ≠ 0 := by linarith
  set h := b.z - a.z with hh
  have hc : c.z - a.z = h := by rw [← hbc]
  have e : ∀ z, Real.pi * (lineAt a c z ^ 2 - lineAt a b z ^ 2) =
      (2 * Real.pi * a.r * (c.r - b.r) / h) * (z - a.z) +
        (Real.pi * ((c.r - a.r) ^ 2 - (b.r - a.r) ^ 2) / h ^ 2) * (z - a.z) ^ 2 := by
    intro z
    simp only [lineAt, hc, ← hh]
    field_simp
    ring
  simp_rw [e]
  rw [intervalIntegral.integral_add (Continuous.intervalIntegrable (by fun_prop) _ _) (Continuous.intervalIntegrable (by fun_prop) _ _),
    intervalIntegral.integral_const_mul, intervalIntegral.integral_const_mul]
  have i1 : ∫ z in a.z..b.z, (z - a.z) = h ^ 2 / 2 := by
    rw [intervalIntegral.integral_comp_sub_right (fun z => z) a.z]
    simp [hh]
  have i2 : ∫ z in a.z..b.z, (z - a.z) ^ 2 = h ^ 3 / 3 := by
    rw [intervalIntegral.integral_comp_sub_right (fun z => z ^ 2) a.z]
    simp [hh]
    norm_num
  rw [i1, i2]
  have hcr : cross a b c = h * (c.r - b.r) := by
    simp only [cross, hc, ← hh]; ring
  rw [revolve, hcr, abs_mul, abs_of_pos (by linarith : 0 < h), abs_of_nonneg (by linarith)]
  field_simp
  ring

/-- **Cutting**: a triangle is cut by a line through `b` and a point of the opposite side. -/
theorem revolve_cut {a b c x : Pt} {t : ℝ} (h0 : 0 ≤ t) (h1 : t ≤ 1) (hz : x.z = a.z + t * (c.z - a.z)) (hr : x.r = a.r + t * (c.r - a.r)) :
    revolve a b c = revolve a b x + revolve c b x := by
  have e1 : cross a b x = t * cross a b c := by simp only [cross, hz, hr]; ring
  have e2 : cross c b x = -((1 - t) * cross a b c) := by simp only [cross, hz, hr]; ring
  simp only [revolve, e1, e2, abs_neg, abs_mul, abs_of_nonneg h0, abs_of_nonneg (by linarith : 0 ≤ 1 - t)]
  rw [hr]; ring

theorem revolve_swap (a b c : Pt) : revolve b a c = revolve a b c := by
  have : cross b a c = - cross a b c := by simp only [cross]; ring
  rw [revolve, revolve, this, abs_neg]; ring

theorem revolve_rot (a b c : Pt) : revolve b c a = revolve a b c := by
  have : cross b c a = cross a b c := by simp only [cross]; ring
  rw [revolve, revolve, this]; ring

theorem revolve_swap' (a b c : Pt) : revolve a c b = revolve a b c := by
  rw [← revolve_rot, revolve_swap, revolve_rot, revolve_rot]

/-- The surface made by a segment of length `len` between the radii `r1` and `r2`. -/
noncomputable def sweep (r1 r2 len : ℝ) : ℝ := ∫ t in (0 : ℝ)..1, 2 * Real.pi * |r1 + t * (r2 - r1)| * len

/-- A cone cut off: when the segment is on one side of the axis. -/
theorem sweep_eq {r1 r2 len : ℝ} (h : (0 ≤ r1 ∧ 0 ≤ r2) ∨ (r1 ≤ 0 ∧ r2 ≤ 0)) : sweep r1 r2 len = Real.pi * |r1 + r2| * len := by
  have key : ∀ s : ℝ, (∀ t ∈ Set.Icc (0 : ℝ) 1, |r1 + t * (r2 - r1)| = s * (r1 + t * (r2 - r1))) → |r1 + r2| = s * (r1 + r2) →
      sweep r1 r2 len = Real.pi * |r1 + r2| * len := by
    intro s hs h2
    have : sweep r1 r2 len = ∫ t in (0 : ℝ)..1, (2 * Real.pi * s * len * r1 + 2 * Real.pi * s * len * (r2 - r1) * t) := by
      refine intervalIntegral.integral_congr fun t ht => ?_
      rw [Set.uIcc_of_le zero_le_one] at ht
      rw [hs t ht]; ring
    rw [this, intervalIntegral.integral_add (Continuous.intervalIntegrable (by fun_prop) _ _)
      (Continuous.intervalIntegrable (by fun_prop) _ _), intervalIntegral.integral_const_mul (2 * Real.pi * s * len * (r2 - r1)) (fun t => t),
      intervalIntegral.integral_const, integral_id, h2]
    simp
    ring
  rcases h with ⟨h1, h2⟩ | ⟨h1, h2⟩
  · refine key 1 (fun t ht => ?_) (by rw [abs_of_nonneg (by linarith)]; ring)
    have : 0 ≤ r1 + t * (r2 - r1) := by nlinarith [ht.1, ht.2, mul_nonneg ht.1 h2, mul_nonneg (by linarith [ht.2] : 0 ≤ 1 - t) h1]
    rw [abs_of_nonneg this]; ring
  · refine key (-1) (fun t ht => ?_) (by rw [abs_of_nonpos (by linarith)]; ring)
    have : r1 + t * (r2 - r1) ≤ 0 := by
      nlinarith [mul_nonneg ht.1 (by linarith : 0 ≤ -r2), mul_nonneg (by linarith [ht.2] : 0 ≤ 1 - t) (by linarith : 0 ≤ -r1)]
    rw [abs_of_nonpos this]; ring

end Verif.Cyl
