import Verif.MathFn.Float

/-! # Relative errors compose -/

namespace Verif.MathFn

theorem Rel.refl {u : ℝ} (hu : 0 ≤ u) (a : ℝ) : Rel u a a := by
  simp [Rel]; positivity

theorem Rel.mono {u v a b : ℝ} (h : Rel u a b) (huv : u ≤ v) : Rel v a b :=
  le_trans h (mul_le_mul_of_nonneg_right huv (abs_nonneg _))

theorem rel_iff {u a b : ℝ} : Rel u a b ↔ (∃ d : ℝ, |d| ≤ u ∧ a = b * (1 + d)) ∨ (a = 0 ∧ b = 0) := by
  unfold Rel
  constructor
  · intro h
    by_cases hb : b = 0
    · subst hb
      simp at h
      exact Or.inr ⟨h, rfl⟩
    · left
      refine ⟨(a - b) / b, ?_, by field_simp; ring⟩
      rw [abs_div, div_le_iff₀ (abs_pos.2 hb)]
      exact h
  · rintro (⟨d, hd, rfl⟩ | ⟨rfl, rfl⟩)
    · have : b * (1 + d) - b = b * d := by ring
      rw [this, abs_mul, mul_comm]
      exact mul_le_mul_of_nonneg_right hd (abs_nonneg _)
    · simp

theorem Rel.exists {u a b : ℝ} (hu : 0 ≤ u) (h : Rel u a b) :
    ∃ d : ℝ, |d| ≤ u ∧ a = b * (1 + d) := by
  rcases rel_iff.1 h with h | ⟨rfl, rfl⟩
  · exact h
  · exact ⟨0, by simpa using hu, by simp⟩

theorem Rel.of {u a b d : ℝ} (hd : |d| ≤ u) (h : a = b * (1 + d)) : Rel u a b :=
  rel_iff.2 (Or.inl ⟨d, hd, h⟩)

theorem Rel.trans {u v a b c : ℝ} (hu : 0 ≤ u) (hv : 0 ≤ v) (h : Rel u a b) (h' : Rel v b c) :
    Rel (u + v + u * v) a c := by
  obtain ⟨d, hd, rfl⟩ := h.exists hu
  obtain ⟨e, he, rfl⟩ := h'.exists hv
  refine Rel.of (d := d + e + d * e) ?_ (by ring)
  have h1 := abs_add_le (d + e) (d * e)
  have h2 := abs_add_le d e
  have h3 : |d * e| ≤ u * v := by rw [abs_mul]; exact mul_le_mul hd he (abs_nonneg _) hu
  linarith

theorem Rel.mul {u v a b c d : ℝ} (hu : 0 ≤ u) (hv : 0 ≤ v) (h : Rel u a b) (h' : Rel v c d) :
    Rel (u + v + u * v) (a * c) (b * d) := by
  obtain ⟨x, hx, rfl⟩ := h.exists hu
  obtain ⟨y, hy, rfl⟩ := h'.exists hv
  refine Rel.of (d := x + y + x * y) ?_ (by ring)
  have h1 := abs_add_le (x + y) (x * y)
  have h2 := abs_add_le x y
  have h3 : |x * y| ≤ u * v := by rw [abs_mul]; exact mul_le_mul hx hy (abs_nonneg _) hu
  linarith

theorem Rel.mul_left {u a b : ℝ} (h : Rel u a b) (c : ℝ) : Rel u (c * a) (c * b) := by
  unfold Rel at *
  rw [← mul_sub, abs_mul, abs_mul]
  nlinarith [abs_nonneg c]

theorem Rel.inv {u a b : ℝ} (hu : 0 ≤ u) (hu1 : u < 1) (h : Rel u a b) :
    Rel (u / (1 - u)) a⁻¹ b⁻¹ := by
  obtain ⟨d, hd, rfl⟩ := h.exists hu
  have hd1 := abs_le.1 hd
  have hpos : 0 < 1 + d := by linarith
  refine Rel.of (d := -d / (1 + d)) ?_ ?_
  · rw [abs_div, abs_neg, abs_of_pos hpos, div_le_div_iff₀ hpos (by linarith)]
    nlinarith [abs_nonneg d]
  · rw [mul_inv]
    congr 1
    field_simp
    ring

/-- Composition with the errors counted in units: with `u ≤ 1/100`, `k` units after `l` units. -/
theorem Rel.units {u k l n a b c : ℝ} (hu : 0 ≤ u) (hu1 : u ≤ 1 / 100) (hk : 0 ≤ k) (hl : 0 ≤ l)
    (h : Rel (k * u) a b) (h' : Rel (l * u) b c) (hn : k + l + k * l / 100 ≤ n) :
    Rel (n * u) a c := by
  refine (h.trans (by positivity) (by positivity) h').mono ?_
  have : k * u * (l * u) ≤ k * l / 100 * u := by nlinarith [mul_nonneg (mul_nonneg hk hl) hu]
  nlinarith

theorem Rel.units_mul {u k l n a b c d : ℝ} (hu : 0 ≤ u) (hu1 : u ≤ 1 / 100) (hk : 0 ≤ k)
    (hl : 0 ≤ l) (h : Rel (k * u) a b) (h' : Rel (l * u) c d) (hn : k + l + k * l / 100 ≤ n) :
    Rel (n * u) (a * c) (b * d) := by
  refine (h.mul (by positivity) (by positivity) h').mono ?_
  have : k * u * (l * u) ≤ k * l / 100 * u := by nlinarith [mul_nonneg (mul_nonneg hk hl) hu]
  nlinarith

theorem Rel.units_inv {u k n a b : ℝ} (hu : 0 ≤ u) (hu1 : u ≤ 1 / 100) (hk : 0 ≤ k)
    (hk1 : k < 50) (h : Rel (k * u) a b) (hn : k ≤ n * (1 - k / 100)) : Rel (n * u) a⁻¹ b⁻¹ := by
  have hku : k * u ≤ k / 100 := by nlinarith
  refine (h.inv (by positivity) (by linarith)).mono ?_
  have hn0 : 0 ≤ n := by
    by_contra hc
    nlinarith
  rw [div_le_iff₀ (by linarith)]
  nlinarith [mul_nonneg hn0 hu, mul_le_mul_of_nonneg_right hku (mul_nonneg hn0 hu)]

end Verif.MathFn
