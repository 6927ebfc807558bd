import Verif.MathFn.Float
import Mathlib.Analysis.Calculus.Deriv.MeanValue
import Mathlib.Analysis.Calculus.Deriv.Inv

/-!
# The Bernoulli function and its derivative (specification)

`bern x = x / (e^x - 1)`, continued by `1` at `0`; `dbern` is its derivative.
-/

namespace Verif.MathFn

open Real

/-- The Bernoulli function. -/
noncomputable def bern (x : ℝ) : ℝ := if x = 0 then 1 else x / (exp x - 1)

/-- The derivative of the Bernoulli function (that it is the derivative: `bern_hasDerivAt`). -/
noncomputable def dbern (x : ℝ) : ℝ :=
  if x = 0 then -1 / 2 else (exp x - 1 - x * exp x) / (exp x - 1) ^ 2

theorem exp_sub_one_ne {x : ℝ} (h : x ≠ 0) : exp x - 1 ≠ 0 := by
  intro h'
  exact h (exp_eq_one_iff x |>.1 (by linarith))

/-- The numerator of `-dbern`, `x e^x - (e^x - 1)`, is positive. -/
theorem num_pos {x : ℝ} (h : x ≠ 0) : 0 < x * exp x - (exp x - 1) := by
  have h1 := add_one_lt_exp (x := -x) (by simpa using h)
  have h2 : exp x * exp (-x) = 1 := by rw [← exp_add]; simp
  nlinarith [exp_pos x]

theorem bern_pos (x : ℝ) : 0 < bern x := by
  unfold bern
  split_ifs with h
  · norm_num
  · rcases lt_or_gt_of_ne h with h' | h'
    · exact div_pos_of_neg_of_neg h' (by have := exp_lt_exp.2 h'; rw [exp_zero] at this; linarith)
    · exact div_pos h' (by have := one_lt_exp_iff.2 h'; linarith)

theorem dbern_neg (x : ℝ) : dbern x < 0 := by
  unfold dbern
  split_ifs with h
  · norm_num
  · have := num_pos h
    exact div_neg_of_neg_of_pos (by linarith) (pow_pos_of_ne h)
where
  pow_pos_of_ne {x : ℝ} (h : x ≠ 0) : 0 < (exp x - 1) ^ 2 := by
    have := exp_sub_one_ne h
    positivity

/-- `B(-x) = B(x) + x`. -/
theorem bern_neg (x : ℝ) : bern (-x) = bern x + x := by
  unfold bern
  by_cases h : x = 0
  · subst h; simp
  · have h' : -x ≠ 0 := by simpa using h
    have h1 := exp_sub_one_ne h
    have h2 := exp_sub_one_ne h'
    rw [if_neg h, if_neg h']
    have h3 : exp (-x) = (exp x)⁻¹ := exp_neg x
    have h4 := (exp_pos x).ne'
    rw [h3] at h2 ⊢
    have h5 : (exp x)⁻¹ - 1 = -(exp x - 1) / exp x := by field_simp; ring
    rw [h5]
    field_simp
    ring

theorem dbern_neg_arg (x : ℝ) : dbern (-x) = -dbern x - 1 := by
  unfold dbern
  by_cases h : x = 0
  · subst h; norm_num
  · have h' : -x ≠ 0 := by simpa using h
    have h1 := exp_sub_one_ne h
    rw [if_neg h, if_neg h', exp_neg]
    have h4 := (exp_pos x).ne'
    have h5 : (exp x)⁻¹ - 1 = -(exp x - 1) / exp x := by field_simp; ring
    rw [h5]
    field_simp
    ring

/-- Away from `0` the specification of the derivative is the derivative. -/
theorem bern_hasDerivAt_ne {x : ℝ} (h : x ≠ 0) : HasDerivAt bern (dbern x) x := by
  have h1 := exp_sub_one_ne h
  have hd : HasDerivAt (fun y => y / (exp y - 1))
      ((1 * (exp x - 1) - x * exp x) / (exp x - 1) ^ 2) x :=
    (hasDerivAt_id x).div ((Real.hasDerivAt_exp x).sub_const 1) h1
  have : dbern x = (1 * (exp x - 1) - x * exp x) / (exp x - 1) ^ 2 := by
    rw [dbern, if_neg h]; ring
  rw [this]
  refine hd.congr_of_eventuallyEq ?_
  filter_upwards [isOpen_ne.mem_nhds h] with y hy
  rw [bern, if_neg hy]

theorem exp_quad {x : ℝ} (hx : |x| ≤ 1) : |exp x - (1 + x + x ^ 2 / 2)| ≤ |x| ^ 3 := by
  have h := Real.exp_bound hx (n := 3) (by norm_num)
  simp only [Finset.sum_range_succ, Finset.sum_range_zero, Nat.factorial] at h
  norm_num at h
  have h3 : 0 ≤ |x| ^ 3 := by positivity
  refine h.trans ?_
  nlinarith

/-- Near `0`: `|B(x) - 1 + x/2| ≤ 4 x²`. -/
theorem bern_near_zero {x : ℝ} (hx : |x| ≤ 1 / 4) : |bern x - (1 - x / 2)| ≤ 4 * x ^ 2 := by
  by_cases h : x = 0
  · subst h; simp [bern]
  have h1 := exp_sub_one_ne h
  have hq := exp_quad (x := x) (by linarith)
  rw [bern, if_neg h]
  have ha : 0 < |x| := abs_pos.2 h
  have hlow : |x| / 2 ≤ |exp x - 1| := by
    have e : exp x - 1 = x + (x ^ 2 / 2 + (exp x - (1 + x + x ^ 2 / 2))) := by ring
    rw [e]
    have t1 : |x ^ 2 / 2 + (exp x - (1 + x + x ^ 2 / 2))| ≤ x ^ 2 / 2 + |x| ^ 3 := by
      refine (abs_add_le _ _).trans ?_
      rw [abs_of_nonneg (by positivity : (0:ℝ) ≤ x ^ 2 / 2)]
      linarith
    have t2 := abs_sub_abs_le_abs_sub x (-(x ^ 2 / 2 + (exp x - (1 + x + x ^ 2 / 2))))
    rw [abs_neg, sub_neg_eq_add] at t2
    have t3 : x ^ 2 = |x| ^ 2 := (sq_abs x).symm
    rw [t3] at t1 t2
    rw [t3]
    nlinarith [sq_nonneg |x|]
  have e : x / (exp x - 1) - (1 - x / 2)
      = (x - (1 - x / 2) * (exp x - 1)) / (exp x - 1) := by field_simp
  rw [e, abs_div, div_le_iff₀ (abs_pos.2 h1)]
  have e2 : x - (1 - x / 2) * (exp x - 1)
      = x ^ 3 / 4 - (1 - x / 2) * (exp x - (1 + x + x ^ 2 / 2)) := by ring
  have b1 : |x - (1 - x / 2) * (exp x - 1)| ≤ 2 * |x| ^ 3 := by
    rw [e2]
    have c1 := abs_sub (x ^ 3 / 4) ((1 - x / 2) * (exp x - (1 + x + x ^ 2 / 2)))
    rw [abs_mul] at c1
    have c2 : |x ^ 3 / 4| = |x| ^ 3 / 4 := by rw [abs_div, abs_pow]; norm_num
    have c3 : |1 - x / 2| ≤ 9 / 8 := by
      obtain ⟨p, q⟩ := abs_le.1 hx
      rw [abs_le]; constructor <;> linarith
    have c4 : |1 - x / 2| * |exp x - (1 + x + x ^ 2 / 2)| ≤ 9 / 8 * |x| ^ 3 :=
      mul_le_mul c3 hq (abs_nonneg _) (by norm_num)
    have : 0 ≤ |x| ^ 3 := by positivity
    linarith
  refine b1.trans ?_
  have : x ^ 2 = |x| ^ 2 := (sq_abs x).symm
  rw [this]
  have := mul_le_mul_of_nonneg_left hlow (by positivity : (0 : ℝ) ≤ 4 * |x| ^ 2)
  calc 2 * |x| ^ 3 = 4 * |x| ^ 2 * (|x| / 2) := by ring
    _ ≤ _ := this

/-- `dbern` is the derivative of the Bernoulli function, at `0` too. -/
theorem bern_hasDerivAt (x : ℝ) : HasDerivAt bern (dbern x) x := by
  by_cases h : x = 0
  · subst h
    rw [hasDerivAt_iff_isLittleO, Asymptotics.isLittleO_iff]
    intro c hc
    have hm : 0 < min (1 / 4) (c / 4) := by positivity
    filter_upwards [Metric.ball_mem_nhds (0 : ℝ) hm] with y hy
    rw [Metric.mem_ball, dist_zero_right, norm_eq_abs] at hy
    have h1 : |y| < 1 / 4 := hy.trans_le (min_le_left _ _)
    have h2 : |y| < c / 4 := hy.trans_le (min_le_right _ _)
    have h3 := bern_near_zero h1.le
    have e : bern y - bern 0 - (y - 0) • dbern 0 = bern y - (1 - y / 2) := by
      simp [bern, dbern]; ring
    rw [e, norm_eq_abs, norm_eq_abs, sub_zero]
    refine h3.trans ?_
    rw [← sq_abs y]
    nlinarith [abs_nonneg y]
  · exact bern_hasDerivAt_ne h

theorem bern_continuous : Continuous bern :=
  continuous_iff_continuousAt.2 fun x => (bern_hasDerivAt x).continuousAt

/-- The Bernoulli function decreases. -/
theorem bern_strictAnti : StrictAnti bern :=
  strictAnti_of_deriv_neg fun x => by rw [(bern_hasDerivAt x).deriv]; exact dbern_neg x

/-! ### Inequalities used for the error bounds -/

/-- `(2 - t) e^t ≤ 2 + t` for `t ≥ 0`. -/
theorem exp_pade {t : ℝ} (ht : 0 ≤ t) : (2 - t) * exp t ≤ 2 + t := by
  have hm : MonotoneOn (fun t : ℝ => 2 + t - (2 - t) * exp t) (Set.Ici 0) := by
    apply monotoneOn_of_deriv_nonneg (convex_Ici 0)
    · fun_prop
    · fun_prop
    · intro y hy
      have hd : HasDerivAt (fun t : ℝ => 2 + t - (2 - t) * exp t)
          ((0 + 1) - ((0 - 1) * exp y + (2 - y) * exp y)) y :=
        ((hasDerivAt_const y (2:ℝ)).add (hasDerivAt_id y)).sub
          (((hasDerivAt_const y (2:ℝ)).sub (hasDerivAt_id y)).mul (Real.hasDerivAt_exp y))
      rw [hd.deriv]
      have h1 := add_one_le_exp (-y)
      have h2 : exp y * exp (-y) = 1 := by rw [← exp_add]; simp
      nlinarith [exp_pos y]
  have := hm (Set.mem_Ici.2 le_rfl) (Set.mem_Ici.2 ht) ht
  simp at this
  linarith

/-- `e^t - 1 - t ≥ t²/2` for `t ≥ 0`. -/
theorem exp_quad_le {t : ℝ} (ht : 0 ≤ t) : t ^ 2 / 2 ≤ exp t - 1 - t := by
  have := quadratic_le_exp_of_nonneg ht
  linarith

end Verif.MathFn
