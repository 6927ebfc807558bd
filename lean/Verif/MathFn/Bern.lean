import Verif.MathFn.Rel
import Verif.MathFn.BernSpec

/-!
# `B` and `dBdx`: the code of `/repo/src/MathEval/Bernoulli.cc`

The functions `B(x)` and `dBdx(x)` of expression models.  Modelled: the branch that is compiled on
every platform but Android.  Every arithmetic operation is rounded by `rd`; the functions of the
mathematical library are functions of the machine.
-/

namespace Verif.MathFn

open Real

/-- The arithmetic of the machine. -/
structure Mach where
  /-- rounding of the result of `+ - * /` -/
  rd : ℝ → ℝ
  /-- `exp` -/
  exp : ℝ → ℝ
  /-- `expm1` -/
  expm1 : ℝ → ℝ
  /-- `pow(x, n)` with an integer -/
  pw : ℝ → ℤ → ℝ
  /-- `fabs(log(epsilon))`: GetLogEpsilon, Bernoulli.cc:13-21 -/
  leps : ℝ

/-- BernoulliImpl, Bernoulli.cc:24-79 (without the Android branch, lines 35-51). -/
noncomputable def Mach.bernImpl (M : Mach) (x : ℝ) : ℝ :=
  if |x| < M.leps then
    let ex1 := M.expm1 x
    if x ≠ ex1 then M.rd (x * M.pw ex1 (-1))
    else M.rd (1 / M.rd (1 + M.rd (1 / 2 * x)))
  else if 0 < x then M.rd (x * M.exp (-x))
  else -x

/-- Bernoulli, Bernoulli.cc:85-97. -/
noncomputable def Mach.B (M : Mach) (x : ℝ) : ℝ := if x ≠ 0 then M.bernImpl x else 1

/-- derBernoulliImpl, Bernoulli.cc:100-169 (without the Android branch, lines 110-131). -/
noncomputable def Mach.derImpl (M : Mach) (x : ℝ) : ℝ :=
  if |x| < M.leps then
    let ex1 := M.expm1 x
    if x ≠ ex1 then
      let ex2 := M.rd (ex1 - M.rd (x * M.exp x))
      M.rd (ex2 * M.pw ex1 (-2))
    else
      let num := M.rd (-(1 / 2) - M.rd (x / 3))
      let den := M.rd (1 + x)
      M.rd (num / den)
  else if 0 < x then M.rd (M.exp (-x) * M.rd (1 - x))
  else M.rd (-1 - M.rd (x * M.exp x))

/-- derBernoulli, Bernoulli.cc:171-185. -/
noncomputable def Mach.dBdx (M : Mach) (x : ℝ) : ℝ := if x ≠ 0 then M.derImpl x else -(1 / 2)

/-- The machine computes with relative error at most `u` per operation. -/
structure Mach.Accurate (M : Mach) (u : ℝ) : Prop where
  u_nonneg : 0 ≤ u
  u_small : u ≤ 1 / 100
  rd : ∀ y, Rel u (M.rd y) y
  exp : ∀ y, Rel u (M.exp y) (Real.exp y)
  expm1 : ∀ y, Rel u (M.expm1 y) (Real.exp y - 1)
  pw : ∀ y n, Rel u (M.pw y n) (y ^ n)
  leps_big : 2 ≤ M.leps
  leps : Real.exp (-M.leps) ≤ 3 * u

section
variable {M : Mach} {u : ℝ} (hM : M.Accurate u)
include hM

theorem Mach.Accurate.rd1 (y : ℝ) : Rel (1 * u) (M.rd y) y := by rw [one_mul]; exact hM.rd y
theorem Mach.Accurate.exp1 (y : ℝ) : Rel (1 * u) (M.exp y) (Real.exp y) := by
  rw [one_mul]; exact hM.exp y
theorem Mach.Accurate.expm11 (y : ℝ) : Rel (1 * u) (M.expm1 y) (Real.exp y - 1) := by
  rw [one_mul]; exact hM.expm1 y
theorem Mach.Accurate.pw1 (y : ℝ) (n : ℤ) : Rel (1 * u) (M.pw y n) (y ^ n) := by
  rw [one_mul]; exact hM.pw y n

/-- The machine only finds `expm1(x) = x` for tiny `x`. -/
theorem Mach.Accurate.tiny {x : ℝ} (hx : M.expm1 x = x) : |x| ≤ 2.1 * u := by
  have hu := hM.u_nonneg
  have hu1 := hM.u_small
  have h := hM.expm1 x
  rw [hx, Rel] at h
  rcases lt_trichotomy x 0 with hn | rfl | hp
  · have hlt : Real.exp x - 1 < 0 := by have := exp_lt_exp.2 hn; rw [exp_zero] at this; linarith
    rw [abs_of_neg hlt] at h
    rw [abs_of_neg hn]
    have h1 := exp_pade (t := -x) (by linarith)
    have h2 : Real.exp x * Real.exp (-x) = 1 := by rw [← Real.exp_add]; simp
    have h3 : (2 + x) ≤ (2 - x) * Real.exp x := by
      have := mul_le_mul_of_nonneg_right h1 (Real.exp_pos x).le
      nlinarith
    have h4 := (abs_le.1 h).1
    -- `(1 - e^x) (-x) / 2 ≤ e^x - 1 - x ≤ u (1 - e^x)`
    have h5 : (1 - Real.exp x) * (-x) ≤ 2 * u * (1 - Real.exp x) := by nlinarith
    have h6 : -x ≤ 2 * u := by
      by_contra hc
      push Not at hc
      have : 0 < 1 - Real.exp x := by linarith
      nlinarith
    linarith
  · simp; positivity
  · have hlt : 0 < Real.exp x - 1 := by have := exp_lt_exp.2 hp; rw [exp_zero] at this; linarith
    rw [abs_of_pos hlt] at h
    rw [abs_of_pos hp]
    have h1 := exp_quad_le hp.le
    have h4 := (abs_le.1 h).1
    have h5 : Real.exp x - 1 ≤ 1.02 * x := by nlinarith
    have h6 : x ^ 2 / 2 ≤ u * (1.02 * x) := by nlinarith
    have : x ≤ 2.04 * u := by
      by_contra hc
      push Not at hc
      nlinarith
    linarith

/-- **C54.** The value of `B(x)` has a relative error of at most six units, for every `x`. -/
theorem B_accurate (x : ℝ) : Rel (6 * u) (M.B x) (bern x) := by
  have hu := hM.u_nonneg
  have hu1 := hM.u_small
  unfold Mach.B
  by_cases h0 : x = 0
  · subst h0; simp only [ne_eq, not_true_eq_false, if_false, bern, if_true]
    exact Rel.refl (by positivity) _
  rw [if_pos h0]
  unfold Mach.bernImpl
  dsimp only
  have hE := exp_sub_one_ne h0
  have hb : bern x = x / (Real.exp x - 1) := by rw [bern, if_neg h0]
  split_ifs with hl hne hpos
  · -- the middle range
    have h1 := (hM.expm11 x).units_inv hu hu1 (by norm_num) (by norm_num) (n := 1.02) (by norm_num)
    have h2 : Rel (1 * u) (M.pw (M.expm1 x) (-1)) (M.expm1 x)⁻¹ := by
      have := hM.pw1 (M.expm1 x) (-1); rwa [zpow_neg_one] at this
    have h3 := (h2.units hu hu1 (by norm_num) (by norm_num) h1 (n := 2.04) (by norm_num)).mul_left x
    have h4 := (hM.rd1 (x * M.pw (M.expm1 x) (-1))).units hu hu1 (by norm_num) (by norm_num) h3
      (n := 6) (by norm_num)
    rw [hb, div_eq_mul_inv]
    exact h4
  · -- `expm1(x) = x`
    have heq : M.expm1 x = x := by
      have : ¬ x ≠ M.expm1 x := hne
      push Not at this
      exact this.symm
    have ht := hM.tiny heq
    have hB : |bern x - 1| ≤ u := by
      have h := hM.expm1 x
      rw [heq, Rel] at h
      rw [hb]
      have : x / (Real.exp x - 1) - 1 = (x - (Real.exp x - 1)) / (Real.exp x - 1) := by
        field_simp
      rw [this, abs_div, div_le_iff₀ (abs_pos.2 hE)]
      exact h
    set h' := M.rd (1 / 2 * x) with hh
    have e1 : |h'| ≤ 1.1 * u := by
      have := hM.rd (1 / 2 * x)
      rw [Rel, ← hh] at this
      have a1 : |1 / 2 * x| ≤ 1.05 * u := by rw [abs_mul]; norm_num; linarith
      have a2 := abs_add_le (h' - 1 / 2 * x) (1 / 2 * x)
      rw [sub_add_cancel] at a2
      nlinarith
    set d := M.rd (1 + h') with hd
    have e2 : |d - 1| ≤ 2.2 * u := by
      have := hM.rd (1 + h')
      rw [Rel, ← hd] at this
      have a1 : |1 + h'| ≤ 1.02 := by
        have := abs_add_le 1 h'
        rw [abs_one] at this
        linarith
      have a2 := abs_add_le (d - (1 + h')) h'
      have a3 : d - (1 + h') + h' = d - 1 := by ring
      rw [a3] at a2
      nlinarith
    have hdr : Rel (2.2 * u) d 1 := by rw [Rel, abs_one, mul_one]; exact e2
    have e3 := hdr.units_inv hu hu1 (by norm_num) (by norm_num) (n := 2.3) (by norm_num)
    have e4 : Rel (2.3 * u) (1 / d) 1 := by simpa using e3
    have e5 := (hM.rd1 (1 / d)).units hu hu1 (by norm_num) (by norm_num) e4 (n := 3.4)
      (by norm_num)
    have hBr : Rel (1 * u) (bern x) 1 := by rw [Rel, abs_one, mul_one, one_mul]; exact hB
    have e6 : Rel (1.02 * u) 1 (bern x) := by
      have hBl := (abs_le.1 hB).1
      rw [Rel, abs_sub_comm]
      have : 0.99 ≤ |bern x| := by rw [abs_of_pos (bern_pos x)]; linarith
      nlinarith
    exact e5.units hu hu1 (by norm_num) (by norm_num) e6 (by norm_num)
  · -- `x ≥ |log eps|`
    have hlx : M.leps ≤ x := by rw [abs_of_pos hpos] at hl; linarith
    have hs : Real.exp (-x) ≤ 3 * u := (exp_le_exp.2 (by linarith)).trans hM.leps
    have h1 := (hM.exp1 (-x)).mul_left x
    have h2 := (hM.rd1 (x * M.exp (-x))).units hu hu1 (by norm_num) (by norm_num) h1 (n := 2.01)
      (by norm_num)
    have h3 : Rel (3 * u) (x * Real.exp (-x)) (bern x) := by
      refine Rel.of (d := -Real.exp (-x)) ?_ ?_
      · rw [abs_neg, abs_of_pos (Real.exp_pos _)]; exact hs
      · rw [hb, Real.exp_neg]
        have := (Real.exp_pos x).ne'
        field_simp
        ring
    exact h2.units hu hu1 (by norm_num) (by norm_num) h3 (by norm_num)
  · -- `x ≤ -|log eps|`
    have hneg : x < 0 := lt_of_le_of_ne (not_lt.1 hpos) h0
    have hlx : x ≤ -M.leps := by rw [abs_of_neg hneg] at hl; linarith
    have hs : Real.exp x ≤ 3 * u := (exp_le_exp.2 hlx).trans hM.leps
    have h3 : Rel (3 * u) (-x) (bern x) := by
      refine Rel.of (d := -Real.exp x) ?_ ?_
      · rw [abs_neg, abs_of_pos (Real.exp_pos _)]; exact hs
      · rw [hb]
        field_simp
        ring
    exact h3.mono (by nlinarith)


omit hM in
/-- The numerator of the derivative in terms of the argument: the cancellation in it. -/
theorem num_lower {x : ℝ} (h0 : x ≠ 0) :
    |Real.exp x - 1| + 2.01 * |x * Real.exp x|
      ≤ (x * Real.exp x - (Real.exp x - 1)) * (4 + 8 / |x|) := by
  have hN := num_pos h0
  set N := x * Real.exp x - (Real.exp x - 1) with hNd
  have h2 : Real.exp x * Real.exp (-x) = 1 := by rw [← Real.exp_add]; simp
  have hep := Real.exp_pos x
  rcases lt_or_gt_of_ne h0 with hn | hp
  · have hlt : Real.exp x - 1 < 0 := by have := exp_lt_exp.2 hn; rw [exp_zero] at this; linarith
    rw [abs_of_neg hn, abs_of_neg hlt, abs_of_neg (mul_neg_of_neg_of_pos hn hep)]
    have h1 := exp_quad_le (t := -x) (by linarith)
    -- `N ≥ e^x x²/2`
    have h3 : x ^ 2 * Real.exp x ≤ 2 * N := by
      have := mul_le_mul_of_nonneg_right h1 hep.le
      nlinarith
    have h4 : -x * Real.exp x ≤ N * (2 / -x) := by
      rw [mul_div_assoc', le_div_iff₀ (by linarith)]
      nlinarith
    have h5 : N * (4 + 8 / -x) = 4 * N + 4 * (N * (2 / -x)) := by ring
    have h6 : 0 < N * (2 / -x) := by
      have : 0 < 2 / -x := div_pos (by norm_num) (by linarith)
      positivity
    rw [h5]
    nlinarith
  · have hlt : 0 < Real.exp x - 1 := by have := exp_lt_exp.2 hp; rw [exp_zero] at this; linarith
    rw [abs_of_pos hp, abs_of_pos hlt, abs_of_pos (mul_pos hp hep)]
    have h1 := exp_pade hp.le
    -- `N ≥ e^x x² / (2 + x)`
    have h3 : x ^ 2 * Real.exp x ≤ (2 + x) * N := by nlinarith
    have h4 : x * Real.exp x ≤ N * (1 + 2 / x) := by
      have : N * (1 + 2 / x) = (2 + x) * N / x := by field_simp; ring
      rw [this, le_div_iff₀ hp]
      nlinarith
    have h5 : N * (4 + 8 / x) = 4 * (N * (1 + 2 / x)) := by ring
    have h6 : 0 < N * (1 + 2 / x) := by positivity
    rw [h5]
    nlinarith

omit hM in
theorem dbern_near_zero {x : ℝ} (h0 : x ≠ 0) (hx : |x| ≤ 1 / 40) :
    |dbern x + 1 / 2| ≤ 1.2 * |x| := by
  have hE := exp_sub_one_ne h0
  have hq := exp_quad (x := x) (by linarith)
  set r := Real.exp x - (1 + x + x ^ 2 / 2) with hr
  have he : Real.exp x = 1 + x + x ^ 2 / 2 + r := by rw [hr]; ring
  have ha : 0 < |x| := abs_pos.2 h0
  rw [dbern, if_neg h0]
  have e1 : (Real.exp x - 1 - x * Real.exp x) / (Real.exp x - 1) ^ 2 + 1 / 2
      = ((Real.exp x - 1) ^ 2 - 2 * (x * Real.exp x - (Real.exp x - 1)))
        / (2 * (Real.exp x - 1) ^ 2) := by field_simp; ring
  rw [e1, abs_div, abs_of_pos (by positivity : 0 < 2 * (Real.exp x - 1) ^ 2),
    div_le_iff₀ (by positivity)]
  have e2 : (Real.exp x - 1) ^ 2 - 2 * (x * Real.exp x - (Real.exp x - 1))
      = x ^ 4 / 4 + r * (x ^ 2 + 2) + r ^ 2 := by rw [he]; ring
  have hx2 : x ^ 2 = |x| ^ 2 := (sq_abs x).symm
  have hb : |x ^ 4 / 4 + r * (x ^ 2 + 2) + r ^ 2| ≤ 2.1 * |x| ^ 3 := by
    have c1 := abs_add_le (x ^ 4 / 4 + r * (x ^ 2 + 2)) (r ^ 2)
    have c2 := abs_add_le (x ^ 4 / 4) (r * (x ^ 2 + 2))
    have c3 : |x ^ 4 / 4| = |x| ^ 4 / 4 := by rw [abs_div, abs_pow]; norm_num
    have c4 : |r * (x ^ 2 + 2)| ≤ |x| ^ 3 * (|x| ^ 2 + 2) := by
      rw [abs_mul, abs_of_pos (by positivity : 0 < x ^ 2 + 2), hx2]
      exact mul_le_mul_of_nonneg_right hq (by positivity)
    have c5 : |r ^ 2| ≤ |x| ^ 3 * |x| ^ 3 := by
      rw [abs_pow, sq]
      exact mul_le_mul hq hq (abs_nonneg _) (by positivity)
    have p3 : 0 < |x| ^ 3 := by positivity
    have p1 : |x| ^ 2 ≤ 1 / 1600 := by nlinarith
    have p4 : |x| ^ 3 ≤ 1 / 40 := by nlinarith
    have q1 : |x| ^ 4 / 4 ≤ |x| ^ 3 / 160 := by nlinarith
    have q2 : |x| ^ 3 * (|x| ^ 2 + 2) ≤ |x| ^ 3 * 2.001 := by nlinarith
    have q3 : |x| ^ 3 * |x| ^ 3 ≤ |x| ^ 3 * (1 / 40) := by nlinarith
    linarith
  rw [e2]
  refine hb.trans ?_
  have hlow : 0.97 * |x| ≤ |Real.exp x - 1| := by
    have e : Real.exp x - 1 = x - (-(x ^ 2 / 2 + r)) := by rw [he]; ring
    have t1 : |x ^ 2 / 2 + r| ≤ |x| ^ 2 / 2 + |x| ^ 3 := by
      refine (abs_add_le _ _).trans ?_
      rw [abs_of_nonneg (by positivity : (0:ℝ) ≤ x ^ 2 / 2), hx2]
      linarith
    have t2 := abs_sub_abs_le_abs_sub x (-(x ^ 2 / 2 + r))
    rw [abs_neg] at t2
    rw [e]
    nlinarith [sq_nonneg |x|]
  have hsq : (0.97 * |x|) ^ 2 ≤ (Real.exp x - 1) ^ 2 := by
    rw [← sq_abs (Real.exp x - 1)]
    exact pow_le_pow_left₀ (by positivity) hlow 2
  have p3 : 0 < |x| ^ 3 := by positivity
  have := mul_le_mul_of_nonneg_left hsq (by positivity : (0 : ℝ) ≤ 2.4 * |x|)
  nlinarith

/-- **C55.** The value of `dBdx(x)`: a relative error of at most `14 + 9/|x|` units, for every
`x ≠ 0`. -/
theorem dBdx_error_partial {x : ℝ} (h0 : x ≠ 0) :
    Rel ((14 + 9 / |x|) * u) (M.dBdx x) (dbern x) := by
  have hu := hM.u_nonneg
  have hu1 := hM.u_small
  have hax : 0 < |x| := abs_pos.2 h0
  have hk : 0 < 9 / |x| := by positivity
  unfold Mach.dBdx
  rw [if_pos h0]
  unfold Mach.derImpl
  dsimp only
  have hE := exp_sub_one_ne h0
  have hb : dbern x = (Real.exp x - 1 - x * Real.exp x) / (Real.exp x - 1) ^ 2 := by
    rw [dbern, if_neg h0]
  split_ifs with hl hne hpos
  · have hN := num_pos h0
    have h1 := (hM.exp1 x).mul_left x
    have h2 := (hM.rd1 (x * M.exp x)).units hu hu1 (by norm_num) (by norm_num) h1 (n := 2.01)
      (by norm_num)
    have h3 := hM.expm1 x
    set t := M.rd (x * M.exp x) with ht
    have h4 : Rel ((4 + 8 / |x|) * u) (M.expm1 x - t) (Real.exp x - 1 - x * Real.exp x) := by
      rw [Rel] at h2 h3 ⊢
      have e1 : M.expm1 x - t - (Real.exp x - 1 - x * Real.exp x)
          = (M.expm1 x - (Real.exp x - 1)) - (t - x * Real.exp x) := by ring
      rw [e1]
      refine (abs_sub _ _).trans ?_
      have e2 : |Real.exp x - 1 - x * Real.exp x| = x * Real.exp x - (Real.exp x - 1) := by
        rw [abs_of_neg (by linarith)]; ring
      rw [e2]
      have := mul_le_mul_of_nonneg_left (num_lower h0) hu
      nlinarith
    have hk8 : 0 < 8 / |x| := by positivity
    have h5 := (hM.rd1 (M.expm1 x - t)).units hu hu1 (by norm_num) (by positivity) h4
      (n := 1 + 1.01 * (4 + 8 / |x|)) (by linarith)
    have h6 : Rel (2.01 * u) (M.expm1 x ^ 2) ((Real.exp x - 1) ^ 2) := by
      have := (hM.expm11 x).units_mul hu hu1 (by norm_num) (by norm_num) (hM.expm11 x) (n := 2.01)
        (by norm_num)
      rw [sq, sq]; exact this
    have h7 := h6.units_inv hu hu1 (by norm_num) (by norm_num) (n := 2.06) (by norm_num)
    have h8 : Rel (1 * u) (M.pw (M.expm1 x) (-2)) (M.expm1 x ^ 2)⁻¹ := by
      have := hM.pw1 (M.expm1 x) (-2)
      have e : M.expm1 x ^ (-2 : ℤ) = (M.expm1 x ^ 2)⁻¹ := by
        rw [zpow_neg]; norm_cast
      rwa [e] at this
    have h9 := h8.units hu hu1 (by norm_num) (by norm_num) h7 (n := 3.1) (by norm_num)
    have h10 := h5.units_mul hu hu1 (by positivity) (by norm_num) h9
      (n := 4.2 + 1.05 * (4 + 8 / |x|)) (by linarith)
    have h11 := (hM.rd1 _).units hu hu1 (by norm_num) (by positivity) h10
      (n := 14 + 9 / |x|) (by
        have : 9 / |x| = 9 / 8 * (8 / |x|) := by ring
        rw [this]; linarith)
    rw [hb, div_eq_mul_inv]
    exact h11
  · have heq : M.expm1 x = x := by
      have : ¬ x ≠ M.expm1 x := hne
      push Not at this
      exact this.symm
    have ht := hM.tiny heq
    have hB := dbern_near_zero h0 (by linarith)
    set q := M.rd (x / 3) with hq
    have e1 : |q| ≤ 0.8 * u := by
      have := hM.rd (x / 3)
      rw [Rel, ← hq] at this
      have a1 : |x / 3| ≤ 0.7 * u := by rw [abs_div]; norm_num; linarith
      have a2 := abs_add_le (q - x / 3) (x / 3)
      rw [sub_add_cancel] at a2
      nlinarith
    have e2 : Rel (1.6 * u) (-(1 / 2) - q) (-(1 / 2)) := by
      rw [Rel]
      have : -(1 / 2) - q - -(1 / 2) = -q := by ring
      rw [this, abs_neg, abs_neg, abs_of_pos (by norm_num : (0:ℝ) < 1 / 2)]
      linarith
    have e3 := (hM.rd1 (-(1 / 2) - q)).units hu hu1 (by norm_num) (by norm_num) e2 (n := 2.7)
      (by norm_num)
    have e4 : Rel (2.1 * u) (1 + x) 1 := by
      rw [Rel]
      have : 1 + x - 1 = x := by ring
      rw [this, abs_one, mul_one]
      exact ht
    have e5 := (hM.rd1 (1 + x)).units hu hu1 (by norm_num) (by norm_num) e4 (n := 3.2)
      (by norm_num)
    have e6 := e5.units_inv hu hu1 (by norm_num) (by norm_num) (n := 3.31) (by norm_num)
    have e7 := e3.units_mul hu hu1 (by norm_num) (by norm_num) e6 (n := 6.2) (by norm_num)
    rw [← div_eq_mul_inv, inv_one, mul_one] at e7
    have e8 := (hM.rd1 _).units hu hu1 (by norm_num) (by norm_num) e7 (n := 7.3) (by norm_num)
    have e9 : Rel (5.4 * u) (-(1 / 2)) (dbern x) := by
      rw [Rel, abs_sub_comm, sub_neg_eq_add]
      have hlo : 0.47 ≤ |dbern x| := by
        rw [abs_of_neg (dbern_neg x)]
        have := (abs_le.1 hB).2
        linarith
      nlinarith
    exact e8.units hu hu1 (by norm_num) (by norm_num) e9 (by linarith)
  · have hlx : M.leps ≤ x := by rw [abs_of_pos hpos] at hl; linarith
    have hx2 : 2 ≤ x := hM.leps_big.trans hlx
    have hs : Real.exp (-x) ≤ 3 * u := (exp_le_exp.2 (by linarith)).trans hM.leps
    have h1 := (hM.exp1 (-x)).units_mul hu hu1 (by norm_num) (by norm_num) (hM.rd1 (1 - x))
      (n := 2.01) (by norm_num)
    have h2 := (hM.rd1 _).units hu hu1 (by norm_num) (by norm_num) h1 (n := 3.1) (by norm_num)
    set q := Real.exp (-x) with hqd
    have hq0 : 0 < q := Real.exp_pos _
    have hbq : dbern x = q * (1 - q - x) / (1 - q) ^ 2 := by
      rw [hb, hqd, Real.exp_neg]
      have := (Real.exp_pos x).ne'
      have h' : 1 - (Real.exp x)⁻¹ = (Real.exp x - 1) / Real.exp x := by field_simp
      rw [h']
      field_simp
    have h3 : Rel (9 * u) (q * (1 - x)) (dbern x) := by
      rw [hbq]
      have hd1 : (1 - q) ≠ 0 := by nlinarith
      have hd2 : (1 - q - x) ≠ 0 := by nlinarith
      refine Rel.of (d := (1 - x) * (1 - q) ^ 2 / (1 - q - x) - 1) ?_ (by field_simp; ring)
      have e : (1 - x) * (1 - q) ^ 2 / (1 - q - x) - 1
          = -(((x - 1) * (2 * q - q ^ 2) + q) / (x - 1 + q)) := by
        have : 1 - q - x = -(x - 1 + q) := by ring
        have hd3 : x - 1 + q ≠ 0 := by intro hc; apply hd2; rw [this, hc]; simp
        rw [this, div_neg]
        field_simp
        ring
      have hd : 0 < x - 1 + q := by linarith
      have hq1 : q ≤ 0.03 := by linarith
      rw [e, abs_neg, abs_of_nonneg (by
        apply div_nonneg _ hd.le
        have : 0 ≤ (x - 1) * (2 * q - q ^ 2) := mul_nonneg (by linarith) (by nlinarith)
        linarith), div_le_iff₀ hd]
      have : (x - 1) * (2 * q - q ^ 2) + q ≤ 3 * q * (x - 1 + q) := by nlinarith
      nlinarith
    exact h2.units hu hu1 (by norm_num) (by norm_num) h3 (by linarith)
  · have hneg : x < 0 := lt_of_le_of_ne (not_lt.1 hpos) h0
    have hlx : x ≤ -M.leps := by rw [abs_of_neg hneg] at hl; linarith
    have hs : Real.exp x ≤ 3 * u := (exp_le_exp.2 hlx).trans hM.leps
    set q := Real.exp x with hqd
    have hq0 : 0 < q := Real.exp_pos _
    have hq1 : q ≤ 0.03 := by linarith
    have hyq : -x * q ≤ 1 / 2 := by
      have h1 := exp_quad_le (t := -x) (by linarith)
      have h2 : q * Real.exp (-x) = 1 := by rw [hqd, ← Real.exp_add]; simp
      nlinarith [sq_nonneg (x + 1)]
    have hyq0 : 0 ≤ -x * q := mul_nonneg (by linarith) hq0.le
    have h1 := (hM.exp1 x).mul_left x
    have h2 := (hM.rd1 (x * M.exp x)).units hu hu1 (by norm_num) (by norm_num) h1 (n := 2.01)
      (by norm_num)
    set t := M.rd (x * M.exp x) with ht
    have h3 : Rel (2.02 * u) (-1 - t) (-1 - x * q) := by
      rw [Rel, ← hqd] at h2
      rw [Rel]
      have e1 : -1 - t - (-1 - x * q) = -(t - x * q) := by ring
      rw [e1, abs_neg]
      refine h2.trans ?_
      rw [abs_of_nonpos (by linarith : x * q ≤ 0), abs_of_nonpos (by linarith : -1 - x * q ≤ 0)]
      nlinarith
    have h4 := (hM.rd1 (-1 - t)).units hu hu1 (by norm_num) (by norm_num) h3 (n := 3.1)
      (by norm_num)
    have h5 : Rel (7 * u) (-1 - x * q) (dbern x) := by
      rw [hb]
      have hd2 : (q - 1 - x * q) ≠ 0 := by nlinarith
      have hd1 : q - 1 ≠ 0 := hE
      refine Rel.of (d := (-1 - x * q) * (q - 1) ^ 2 / (q - 1 - x * q) - 1) ?_
        (by field_simp; ring)
      have e : (-1 - x * q) * (q - 1) ^ 2 / (q - 1 - x * q) - 1
          = -(q * (1 - q - 2 * (-x * q) + (-x * q) * q) / (1 - q - (-x * q))) := by
        have : q - 1 - x * q = -(1 - q - (-x * q)) := by ring
        have hd3 : (1 - q - -x * q) ≠ 0 := by
          intro hc; apply hd2; rw [this, hc]; simp
        have hX : (-1 - x * q) * (q - 1) ^ 2
            = q * (1 - q - 2 * (-x * q) + (-x * q) * q) - (1 - q - (-x * q)) := by ring
        rw [this, div_neg, hX, sub_div, div_self hd3]
        ring
      have hd : 0.47 ≤ 1 - q - (-x * q) := by linarith
      rw [e, abs_neg, abs_div, abs_mul, abs_of_pos hq0,
        abs_of_pos (by linarith : 0 < 1 - q - (-x * q)), div_le_iff₀ (by linarith)]
      have hb1 : |1 - q - 2 * (-x * q) + (-x * q) * q| ≤ 1 := by
        rw [abs_le]; constructor <;> nlinarith
      nlinarith [abs_nonneg (1 - q - 2 * (-x * q) + (-x * q) * q)]
    exact h4.units hu hu1 (by norm_num) (by norm_num) h5 (by linarith)

/-- **C55.** For arguments of size at least one, `dBdx` is accurate to 23 units; at `0` it is
exact. -/
theorem dBdx_accurate_away_partial {x : ℝ} (hx : 1 ≤ |x| ∨ x = 0) :
    Rel (23 * u) (M.dBdx x) (dbern x) := by
  rcases hx with hx | rfl
  · have h0 : x ≠ 0 := by rintro rfl; norm_num at hx
    refine (dBdx_error_partial hM h0).mono ?_
    have : 9 / |x| ≤ 9 := by rw [div_le_iff₀ (by linarith)]; linarith
    nlinarith [hM.u_nonneg]
  · have := hM.u_nonneg
    simp only [Mach.dBdx, dbern, ne_eq, not_true_eq_false, if_false, if_true]
    norm_num
    exact Rel.refl (by positivity) _

end

end Verif.MathFn
