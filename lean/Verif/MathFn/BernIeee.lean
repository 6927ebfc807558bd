import Verif.MathFn.Bern
import Mathlib.Analysis.SpecialFunctions.Log.Deriv
import Mathlib.Analysis.Complex.ExponentialBounds
import Mathlib.Tactic.IntervalCases

/-!
# `B` and `dBdx` on a machine with correct rounding

The machine of the standard: every operation and every function of the library returns the number
of `p` bits nearest to the exact result.  `p = 53` is `double`, `p = 113` is `float128`.
-/

namespace Verif.MathFn

open Real

/-- The machine with correct rounding to `p` bits. -/
noncomputable def ieee (p : ℕ) (fl : ℝ → ℝ) : Mach where
  rd := fl
  exp y := fl (Real.exp y)
  expm1 y := fl (Real.exp y - 1)
  pw y n := fl (y ^ n)
  leps := |fl (Real.log ((1 / 2 : ℝ) ^ (p - 1)))|

theorem log_half_pow (n : ℕ) : Real.log ((1 / 2 : ℝ) ^ n) = -(n * Real.log 2) := by
  rw [Real.log_pow, one_div, Real.log_inv]; ring

theorem half_pow_le {p q : ℕ} (h : q ≤ p) : ((1 / 2 : ℝ)) ^ p ≤ (1 / 2 : ℝ) ^ q :=
  pow_le_pow_of_le_one (by norm_num) (by norm_num) h

theorem n_half_pow (n : ℕ) : (n : ℝ) * (1 / 2 : ℝ) ^ n ≤ 1 := by
  have : (n : ℝ) ≤ 2 ^ n := by exact_mod_cast (Nat.lt_two_pow_self (n := n)).le
  rw [one_div, inv_pow]
  rw [← div_eq_mul_inv, div_le_one (by positivity)]
  exact this

/-- Correct rounding to eight or more bits is accurate in the sense of the error bounds. -/
theorem ieee_accurate {p : ℕ} (hp : 8 ≤ p) {fl : ℝ → ℝ} (h : Nearest p fl) :
    (ieee p fl).Accurate ((1 / 2 : ℝ) ^ p) := by
  have hrel := h.rel (by omega)
  have hu0 : 0 < (1 / 2 : ℝ) ^ p := by positivity
  have hu1 : (1 / 2 : ℝ) ^ p ≤ 1 / 100 := (half_pow_le hp).trans (by norm_num)
  set u := (1 / 2 : ℝ) ^ p with hu
  obtain ⟨q, rfl⟩ : ∃ q, p = q + 1 := ⟨p - 1, by omega⟩
  have hl2 := Real.log_two_gt_d9
  have hl3 := Real.log_two_lt_d9
  have hq : (7 : ℝ) ≤ q := by exact_mod_cast (by omega : 7 ≤ q)
  have hlog : Real.log ((1 / 2 : ℝ) ^ (q + 1 - 1)) = -(q * Real.log 2) := by
    rw [Nat.add_sub_cancel]; exact log_half_pow q
  have hL : |(ieee (q + 1) fl).leps - q * Real.log 2| ≤ u * (q * Real.log 2) := by
    have h1 := hrel (Real.log ((1 / 2 : ℝ) ^ (q + 1 - 1)))
    rw [Rel, hlog] at h1
    have hpos : 0 ≤ q * Real.log 2 := by positivity
    rw [abs_neg, abs_of_nonneg hpos] at h1
    have h2 : (ieee (q + 1) fl).leps = |fl (-(q * Real.log 2))| := by
      rw [← hlog]; rfl
    rw [h2]
    have h3 := abs_abs_sub_abs_le (fl (-(q * Real.log 2))) (-(q * Real.log 2))
    rw [abs_neg (q * Real.log 2), abs_of_nonneg hpos] at h3
    exact h3.trans h1
  have huq : u * (q * Real.log 2) ≤ 1 / 8 := by
    -- `q 2^-(q+1)`: by `n 2^-n ≤ ...`
    have e : u * q = (1 / 2) * ((q : ℝ) * (1 / 2 : ℝ) ^ q) := by rw [hu, pow_succ]; ring
    have hq2 : (q : ℝ) * (1 / 2 : ℝ) ^ q ≤ 1 / 8 := by
      have : ∀ n : ℕ, 7 ≤ n → (n : ℝ) * (1 / 2 : ℝ) ^ n ≤ 1 / 8 := by
        intro n hn
        induction n, hn using Nat.le_induction with
        | base => norm_num
        | succ m hm ih =>
          rw [pow_succ]
          push_cast
          have hm' : (7 : ℝ) ≤ m := by exact_mod_cast hm
          have : 0 < (1 / 2 : ℝ) ^ m := by positivity
          nlinarith
      exact this q (by omega)
    nlinarith
  have hLl := (abs_le.1 hL).1
  refine ⟨hu0.le, hu1, hrel, fun y => hrel _, fun y => hrel _, fun y n => hrel _, ?_, ?_⟩
  · nlinarith
  · have h1 : Real.exp (-(ieee (q + 1) fl).leps) ≤ Real.exp (1 / 8 - q * Real.log 2) :=
      Real.exp_le_exp.2 (by linarith)
    refine h1.trans ?_
    have h2 : Real.exp (1 / 8 - q * Real.log 2) = Real.exp (1 / 8) * (1 / 2 : ℝ) ^ q := by
      rw [sub_eq_add_neg, Real.exp_add, ← log_half_pow, Real.exp_log (by positivity)]
    have h3 : Real.exp (1 / 8 : ℝ) ≤ 3 / 2 := by
      have := Real.add_one_le_exp (-(1 / 8) : ℝ)
      have h4 : Real.exp (1 / 8 : ℝ) * Real.exp (-(1 / 8)) = 1 := by
        rw [← Real.exp_add]; simp
      nlinarith [Real.exp_pos (1 / 8 : ℝ)]
    rw [h2, hu, pow_succ]
    have : 0 < (1 / 2 : ℝ) ^ q := by positivity
    nlinarith

/-- **C54.** `B(x)` in `double`: the relative error is at most `6 · 2^-53` for every `x`. -/
theorem B_double_accurate {fl : ℝ → ℝ} (h : Nearest 53 fl) (x : ℝ) :
    |(ieee 53 fl).B x - bern x| ≤ 6 * (1 / 2) ^ 53 * bern x := by
  have := B_accurate (ieee_accurate (by norm_num) h) x
  rwa [Rel, abs_of_pos (bern_pos x)] at this

/-- **C54.** `B(x)` in `float128`. -/
theorem B_quad_accurate {fl : ℝ → ℝ} (h : Nearest 113 fl) (x : ℝ) :
    |(ieee 113 fl).B x - bern x| ≤ 6 * (1 / 2) ^ 113 * bern x := by
  have := B_accurate (ieee_accurate (by norm_num) h) x
  rwa [Rel, abs_of_pos (bern_pos x)] at this

/-- **C54.** The value of `B(x)` is positive for every `x`, in both precisions. -/
theorem B_machine_pos {p : ℕ} (hp : 8 ≤ p) {fl : ℝ → ℝ} (h : Nearest p fl) (x : ℝ) :
    0 < (ieee p fl).B x := by
  have hA := ieee_accurate hp h
  have h1 := B_accurate hA x
  have hb := bern_pos x
  have hu := hA.u_small
  rw [Rel, abs_of_pos hb] at h1
  have := (abs_le.1 h1).1
  nlinarith

theorem Nearest.eq_near {p : ℕ} {fl : ℝ → ℝ} (h : Nearest p fl) {y f : ℝ} {m E : ℤ}
    (hf : IsFloat p f) (hfm : f = (m : ℝ) * (2 : ℝ) ^ E) (hlow : (2 : ℝ) ^ (E + p - 1) + 2 ^ E ≤ f)
    (hn : |f - y| < (2 : ℝ) ^ E / 2) : fl y = f := by
  refine h.eq_of_lt hf fun g hg hgy => ?_
  have hE : (0 : ℝ) < (2 : ℝ) ^ E := by positivity
  have h1 : |g - f| < (2 : ℝ) ^ E := by
    have := abs_sub_le g y f
    rw [abs_sub_comm y f] at this
    linarith
  have h2 : (2 : ℝ) ^ (E + p - 1) ≤ |g| := by
    have := (abs_lt.1 h1).1
    exact le_trans (by linarith) (le_abs_self g)
  obtain ⟨k, hk⟩ := hg.multiple h2
  have h3 : |((k - m : ℤ) : ℝ)| < 1 := by
    have : g - f = ((k - m : ℤ) : ℝ) * (2 : ℝ) ^ E := by rw [hk, hfm]; push_cast; ring
    rw [this, abs_mul, abs_of_pos hE] at h1
    nlinarith
  have h4 : |k - m| < 1 := by exact_mod_cast h3
  have h5 : k = m := by rw [Int.abs_lt_one_iff] at h4; omega
  rw [hk, hfm, h5]

/-- **C55**, the counterexample: at the number `x = 3 · 2^-53` of `double`, `dBdx(x)` is below
`-0.88` with correct rounding (whatever the rule for ties), the derivative is above `-0.51`. -/
theorem dBdx_double_at_tiny {fl : ℝ → ℝ} (h : Nearest 53 fl) :
    IsFloat 53 (3 * (1 / 2) ^ 53) ∧
    (ieee 53 fl).dBdx (3 * (1 / 2) ^ 53) < -0.88 ∧ -0.51 < dbern (3 * (1 / 2) ^ 53) := by
  have hA := ieee_accurate (p := 53) (by norm_num) h
  set x : ℝ := 3 * (1 / 2) ^ 53 with hx
  have hxv : x = 3 / 9007199254740992 := by rw [hx]; norm_num
  have hx0 : 0 < x := by rw [hxv]; norm_num
  have hne : x ≠ 0 := hx0.ne'
  have habs : |x| = x := abs_of_pos hx0
  have hq := exp_quad (x := x) (by rw [habs, hxv]; norm_num)
  rw [habs] at hq
  obtain ⟨hq1, hq2⟩ := abs_le.1 hq
  refine ⟨⟨3, -53, by norm_num, by rw [hxv]; norm_num [zpow_neg]⟩, ?_, ?_⟩
  swap
  · have := dbern_near_zero hne (by rw [habs, hxv]; norm_num)
    have h1 := (abs_le.1 this).1
    rw [habs, hxv] at h1
    rw [hxv]
    norm_num at h1 ⊢
    linarith
  -- `expm1(x)`
  have e104 : (2 : ℝ) ^ (-104 : ℤ) = 1 / 20282409603651670423947251286016 := by
    norm_num [zpow_neg]
  have e52 : (2 : ℝ) ^ (-52 : ℤ) = 1 / 4503599627370496 := by norm_num [zpow_neg]
  have hm1 : fl (Real.exp x - 1) = 6755399441055745 * (2 : ℝ) ^ (-104 : ℤ) := by
    refine h.eq_near (m := 6755399441055745) (E := -104) ⟨6755399441055745, -104, by norm_num,
      by norm_num⟩ (by norm_num) ?_ ?_
    · norm_num [zpow_neg]
    · rw [e104, abs_lt]
      rw [hxv] at hq1 hq2 ⊢
      norm_num at hq1 hq2 ⊢
      constructor <;> linarith
  have hex : fl (Real.exp x) = 4503599627370498 * (2 : ℝ) ^ (-52 : ℤ) := by
    refine h.eq_near (m := 4503599627370498) (E := -52) ⟨4503599627370498, -52, by norm_num,
      by norm_num⟩ (by norm_num) ?_ ?_
    · norm_num [zpow_neg]
    · rw [e52, abs_lt]
      rw [hxv] at hq1 hq2 ⊢
      norm_num at hq1 hq2 ⊢
      constructor <;> linarith
  have ht : fl (x * fl (Real.exp x)) = 6755399441055747 * (2 : ℝ) ^ (-104 : ℤ) := by
    have : x * fl (Real.exp x) = 6755399441055747 * (2 : ℝ) ^ (-104 : ℤ) := by
      rw [hex, hxv, e104, e52]; norm_num
    rw [this]
    exact h.eq_self ⟨6755399441055747, -104, by norm_num, by norm_num⟩
  have he2 : fl (fl (Real.exp x - 1) - fl (x * fl (Real.exp x))) = -2 * (2 : ℝ) ^ (-104 : ℤ) := by
    have : fl (Real.exp x - 1) - fl (x * fl (Real.exp x)) = -2 * (2 : ℝ) ^ (-104 : ℤ) := by
      rw [hm1, ht]; ring
    rw [this]
    exact h.eq_self ⟨-2, -104, by norm_num, by norm_num⟩
  have hlt : |x| < (ieee 53 fl).leps := by
    have := hA.leps_big
    rw [habs, hxv]; norm_num; linarith
  have hnx : x ≠ fl (Real.exp x - 1) := by
    rw [hm1, e104, hxv]; norm_num
  have hval : (ieee 53 fl).dBdx x
      = fl (-2 * (2 : ℝ) ^ (-104 : ℤ) * fl (fl (Real.exp x - 1) ^ (-2 : ℤ))) := by
    have hnx' : x ≠ (ieee 53 fl).expm1 x := hnx
    rw [Mach.dBdx, if_pos hne, Mach.derImpl, if_pos hlt, if_pos hnx']
    simp only [ieee]
    rw [he2]
  have hrel := h.rel (by norm_num)
  rw [hval]
  set P := fl (fl (Real.exp x - 1) ^ (-2 : ℤ)) with hP
  have hP1 := hrel (fl (Real.exp x - 1) ^ (-2 : ℤ))
  rw [← hP, hm1, Rel] at hP1
  have hsq : ((6755399441055745 : ℝ) * (2 : ℝ) ^ (-104 : ℤ)) ^ (-2 : ℤ)
      = 20282409603651670423947251286016 ^ 2 / 6755399441055745 ^ 2 := by
    rw [e104]; norm_num [zpow_neg]
  rw [hsq] at hP1
  have hP2 := (abs_le.1 hP1).1
  norm_num at hP2
  have hlast := hrel (-2 * (2 : ℝ) ^ (-104 : ℤ) * P)
  rw [Rel, e104] at hlast
  have hPpos : 0 < P := by linarith
  have hs : -2 * (1 / 20282409603651670423947251286016 : ℝ) * P < 0 := by nlinarith
  rw [abs_of_neg hs] at hlast
  have h1 := (abs_le.1 hlast).2
  rw [e104]
  norm_num at h1 ⊢
  linarith

/-- **C55**: `dBdx` is not accurate to fifty percent for every argument. -/
theorem dBdx_inaccurate {fl : ℝ → ℝ} (h : Nearest 53 fl) :
    ¬ ∀ x, IsFloat 53 x → Rel (1 / 2) ((ieee 53 fl).dBdx x) (dbern x) := by
  intro hall
  obtain ⟨hf, h1, h2⟩ := dBdx_double_at_tiny h
  have h3 := hall _ hf
  rw [Rel, abs_of_neg (dbern_neg _)] at h3
  have := (abs_le.1 h3).1
  linarith

/-- The hypotheses are met: rounding to nearest exists in both precisions. -/
example : ∃ fl, Nearest 53 fl := ⟨rnd 53, rnd_nearest (by norm_num)⟩
example : ∃ fl, Nearest 113 fl := ⟨rnd 113, rnd_nearest (by norm_num)⟩

end Verif.MathFn
