import Mathlib.Analysis.SpecialFunctions.Log.Basic
import Mathlib.Analysis.SpecialFunctions.ExpDeriv
import Mathlib.Data.Int.Log
import Mathlib.Algebra.Order.Round
import Mathlib.Tactic.FieldSimp
import Mathlib.Tactic.Linarith
import Mathlib.Tactic.Positivity
import Mathlib.Tactic.NormNum

/-!
# Floating point arithmetic with unbounded exponents

The functions of `/repo/src/MathEval` are templates over `double` (53 bits) and `float128`
(113 bits).  The model computes with real numbers and rounds after every operation.

Simplification: the exponent range is unbounded (no overflow, no underflow, no signed zero,
no NaN), the rest is IEEE rounding to nearest with any rule for ties.
-/

namespace Verif.MathFn

/-- A number with a significand of `p` bits: the values of `double` (`p = 53`) and of `float128`
(`p = 113`), with an unbounded exponent. -/
def IsFloat (p : ℕ) (y : ℝ) : Prop :=
  ∃ m e : ℤ, |m| < 2 ^ p ∧ y = (m : ℝ) * (2 : ℝ) ^ e

/-- `fl` rounds to nearest (any rule for ties) into the numbers of `p` bits. -/
structure Nearest (p : ℕ) (fl : ℝ → ℝ) : Prop where
  isFloat : ∀ y, IsFloat p (fl y)
  nearest : ∀ y f, IsFloat p f → |fl y - y| ≤ |f - y|

/-- `a` approximates `b` with relative error at most `u`. -/
def Rel (u a b : ℝ) : Prop := |a - b| ≤ u * |b|

/-- A rounding to nearest, to show that the notion is not empty. -/
noncomputable def rnd (p : ℕ) (y : ℝ) : ℝ :=
  (round (y / (2 : ℝ) ^ (Int.log 2 |y| - (p - 1))) : ℝ) * (2 : ℝ) ^ (Int.log 2 |y| - (p - 1))

theorem rnd_zero (p : ℕ) : rnd p 0 = 0 := by simp [rnd]

theorem two_zpow_log_le {y : ℝ} (hy : y ≠ 0) : (2 : ℝ) ^ (Int.log 2 |y|) ≤ |y| := by
  have := Int.zpow_log_le_self (b := 2) (r := |y|) (by norm_num) (abs_pos.2 hy)
  simpa using this

theorem lt_two_zpow_log {y : ℝ} : |y| < (2 : ℝ) ^ (Int.log 2 |y| + 1) := by
  have := Int.lt_zpow_succ_log_self (b := 2) (r := |y|) (by norm_num)
  simpa using this

theorem round_near (t : ℝ) (z : ℤ) : |(round t : ℝ) - t| ≤ |(z : ℝ) - t| := by
  have := round_le t z
  rw [abs_sub_comm, abs_sub_comm (z : ℝ)]
  exact this

theorem rnd_near_mul (p : ℕ) (y : ℝ) (z : ℤ) :
    |rnd p y - y| ≤ |(z : ℝ) * (2 : ℝ) ^ (Int.log 2 |y| - (p - 1)) - y| := by
  set b : ℝ := (2 : ℝ) ^ (Int.log 2 |y| - (p - 1)) with hb
  have hbp : 0 < b := by positivity
  have h := round_near (y / b) z
  have e : ∀ w : ℝ, w * b - y = (w - y / b) * b := by intro w; field_simp
  rw [rnd, ← hb, e, e, abs_mul, abs_mul]
  exact mul_le_mul_of_nonneg_right h (abs_nonneg _)

theorem rnd_nearest {p : ℕ} (hp : 1 ≤ p) : Nearest p (rnd p) := by
  constructor
  · intro y
    by_cases hy : y = 0
    · subst hy; exact ⟨0, 0, by simp, by simp [rnd_zero]⟩
    set e : ℤ := Int.log 2 |y| - (p - 1) with he
    set m : ℤ := round (y / (2 : ℝ) ^ e) with hm
    have hq : |y / (2 : ℝ) ^ e| ≤ 2 ^ p := by
      have h1 := lt_two_zpow_log (y := y)
      have h2 : (2 : ℝ) ^ (Int.log 2 |y| + 1) = 2 ^ p * (2 : ℝ) ^ e := by
        rw [← zpow_natCast, ← zpow_add₀ (by norm_num)]; congr 1; rw [he]; ring
      rw [abs_div, abs_of_pos (by positivity : (0 : ℝ) < (2 : ℝ) ^ e), div_le_iff₀ (by positivity)]
      linarith
    have hmle : |m| ≤ 2 ^ p := by
      obtain ⟨h1, h2⟩ := abs_le.1 hq
      have a1 : |(m : ℝ) - y / 2 ^ e| ≤ |((2 ^ p : ℤ) : ℝ) - y / 2 ^ e| := round_near _ _
      have a2 : |(m : ℝ) - y / 2 ^ e| ≤ |((-2 ^ p : ℤ) : ℝ) - y / 2 ^ e| := round_near _ _
      push_cast at a1 a2
      rw [abs_of_nonneg (by linarith : (0 : ℝ) ≤ 2 ^ p - y / 2 ^ e)] at a1
      rw [abs_of_nonpos (by linarith : (-2 ^ p : ℝ) - y / 2 ^ e ≤ 0)] at a2
      have b1 := (abs_le.1 a1).2
      have b2 := (abs_le.1 a2).1
      have c1 : (m : ℝ) ≤ 2 ^ p := by linarith
      have c2 : -(2 : ℝ) ^ p ≤ m := by linarith
      rw [abs_le]
      constructor
      · exact_mod_cast c2
      · exact_mod_cast c1
    have hr : rnd p y = (m : ℝ) * (2 : ℝ) ^ e := rfl
    rcases hmle.lt_or_eq with h | h
    · exact ⟨m, e, h, hr⟩
    · obtain ⟨k, rfl⟩ : ∃ k, p = k + 1 := ⟨p - 1, by omega⟩
      rcases abs_eq (by positivity) |>.1 h with h' | h'
      · refine ⟨2 ^ k, e + 1, ?_, ?_⟩
        · rw [abs_of_pos (by positivity)]
          exact pow_lt_pow_right₀ (by norm_num) (by omega)
        · rw [hr, h', zpow_add₀ (by norm_num)]; push_cast; ring
      · refine ⟨-2 ^ k, e + 1, ?_, ?_⟩
        · rw [abs_neg, abs_of_pos (by positivity)]
          exact pow_lt_pow_right₀ (by norm_num) (by omega)
        · rw [hr, h', zpow_add₀ (by norm_num)]; push_cast; ring
  · rintro y f ⟨m, k, hm, rfl⟩
    by_cases hy : y = 0
    · subst hy; rw [rnd_zero, sub_zero, abs_zero]; exact abs_nonneg _
    set e : ℤ := Int.log 2 |y| - (p - 1) with he
    by_cases hk : e ≤ k
    · obtain ⟨n, hn⟩ := Int.eq_ofNat_of_zero_le (sub_nonneg.2 hk)
      have : (m : ℝ) * (2 : ℝ) ^ k = ((m * 2 ^ n : ℤ) : ℝ) * (2 : ℝ) ^ e := by
        have : k = n + e := by omega
        rw [this, zpow_add₀ (by norm_num)]; push_cast; rw [zpow_natCast]; ring
      rw [this]
      exact rnd_near_mul p y _
    · -- a smaller exponent: the number is below the power of two below `y`
      have hkl : k + p ≤ Int.log 2 |y| := by omega
      have hfl : |(m : ℝ) * (2 : ℝ) ^ k| ≤ (2 : ℝ) ^ (Int.log 2 |y|) := by
        rw [abs_mul, abs_of_pos (by positivity : (0 : ℝ) < (2 : ℝ) ^ k)]
        have h1 : |(m : ℝ)| ≤ 2 ^ p := by exact_mod_cast hm.le
        calc |(m : ℝ)| * (2 : ℝ) ^ k ≤ 2 ^ p * (2 : ℝ) ^ k :=
              mul_le_mul_of_nonneg_right h1 (by positivity)
          _ = (2 : ℝ) ^ (k + p) := by rw [zpow_add₀ (by norm_num), zpow_natCast]; ring
          _ ≤ _ := zpow_le_zpow_right₀ (by norm_num) hkl
      have hlo := two_zpow_log_le hy
      obtain ⟨q, rfl⟩ : ∃ q, p = q + 1 := ⟨p - 1, by omega⟩
      have hpow : ((2 ^ q : ℤ) : ℝ) * (2 : ℝ) ^ e = (2 : ℝ) ^ (Int.log 2 |y|) := by
        push_cast
        rw [← zpow_natCast, ← zpow_add₀ (by norm_num)]; congr 1; rw [he]; push_cast; ring
      rcases lt_or_gt_of_ne hy with hneg | hpos
      · have h := rnd_near_mul (q + 1) y (-2 ^ q)
        rw [← he] at h
        refine h.trans ?_
        have : (((-2 ^ q : ℤ)) : ℝ) * (2 : ℝ) ^ e = -(2 : ℝ) ^ (Int.log 2 |y|) := by
          rw [← hpow]; push_cast; ring
        rw [this]
        rw [abs_of_neg hneg] at hlo hfl ⊢
        have h1 := (abs_le.1 hfl).1
        rw [abs_of_nonneg (by linarith), abs_of_nonneg (by linarith)]
        linarith
      · have h := rnd_near_mul (q + 1) y (2 ^ q)
        rw [← he] at h
        refine h.trans ?_
        rw [hpow]
        rw [abs_of_pos hpos] at hlo hfl ⊢
        have h1 := (abs_le.1 hfl).2
        rw [abs_of_nonpos (by linarith), abs_of_nonpos (by linarith)]
        linarith

/-- Rounding to nearest has relative error at most `2^-p`. -/
theorem Nearest.rel {p : ℕ} (hp : 1 ≤ p) {fl : ℝ → ℝ} (h : Nearest p fl) (y : ℝ) :
    Rel ((1 / 2 : ℝ) ^ p) (fl y) y := by
  have h1 := h.nearest y (rnd p y) ((rnd_nearest hp).isFloat y)
  refine h1.trans ?_
  by_cases hy : y = 0
  · subst hy; simp [rnd_zero]
  have hlo := two_zpow_log_le hy
  set e : ℤ := Int.log 2 |y| - (p - 1) with he
  have hb : |rnd p y - y| ≤ 1 / 2 * (2 : ℝ) ^ e := by
    have e1 : rnd p y - y = -((y / (2 : ℝ) ^ e - round (y / (2 : ℝ) ^ e)) * (2 : ℝ) ^ e) := by
      have : rnd p y = (round (y / (2 : ℝ) ^ e) : ℝ) * (2 : ℝ) ^ e := rfl
      rw [this]; field_simp; ring
    rw [e1, abs_neg, abs_mul, abs_of_pos (by positivity : (0 : ℝ) < (2 : ℝ) ^ e)]
    exact mul_le_mul_of_nonneg_right (abs_sub_round _) (by positivity)
  refine hb.trans ?_
  have e2 : 1 / 2 * (2 : ℝ) ^ e = (1 / 2 : ℝ) ^ p * (2 : ℝ) ^ (Int.log 2 |y|) := by
    clear_value e
    have : Int.log 2 |y| = e + p - 1 := by rw [he]; ring
    rw [this, zpow_sub₀ (by norm_num : (2 : ℝ) ≠ 0), zpow_add₀ (by norm_num : (2 : ℝ) ≠ 0),
      zpow_natCast, one_div, inv_pow, zpow_one]
    field_simp
  rw [e2]
  exact mul_le_mul_of_nonneg_left hlo (by positivity)

/-- A number of `p` bits is not changed by rounding. -/
theorem Nearest.eq_self {p : ℕ} {fl : ℝ → ℝ} (h : Nearest p fl) {y : ℝ} (hy : IsFloat p y) :
    fl y = y := by
  have := h.nearest y y hy
  simp only [sub_self, abs_zero, abs_nonpos_iff] at this
  linarith

/-- Two numbers with nothing between them: what is strictly nearer to one of them than to every
other one is rounded to it. -/
theorem Nearest.eq_of_lt {p : ℕ} {fl : ℝ → ℝ} (h : Nearest p fl) {y f : ℝ} (hf : IsFloat p f)
    (hlt : ∀ g, IsFloat p g → |g - y| ≤ |f - y| → g = f) : fl y = f :=
  hlt _ (h.isFloat y) (h.nearest y f hf)

/-- The numbers of `p` bits between two powers of two are the multiples of one unit. -/
theorem IsFloat.multiple {p : ℕ} {g : ℝ} (hg : IsFloat p g) {E : ℤ}
    (hE : (2 : ℝ) ^ (E + p - 1) ≤ |g|) : ∃ m : ℤ, g = (m : ℝ) * (2 : ℝ) ^ E := by
  obtain ⟨m, e, hm, rfl⟩ := hg
  by_cases he : E ≤ e
  · obtain ⟨n, hn⟩ := Int.eq_ofNat_of_zero_le (sub_nonneg.2 he)
    refine ⟨m * 2 ^ n, ?_⟩
    have : e = n + E := by omega
    rw [this, zpow_add₀ (by norm_num)]; push_cast; rw [zpow_natCast]; ring
  · exfalso
    rw [abs_mul, abs_of_pos (by positivity : (0 : ℝ) < (2 : ℝ) ^ e)] at hE
    have h1 : |(m : ℝ)| < 2 ^ p := by exact_mod_cast hm
    have h2 : |(m : ℝ)| * (2 : ℝ) ^ e < 2 ^ p * (2 : ℝ) ^ e :=
      mul_lt_mul_of_pos_right h1 (by positivity)
    have h3 : (2 : ℝ) ^ p * (2 : ℝ) ^ e = (2 : ℝ) ^ (e + p) := by
      rw [zpow_add₀ (by norm_num), zpow_natCast]; ring
    have h4 : (2 : ℝ) ^ (e + p) ≤ (2 : ℝ) ^ (E + p - 1) :=
      zpow_le_zpow_right₀ (by norm_num) (by omega)
    linarith

end Verif.MathFn
