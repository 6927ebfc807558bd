import Verif.MathFn.Rel

/-!
# `kahan3` and `kahan4`: `/repo/src/MathEval/kahan.cc`

Compensated summation, the functions of expression models.  Modelled: the class `kahan` (the
`double` functions of a build without extended precision, the `float128` functions of every build),
with rounding to nearest and an unbounded exponent range.
-/

namespace Verif.MathFn

/-- The class kahan, kahan.cc:15-38. -/
structure Kahan where
  value : ℝ
  correction : ℝ

/-- kahan::operator+=, kahan.cc:117-142. -/
noncomputable def Kahan.add (fl : ℝ → ℝ) (k : Kahan) (v : ℝ) : Kahan :=
  let k1 : Kahan := if |k.value| < |k.correction| then ⟨k.correction, k.value⟩ else k
  let x := fl (k1.value + v)
  let c := if |k1.value| < |v| then fl (fl (x - v) - k1.value) else fl (fl (x - k1.value) - v)
  ⟨x, fl (k1.correction - c)⟩

/-- The conversion of the sum, kahan.cc:27-30. -/
noncomputable def Kahan.toReal (fl : ℝ → ℝ) (k : Kahan) : ℝ := fl (k.value + k.correction)

/-- kahan3, kahan.cc:72-79. -/
noncomputable def kahan3 (fl : ℝ → ℝ) (a b c : ℝ) : ℝ :=
  (((Kahan.mk a 0).add fl b).add fl c).toReal fl

/-- kahan4, kahan.cc:81-89. -/
noncomputable def kahan4 (fl : ℝ → ℝ) (a b c d : ℝ) : ℝ :=
  ((((Kahan.mk a 0).add fl b).add fl c).add fl d).toReal fl

/-! ### The error of a sum is a number of the machine -/

theorem isFloat_zero (p : ℕ) : IsFloat p 0 := ⟨0, 0, by simp, by simp⟩

theorem IsFloat.neg {p : ℕ} {y : ℝ} (h : IsFloat p y) : IsFloat p (-y) := by
  obtain ⟨m, e, hm, rfl⟩ := h
  exact ⟨-m, e, by rwa [abs_neg], by push_cast; ring⟩

theorem isFloat_int {p : ℕ} (hp : 1 ≤ p) {k : ℤ} (hk : |k| ≤ 2 ^ p) (e : ℤ) :
    IsFloat p ((k : ℝ) * (2 : ℝ) ^ e) := by
  rcases hk.lt_or_eq with h | h
  · exact ⟨k, e, h, rfl⟩
  · obtain ⟨q, rfl⟩ : ∃ q, p = q + 1 := ⟨p - 1, by omega⟩
    rcases abs_eq (by positivity) |>.1 h with h' | h'
    · refine ⟨2 ^ q, e + 1, ?_, ?_⟩
      · rw [abs_of_pos (by positivity)]
        exact pow_lt_pow_right₀ (by norm_num) (by omega)
      · rw [h', zpow_add₀ (by norm_num)]; push_cast; ring
    · refine ⟨-2 ^ q, e + 1, ?_, ?_⟩
      · rw [abs_neg, abs_of_pos (by positivity)]
        exact pow_lt_pow_right₀ (by norm_num) (by omega)
      · rw [h', zpow_add₀ (by norm_num)]; push_cast; ring

/-- Two numbers, written with the exponent of the smaller one not above the other. -/
theorem isFloat_pair {p : ℕ} {a b : ℝ} (ha : IsFloat p a) (hb : IsFloat p b) (hab : |b| ≤ |a|) :
    ∃ (ma mb e : ℤ) (n : ℕ), |ma| < 2 ^ p ∧ |mb| < 2 ^ p ∧
      a = ((ma * 2 ^ n : ℤ) : ℝ) * (2 : ℝ) ^ e ∧ b = (mb : ℝ) * (2 : ℝ) ^ e := by
  obtain ⟨ma, ea, hma, rfl⟩ := ha
  obtain ⟨mb, eb, hmb, rfl⟩ := hb
  by_cases h : eb ≤ ea
  · obtain ⟨n, hn⟩ := Int.eq_ofNat_of_zero_le (sub_nonneg.2 h)
    refine ⟨ma, mb, eb, n, hma, hmb, ?_, rfl⟩
    have : ea = n + eb := by omega
    rw [this, zpow_add₀ (by norm_num)]; push_cast; rw [zpow_natCast]; ring
  · obtain ⟨n, hn⟩ := Int.eq_ofNat_of_zero_le (sub_nonneg.2 (not_le.1 h).le)
    have he : eb = n + ea := by omega
    have hbe : (mb : ℝ) * (2 : ℝ) ^ eb = ((mb * 2 ^ n : ℤ) : ℝ) * (2 : ℝ) ^ ea := by
      rw [he, zpow_add₀ (by norm_num)]; push_cast; rw [zpow_natCast]; ring
    refine ⟨ma, mb * 2 ^ n, ea, 0, hma, ?_, by simp, hbe⟩
    rw [hbe, abs_mul, abs_mul] at hab
    have h1 : |((mb * 2 ^ n : ℤ) : ℝ)| ≤ |(ma : ℝ)| :=
      le_of_mul_le_mul_right hab (abs_pos.2 (by positivity))
    have h2 : |mb * 2 ^ n| ≤ |ma| := by exact_mod_cast h1
    exact h2.trans_lt hma

section
variable {p : ℕ} {fl : ℝ → ℝ} (h : Nearest p fl)
include h

theorem Nearest.abs_ge (hp : 1 ≤ p) {y : ℝ} {e : ℤ} (hy : (2 : ℝ) ^ (p + e) ≤ |y|) :
    (2 : ℝ) ^ (p + e) ≤ |fl y| := by
  have hf : ∀ sgn : ℤ, |sgn| = 1 → IsFloat p ((sgn : ℝ) * (2 : ℝ) ^ (p + e)) := by
    intro sgn hs
    exact isFloat_int hp (by rw [hs]; exact one_le_pow₀ (by norm_num)) _
  by_contra hc
  push Not at hc
  rcases le_or_gt 0 y with hy0 | hy0
  · rw [abs_of_nonneg hy0] at hy
    have h1 := h.nearest y _ (hf 1 (by norm_num))
    rw [Int.cast_one, one_mul, abs_of_nonpos (by linarith : (2 : ℝ) ^ (p + e) - y ≤ 0)] at h1
    have h2 := (abs_lt.1 hc).2
    rw [abs_of_nonpos (by linarith)] at h1
    linarith
  · rw [abs_of_neg hy0] at hy
    have h1 := h.nearest y _ (hf (-1) (by norm_num))
    push_cast at h1
    rw [abs_of_nonneg (by linarith : 0 ≤ -1 * (2 : ℝ) ^ (p + e) - y)] at h1
    have h2 := (abs_lt.1 hc).1
    rw [abs_of_nonneg (by linarith)] at h1
    linarith

/-- The error of a rounded sum is computed exactly when the larger summand is subtracted first. -/
theorem Nearest.two_sum (hp : 1 ≤ p) {a b : ℝ} (ha : IsFloat p a) (hb : IsFloat p b)
    (hab : |b| ≤ |a|) :
    fl (fl (fl (a + b) - a) - b) = fl (a + b) - (a + b) ∧ IsFloat p (fl (a + b) - (a + b)) := by
  obtain ⟨ma, mb, e, n, hma, hmb, hae, hbe⟩ := isFloat_pair ha hb hab
  set x := fl (a + b) with hx
  have he0 : (0 : ℝ) < (2 : ℝ) ^ e := by positivity
  have hsum : a + b = ((ma * 2 ^ n + mb : ℤ) : ℝ) * (2 : ℝ) ^ e := by
    rw [hae, hbe]; push_cast; ring
  have herr : |x - (a + b)| ≤ |b| := by
    have := h.nearest (a + b) a ha
    have e1 : a - (a + b) = -b := by ring
    rwa [e1, abs_neg] at this
  suffices H : IsFloat p (x - a) ∧ IsFloat p (x - (a + b)) by
    have e1 : x - a - b = x - (a + b) := by ring
    rw [h.eq_self H.1, e1]
    exact ⟨h.eq_self H.2, H.2⟩
  by_cases hsmall : |ma * 2 ^ n + mb| < 2 ^ p
  · have hxe : x = a + b := h.eq_self ⟨_, e, hsmall, hsum⟩
    rw [hxe]
    constructor
    · have : a + b - a = b := by ring
      rw [this]; exact hb
    · rw [sub_self]; exact isFloat_zero p
  · have hbig : (2 : ℝ) ^ ((p : ℤ) + e) ≤ |a + b| := by
      rw [hsum, abs_mul, abs_of_pos he0, zpow_add₀ (by norm_num), zpow_natCast]
      apply mul_le_mul_of_nonneg_right _ he0.le
      exact_mod_cast not_lt.1 hsmall
    have hxbig := h.abs_ge hp hbig
    obtain ⟨mx, hmx⟩ := (h.isFloat (a + b)).multiple (E := e + 1)
      (by rw [show e + 1 + p - 1 = p + e by ring]; exact hxbig)
    rw [← hx] at hmx
    have hxe : x = ((2 * mx : ℤ) : ℝ) * (2 : ℝ) ^ e := by
      rw [hmx, zpow_add₀ (by norm_num)]; push_cast; ring
    constructor
    · cases n with
      | succ n =>
        -- both are multiples of twice the unit
        have e1 : x - a = ((mx - ma * 2 ^ n : ℤ) : ℝ) * (2 : ℝ) ^ (e + 1) := by
          rw [hmx, hae, zpow_add₀ (by norm_num)]; push_cast; ring
        rw [e1]
        apply isFloat_int hp
        have h1 : |x - a| ≤ 2 * |b| := by
          have e2 : x - a = (x - (a + b)) + b := by ring
          rw [e2]
          have := abs_add_le (x - (a + b)) b
          linarith
        rw [e1, hbe, abs_mul, abs_mul, abs_of_pos he0,
          abs_of_pos (by positivity : (0 : ℝ) < (2 : ℝ) ^ (e + 1)), zpow_add₀ (by norm_num)] at h1
        have h2 : |((mx - ma * 2 ^ n : ℤ) : ℝ)| ≤ |(mb : ℝ)| := by nlinarith
        have h3 : |mx - ma * 2 ^ n| ≤ |mb| := by exact_mod_cast h2
        exact h3.trans hmb.le
      | zero =>
        simp only [pow_zero, mul_one] at hae hsum
        have e1 : x - a = ((2 * mx - ma : ℤ) : ℝ) * (2 : ℝ) ^ e := by
          rw [hxe, hae]; push_cast; ring
        rw [e1]
        apply isFloat_int hp
        -- an even neighbour of the exact sum is a number of the machine
        obtain ⟨w, hw1, hw2⟩ : ∃ w : ℤ, |2 * w - (ma + mb)| ≤ 1 ∧ |w| < 2 ^ p := by
          refine ⟨(ma + mb) / 2, ?_, ?_⟩
          · rw [abs_le]; constructor <;> omega
          · rw [abs_lt] at hma hmb ⊢
            constructor <;> omega
        have hwf : IsFloat p ((w : ℝ) * (2 : ℝ) ^ (e + 1)) := ⟨w, e + 1, hw2, rfl⟩
        have h1 := h.nearest (a + b) _ hwf
        rw [← hx] at h1
        have h2 : |(w : ℝ) * (2 : ℝ) ^ (e + 1) - (a + b)| ≤ (2 : ℝ) ^ e := by
          have e3 : (w : ℝ) * (2 : ℝ) ^ (e + 1) - (a + b)
              = ((2 * w - (ma + mb) : ℤ) : ℝ) * (2 : ℝ) ^ e := by
            rw [hsum, zpow_add₀ (by norm_num)]; push_cast; ring
          rw [e3, abs_mul, abs_of_pos he0]
          have : |((2 * w - (ma + mb) : ℤ) : ℝ)| ≤ 1 := by exact_mod_cast hw1
          nlinarith
        have h3 : |x - a| ≤ |b| + (2 : ℝ) ^ e := by
          have e2 : x - a = (x - (a + b)) + b := by ring
          rw [e2]
          have := abs_add_le (x - (a + b)) b
          linarith
        rw [e1, hbe, abs_mul, abs_mul, abs_of_pos he0] at h3
        have h4 : |((2 * mx - ma : ℤ) : ℝ)| ≤ |(mb : ℝ)| + 1 := by nlinarith
        have h5 : |2 * mx - ma| ≤ |mb| + 1 := by exact_mod_cast h4
        omega
    · have e1 : x - (a + b) = ((2 * mx - (ma * 2 ^ n + mb) : ℤ) : ℝ) * (2 : ℝ) ^ e := by
        rw [hxe, hsum]; push_cast; ring
      rw [e1]
      apply isFloat_int hp
      rw [e1, hbe, abs_mul, abs_mul, abs_of_pos he0] at herr
      have h2 : |((2 * mx - (ma * 2 ^ n + mb) : ℤ) : ℝ)| ≤ |(mb : ℝ)| :=
        le_of_mul_le_mul_right herr he0
      have h3 : |2 * mx - (ma * 2 ^ n + mb)| ≤ |mb| := by exact_mod_cast h2
      exact h3.trans hmb.le

/-- What one addition does: the new value is the rounded sum, the correction takes the error up to
one rounding. -/
theorem kahan_add (hp : 1 ≤ p) {k : Kahan} {v : ℝ} (hk1 : IsFloat p k.value)
    (hk2 : IsFloat p k.correction) (hv : IsFloat p v) :
    ∃ val cor : ℝ, ((val = k.value ∧ cor = k.correction ∧ |k.correction| ≤ |k.value|) ∨
        (val = k.correction ∧ cor = k.value ∧ |k.value| < |k.correction|)) ∧
      (k.add fl v).value = fl (val + v) ∧
      (k.add fl v).correction = fl (cor + ((val + v) - fl (val + v))) ∧
      IsFloat p ((val + v) - fl (val + v)) := by
  unfold Kahan.add
  set k1 : Kahan := if |k.value| < |k.correction| then ⟨k.correction, k.value⟩ else k with hk
  have hcase : ((k1.value = k.value ∧ k1.correction = k.correction ∧ |k.correction| ≤ |k.value|) ∨
        (k1.value = k.correction ∧ k1.correction = k.value ∧ |k.value| < |k.correction|)) := by
    by_cases hc : |k.value| < |k.correction|
    · right; rw [hk, if_pos hc]; exact ⟨rfl, rfl, hc⟩
    · left; rw [hk, if_neg hc]; exact ⟨rfl, rfl, not_lt.1 hc⟩
  have hval : IsFloat p k1.value := by
    rcases hcase with ⟨e, _⟩ | ⟨e, _⟩ <;> rw [e] <;> assumption
  refine ⟨k1.value, k1.correction, hcase, rfl, ?_, ?_⟩
  · simp only
    congr 1
    have : (if |k1.value| < |v| then fl (fl (fl (k1.value + v) - v) - k1.value)
        else fl (fl (fl (k1.value + v) - k1.value) - v)) = fl (k1.value + v) - (k1.value + v) := by
      split_ifs with hc
      · have := (h.two_sum hp hv hval hc.le).1
        rwa [add_comm v] at this
      · exact (h.two_sum hp hval hv (not_lt.1 hc)).1
    rw [this]; ring
  · have e : k1.value + v - fl (k1.value + v) = -(fl (k1.value + v) - (k1.value + v)) := by ring
    rw [e]
    apply IsFloat.neg
    rcases le_total |v| |k1.value| with hc | hc
    · exact (h.two_sum hp hval hv hc).2
    · have := (h.two_sum hp hv hval hc).2
      rwa [add_comm v] at this

/-- One addition, in bounds. -/
theorem kahan_add_bounds (hp : 1 ≤ p) {k : Kahan} {v : ℝ} (hk1 : IsFloat p k.value)
    (hk2 : IsFloat p k.correction) (hv : IsFloat p v) :
    IsFloat p (k.add fl v).value ∧ IsFloat p (k.add fl v).correction ∧
    |(k.add fl v).value| ≤ (1 + (1 / 2) ^ p) * (|k.value| + |k.correction| + |v|) ∧
    |(k.add fl v).correction| ≤ (1 + (1 / 2) ^ p) *
      (|k.correction| + (1 / 2) ^ p * (|k.value| + |k.correction| + |v|)) ∧
    |(k.add fl v).value + (k.add fl v).correction - (k.value + k.correction + v)|
      ≤ (1 / 2) ^ p * (|k.correction| + (1 / 2) ^ p * (|k.value| + |k.correction| + |v|)) := by
  obtain ⟨val, cor, hcase, h1, h2, _⟩ := kahan_add h hp hk1 hk2 hv
  have hrel := h.rel hp
  set u : ℝ := (1 / 2) ^ p with hu
  have hu0 : 0 ≤ u := by positivity
  rw [h1, h2]
  set x := fl (val + v) with hx
  have hsum : val + cor = k.value + k.correction := by
    rcases hcase with ⟨a, b, _⟩ | ⟨a, b, _⟩ <;> rw [a, b]
    ring
  have hcor : |cor| ≤ |k.correction| := by
    rcases hcase with ⟨a, b, c⟩ | ⟨a, b, c⟩ <;> rw [b]
    exact c.le
  have hval : |val| ≤ |k.value| + |k.correction| := by
    rcases hcase with ⟨a, b, c⟩ | ⟨a, b, c⟩ <;> rw [a]
    · have := abs_nonneg k.correction; linarith
    · have := abs_nonneg k.value; linarith
  have hvv : |val + v| ≤ |k.value| + |k.correction| + |v| := by
    have := abs_add_le val v; linarith
  have he : |val + v - x| ≤ u * (|k.value| + |k.correction| + |v|) := by
    have := hrel (val + v)
    rw [Rel, ← hx, abs_sub_comm] at this
    exact this.trans (mul_le_mul_of_nonneg_left hvv hu0)
  have hc : |cor + (val + v - x)| ≤ |k.correction| + u * (|k.value| + |k.correction| + |v|) := by
    have := abs_add_le cor (val + v - x); linarith
  have hr := hrel (cor + (val + v - x))
  rw [Rel] at hr
  set y := fl (cor + (val + v - x)) with hy
  refine ⟨h.isFloat _, h.isFloat _, ?_, ?_, ?_⟩
  · have := abs_sub_abs_le_abs_sub x (val + v)
    rw [abs_sub_comm] at this
    nlinarith
  · have := abs_sub_abs_le_abs_sub y (cor + (val + v - x))
    nlinarith
  · have e : x + y - (k.value + k.correction + v) = y - (cor + (val + v - x)) := by
      rw [← hsum]; ring
    rw [e]
    exact hr.trans (mul_le_mul_of_nonneg_left hc hu0)

/-- After the first addition the pair holds the sum exactly. -/
theorem kahan_first (hp : 1 ≤ p) {a b : ℝ} (ha : IsFloat p a) (hb : IsFloat p b) :
    ((Kahan.mk a 0).add fl b).value + ((Kahan.mk a 0).add fl b).correction = a + b ∧
    ((Kahan.mk a 0).add fl b).value = fl (a + b) := by
  obtain ⟨val, cor, hcase, h1, h2, h3⟩ := kahan_add h hp (k := ⟨a, 0⟩) ha (isFloat_zero p) hb
  have hv : val = a ∧ cor = 0 := by
    rcases hcase with ⟨e1, e2, _⟩ | ⟨_, _, e3⟩
    · exact ⟨e1, e2⟩
    · simp only [abs_zero] at e3
      exact absurd e3 (not_lt.2 (abs_nonneg a))
  obtain ⟨rfl, rfl⟩ := hv
  rw [zero_add] at h2
  rw [h.eq_self h3] at h2
  rw [h1, h2]
  exact ⟨by ring, rfl⟩

/-- **C58.** `kahan3(a, b, c)`: the error is one rounding of the exact sum plus a term of second
order, whatever cancels. -/
theorem kahan3_accurate (hp : 3 ≤ p) {a b c : ℝ} (ha : IsFloat p a) (hb : IsFloat p b)
    (hc : IsFloat p c) :
    |kahan3 fl a b c - (a + b + c)|
      ≤ (1 / 2) ^ p * |a + b + c| + 4 * ((1 / 2) ^ p) ^ 2 * (|a| + |b| + |c|) := by
  have hrel := h.rel (by omega : 1 ≤ p)
  have hu0 : 0 ≤ (1 / 2 : ℝ) ^ p := by positivity
  have hu1 : (1 / 2 : ℝ) ^ p ≤ 1 / 8 :=
    (pow_le_pow_of_le_one (by norm_num) (by norm_num) hp).trans (by norm_num)
  obtain ⟨f1, f2⟩ := kahan_first h (by omega) ha hb
  obtain ⟨g1, g2, _, _, _⟩ := kahan_add_bounds h (by omega) (k := ⟨a, 0⟩) ha (isFloat_zero p) hb
  set k1 := (Kahan.mk a 0).add fl b with hk1
  obtain ⟨_, _, b1, b2, b3⟩ := kahan_add_bounds h (by omega) (k := k1) g1 g2 hc
  set k2 := k1.add fl c with hk2
  have hres : kahan3 fl a b c = fl (k2.value + k2.correction) := rfl
  rw [hres]
  set u : ℝ := (1 / 2) ^ p with hu
  have hab := abs_add_le a b
  have hc1 : |k1.correction| ≤ u * |a + b| := by
    have : k1.correction = -(fl (a + b) - (a + b)) := by rw [← f2]; linarith
    rw [this, abs_neg]
    exact hrel (a + b)
  have hv1 : |k1.value| ≤ (1 + u) * |a + b| := by
    rw [f2]
    have h1 := hrel (a + b)
    rw [Rel] at h1
    have h2 := abs_sub_abs_le_abs_sub (fl (a + b)) (a + b)
    nlinarith
  have hA := abs_nonneg (a + b)
  have hC := abs_nonneg c
  have hE : |k2.value + k2.correction - (a + b + c)| ≤ 3 * u ^ 2 * (|a| + |b| + |c|) := by
    rw [f1] at b3
    refine b3.trans ?_
    have t1 : |k1.value| + |k1.correction| + |c| ≤ 1.25 * |a + b| + |c| := by nlinarith
    have t2 : |k1.correction| + u * (|k1.value| + |k1.correction| + |c|)
        ≤ u * (2.25 * |a + b| + |c|) := by nlinarith
    have t3 := mul_le_mul_of_nonneg_left t2 hu0
    have t4 : 2.25 * |a + b| + |c| ≤ 3 * (|a| + |b| + |c|) := by linarith
    have t5 := mul_le_mul_of_nonneg_left t4 (by positivity : 0 ≤ u ^ 2)
    nlinarith
  set T := k2.value + k2.correction with hT
  have hlast := hrel T
  rw [Rel] at hlast
  have e1 : fl T - (a + b + c) = (fl T - T) + (T - (a + b + c)) := by ring
  have e2 := abs_add_le (fl T - T) (T - (a + b + c))
  rw [e1]
  have e3 : |T| ≤ |a + b + c| + |T - (a + b + c)| := by
    have := abs_add_le (a + b + c) (T - (a + b + c))
    rwa [add_sub_cancel] at this
  have hS : 0 ≤ |a| + |b| + |c| := by positivity
  have hq : 0 ≤ u ^ 2 * (|a| + |b| + |c|) := by positivity
  nlinarith

set_option maxHeartbeats 1000000 in
/-- **C58.** `kahan4(a, b, c, d)`. -/
theorem kahan4_accurate (hp : 3 ≤ p) {a b c d : ℝ} (ha : IsFloat p a) (hb : IsFloat p b)
    (hc : IsFloat p c) (hd : IsFloat p d) :
    |kahan4 fl a b c d - (a + b + c + d)|
      ≤ (1 / 2) ^ p * |a + b + c + d| + 12 * ((1 / 2) ^ p) ^ 2 * (|a| + |b| + |c| + |d|) := by
  have hrel := h.rel (by omega : 1 ≤ p)
  have hu0 : 0 ≤ (1 / 2 : ℝ) ^ p := by positivity
  have hu1 : (1 / 2 : ℝ) ^ p ≤ 1 / 8 :=
    (pow_le_pow_of_le_one (by norm_num) (by norm_num) hp).trans (by norm_num)
  obtain ⟨f1, f2⟩ := kahan_first h (by omega) ha hb
  obtain ⟨g1, g2, _, _, _⟩ := kahan_add_bounds h (by omega) (k := ⟨a, 0⟩) ha (isFloat_zero p) hb
  set k1 := (Kahan.mk a 0).add fl b with hk1
  obtain ⟨q1, q2, b1, b2, b3⟩ := kahan_add_bounds h (by omega) (k := k1) g1 g2 hc
  set k2 := k1.add fl c with hk2
  obtain ⟨_, _, _, _, d3⟩ := kahan_add_bounds h (by omega) (k := k2) q1 q2 hd
  set k3 := k2.add fl d with hk3
  have hres : kahan4 fl a b c d = fl (k3.value + k3.correction) := rfl
  rw [hres]
  set u : ℝ := (1 / 2) ^ p with hu
  have hab := abs_add_le a b
  have hc1 : |k1.correction| ≤ u * |a + b| := by
    have : k1.correction = -(fl (a + b) - (a + b)) := by rw [← f2]; linarith
    rw [this, abs_neg]
    exact hrel (a + b)
  have hv1 : |k1.value| ≤ (1 + u) * |a + b| := by
    rw [f2]
    have h1 := hrel (a + b)
    rw [Rel] at h1
    have h2 := abs_sub_abs_le_abs_sub (fl (a + b)) (a + b)
    nlinarith
  have hA := abs_nonneg (a + b)
  have hC := abs_nonneg c
  have hD := abs_nonneg d
  set S3 := |a| + |b| + |c| with hS3
  have hS30 : 0 ≤ S3 := by positivity
  have t1 : |k1.value| + |k1.correction| + |c| ≤ 1.25 * S3 := by
    have : |k1.value| + |k1.correction| + |c| ≤ 1.25 * |a + b| + |c| := by nlinarith
    rw [hS3]; linarith
  have t2 : |k1.correction| + u * (|k1.value| + |k1.correction| + |c|) ≤ u * (2.25 * S3) := by
    have h1 : |a + b| ≤ S3 := by rw [hS3]; linarith
    have h2 : u * (|k1.value| + |k1.correction| + |c|) ≤ u * (1.25 * S3) :=
      mul_le_mul_of_nonneg_left t1 hu0
    have h3 : u * |a + b| ≤ u * S3 := mul_le_mul_of_nonneg_left h1 hu0
    linarith
  have hE2 : |k2.value + k2.correction - (a + b + c)| ≤ 2.25 * u ^ 2 * S3 := by
    rw [f1] at b3
    refine b3.trans ?_
    have := mul_le_mul_of_nonneg_left t2 hu0
    nlinarith
  have hv2 : |k2.value| ≤ 1.5 * S3 := by
    refine b1.trans ?_
    have h0 : 0 ≤ |k1.value| + |k1.correction| + |c| := by positivity
    have := mul_le_mul (by linarith : 1 + u ≤ 1.125) t1 h0 (by norm_num)
    linarith
  have hc2 : |k2.correction| ≤ u * (2.6 * S3) := by
    refine b2.trans ?_
    have h0 : 0 ≤ u * S3 := by positivity
    have h1 : 0 ≤ |k1.correction| + u * (|k1.value| + |k1.correction| + |c|) := by positivity
    have := mul_le_mul (by linarith : 1 + u ≤ 1.125) t2 h1 (by norm_num)
    linarith
  have hc2' : |k2.correction| ≤ 0.4 * S3 := by
    have := mul_le_mul_of_nonneg_right hu1 (by positivity : 0 ≤ 2.6 * S3)
    linarith
  have hE3 : |k3.value + k3.correction - (k2.value + k2.correction + d)|
      ≤ 5 * u ^ 2 * (S3 + |d|) := by
    refine d3.trans ?_
    have h1 : |k2.value| + |k2.correction| + |d| ≤ 1.9 * S3 + |d| := by linarith
    have h2 : |k2.correction| + u * (|k2.value| + |k2.correction| + |d|)
        ≤ u * (4.5 * S3 + |d|) := by
      have := mul_le_mul_of_nonneg_left h1 hu0
      linarith
    have h3 := mul_le_mul_of_nonneg_left h2 hu0
    have h4 : 0 ≤ u ^ 2 * S3 := by positivity
    have h5 : 0 ≤ u ^ 2 * |d| := by positivity
    nlinarith
  set T := k3.value + k3.correction with hT
  have hTot : |T - (a + b + c + d)| ≤ 8 * u ^ 2 * (S3 + |d|) := by
    have e1 : T - (a + b + c + d) = (T - (k2.value + k2.correction + d))
        + (k2.value + k2.correction - (a + b + c)) := by ring
    rw [e1]
    have := abs_add_le (T - (k2.value + k2.correction + d))
      (k2.value + k2.correction - (a + b + c))
    have h4 : 0 ≤ u ^ 2 * S3 := by positivity
    have h5 : 0 ≤ u ^ 2 * |d| := by positivity
    nlinarith
  have hlast := hrel T
  rw [Rel] at hlast
  have e1 : fl T - (a + b + c + d) = (fl T - T) + (T - (a + b + c + d)) := by ring
  have e2 := abs_add_le (fl T - T) (T - (a + b + c + d))
  rw [e1]
  have e3 : |T| ≤ |a + b + c + d| + |T - (a + b + c + d)| := by
    have := abs_add_le (a + b + c + d) (T - (a + b + c + d))
    rwa [add_sub_cancel] at this
  have hq : 0 ≤ u ^ 2 * (S3 + |d|) := by positivity
  have l1 : u * |T| ≤ u * |a + b + c + d| + u * |T - (a + b + c + d)| := by
    have := mul_le_mul_of_nonneg_left e3 hu0; linarith
  have l2 : u * |T - (a + b + c + d)| ≤ 1 / 8 * |T - (a + b + c + d)| :=
    mul_le_mul_of_nonneg_right hu1 (abs_nonneg _)
  linarith

end

/-- **C58.** With exact arithmetic the two functions are the sums. -/
theorem kahan_exact (a b c d : ℝ) : kahan3 id a b c = a + b + c ∧ kahan4 id a b c d = a + b + c + d := by
  have key : ∀ (k : Kahan) (v : ℝ), (k.add id v).value + (k.add id v).correction
      = k.value + k.correction + v := by
    intro k v
    unfold Kahan.add
    simp only [id]
    split_ifs <;> ring
  constructor
  · simp only [kahan3, Kahan.toReal, id]
    have := key ((Kahan.mk a 0).add id b) c
    have h2 := key (Kahan.mk a 0) b
    simp only [id] at this h2
    linarith
  · simp only [kahan4, Kahan.toReal, id]
    have h1 := key (((Kahan.mk a 0).add id b).add id c) d
    have h2 := key ((Kahan.mk a 0).add id b) c
    have h3 := key (Kahan.mk a 0) b
    linarith

/-- A case: in `double`, `1e20 + 297 - 1e20` (the example in the source) is computed with an
error far below what plain summation loses. -/
example {fl : ℝ → ℝ} (h : Nearest 53 fl) : |kahan3 fl 1e20 297 (-1e20) - 297| ≤ 1e-8 := by
  have f1 : IsFloat 53 (1e20 : ℝ) := ⟨95367431640625, 20, by norm_num, by norm_num⟩
  have f2 : IsFloat 53 (297 : ℝ) := ⟨297, 0, by norm_num, by norm_num⟩
  have := kahan3_accurate h (by norm_num) f1 f2 f1.neg
  norm_num at this ⊢
  refine this.trans ?_
  norm_num

end Verif.MathFn
