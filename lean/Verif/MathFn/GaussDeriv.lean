import Verif.MathFn.Gauss
import Mathlib.Analysis.SpecialFunctions.Gaussian.GaussianIntegral
import Mathlib.MeasureTheory.Integral.IntegralEqImproper

/-!
# The Gauss-Fermi integral is continuously differentiable and `dgfidx` is its derivative
-/

namespace Verif.MathFn

open Real

/-! ### The inverses exist -/

theorem erf_neg (x : ℝ) : erf (-x) = -erf x := by
  unfold erf
  have h := intervalIntegral.integral_comp_neg (a := 0) (b := x) (fun t => exp (-t * t))
  have h2 : (∫ t in (0 : ℝ)..x, exp (- -t * -t)) = ∫ t in (0 : ℝ)..x, exp (-t * t) := by
    congr 1; funext t; ring_nf
  rw [h2, neg_zero] at h
  rw [h, intervalIntegral.integral_symm (-x) 0]; ring

theorem erf_tendsto : Filter.Tendsto erf Filter.atTop (nhds 1) := by
  have hint : MeasureTheory.IntegrableOn (fun t : ℝ => exp (-t * t)) (Set.Ioi 0) := by
    have := (integrable_exp_neg_mul_sq (b := 1) one_pos).integrableOn (s := Set.Ioi (0:ℝ))
    refine this.congr_fun ?_ measurableSet_Ioi
    intro t _
    simp only
    ring_nf
  have h := (MeasureTheory.intervalIntegral_tendsto_integral_Ioi 0 hint Filter.tendsto_id).const_mul
    (2 / √π)
  have hval : (∫ t in Set.Ioi (0 : ℝ), exp (-t * t)) = √π / 2 := by
    have := integral_gaussian_Ioi 1
    rw [div_one] at this
    rw [← this]
    congr 1
    funext t
    ring_nf
  rw [hval] at h
  have hp : 0 < √π := Real.sqrt_pos.2 Real.pi_pos
  have e : 2 / √π * (√π / 2) = 1 := by field_simp
  rw [e] at h
  exact h

theorem erf_surj {y : ℝ} (h1 : -1 < y) (h2 : y < 1) : ∃ x, erf x = y := by
  have hc : Continuous erf := continuous_iff_continuousAt.2 fun x => (erf_hasDerivAt x).continuousAt
  obtain ⟨b, hb⟩ := (erf_tendsto.eventually (lt_mem_nhds h2)).exists
  obtain ⟨a, ha⟩ := (erf_tendsto.eventually (lt_mem_nhds (by linarith : -y < 1))).exists
  have ha' : erf (-a) < y := by rw [erf_neg]; linarith
  have := intermediate_value_uIcc (a := -a) (b := b) hc.continuousOn
  obtain ⟨x, _, hx⟩ := this (Set.mem_uIcc.2 (Or.inl ⟨ha'.le, hb.le⟩))
  exact ⟨x, hx⟩

theorem erf_lt_one (x : ℝ) : erf x < 1 := by
  have h1 : erf x < erf (x + 1) := erf_strictMono (by linarith)
  have h2 : erf (x + 1) ≤ 1 := erf_strictMono.monotone.ge_of_tendsto erf_tendsto _
  linarith

/-- The hypothesis on the library is met. -/
theorem invErf_exists : ∃ L : InvErf, L.Correct := by
  classical
  refine ⟨⟨fun y => if h : -1 < y ∧ y < 1 then (erf_surj h.1 h.2).choose else 0,
    fun y => if h : -1 < 1 - y ∧ 1 - y < 1 then (erf_surj h.1 h.2).choose else 0⟩, ?_, ?_⟩
  · intro y h1 h2
    simp only
    rw [dif_pos ⟨h1, h2⟩]
    exact (erf_surj h1 h2).choose_spec
  · intro y h1 h2
    have h : -1 < 1 - y ∧ 1 - y < 1 := ⟨by linarith, by linarith⟩
    simp only
    rw [dif_pos h, erfc, (erf_surj h.1 h.2).choose_spec]
    ring

/-! ### The two formulas -/

/-- The formula below `-s²`. -/
noncomputable def gLow (K S z : ℝ) : ℝ := exp (0.5 * S + z) / (exp (K * (z + S)) + 1)

/-- Its derivative. -/
noncomputable def dgLow (K S z : ℝ) : ℝ :=
  exp (0.5 * S + z) * (1 / (exp (K * (S + z)) + 1))
    * (1 - K * exp (K * (S + z)) * (1 / (exp (K * (S + z)) + 1)))

/-- The formula from `-s²` on. -/
noncomputable def gHigh (H s z : ℝ) : ℝ := 0.5 * erfc (-z / (s * √2) * H)

/-- Its derivative. -/
noncomputable def dgHigh (H s z : ℝ) : ℝ :=
  1 / √(2 * π) * H / s * exp (-0.5 * (H * z) ^ 2 / (s * s))

theorem gLow_hasDerivAt (K S z : ℝ) : HasDerivAt (gLow K S) (dgLow K S z) z := by
  have h1 : HasDerivAt (fun z => exp (0.5 * S + z)) (exp (0.5 * S + z) * 1) z :=
    ((hasDerivAt_id z).const_add (0.5 * S)).exp
  have h2 : HasDerivAt (fun z => exp (K * (z + S)) + 1) (exp (K * (z + S)) * (K * 1)) z :=
    (((hasDerivAt_id z).add_const S).const_mul K).exp.add_const 1
  have hne : exp (K * (z + S)) + 1 ≠ 0 := by have := exp_pos (K * (z + S)); positivity
  refine (h1.div h2 hne).congr_deriv ?_
  unfold dgLow
  rw [add_comm S z]
  field_simp

theorem gHigh_hasDerivAt {H s : ℝ} (hs : s ≠ 0) (z : ℝ) :
    HasDerivAt (gHigh H s) (dgHigh H s z) z := by
  have h2 : (0 : ℝ) < √2 := by positivity
  have hpi : 0 < √π := Real.sqrt_pos.2 Real.pi_pos
  have h1 : HasDerivAt (fun z => -z / (s * √2) * H) (-1 / (s * √2) * H) z :=
    (((hasDerivAt_id z).neg).div_const (s * √2)).mul_const H
  have h := ((erfc_hasDerivAt (-z / (s * √2) * H)).comp z h1).const_mul 0.5
  refine h.congr_deriv ?_
  unfold dgHigh derfcdx
  have e : -(-z / (s * √2) * H) * (-z / (s * √2) * H) = -0.5 * (H * z) ^ 2 / (s * s) := by
    have : √2 * √2 = 2 := Real.mul_self_sqrt (by norm_num)
    field_simp
    rw [Real.sq_sqrt (by norm_num : (0:ℝ) ≤ 2)]
    norm_num
    ring
  rw [e]
  have e2 : √(2 * π) = √2 * √π := Real.sqrt_mul (by norm_num) _
  rw [e2]
  field_simp
  norm_num

section
variable {L : InvErf} (hL : L.Correct) {s : ℝ} (hs : s ≠ 0)
include hL hs

/-- `H`, as the code computes it. -/
noncomputable abbrev InvErf.hOf (L : InvErf) (s : ℝ) : ℝ := L.calcHImpl s (s * s)

/-- The two formulas agree at `-s²`. -/
theorem glue_value :
    gLow (calcK s (s * s) (L.hOf s)) (s * s) (-(s * s)) = gHigh (L.hOf s) s (-(s * s)) := by
  obtain ⟨h1, _⟩ := calcHImpl_eq hL hs
  unfold gLow gHigh
  have h2 : (0 : ℝ) < √2 := by positivity
  have e1 : - -(s * s) / (s * √2) * L.hOf s = s * L.hOf s / √2 := by field_simp
  rw [e1, h1]
  have e2 : -(s * s) + s * s = 0 := by ring
  rw [e2, mul_zero, exp_zero]
  have e3 : 0.5 * (s * s) + -(s * s) = -0.5 * (s * s) := by norm_num; ring
  rw [e3]
  norm_num
  ring

/-- And so do their derivatives: this is what `K` is for. -/
theorem glue_deriv :
    dgLow (calcK s (s * s) (L.hOf s)) (s * s) (-(s * s)) = dgHigh (L.hOf s) s (-(s * s)) := by
  have hpi : 0 < √π := Real.sqrt_pos.2 Real.pi_pos
  have h2 : (0 : ℝ) < √2 := by positivity
  have h22 : √2 * √2 = 2 := Real.mul_self_sqrt (by norm_num)
  unfold dgLow dgHigh calcK
  set H := L.hOf s
  have e2 : s * s + -(s * s) = 0 := by ring
  rw [e2, mul_zero, exp_zero]
  have e4 : √(2 * π) = √2 * √π := Real.sqrt_mul (by norm_num) _
  rw [e4]
  have e5 : -0.5 * (H * -(s * s)) ^ 2 / (s * s)
      = (0.5 * (s * s) + -(s * s)) + 0.5 * (s * s) * (1 - H * H) := by
    field_simp
    norm_num
    ring
  have e6 : exp (-0.5 * (H * -(s * s)) ^ 2 / (s * s))
      = exp (0.5 * (s * s) + -(s * s)) * exp (0.5 * (s * s) * (1 - H * H)) := by
    rw [e5, Real.exp_add]
  rw [e6]
  generalize exp (0.5 * (s * s) + -(s * s)) = a
  generalize exp (0.5 * (s * s) * (1 - H * H)) = b
  field_simp
  ring_nf
  rw [Real.sq_sqrt (by norm_num : (0:ℝ) ≤ 2)]
  ring

/-- **C57.** `dgfidx` is the derivative of `gfi` with respect to its first argument, everywhere (for
`s ≠ 0`), the point where the formula changes included. -/
theorem gfi_hasDerivAt (z : ℝ) :
    HasDerivAt (fun z => gfiH (L.hOf s) z s) (dgfidxH (L.hOf s) z s) z := by
  set K := calcK s (s * s) (L.hOf s) with hK
  have hlow : ∀ z, z < -(s * s) → gfiH (L.hOf s) z s = gLow K (s * s) z := by
    intro z h; simp only [gfiH, if_pos h]; rfl
  have hhigh : ∀ z, -(s * s) ≤ z → gfiH (L.hOf s) z s = gHigh (L.hOf s) s z := by
    intro z h; simp only [gfiH, if_neg (not_lt.2 h)]; rfl
  rcases lt_trichotomy z (-(s * s)) with h | h | h
  · have hd : dgfidxH (L.hOf s) z s = dgLow K (s * s) z := by
      simp only [dgfidxH, if_pos h]; rfl
    rw [hd]
    refine (gLow_hasDerivAt K (s * s) z).congr_of_eventuallyEq ?_
    filter_upwards [(isOpen_Iio (a := -(s * s))).mem_nhds h] with y hy
    exact hlow y hy
  · have hd : dgfidxH (L.hOf s) z s = dgHigh (L.hOf s) s z := by
      simp only [dgfidxH, if_neg (not_lt.2 h.ge)]; rfl
    rw [hd]
    have hr : HasDerivWithinAt (fun z => gfiH (L.hOf s) z s) (dgHigh (L.hOf s) s z)
        (Set.Ici (-(s * s))) z := by
      refine (gHigh_hasDerivAt hs z).hasDerivWithinAt.congr (fun y hy => hhigh y hy) ?_
      exact hhigh z h.ge
    have hl : HasDerivWithinAt (fun z => gfiH (L.hOf s) z s) (dgHigh (L.hOf s) s z)
        (Set.Iic (-(s * s))) z := by
      have hlz : gfiH (L.hOf s) z s = gLow K (s * s) z := by
        rw [hhigh z h.ge, h, hK, glue_value hL hs]
      have hdz : dgHigh (L.hOf s) s z = dgLow K (s * s) z := by
        rw [h, hK, glue_deriv hL hs]
      rw [hdz]
      refine (gLow_hasDerivAt K (s * s) z).hasDerivWithinAt.congr (fun y hy => ?_) hlz
      rcases (Set.mem_Iic.1 hy).lt_or_eq with h' | h'
      · exact hlow y h'
      · rw [h', ← h]; exact hlz
    have := hl.union hr
    rwa [Set.Iic_union_Ici, hasDerivWithinAt_univ] at this
  · have hd : dgfidxH (L.hOf s) z s = dgHigh (L.hOf s) s z := by
      simp only [dgfidxH, if_neg (not_lt.2 h.le)]; rfl
    rw [hd]
    refine (gHigh_hasDerivAt hs z).congr_of_eventuallyEq ?_
    filter_upwards [(isOpen_Ioi (a := -(s * s))).mem_nhds h] with y hy
    exact hhigh y (le_of_lt hy)

/-- **C57.** The slope is positive: `igfi` and `digfidx` never divide by zero. -/
theorem dgfidx_pos (z : ℝ) : 0 < dgfidxH (L.hOf s) z s := by
  obtain ⟨_, hH⟩ := calcHImpl_eq hL hs
  have hpi : 0 < √π := Real.sqrt_pos.2 Real.pi_pos
  have h2 : (0 : ℝ) < √2 := by positivity
  unfold dgfidxH
  simp only
  split_ifs with h
  · set K := calcK s (s * s) (L.hOf s) with hK
    have hK2 : K < 2 := by
      rw [hK, calcK]
      have : 0 < L.hOf s / s * (√2 * (1 / √π)) * exp (0.5 * (s * s) * (1 - L.hOf s * L.hOf s)) := by
        positivity
      linarith
    set q := exp (K * (s * s + z)) with hq
    have hq0 : 0 < q := exp_pos _
    have key : 0 < 1 - K * q * (1 / (q + 1)) := by
      have e : 1 - K * q * (1 / (q + 1)) = (q + 1 - K * q) / (q + 1) := by field_simp
      rw [e]
      apply div_pos _ (by positivity)
      by_cases hK0 : 0 ≤ K
      · have hq1 : q ≤ 1 := by
          rw [hq, Real.exp_le_one_iff]
          nlinarith
        nlinarith
      · nlinarith
    have := exp_pos (0.5 * (s * s) + z)
    positivity
  · have : 0 < 1 / √(2 * π) := by
      have : 0 < √(2 * π) := Real.sqrt_pos.2 (by have := Real.pi_pos; positivity)
      positivity
    have e : 1 / √(2 * π) * L.hOf s / s = 1 / √(2 * π) * (L.hOf s / s) := by ring
    rw [e]
    have := exp_pos (-0.5 * (L.hOf s * z) ^ 2 / (s * s))
    positivity

/-- **C57.** `gfi` increases strictly in its first argument. -/
theorem gfi_strictMono : StrictMono fun z => gfiH (L.hOf s) z s :=
  strictMono_of_deriv_pos fun z => by
    rw [(gfi_hasDerivAt hL hs z).deriv]; exact dgfidx_pos hL hs z

/-- **C57.** `gfi` lies strictly between `0` and `1`. -/
theorem gfi_range (z : ℝ) : 0 < gfiH (L.hOf s) z s ∧ gfiH (L.hOf s) z s < 1 := by
  have hss : 0 < s * s := mul_self_pos.2 hs
  unfold gfiH
  simp only
  split_ifs with h
  · have hp := exp_pos (calcK s (s * s) (L.hOf s) * (z + s * s))
    have h1 := exp_pos (0.5 * (s * s) + z)
    have h2 : exp (0.5 * (s * s) + z) < 1 := by
      rw [Real.exp_lt_one_iff]; norm_num; linarith
    constructor
    · positivity
    · rw [div_lt_one (by positivity)]; linarith
  · have h1 := erf_lt_one (-z / (s * √2) * L.hOf s)
    have h2 := erf_lt_one (-(-z / (s * √2) * L.hOf s))
    rw [erf_neg] at h2
    unfold erfc
    constructor <;> norm_num <;> linarith

end

end Verif.MathFn
