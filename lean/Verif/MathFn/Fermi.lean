import Mathlib.Analysis.SpecialFunctions.Pow.Deriv
import Mathlib.Analysis.SpecialFunctions.Log.Deriv
import Mathlib.Analysis.SpecialFunctions.Sqrt
import Mathlib.Analysis.Real.Pi.Bounds
import Mathlib.Analysis.Complex.ExponentialBounds
import Mathlib.Analysis.Calculus.Deriv.MeanValue
import Mathlib.Analysis.Calculus.Deriv.Inverse

/-!
# `Fermi`, `dFermidx`, `InvFermi`, `dInvFermidx`: `/repo/src/MathEval/Fermi.cc`

The functions of expression models.  Simplification: exact real arithmetic (no rounding, no
overflow); the literals are those of the source.
-/

namespace Verif.MathFn

open Real

/-- Fermi.cc:35 -/
noncomputable def fBreak : ℝ := 8.46296036621705
/-- Fermi.cc:36 -/
noncomputable def fOffset : ℝ := -0.0137050034663995

/-- Joyce, Fermi.cc:38-58 (`0.5 * one_div_root_pi`, line 42). -/
noncomputable def joyce (r : ℝ) : ℝ :=
  log r + 0.5 * (1 / √π) * r + -4.9500897298752622e-3 * (r * r)
    + 1.4838577128872821e-4 * (r * r * r) + -4.4256301190009895e-6 * (r * r * r * r)

/-- dJoycedx, Fermi.cc:60-79 -/
noncomputable def dJoycedx (r : ℝ) : ℝ :=
  1 / r + 0.5 * (1 / √π) + -2 * 4.9500897298752622e-3 * r
    + 3 * 1.4838577128872821e-4 * (r * r) + -4 * 4.4256301190009895e-6 * (r * r * r)

/-- Expansion, Fermi.cc:81-100 (`three_quarters_pi`, line 86; `pow` is `Real.rpow`). -/
noncomputable def expansion (r : ℝ) : ℝ :=
  √((3 * π / 4 * r) ^ (4 / 3 : ℝ) + -(π ^ 2 / 6)) + fOffset

/-- dExpansiondx, Fermi.cc:102-115 -/
noncomputable def dExpansiondx (r : ℝ) : ℝ :=
  0.5 * √π * (3 / 4 * √π * r) ^ (1 / 3 : ℝ) / expansion r

/-- InvFermi, Fermi.cc:137-148 -/
noncomputable def invFermi (r : ℝ) : ℝ := if r < fBreak then joyce r else expansion r

/-- dInvFermidx, Fermi.cc:150-161 -/
noncomputable def dInvFermidx (r : ℝ) : ℝ := if r < fBreak then dJoycedx r else dExpansiondx r

/-- The inner loop of Fermi, Fermi.cc:178-181: `upd` is halved until `upd + r` is positive. `none`:
not finished after the given number of rounds. -/
noncomputable def halve : ℕ → ℝ → ℝ → Option ℝ
  | 0, _, _ => none
  | n + 1, r, upd => if upd + r ≤ 0 then halve n r (upd * 0.5) else some upd

/-- good_relerror for `double`, Fermi.cc:122-126 -/
noncomputable def goodRel : ℝ := 1e-12

/-- The loop of Fermi, Fermi.cc:173-188, from iteration `i`; `k` counts the iterations left
(`i < 20`). The condition of the loop is tested with the tolerance `tol`, `f` and `fp` are InvFermi
and dInvFermidx. -/
noncomputable def fermiLoop (f fp : ℝ → ℝ) (tol eta : ℝ) (fuel : ℕ) : ℕ → ℝ → Option ℝ
  | 0, r => some r
  | k + 1, r =>
    (halve fuel r (-(f r - eta) / fp r)).bind fun upd =>
      let r' := r + upd
      let rerr := |upd| / (|r'| + tol)
      if rerr > tol ∧ 0 < k then fermiLoop f fp tol eta fuel k r' else some r'

/-- Fermi, Fermi.cc:165-192. -/
noncomputable def fermi (fuel : ℕ) (eta : ℝ) : Option ℝ :=
  fermiLoop invFermi dInvFermidx goodRel eta fuel 20 (exp eta)

/-- dFermidx, Fermi.cc:195-199. -/
noncomputable def dFermidx (fuel : ℕ) (eta : ℝ) : Option ℝ :=
  (fermi fuel eta).map fun r => 1 / dInvFermidx r

/-! ### Numbers -/

theorem sqrt_pi_bounds : 1.772 < √π ∧ √π < 1.773 := by
  constructor
  · apply Real.lt_sqrt_of_sq_lt
    have := Real.pi_gt_d4
    norm_num at this ⊢; linarith
  · rw [Real.sqrt_lt' (by norm_num)]
    have := Real.pi_lt_d4
    norm_num at this ⊢; linarith

theorem half_inv_sqrt_pi : 0.282 < 0.5 * (1 / √π) ∧ 0.5 * (1 / √π) < 0.2823 := by
  obtain ⟨h1, h2⟩ := sqrt_pi_bounds
  have hp : 0 < √π := by linarith
  have e : 0.5 * (1 / √π) = 0.5 / √π := by ring
  rw [e]
  constructor
  · rw [lt_div_iff₀ hp]; nlinarith
  · rw [div_lt_iff₀ hp]; nlinarith

/-! ### Below the break point -/

theorem joyce_hasDerivAt {r : ℝ} (hr : 0 < r) : HasDerivAt joyce (dJoycedx r) r := by
  have h1 := Real.hasDerivAt_log hr.ne'
  have hid := hasDerivAt_id r
  have h2 := hid.const_mul (0.5 * (1 / √π))
  have h3 := (hid.mul hid).const_mul (-4.9500897298752622e-3 : ℝ)
  have h4 := ((hid.mul hid).mul hid).const_mul (1.4838577128872821e-4 : ℝ)
  have h5 := (((hid.mul hid).mul hid).mul hid).const_mul (-4.4256301190009895e-6 : ℝ)
  have h := (((h1.add h2).add h3).add h4).add h5
  refine h.congr_deriv ?_
  simp only [dJoycedx, id, Pi.mul_apply]
  ring

/-- dInvFermidx is positive below the break point. -/
theorem dJoycedx_pos {r : ℝ} (hr : 0 < r) (hb : r ≤ fBreak) : 0 < dJoycedx r := by
  have h1 := half_inv_sqrt_pi.1
  have h2 : 0 < 1 / r := by positivity
  unfold dJoycedx
  unfold fBreak at hb
  have hb' : r ≤ 8.463 := by norm_num at hb ⊢; linarith
  have h3 : r * r ≤ 8.463 * 8.463 := mul_le_mul hb' hb' hr.le (by norm_num)
  have h4 : r * r * r ≤ 8.463 * 8.463 * 8.463 := mul_le_mul h3 hb' hr.le (by norm_num)
  have h5 : 0 ≤ r * r := by positivity
  rw [one_div] at h2
  norm_num at hb' h1 h3 h4 ⊢
  linarith

/-- **C56.** Below the break point `dInvFermidx` is the derivative of `InvFermi`. -/
theorem dInvFermidx_below {r : ℝ} (hr : 0 < r) (hb : r < fBreak) :
    HasDerivAt invFermi (dInvFermidx r) r := by
  have h := joyce_hasDerivAt hr
  have e : dInvFermidx r = dJoycedx r := if_pos hb
  rw [e]
  refine h.congr_of_eventuallyEq ?_
  filter_upwards [(isOpen_Iio (a := fBreak)).mem_nhds hb] with y hy
  exact if_pos hy

theorem joyce_strictMonoOn : StrictMonoOn joyce (Set.Ioc 0 fBreak) := by
  apply strictMonoOn_of_deriv_pos (convex_Ioc 0 fBreak)
  · intro r hr
    exact (joyce_hasDerivAt hr.1).continuousAt.continuousWithinAt
  · intro r hr
    rw [interior_Ioc] at hr
    rw [(joyce_hasDerivAt hr.1).deriv]
    exact dJoycedx_pos hr.1 hr.2.le

theorem fBreak_pos : 0 < fBreak := by unfold fBreak; norm_num

theorem joyce_break : joyce fBreak < 4.3 := by
  have h1 := half_inv_sqrt_pi.2
  have hl : log fBreak ≤ 3 * log 2 + 0.058 := by
    have e : fBreak = 2 ^ 3 * (fBreak / 8) := by ring
    rw [e, Real.log_mul (by norm_num) (by unfold fBreak; norm_num), Real.log_pow]
    have := Real.log_le_sub_one_of_pos (x := fBreak / 8) (by unfold fBreak; norm_num)
    have h2 : fBreak / 8 - 1 ≤ 0.058 := by unfold fBreak; norm_num
    push_cast
    linarith
  have hl2 := Real.log_two_lt_d9
  unfold joyce
  have hlin : 0.5 * (1 / √π) * fBreak ≤ 0.2823 * fBreak :=
    mul_le_mul_of_nonneg_right h1.le fBreak_pos.le
  have hn : 0.2823 * fBreak + -4.9500897298752622e-3 * (fBreak * fBreak)
    + 1.4838577128872821e-4 * (fBreak * fBreak * fBreak)
    + -4.4256301190009895e-6 * (fBreak * fBreak * fBreak * fBreak) ≤ 2.11 := by
    unfold fBreak; norm_num
  norm_num at *
  linarith

/-! ### From the break point on -/

theorem rpow_lower {y a : ℝ} (ha : 0 ≤ a) (h : a ^ 3 ≤ y ^ 4) (hy : 0 ≤ y) :
    a ≤ y ^ (4 / 3 : ℝ) := by
  have e : a = (a ^ 3) ^ (1 / 3 : ℝ) := by
    rw [← Real.rpow_natCast, ← Real.rpow_mul ha]; norm_num
  have e2 : y ^ (4 / 3 : ℝ) = (y ^ 4) ^ (1 / 3 : ℝ) := by
    rw [← Real.rpow_natCast y 4, ← Real.rpow_mul hy]; norm_num
  rw [e, e2]
  exact Real.rpow_le_rpow (by positivity) h (by norm_num)

theorem exp_arg_lower {r : ℝ} (hr : fBreak ≤ r) :
    52 ≤ (3 * π / 4 * r) ^ (4 / 3 : ℝ) + -(π ^ 2 / 6) := by
  have hp1 := Real.pi_gt_d2
  have hp2 := Real.pi_lt_d2
  have hr' : 8.462 ≤ r := by unfold fBreak at hr; norm_num at hr ⊢; linarith
  have h1 : 19.9 ≤ 3 * π / 4 * r := by norm_num at *; nlinarith
  have h2 : (53.7 : ℝ) ≤ (3 * π / 4 * r) ^ (4 / 3 : ℝ) := by
    apply rpow_lower (by norm_num) _ (by linarith)
    have := pow_le_pow_left₀ (by norm_num : (0:ℝ) ≤ 19.9) h1 4
    norm_num at this ⊢
    linarith
  have h3 : π ^ 2 / 6 ≤ 1.66 := by norm_num at *; nlinarith
  norm_num at *
  linarith

theorem expansion_lower {r : ℝ} (hr : fBreak ≤ r) : 7 < expansion r := by
  have h := exp_arg_lower hr
  have h1 : 7.2 ≤ √((3 * π / 4 * r) ^ (4 / 3 : ℝ) + -(π ^ 2 / 6)) :=
    Real.le_sqrt_of_sq_le (by norm_num; linarith)
  unfold expansion fOffset
  norm_num at *
  linarith

/-- **C56**: the values between `4.3` and `7` are never values of `InvFermi` (for a positive
argument): it jumps over them at the break point. -/
theorem invFermi_skips {r : ℝ} (hr : 0 < r) : invFermi r < 4.3 ∨ 7 < invFermi r := by
  unfold invFermi
  split_ifs with h
  · left
    have := joyce_strictMonoOn ⟨hr, h.le⟩ ⟨fBreak_pos, le_rfl⟩ h
    exact this.trans joyce_break
  · right
    exact expansion_lower (not_lt.1 h)

theorem dExpansiondx_pos {r : ℝ} (hr : fBreak ≤ r) : 0 < dExpansiondx r := by
  have h := expansion_lower hr
  have hr0 : 0 < r := fBreak_pos.trans_le hr
  have hp := sqrt_pi_bounds.1
  unfold dExpansiondx
  have : 0 < (3 / 4 * √π * r) ^ (1 / 3 : ℝ) := Real.rpow_pos_of_pos (by
    have : 0 < √π := by linarith
    positivity) _
  have h2 : 0 < √π := by linarith
  have h3 : 0 < expansion r := by linarith
  positivity

/-- `dInvFermidx` is positive for every positive argument. -/
theorem dInvFermidx_pos {r : ℝ} (hr : 0 < r) : 0 < dInvFermidx r := by
  unfold dInvFermidx
  split_ifs with h
  · exact dJoycedx_pos hr h.le
  · exact dExpansiondx_pos (not_lt.1 h)

/-- The derivative of `InvFermi` above the break point. -/
noncomputable def trueDer (r : ℝ) : ℝ :=
  π / 2 * (3 * π / 4 * r) ^ (1 / 3 : ℝ) / √((3 * π / 4 * r) ^ (4 / 3 : ℝ) + -(π ^ 2 / 6))

theorem expansion_hasDerivAt {r : ℝ} (hr : fBreak ≤ r) : HasDerivAt expansion (trueDer r) r := by
  have harg := exp_arg_lower hr
  have hr0 : 0 < r := fBreak_pos.trans_le hr
  have h1 : HasDerivAt (fun r => 3 * π / 4 * r) (3 * π / 4) r := by
    simpa using (hasDerivAt_id r).const_mul (3 * π / 4)
  have h2 : HasDerivAt (fun r => (3 * π / 4 * r) ^ (4 / 3 : ℝ))
      (3 * π / 4 * (4 / 3) * (3 * π / 4 * r) ^ (4 / 3 - 1 : ℝ)) r :=
    h1.rpow_const (Or.inl (by positivity))
  have h3 := (h2.add_const (-(π ^ 2 / 6))).sqrt (by linarith)
  have h4 := h3.add_const fOffset
  refine h4.congr_deriv ?_
  unfold trueDer
  have e : (4 / 3 - 1 : ℝ) = 1 / 3 := by norm_num
  rw [e]
  field_simp

theorem invFermi_hasDerivAt_above {r : ℝ} (hr : fBreak < r) :
    HasDerivAt invFermi (trueDer r) r := by
  refine (expansion_hasDerivAt hr.le).congr_of_eventuallyEq ?_
  filter_upwards [(isOpen_Ioi (a := fBreak)).mem_nhds hr] with y hy
  exact if_neg (not_lt.2 (le_of_lt hy))

/-- **C56**, the counterexample: above the break point `dInvFermidx` is less than half of the
derivative of `InvFermi`, at every point. -/
theorem dInvFermidx_above_wrong {r : ℝ} (hr : fBreak < r) :
    0 < dInvFermidx r ∧ dInvFermidx r < 1 / 2 * deriv invFermi r := by
  have hr0 : 0 < r := fBreak_pos.trans hr
  refine ⟨dInvFermidx_pos hr0, ?_⟩
  rw [(invFermi_hasDerivAt_above hr).deriv]
  have e : dInvFermidx r = dExpansiondx r := if_neg (not_lt.2 hr.le)
  rw [e]
  have harg := exp_arg_lower hr.le
  have hlow := expansion_lower hr.le
  set Q := √((3 * π / 4 * r) ^ (4 / 3 : ℝ) + -(π ^ 2 / 6)) with hQ
  have hQe : expansion r = Q + fOffset := rfl
  have hQ7 : 7.2 ≤ Q := Real.le_sqrt_of_sq_le (by norm_num; linarith)
  obtain ⟨hs1, hs2⟩ := sqrt_pi_bounds
  have hs0 : 0 < √π := by linarith
  set T := (3 / 4 * √π * r) ^ (1 / 3 : ℝ) with hT
  have hT0 : 0 < T := Real.rpow_pos_of_pos (by positivity) _
  -- `(3π/4 r)^(1/3) = π^(1/6) T`
  have hsplit : (3 * π / 4 * r) ^ (1 / 3 : ℝ) = (√π) ^ (1 / 3 : ℝ) * T := by
    rw [hT, ← Real.mul_rpow (by positivity) (by positivity)]
    congr 1
    have := Real.mul_self_sqrt Real.pi_pos.le
    calc 3 * π / 4 * r = 3 * (√π * √π) / 4 * r := by rw [this]
      _ = _ := by ring
  have hc : (1.2 : ℝ) ≤ (√π) ^ (1 / 3 : ℝ) := by
    have e3 : (1.2 : ℝ) = ((1.2 : ℝ) ^ 3) ^ (1 / 3 : ℝ) := by
      rw [← Real.rpow_natCast, ← Real.rpow_mul (by norm_num)]; norm_num
    rw [e3]
    exact Real.rpow_le_rpow (by norm_num) (by norm_num; linarith) (by norm_num)
  have hpi : π = √π * √π := (Real.mul_self_sqrt Real.pi_pos.le).symm
  have hoff : fOffset = -0.0137050034663995 := rfl
  unfold dExpansiondx trueDer
  rw [← hQ, hsplit, hQe, ← hT]
  have hden : 0 < Q + fOffset := by rw [hoff]; norm_num at *; linarith
  have hQ0 : 0 < Q := by linarith
  have e2 : 1 / 2 * (π / 2 * (√π ^ (1 / 3 : ℝ) * T) / Q)
      = (1 / 4 * π * √π ^ (1 / 3 : ℝ)) * T / Q := by ring
  rw [e2, div_lt_div_iff₀ hden hQ0]
  have hcoef : 0.53 * √π ≤ 1 / 4 * π * √π ^ (1 / 3 : ℝ) := by
    have h1 : 1 / 4 * π * √π ^ (1 / 3 : ℝ) = (1 / 4 * (√π * √π ^ (1 / 3 : ℝ))) * √π := by
      conv_lhs => rw [hpi]
      ring_nf
      rw [Real.sq_sqrt Real.pi_pos.le]
    rw [h1]
    apply mul_le_mul_of_nonneg_right _ hs0.le
    nlinarith
  have hmain : 0.5 * √π * T * Q < 0.53 * √π * T * (Q + fOffset) := by
    have hST : 0 < √π * T := by positivity
    have : 0.5 * Q < 0.53 * (Q + fOffset) := by rw [hoff]; norm_num at *; linarith
    nlinarith
  have : 0.53 * √π * T * (Q + fOffset) ≤ 1 / 4 * π * √π ^ (1 / 3 : ℝ) * T * (Q + fOffset) := by
    apply mul_le_mul_of_nonneg_right _ hden.le
    exact mul_le_mul_of_nonneg_right hcoef hT0.le
  linarith

end Verif.MathFn
