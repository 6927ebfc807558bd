import Verif.Newton.Model
import Mathlib.Analysis.Calculus.MeanValue
import Mathlib.Analysis.Calculus.Deriv.Pow
import Mathlib.Analysis.Calculus.Deriv.Mul
import Mathlib.Analysis.Calculus.Deriv.Add
import Mathlib.Analysis.Calculus.Deriv.Comp
import Mathlib.Tactic.FieldSimp
import Mathlib.Tactic.Ring
import Mathlib.Tactic.Linarith

/-!
# C31: the integration formulas (`src/math/Newton.hh` 71-142, `src/commands/MathCommands.cc` 65-97, 163-188)
-/

namespace Verif.Newton

/-! ### Model -/

/-- `DCOnly`, `Newton.hh` 71-78. -/
def dcOnly : TimeParams := ⟨.dcOnly, 0, 0, 0, 0, 1, 0, 0⟩
/-- `TransientDC`, `Newton.hh` 80-87. -/
def transientDC : TimeParams := ⟨.dc, 0, 0, 0, 0, 1, 0, 0⟩
/-- `BDF1`, `Newton.hh` 89-104. -/
noncomputable def bdf1 (tstep gamma : ℝ) : TimeParams :=
  let tdelta := gamma * tstep
  let tf := 1 / tdelta
  ⟨.bdf1, tdelta, tf, -tf, 0, 1, 0, 0⟩
/-- `BDF2`, `Newton.hh` 106-123. In the code `gamma = 1` divides by zero; in Lean `x / 0 = 0`. -/
noncomputable def bdf2 (tstep gamma : ℝ) : TimeParams :=
  let tdelta := (1 - gamma) * tstep
  ⟨.bdf2, tdelta, (2 - gamma) / tdelta, (-1) / (gamma * tdelta), (1 - gamma) / (gamma * tstep), 1, 0, 0⟩
/-- `TR`, `Newton.hh` 125-142. -/
noncomputable def tr (tstep gamma : ℝ) : TimeParams :=
  let tdelta := gamma * tstep
  let tf := 2 / tdelta
  ⟨.tr, tdelta, tf, -tf, 0, 1, 1, 0⟩

/-- The transient types of `solve` and their argument checks, `MathCommands.cc` 65-97 and 163-188; `none` is an error
(or the types `ac` and `noise`, which do not use these formulas). -/
noncomputable def timeParams (type : String) (tdelta gamma : ℝ) : Option TimeParams :=
  if type = "dc" then some dcOnly
  else if type = "transient_dc" then some transientDC
  else if type = "transient_bdf1" ∨ type = "transient_tr" ∨ type = "transient_bdf2" then
    if tdelta = 0 ∨ gamma = 0 then none
    else if type = "transient_bdf1" then some (bdf1 tdelta gamma)
    else if type = "transient_tr" then some (tr tdelta gamma)
    else some (bdf2 tdelta gamma)
  else none

/-! ### Specification -/

/-- The formula applied to a charge `Q` with derivative `I` at the new time `t` and the two older times: the time
derivative that a step of the method uses is `a0 Q(t) + a1 Q(t1) + a2 Q(t2)`, and it is set against
`b0 I(t) + b1 I(t1) + b2 I(t2)` (see `transient_rhs` for the equation that a step solves).  The difference is the
error of the formula. -/
def formulaError (p : TimeParams) (Q I : ℝ → ℝ) (t t1 t2 : ℝ) : ℝ :=
  (p.a0 * Q t + p.a1 * Q t1 + p.a2 * Q t2) - (p.b0 * I t + p.b1 * I t1 + p.b2 * I t2)

/-! ### Taylor bounds -/

theorem grow {f f' : ℝ → ℝ} {h C : ℝ} {k : Nat} (hf : ∀ s ∈ Set.Icc 0 h, HasDerivAt f (f' s) s) (h0 : f 0 = 0)
    (hb : ∀ s ∈ Set.Icc 0 h, |f' s| ≤ C * s ^ k) : ∀ s ∈ Set.Icc 0 h, |f s| ≤ C * s ^ (k + 1) / (k + 1) := by
  have hB : ∀ x : ℝ, HasDerivAt (fun s : ℝ => C * s ^ (k + 1) / ((k : ℝ) + 1)) (C * x ^ k) x := by
    intro x
    have h1 := ((hasDerivAt_pow (k + 1) x).const_mul C).div_const ((k : ℝ) + 1)
    refine h1.congr_deriv ?_
    have : (k : ℝ) + 1 ≠ 0 := by positivity
    push_cast
    field_simp
  have := image_norm_le_of_norm_deriv_right_le_deriv_boundary (f := f) (f' := f') (a := 0) (b := h)
    (B := fun s => C * s ^ (k + 1) / ((k : ℝ) + 1)) (B' := fun x => C * x ^ k)
    (fun x hx => (hf x hx).continuousAt.continuousWithinAt)
    (fun x hx => (hf x ⟨hx.1, hx.2.le⟩).hasDerivWithinAt)
    (by simp [h0]) hB
    (fun x hx => by rw [Real.norm_eq_abs]; exact hb x ⟨hx.1, hx.2.le⟩)
  intro s hs
  have h2 := this hs
  rwa [Real.norm_eq_abs] at h2

/-- Going back in time from `t`. -/
theorem back {Q Q' : ℝ → ℝ} (hQ : ∀ x, HasDerivAt Q (Q' x) x) (t s : ℝ) :
    HasDerivAt (fun s => Q (t - s)) (-Q' (t - s)) s := by
  have h1 : HasDerivAt (fun s : ℝ => t - s) (-1) s := by
    exact (hasDerivAt_id s).const_sub t
  have h2 := (hQ (t - s)).comp s h1
  exact h2.congr_deriv (by ring)

theorem taylor1 {Q I D : ℝ → ℝ} {t h M : ℝ} (hQ : ∀ x, HasDerivAt Q (I x) x) (hI : ∀ x, HasDerivAt I (D x) x)
    (hM : ∀ x ∈ Set.Icc (t - h) t, |D x| ≤ M) :
    ∀ s ∈ Set.Icc 0 h, |Q (t - s) - Q t + s * I t| ≤ M * s ^ 2 / 2 := by
  have h1 : ∀ s ∈ Set.Icc 0 h, |I t - I (t - s)| ≤ M * s ^ 1 := by
    have := grow (f := fun s => I t - I (t - s)) (f' := fun s => D (t - s)) (h := h) (C := M) (k := 0)
      (fun s _ => by simpa using (back hI t s).const_sub (I t)) (by simp)
      (fun s hs => by simpa using hM (t - s) ⟨by linarith [hs.2], by linarith [hs.1]⟩)
    intro s hs
    simpa using this s hs
  have h2 := grow (f := fun s => Q (t - s) - Q t + s * I t) (f' := fun s => I t - I (t - s)) (h := h) (C := M) (k := 1)
    (fun s _ => by
      have := ((back hQ t s).sub_const (Q t)).add ((hasDerivAt_id s).mul_const (I t))
      refine this.congr_deriv ?_
      ring) (by simp) h1
  intro s hs
  have := h2 s hs
  norm_num at this
  exact this

theorem taylor2 {Q I D T : ℝ → ℝ} {t h M : ℝ} (hQ : ∀ x, HasDerivAt Q (I x) x) (hI : ∀ x, HasDerivAt I (D x) x)
    (hD : ∀ x, HasDerivAt D (T x) x) (hM : ∀ x ∈ Set.Icc (t - h) t, |T x| ≤ M) :
    ∀ s ∈ Set.Icc 0 h, |Q (t - s) - Q t + s * I t - s ^ 2 / 2 * D t| ≤ M * s ^ 3 / 6 := by
  have h1 := taylor1 hI hD hM
  have h2 := grow (f := fun s => Q (t - s) - Q t + s * I t - s ^ 2 / 2 * D t)
    (f' := fun s => -(I (t - s) - I t + s * D t)) (h := h) (C := M / 2) (k := 2)
    (fun s _ => by
      have := (((back hQ t s).sub_const (Q t)).add ((hasDerivAt_id s).mul_const (I t))).sub
        ((((hasDerivAt_pow 2 s).div_const 2)).mul_const (D t))
      refine this.congr_deriv ?_
      norm_num
      ring) (by simp)
    (fun s hs => by
      rw [abs_neg]
      exact (h1 s hs).trans (le_of_eq (by ring)))
  intro s hs
  refine (h2 s hs).trans (le_of_eq ?_)
  norm_num
  ring

/-! ### Theorems -/

/-- **C31**, backward Euler: it is first order.  For a charge with a second derivative bounded by `M`, the error of the
formula is at most `M Δ / 2` where `Δ = gamma * tdelta` is the length of the step; in particular it is exact for charges
linear in time. -/
theorem bdf1_error (Q I D : ℝ → ℝ) (hQ : ∀ x, HasDerivAt Q (I x) x) (hI : ∀ x, HasDerivAt I (D x) x)
    (tdelta gamma t t2 M : ℝ) (hpos : 0 < gamma * tdelta)
    (hM : ∀ x ∈ Set.Icc (t - gamma * tdelta) t, |D x| ≤ M) :
    |formulaError (bdf1 tdelta gamma) Q I t (t - gamma * tdelta) t2| ≤ M * (gamma * tdelta) / 2 := by
  have h := taylor1 hQ hI hM (gamma * tdelta) ⟨hpos.le, le_refl _⟩
  obtain ⟨s, hs⟩ : ∃ s, s = gamma * tdelta := ⟨_, rfl⟩
  simp only [formulaError, bdf1, ← hs] at h ⊢
  rw [← hs] at hpos
  have : 1 / s * Q t + -(1 / s) * Q (t - s) + 0 * Q t2 - (1 * I t + 0 * I (t - s) + 0 * I t2) =
      -(1 / s) * (Q (t - s) - Q t + s * I t) := by
    field_simp
    ring
  rw [this, abs_mul, abs_neg, abs_of_pos (by positivity)]
  calc 1 / s * |Q (t - s) - Q t + s * I t| ≤ 1 / s * (M * s ^ 2 / 2) := by gcongr
    _ = M * s / 2 := by field_simp

/-- **C31**, trapezoidal rule: it is second order.  For a charge with third derivative bounded by `M` the error is at
most `M Δ² / 6`; in particular it is exact for charges quadratic in time. -/
theorem tr_error (Q I D T : ℝ → ℝ) (hQ : ∀ x, HasDerivAt Q (I x) x) (hI : ∀ x, HasDerivAt I (D x) x)
    (hD : ∀ x, HasDerivAt D (T x) x) (tdelta gamma t t2 M : ℝ) (hpos : 0 < gamma * tdelta)
    (hM : ∀ x ∈ Set.Icc (t - gamma * tdelta) t, |T x| ≤ M) :
    |formulaError (tr tdelta gamma) Q I t (t - gamma * tdelta) t2| ≤ M * (gamma * tdelta) ^ 2 / 6 := by
  obtain ⟨h, hs⟩ : ∃ s, s = gamma * tdelta := ⟨_, rfl⟩
  simp only [formulaError, tr, ← hs] at hM ⊢
  rw [← hs] at hpos
  have h1 : ∀ s ∈ Set.Icc 0 h, |I (t - s) - I t + s * D (t - s)| ≤ M * s ^ 2 / 2 := by
    have := grow (f := fun s => I (t - s) - I t + s * D (t - s)) (f' := fun s => -(s * T (t - s))) (h := h) (C := M)
      (k := 1)
      (fun s _ => by
        have := ((back hI t s).sub_const (I t)).add ((hasDerivAt_id s).mul (back hD t s))
        refine this.congr_deriv ?_
        simp) (by simp)
      (fun s hs => by
        rw [abs_neg, abs_mul, abs_of_nonneg hs.1, pow_one, mul_comm]
        exact mul_le_mul_of_nonneg_right (hM (t - s) ⟨by linarith [hs.2], by linarith [hs.1]⟩) hs.1)
    intro s hs
    refine (this s hs).trans (le_of_eq ?_)
    norm_num
  have h2 := grow (f := fun s => 2 * (Q t - Q (t - s)) - s * (I t + I (t - s)))
    (f' := fun s => I (t - s) - I t + s * D (t - s)) (h := h) (C := M / 2) (k := 2)
    (fun s _ => by
      have := (((back hQ t s).const_sub (Q t)).const_mul 2).sub
        ((hasDerivAt_id s).mul ((back hI t s).const_add (I t)))
      refine this.congr_deriv ?_
      simp only [id_eq]
      ring) (by simp)
    (fun s hs => (h1 s hs).trans (le_of_eq (by ring))) h ⟨hpos.le, le_refl _⟩
  have : 2 / h * Q t + -(2 / h) * Q (t - h) + 0 * Q t2 - (1 * I t + 1 * I (t - h) + 0 * I t2) =
      1 / h * (2 * (Q t - Q (t - h)) - h * (I t + I (t - h))) := by
    field_simp
    ring
  rw [this, abs_mul, abs_of_pos (by positivity)]
  calc 1 / h * |2 * (Q t - Q (t - h)) - h * (I t + I (t - h))| ≤ 1 / h * (M / 2 * h ^ (2 + 1) / ((2 : ℕ) + 1)) := by
        gcongr
    _ = M * h ^ 2 / 6 := by field_simp; norm_num; ring

/-- **C31**, BDF2: it is second order on the time points `t - tdelta`, `t - (1 - gamma) tdelta`, `t`, for every
`0 < gamma < 1`: with third derivative bounded by `M` the error is at most
`M (1 - gamma) (2 - gamma) tdelta² / (6 gamma)`; in particular it is exact for charges quadratic in time. -/
theorem bdf2_error (Q I D T : ℝ → ℝ) (hQ : ∀ x, HasDerivAt Q (I x) x) (hI : ∀ x, HasDerivAt I (D x) x)
    (hD : ∀ x, HasDerivAt D (T x) x) (tdelta gamma t M : ℝ) (hpos : 0 < tdelta) (hg0 : 0 < gamma) (hg1 : gamma < 1)
    (hM : ∀ x ∈ Set.Icc (t - tdelta) t, |T x| ≤ M) :
    |formulaError (bdf2 tdelta gamma) Q I t (t - (1 - gamma) * tdelta) (t - tdelta)| ≤
      M * (1 - gamma) * (2 - gamma) * tdelta ^ 2 / (6 * gamma) := by
  obtain ⟨g, hg⟩ : ∃ g, g = 1 - gamma := ⟨_, rfl⟩
  have hgp : 0 < g := by linarith
  have hgamma : gamma = 1 - g := by linarith
  subst hgamma
  have e1 : 1 - (1 - g) = g := by ring
  have e2 : 2 - (1 - g) = 1 + g := by ring
  have r1 := taylor2 hQ hI hD hM (g * tdelta) ⟨by positivity, by nlinarith⟩
  have r2 := taylor2 hQ hI hD hM tdelta ⟨by positivity, le_refl _⟩
  simp only [formulaError, bdf2, e1, e2]
  obtain ⟨R1, hR1⟩ : ∃ R, R = Q (t - g * tdelta) - Q t + g * tdelta * I t - (g * tdelta) ^ 2 / 2 * D t := ⟨_, rfl⟩
  obtain ⟨R2, hR2⟩ : ∃ R, R = Q (t - tdelta) - Q t + tdelta * I t - tdelta ^ 2 / 2 * D t := ⟨_, rfl⟩
  rw [← hR1] at r1
  rw [← hR2] at r2
  have q1 : Q (t - g * tdelta) = R1 + Q t - g * tdelta * I t + (g * tdelta) ^ 2 / 2 * D t := by rw [hR1]; ring
  have q2 : Q (t - tdelta) = R2 + Q t - tdelta * I t + tdelta ^ 2 / 2 * D t := by rw [hR2]; ring
  rw [q1, q2]
  have hne : (1 : ℝ) - g ≠ 0 := hg0.ne'
  have : (1 + g) / (g * tdelta) * Q t +
          -1 / ((1 - g) * (g * tdelta)) * (R1 + Q t - g * tdelta * I t + (g * tdelta) ^ 2 / 2 * D t) +
        g / ((1 - g) * tdelta) * (R2 + Q t - tdelta * I t + tdelta ^ 2 / 2 * D t) -
      (1 * I t + 0 * I (t - g * tdelta) + 0 * I (t - tdelta)) =
      -(1 / ((1 - g) * (g * tdelta)) * R1) + g / ((1 - g) * tdelta) * R2 := by
    field_simp
    ring
  rw [this]
  refine (abs_add_le _ _).trans ?_
  rw [abs_neg, abs_mul, abs_mul, abs_of_pos (by positivity), abs_of_pos (a := g / ((1 - g) * tdelta)) (by positivity)]
  calc 1 / ((1 - g) * (g * tdelta)) * |R1| + g / ((1 - g) * tdelta) * |R2|
      ≤ 1 / ((1 - g) * (g * tdelta)) * (M * (g * tdelta) ^ 3 / 6) + g / ((1 - g) * tdelta) * (M * tdelta ^ 3 / 6) := by
        gcongr
    _ = M * g * (1 + g) * tdelta ^ 2 / (6 * (1 - g)) := by
        field_simp
        ring

/-- **C31**, exactness, also for negative steps and every `gamma` the formula is defined for. -/
theorem formulas_exact (c0 c1 c2 tdelta gamma t : ℝ) (hd : tdelta ≠ 0) (hg : gamma ≠ 0) :
    (∀ t2, formulaError (bdf1 tdelta gamma) (fun s => c0 + c1 * s) (fun _ => c1) t (t - gamma * tdelta) t2 = 0) ∧
    (∀ t2, formulaError (tr tdelta gamma) (fun s => c0 + c1 * s + c2 * s ^ 2) (fun s => c1 + 2 * c2 * s) t
      (t - gamma * tdelta) t2 = 0) ∧
    (gamma ≠ 1 → formulaError (bdf2 tdelta gamma) (fun s => c0 + c1 * s + c2 * s ^ 2) (fun s => c1 + 2 * c2 * s) t
      (t - (1 - gamma) * tdelta) (t - tdelta) = 0) := by
  refine ⟨fun t2 => ?_, fun t2 => ?_, fun h1 => ?_⟩
  · simp only [formulaError, bdf1]; field_simp; ring
  · simp only [formulaError, tr]; field_simp; ring
  · have : (1 : ℝ) - gamma ≠ 0 := fun h => h1 (by linarith)
    simp only [formulaError, bdf2]; field_simp; ring

/-- The coefficients of every accepted type of `solve` other than BDF2 with `gamma = 1` sum to zero (a constant charge
carries no current). -/
theorem constant_charge {type : String} {tdelta gamma : ℝ} {p : TimeParams} (h : timeParams type tdelta gamma = some p)
    (hg : type = "transient_bdf2" → gamma ≠ 1) : p.a0 + p.a1 + p.a2 = 0 := by
  unfold timeParams at h
  split at h
  · cases h; simp [dcOnly]
  split at h
  · cases h; simp [transientDC]
  split at h
  · rename_i hty
    split at h
    · simp at h
    · rename_i hz
      rw [not_or] at hz
      obtain ⟨hd, hg0⟩ := hz
      split at h
      · cases h; simp [bdf1]
      split at h
      · cases h; simp [tr]
      · cases h
        rename_i n1 n2
        have hb : type = "transient_bdf2" := by tauto
        have : (1 : ℝ) - gamma ≠ 0 := fun h => hg hb (by linarith)
        simp only [bdf2]; field_simp; ring
  · simp at h

/-- **BDF2 with `gamma = 1`**, the default of the option `gamma` of `solve`, is accepted, although the formula then has a
zero length `tdelta`, by which the code divides. -/
theorem bdf2_default_gamma_degenerate (tdelta : ℝ) (hd : tdelta ≠ 0) :
    ∃ p, timeParams "transient_bdf2" tdelta 1 = some p ∧ p.tdelta = 0 := by
  refine ⟨bdf2 tdelta 1, ?_, by simp [bdf2]⟩
  have e1 : ("transient_bdf2" = "dc") = False := by simp
  have e2 : ("transient_bdf2" = "transient_dc") = False := by simp
  have e3 : ("transient_bdf2" = "transient_bdf1") = False := by simp
  have e4 : ("transient_bdf2" = "transient_tr") = False := by simp
  simp [timeParams, hd]

/-- Not vacuous: a cubic charge. -/
example : |formulaError (bdf2 1 (1/2)) (fun s => s ^ 3) (fun s => 3 * s ^ 2) 1 (1 - (1 - 1/2) * 1) (1 - 1)| ≤
    6 * (1 - 1/2) * (2 - 1/2) * 1 ^ 2 / (6 * (1/2)) := by
  refine bdf2_error (fun s => s ^ 3) (fun s => 3 * s ^ 2) (fun s => 6 * s) (fun _ => 6) ?_ ?_ ?_ 1 (1/2) 1 6
    (by norm_num) (by norm_num) (by norm_num) (fun x _ => by norm_num)
  · intro x; simpa using hasDerivAt_pow 3 x
  · intro x
    have := (hasDerivAt_pow 2 x).const_mul 3
    refine this.congr_deriv ?_
    norm_num; ring
  · intro x; simpa using (hasDerivAt_id x).const_mul 6

end Verif.Newton
