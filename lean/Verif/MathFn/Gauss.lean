import Mathlib.MeasureTheory.Integral.IntervalIntegral.FundThmCalculus
import Mathlib.Analysis.SpecialFunctions.ExpDeriv
import Mathlib.Analysis.SpecialFunctions.Sqrt
import Mathlib.Analysis.SpecialFunctions.Trigonometric.Basic
import Mathlib.Analysis.Calculus.Deriv.MeanValue
import Mathlib.Analysis.Calculus.Deriv.Inverse

/-!
# `gfi`, `dgfidx`, `igfi`, `digfidx`: `/repo/src/MathEval/GaussFermi.cc`

and the derivatives of the error functions of `/repo/src/MathEval/MiscMathFunc.cc`.

Simplification: exact real arithmetic.  The error function of the library is the integral below,
its inverses are inverses (hypothesis `Inverses`).
-/

namespace Verif.MathFn

open Real

/-- The error function (specification of `boost::math::erf`). -/
noncomputable def erf (x : ℝ) : ℝ := 2 / √π * ∫ t in (0 : ℝ)..x, exp (-t * t)

/-- The complementary error function (specification of `boost::math::erfc`). -/
noncomputable def erfc (x : ℝ) : ℝ := 1 - erf x

/-- derfdx, MiscMathFunc.cc:17-30 -/
noncomputable def derfdx (x : ℝ) : ℝ := 2 * (1 / √π) * exp (-x * x)

/-- derfcdx, MiscMathFunc.cc:32-45 -/
noncomputable def derfcdx (x : ℝ) : ℝ := -2 * (1 / √π) * exp (-x * x)

/-- The functions of the library for the inverses. -/
structure InvErf where
  erfInv : ℝ → ℝ
  erfcInv : ℝ → ℝ

/-- They are inverses: what the library promises. -/
structure InvErf.Correct (L : InvErf) : Prop where
  erf : ∀ y, -1 < y → y < 1 → erf (L.erfInv y) = y
  erfc : ∀ y, 0 < y → y < 2 → erfc (L.erfcInv y) = y

/-- derf_invdx, MiscMathFunc.cc:47-52 -/
noncomputable def InvErf.derfInvdx (L : InvErf) (x : ℝ) : ℝ := 1 / derfdx (L.erfInv x)

/-- derfc_invdx, MiscMathFunc.cc:54-59 -/
noncomputable def InvErf.derfcInvdx (L : InvErf) (x : ℝ) : ℝ := 1 / derfcdx (L.erfcInv x)

/-- calcH_Impl, GaussFermi.cc:60-71 -/
noncomputable def InvErf.calcHImpl (L : InvErf) (s S : ℝ) : ℝ :=
  √2 / s * L.erfcInv (exp (-0.5 * S))

/-- The pair kept per thread by calcH, GaussFermi.cc:76. -/
abbrev HCache := Option (ℝ × ℝ)

open Classical in
/-- calcH, GaussFermi.cc:73-91: the value for the last `s` of the thread is kept. -/
noncomputable def InvErf.calcH (L : InvErf) (p : HCache) (s S : ℝ) : ℝ × HCache :=
  let p0 : ℝ × ℝ := p.getD (s, L.calcHImpl s S)
  let p1 : ℝ × ℝ := if p0.1 ≠ s then (s, L.calcHImpl s S) else p0
  (p1.2, some p1)

/-- calcK, GaussFermi.cc:93-100 (`sqrt2_pi` is line 55). -/
noncomputable def calcK (s S H : ℝ) : ℝ :=
  2 * (1 - H / s * (√2 * (1 / √π)) * exp (0.5 * S * (1 - H * H)))

/-- gfi after the call of calcH, GaussFermi.cc:112-123. -/
noncomputable def gfiH (H zeta s : ℝ) : ℝ :=
  let S := s * s
  if zeta < -S then
    let K := calcK s S H
    exp (0.5 * S + zeta) / (exp (K * (zeta + S)) + 1)
  else 0.5 * erfc (-zeta / (s * √2) * H)

/-- dgfidx after the call of calcH, GaussFermi.cc:133-146. -/
noncomputable def dgfidxH (H zeta s : ℝ) : ℝ :=
  let S := s * s
  if zeta < -S then
    let K := calcK s S H
    let denInv := 1 / (exp (K * (S + zeta)) + 1)
    exp (0.5 * S + zeta) * denInv * (1 - K * exp (K * (S + zeta)) * denInv)
  else 1 / √(2 * π) * H / s * exp (-0.5 * (H * zeta) ^ 2 / S)

/-- gfi, GaussFermi.cc:104-124, on a thread with the given kept pair. -/
noncomputable def InvErf.gfi (L : InvErf) (p : HCache) (zeta s : ℝ) : ℝ × HCache :=
  let r := L.calcH p s (s * s)
  (gfiH r.1 zeta s, r.2)

/-- dgfidx, GaussFermi.cc:126-147. -/
noncomputable def InvErf.dgfidx (L : InvErf) (p : HCache) (zeta s : ℝ) : ℝ × HCache :=
  let r := L.calcH p s (s * s)
  (dgfidxH r.1 zeta s, r.2)

/-! ### The error functions -/

theorem erf_hasDerivAt (x : ℝ) : HasDerivAt erf (derfdx x) x := by
  have hc : Continuous fun t : ℝ => exp (-t * t) := by fun_prop
  have h := (intervalIntegral.integral_hasDerivAt_right (hc.intervalIntegrable 0 x)
    hc.aestronglyMeasurable.stronglyMeasurableAtFilter hc.continuousAt).const_mul (2 / √π)
  refine h.congr_deriv ?_
  unfold derfdx
  ring

theorem erfc_hasDerivAt (x : ℝ) : HasDerivAt erfc (derfcdx x) x := by
  refine ((erf_hasDerivAt x).const_sub 1).congr_deriv ?_
  unfold derfdx derfcdx
  ring

theorem derfdx_pos (x : ℝ) : 0 < derfdx x := by
  unfold derfdx
  have : 0 < √π := Real.sqrt_pos.2 Real.pi_pos
  positivity

theorem derfcdx_neg (x : ℝ) : derfcdx x < 0 := by
  have := derfdx_pos x
  have e : derfcdx x = -derfdx x := by unfold derfdx derfcdx; ring
  linarith

theorem erf_strictMono : StrictMono erf :=
  strictMono_of_deriv_pos fun x => by rw [(erf_hasDerivAt x).deriv]; exact derfdx_pos x

theorem erfc_strictAnti : StrictAnti erfc :=
  strictAnti_of_deriv_neg fun x => by rw [(erfc_hasDerivAt x).deriv]; exact derfcdx_neg x

theorem erf_zero : erf 0 = 0 := by simp [erf]
theorem erfc_zero : erfc 0 = 1 := by simp [erfc, erf_zero]

section
variable {L : InvErf} (hL : L.Correct)
include hL

/-- The inverse of the library is continuous inside its domain: it inverts a strictly monotone
continuous function. -/
theorem erfInv_continuousAt {y : ℝ} (h1 : -1 < y) (h2 : y < 1) : ContinuousAt L.erfInv y := by
  have hopen : Set.Ioo (-1 : ℝ) 1 ∈ nhds y := Ioo_mem_nhds h1 h2
  have hmono : StrictMonoOn L.erfInv (Set.Ioo (-1 : ℝ) 1) := by
    intro a ha b hb hab
    rw [← erf_strictMono.lt_iff_lt, hL.erf a ha.1 ha.2, hL.erf b hb.1 hb.2]
    exact hab
  refine hmono.continuousAt_of_image_mem_nhds hopen ?_
  have : L.erfInv '' Set.Ioo (-1 : ℝ) 1 = erf ⁻¹' Set.Ioo (-1 : ℝ) 1 := by
    ext x
    constructor
    · rintro ⟨a, ha, rfl⟩
      show erf (L.erfInv a) ∈ Set.Ioo (-1 : ℝ) 1
      rw [hL.erf a ha.1 ha.2]; exact ha
    · intro hx
      exact ⟨erf x, hx, erf_strictMono.injective (hL.erf _ hx.1 hx.2)⟩
  rw [this]
  apply (erf_hasDerivAt _).continuousAt.preimage_mem_nhds
  rw [hL.erf y h1 h2]
  exact hopen

theorem erfcInv_continuousAt {y : ℝ} (h1 : 0 < y) (h2 : y < 2) : ContinuousAt L.erfcInv y := by
  have hopen : Set.Ioo (0 : ℝ) 2 ∈ nhds y := Ioo_mem_nhds h1 h2
  have hanti : StrictAntiOn L.erfcInv (Set.Ioo (0 : ℝ) 2) := by
    intro a ha b hb hab
    rw [← erfc_strictAnti.lt_iff_gt, hL.erfc a ha.1 ha.2, hL.erfc b hb.1 hb.2]
    exact hab
  have himg : (fun x => -L.erfcInv x) '' Set.Ioo (0 : ℝ) 2
      = (fun x => erfc (-x)) ⁻¹' Set.Ioo (0 : ℝ) 2 := by
    ext x
    constructor
    · rintro ⟨a, ha, rfl⟩
      show erfc (- -L.erfcInv a) ∈ Set.Ioo (0 : ℝ) 2
      rw [neg_neg, hL.erfc a ha.1 ha.2]; exact ha
    · intro hx
      refine ⟨erfc (-x), hx, ?_⟩
      have := erfc_strictAnti.injective (hL.erfc _ hx.1 hx.2)
      show -L.erfcInv (erfc (-x)) = x
      rw [this, neg_neg]
  have hc : ContinuousAt (fun x => -L.erfcInv x) y := by
    refine StrictMonoOn.continuousAt_of_image_mem_nhds (s := Set.Ioo (0 : ℝ) 2) ?_ hopen ?_
    · intro a ha b hb hab
      exact neg_lt_neg (hanti ha hb hab)
    · rw [himg]
      have hcont : Continuous fun x => erfc (-x) := by
        have : Continuous erfc :=
          continuous_iff_continuousAt.2 fun x => (erfc_hasDerivAt x).continuousAt
        fun_prop
      apply hcont.continuousAt.preimage_mem_nhds
      show Set.Ioo (0 : ℝ) 2 ∈ nhds (erfc (- -L.erfcInv y))
      rw [neg_neg, hL.erfc y h1 h2]
      exact hopen
  have h := hc.neg
  have e : (-fun x => -L.erfcInv x) = L.erfcInv := by funext x; simp
  rwa [e] at h

/-- **C57.** `derf_invdx` is the derivative of `erf_inv` inside its domain. -/
theorem erfInv_hasDerivAt {y : ℝ} (h1 : -1 < y) (h2 : y < 1) :
    HasDerivAt L.erfInv (L.derfInvdx y) y := by
  rw [InvErf.derfInvdx, one_div]
  refine HasDerivAt.of_local_left_inverse (erfInv_continuousAt hL h1 h2) (erf_hasDerivAt _)
    (derfdx_pos _).ne' ?_
  filter_upwards [Ioo_mem_nhds h1 h2] with z hz
  exact hL.erf z hz.1 hz.2

/-- **C57.** `derfc_invdx` is the derivative of `erfc_inv` inside its domain. -/
theorem erfcInv_hasDerivAt {y : ℝ} (h1 : 0 < y) (h2 : y < 2) :
    HasDerivAt L.erfcInv (L.derfcInvdx y) y := by
  rw [InvErf.derfcInvdx, one_div]
  refine HasDerivAt.of_local_left_inverse (erfcInv_continuousAt hL h1 h2) (erfc_hasDerivAt _)
    (derfcdx_neg _).ne ?_
  filter_upwards [Ioo_mem_nhds h1 h2] with z hz
  exact hL.erfc z hz.1 hz.2

/-! ### The Gauss-Fermi integral -/

theorem calcHImpl_eq {s : ℝ} (hs : s ≠ 0) :
    erfc (s * L.calcHImpl s (s * s) / √2) = exp (-0.5 * (s * s)) ∧
      0 < L.calcHImpl s (s * s) / s := by
  have h2 : (0 : ℝ) < √2 := by positivity
  have hss : 0 < s * s := mul_self_pos.2 hs
  have hlt : exp (-0.5 * (s * s)) < 1 := by
    rw [Real.exp_lt_one_iff]; nlinarith
  have hval := hL.erfc (exp (-0.5 * (s * s))) (exp_pos _) (by linarith)
  have hpos : 0 < L.erfcInv (exp (-0.5 * (s * s))) := by
    rw [← erfc_strictAnti.lt_iff_gt, erfc_zero, hval]
    exact hlt
  constructor
  · have : s * L.calcHImpl s (s * s) / √2 = L.erfcInv (exp (-0.5 * (s * s))) := by
      unfold InvErf.calcHImpl; field_simp
    rw [this, hval]
  · have : L.calcHImpl s (s * s) / s = √2 * L.erfcInv (exp (-0.5 * (s * s))) / (s * s) := by
      unfold InvErf.calcHImpl; field_simp
    rw [this]
    positivity

end

/-- The kept pairs that occur: the value belongs to its `s`. -/
def InvErf.Kept (L : InvErf) (p : HCache) : Prop :=
  ∀ s h, p = some (s, h) → h = L.calcHImpl s (s * s)

theorem calcH_kept {L : InvErf} {p : HCache} (hp : L.Kept p) (s : ℝ) :
    (L.calcH p s (s * s)).1 = L.calcHImpl s (s * s) ∧ L.Kept (L.calcH p s (s * s)).2 := by
  unfold InvErf.calcH
  cases p with
  | none =>
    simp only [Option.getD_none, ne_eq, not_true_eq_false, if_false]
    refine ⟨trivial, ?_⟩
    intro s' h' e
    simp only [Option.some.injEq, Prod.mk.injEq] at e
    rw [← e.1, ← e.2]
  | some q =>
    obtain ⟨s0, h0⟩ := q
    simp only [Option.getD_some]
    by_cases hs : s0 = s
    · subst hs
      simp only [ne_eq, not_true_eq_false, if_false]
      exact ⟨hp s0 h0 rfl, hp⟩
    · rw [if_pos hs]
      refine ⟨rfl, ?_⟩
      intro s' h' e
      simp only [Option.some.injEq, Prod.mk.injEq] at e
      rw [← e.1, ← e.2]

/-- One call of `gfi` or `dgfidx` on a thread. -/
inductive GCall
  | gfi (zeta s : ℝ)
  | dgfidx (zeta s : ℝ)

/-- The result of a call and the pair kept after it. -/
noncomputable def InvErf.call (L : InvErf) (p : HCache) : GCall → ℝ × HCache
  | .gfi z s => L.gfi p z s
  | .dgfidx z s => L.dgfidx p z s

/-- The results of a history of calls on one thread. -/
noncomputable def InvErf.run (L : InvErf) : HCache → List GCall → List ℝ
  | _, [] => []
  | p, c :: cs => (L.call p c).1 :: L.run (L.call p c).2 cs

/-- What a call means by itself. -/
noncomputable def InvErf.value (L : InvErf) : GCall → ℝ
  | .gfi z s => gfiH (L.calcHImpl s (s * s)) z s
  | .dgfidx z s => dgfidxH (L.calcHImpl s (s * s)) z s

/-- **C57.** The kept value is not observable: in every history of calls on a thread, each call
returns what it returns by itself. -/
theorem gauss_cache_transparent (L : InvErf) (cs : List GCall) :
    L.run none cs = cs.map L.value := by
  suffices h : ∀ p, L.Kept p → L.run p cs = cs.map L.value from
    h none (by intro s h e; simp at e)
  induction cs with
  | nil => intro p _; rfl
  | cons c cs ih =>
    intro p hp
    have : (L.call p c).1 = L.value c ∧ L.Kept (L.call p c).2 := by
      cases c with
      | gfi z s =>
        obtain ⟨h1, h2⟩ := calcH_kept hp s
        exact ⟨by simp only [InvErf.call, InvErf.gfi, InvErf.value, h1], h2⟩
      | dgfidx z s =>
        obtain ⟨h1, h2⟩ := calcH_kept hp s
        exact ⟨by simp only [InvErf.call, InvErf.dgfidx, InvErf.value, h1], h2⟩
    simp only [InvErf.run, List.map_cons, this.1, ih _ this.2]

end Verif.MathFn
