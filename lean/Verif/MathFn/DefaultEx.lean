import Verif.MathFn.DefaultThm
import Verif.MathFn.GaussInv
import Verif.Sym.Examples
import Mathlib.Analysis.Calculus.MeanValue

/-!
# The derivative table: use, examples, and the entries that are not the derivatives
-/

namespace Verif.MathFn
open Verif.Sym Real

variable {K : Type}

/-- **C59**, in the form used with `deriv_correct` (C01): a call of one of the functions is
differentiated correctly wherever its arguments are and the function is smooth. -/
theorem regular_default {C : Cfg K} (hC : C.Exact) (hF : C.DigitFirst) {read : Str → K}
    (hR : Reads C read) {L : InvErf} (hL : L.Correct) {γ : ℝ → Env} {t : ℝ} (hU : Std L (γ t).u)
    {f : String} {fx : List Bool} {as : List (Expr K)}
    (hs : Smooth f (as.map (eval C (γ t))) fx) (hfr : ∀ a ∈ as, NoReserved C a)
    (ha : ∀ a ∈ as, Regular C (defTab C read) γ t a)
    (hfix : ∀ i : Fin as.length, fx.getD i false = true →
      ∀ᶠ τ in nhds t, eval C (γ τ) as[i] = eval C (γ t) as[i]) :
    Regular C (defTab C read) γ t (.user f.toList as) :=
  .user _ ha hfix (default_derivatives hC hF hR hL hU hs as rfl hfr)

/-! ### The functions exist -/

open Classical in
/-- The functions, found by their names. -/
noncomputable def stdU (L : InvErf) (f : Str) (vs : List ℝ) : ℝ :=
  let x := vs.getD 0 0
  let y := vs.getD 1 0
  if f = "B".toList then bern x
  else if f = "dBdx".toList then dbern x
  else if f = "abs".toList then |x|
  else if f = "sgn".toList then sgnF x
  else if f = "step".toList then stepF x
  else if f = "erf".toList then erf x
  else if f = "erfc".toList then erfc x
  else if f = "derfdx".toList then derfdx x
  else if f = "derfcdx".toList then derfcdx x
  else if f = "erf_inv".toList then L.erfInv x
  else if f = "erfc_inv".toList then L.erfcInv x
  else if f = "derf_invdx".toList then L.derfInvdx x
  else if f = "derfc_invdx".toList then L.derfcInvdx x
  else if f = "InvFermi".toList then invFermi x
  else if f = "dInvFermidx".toList then dInvFermidx x
  else if f = "dot2d".toList then x * vs.getD 2 0 + y * vs.getD 3 0
  else if f = "max".toList then maxF x y
  else if f = "min".toList then minF x y
  else if f = "kahan3".toList then x + y + vs.getD 2 0
  else if f = "kahan4".toList then x + y + vs.getD 2 0 + vs.getD 3 0
  else if f = "asinh".toList then arsinh x
  else if f = "acosh".toList then arcosh x
  else if f = "atanh".toList then artanh x
  else if f = "sinh".toList then Real.sinh x
  else if f = "cosh".toList then Real.cosh x
  else if f = "tanh".toList then Real.tanh x
  else if f = "gfi".toList then gfiH (L.hOf y) x y
  else if f = "dgfidx".toList then dgfidxH (L.hOf y) x y
  else 0

theorem stdU_std (L : InvErf) : Std L (stdU L) := by
  constructor <;> intros <;> simp [stdU]

/-! ### An example -/

namespace Ex

/-- `x` moves, every other name is 3. -/
noncomputable def γ (L : InvErf) (τ : ℝ) : Env where
  v s := if s = ['x'] then τ else 3
  m s := if s = ['x'] then τ else 3
  u := stdU L

/-- No models. -/
noncomputable def md : Str → Str → Expr ℝ := fun _ _ => .con 0

theorem curve (L : InvErf) (t : ℝ) : Curve Examples.C md ['x'] (γ L) t := by
  have h0 : eval Examples.C (γ L t) (.con 0) = 0 := by simp [Examples.C, realCfg]
  refine ⟨fun y => ?_, fun m => ?_, fun τ => rfl⟩
  · by_cases h : ['x'] = y
    · subst h; simp only [γ, if_true]; exact hasDerivAt_id t
    · simpa [γ, h, Ne.symm h] using hasDerivAt_const t (3 : ℝ)
  · by_cases h : ['x'] = m
    · subst h; simp only [γ, if_true]; exact hasDerivAt_id t
    · rw [if_neg h, md, h0]
      simpa [γ, Ne.symm h] using hasDerivAt_const t (3 : ℝ)

theorem reads : Reads Examples.C (readReal fun _ => 0) := by
  constructor <;> simp [Examples.C, realCfg, readReal, Nat.ofDigitChars]

/-- `max(cosh(x), gfi(x*x, y))`. -/
noncomputable def e : Expr ℝ :=
  .user "max".toList [.user "cosh".toList [.var ['x']],
    .user "gfi".toList [.prod [.var ['x'], .var ['x']], .var ['y']]]

/-- The derivative the program finds for `max(cosh(x), gfi(x*x, y))` is the derivative, everywhere. -/
theorem e_deriv {L : InvErf} (hL : L.Correct) (t : ℝ) :
    HasDerivAt (fun τ => eval Examples.C (γ L τ) e)
      (eval Examples.C (γ L t) (deriv Examples.C (defTab Examples.C (readReal fun _ => 0)) md
        ['x'] e)) t := by
  have hU : Std L (γ L t).u := stdU_std L
  have hfr : ∀ e' : Expr ℝ, e' ∈ [Expr.var ['x'], .var ['y'], .prod [.var ['x'], .var ['x']],
      .user "cosh".toList [.var ['x']],
      .user "gfi".toList [.prod [.var ['x'], .var ['x']], .var ['y']]] →
      NoReserved Examples.C e' := by
    intro e' he x
    simp only [List.mem_cons, List.not_mem_nil, or_false] at he
    rcases he with rfl | rfl | rfl | rfl | rfl <;>
      simp [varRefs, modelRefs, refs, refsL, ifType, unite, Expr.ty, str_var]
  refine deriv_correct Examples.exact Examples.digitFirst _ md ['x'] (γ L) t (curve L t) e ?_
  refine regular_default Examples.exact Examples.digitFirst reads hL hU (fx := [false, false])
    ?_ ?_ ?_ ?_
  · refine Smooth.max _ _ (ne_of_gt ?_)
    rw [eval_user, eval_user]
    simp only [List.map_cons, List.map_nil]
    rw [hU.gfi, hU.cosh]
    have h1 := (gfi_range hL (s := eval Examples.C (γ L t) (.var ['y'])) (by simp [γ])
      (eval Examples.C (γ L t) (.prod [.var ['x'], .var ['x']]))).2
    exact h1.trans_le (Real.one_le_cosh _)
  · intro a ha
    simp only [List.mem_cons, List.not_mem_nil, or_false] at ha
    rcases ha with rfl | rfl <;> exact hfr _ (by simp)
  · intro a ha
    simp only [List.mem_cons, List.not_mem_nil, or_false] at ha
    rcases ha with rfl | rfl
    · refine regular_default Examples.exact Examples.digitFirst reads hL hU (fx := [false])
        (Smooth.cosh _) ?_ ?_ ?_
      · intro a ha; exact hfr _ (by simp_all)
      · intro a ha
        rw [List.mem_singleton.1 ha]; exact .var _
      · intro i hi; fin_cases i; simp at hi
    · refine regular_default Examples.exact Examples.digitFirst reads hL hU (fx := [false, true])
        (Smooth.gfi _ _ (by simp [γ])) ?_ ?_ ?_
      · intro a ha
        simp only [List.mem_cons, List.not_mem_nil, or_false] at ha
        rcases ha with rfl | rfl <;> exact hfr _ (by simp)
      · intro a ha
        simp only [List.mem_cons, List.not_mem_nil, or_false] at ha
        rcases ha with rfl | rfl
        · refine .prod ?_ (by simp)
          intro a ha
          simp only [List.mem_cons, List.not_mem_nil, or_false, or_self] at ha
          rw [ha]; exact .var _
        · exact .var _
      · intro i hi
        fin_cases i
        · simp at hi
        · refine Filter.Eventually.of_forall fun τ => ?_
          simp [γ]
  · intro i hi
    fin_cases i <;> simp at hi

end Ex

/-! ### Entries that are not the derivatives -/

theorem exp_neg_nine : exp (-8.5) < exp (-4.5) / 2 := by
  have h : exp (-4.5) = exp (-8.5) * exp 4 := by rw [← exp_add]; norm_num
  have h4 : (2 : ℝ) < exp 4 := by
    have := add_one_le_exp (4 : ℝ)
    linarith
  have := exp_pos (-8.5)
  rw [h]
  nlinarith

/-- **C59**, the counterexample for `gfi`: the table says the derivative by the second argument is
zero, but there are arguments where it is not. -/
theorem gfi_second_wrong {L : InvErf} (hL : L.Correct) {C : Cfg K} (hC : C.Exact) (hF : C.DigitFirst)
    {read : Str → K} (hR : Reads C read) :
    (∀ ρ z s, partialAt C ρ [['@', 'x'], ['@', 'y']] [z, s]
      (((defTab C read "gfi".toList).map (·.2)).getD 1 none) = 0) ∧
    ∃ s : ℝ, 0 < s ∧ ¬ HasDerivAt (fun s => gfiH (L.hOf s) (-9) s) 0 s := by
  constructor
  · intro ρ z s
    have h : ((defTab C read "gfi".toList).map (·.2)).getD 1 none
        = (parse C defTables read "0".toList).map (rename C [['x'], ['y']]) := rfl
    rw [h]
    refine (partial_eq hC hF (t := "0") (r := .num ['0']) (by decide +kernel) (by decide)
      [['x'], ['y']] [z, s] ρ (by decide) rfl (by decide)).trans ?_
    simp [rv, hR.zero]
  · by_contra hcon
    push_neg at hcon
    have hc : ∀ x ∈ Set.Icc (1 : ℝ) 3, gfiH (L.hOf x) (-9) x = gfiH (L.hOf 1) (-9) 1 := by
      refine constant_of_derivWithin_zero ?_ ?_
      · intro x hx
        exact (hcon x (by linarith [hx.1])).differentiableAt.differentiableWithinAt
      · intro x hx
        exact ((hcon x (by linarith [hx.1])).hasDerivWithinAt).derivWithin
          (uniqueDiffOn_Icc (by norm_num) x ⟨hx.1, hx.2.le⟩)
    have h3 := hc 3 ⟨by norm_num, le_refl _⟩
    have hb := gfi_at_break hL (s := 3) (by norm_num)
    norm_num at hb
    rw [hb] at h3
    have h1 : gfiH (L.hOf 1) (-9) 1 ≤ exp (-8.5) := by
      unfold gfiH
      dsimp only
      rw [if_pos (by norm_num)]
      rw [div_le_iff₀ (by positivity)]
      have e1 : exp (0.5 * (1 * 1) + -9) = exp (-8.5) := by norm_num
      rw [e1]
      have := exp_pos (-8.5)
      have hk := exp_pos (calcK 1 (1 * 1) (L.hOf 1) * (-9 + 1 * 1))
      exact le_mul_of_one_le_right this.le (by linarith)
    have := exp_neg_nine
    norm_num at this h1
    linarith

/-- **C59**, the counterexample for the functions that are only declared: the derivative of a call of
`derfdx` is taken as zero, the true derivative at `x` is `-2 x derfdx(x)`. The same holds of `dBdx` and
the other derivatives. -/
theorem declared_wrong {C : Cfg K} {read : Str → K} :
    (defTab C read "derfdx".toList = [([], none)] ∧ defTab C read "dBdx".toList = [([], none)]) ∧
    (∀ x : ℝ, HasDerivAt derfdx (-2 * x * derfdx x) x) ∧
    ¬ HasDerivAt derfdx 0 1 ∧ ∃ x, ¬ HasDerivAt dbern 0 x := by
  have hd : ∀ x : ℝ, HasDerivAt derfdx (-2 * x * derfdx x) x := by
    intro x
    have h1 : HasDerivAt (fun x : ℝ => -x * x) (-1 * x + -x * 1) x :=
      (hasDerivAt_id x).neg.mul (hasDerivAt_id x)
    have h2 := h1.exp.const_mul (2 * (1 / √π))
    refine h2.congr_deriv ?_
    unfold derfdx
    ring
  refine ⟨⟨rfl, rfl⟩, hd, ?_, ?_⟩
  · intro h
    have := h.unique (hd 1)
    have := derfdx_pos 1
    linarith
  · by_contra hcon
    push Not at hcon
    have hc : ∀ x y, dbern x = dbern y :=
      is_const_of_deriv_eq_zero (fun x => (hcon x).differentiableAt) fun x => (hcon x).deriv
    have h0 : dbern 0 = -1 / 2 := by simp [dbern]
    have h1 : dbern 1 = dbern 0 := hc 1 0
    rw [h0, dbern, if_neg one_ne_zero] at h1
    have he : (2.7 : ℝ) < exp 1 := by have := exp_one_gt_d9; norm_num at *; linarith
    have hp : 0 < (exp 1 - 1) ^ 2 := by have : 0 < exp 1 - 1 := by linarith
                                        positivity
    rw [div_eq_div_iff hp.ne' two_ne_zero] at h1
    nlinarith

end Verif.MathFn
