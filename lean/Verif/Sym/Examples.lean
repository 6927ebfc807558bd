import Verif.Sym.Format
import Mathlib.Data.List.TakeWhile

/-!
# The symbolic engine: cases that meet the hypotheses, and cases that show they are needed
-/

namespace Verif.Sym.Examples

open Verif.Sym

/-- The code's format with a fixed text for the numbers that are no integers, and a sort that keeps
the order. -/
noncomputable def C : Cfg ℝ :=
  realCfg (fun _ => ['0', '.', '5']) (fun _ => ['0', '.', '5']) id fun l => List.Perm.refl l

theorem exact : C.Exact := realCfg_exact _ _ _ _

theorem faithful : C.Faithful SmallInt (readReal fun _ => 0) := realCfg_faithful _ _ _ _ _

theorem mantText_digit (n e : Nat) (hn : 0 < n) : ∃ d ds, mantText n ++ expoText e = d :: ds ∧
    d.isDigit = true := by
  have hmem : ∀ c ∈ (((Nat.toDigits 10 n).reverse.dropWhile (· = '0')).reverse), c.isDigit = true := by
    intro c hc
    rw [List.mem_reverse] at hc
    have := (List.dropWhile_suffix (fun x : Char => decide (x = '0'))).subset hc
    rw [List.mem_reverse] at this
    exact Nat.isDigit_of_mem_toDigits (by norm_num) (by norm_num) this
  have hne : ((Nat.toDigits 10 n).reverse.dropWhile (· = '0')).reverse ≠ [] := by
    intro h
    rw [List.reverse_eq_nil_iff, List.dropWhile_eq_nil_iff] at h
    have h0 : Nat.ofDigitChars 10 (Nat.toDigits 10 n) 0 = 0 := by
      have : ∀ l : List Char, (∀ c ∈ l, c = '0') → Nat.ofDigitChars 10 l 0 = 0 := by
        intro l
        induction l with
        | nil => intro _; rfl
        | cons c l ih =>
          intro h
          rw [Nat.ofDigitChars_cons, h c (by simp)]
          exact ih fun c hc => h c (by simp [hc])
      exact this _ fun c hc => by simpa using h c (by simpa using hc)
    rw [Nat.ofDigitChars_toDigits (by norm_num) (by norm_num)] at h0
    omega
  unfold mantText
  split
  · exact absurd ‹_› hne
  · rename_i d hd
    exact ⟨d, _, rfl, hmem d (by rw [hd]; simp)⟩
  · rename_i d ds _ hd
    exact ⟨d, _, rfl, hmem d (by rw [hd]; simp)⟩

theorem digits_first (n : Nat) : ∃ d ds, Nat.toDigits 10 n = d :: ds ∧ d.isDigit = true := by
  match h : Nat.toDigits 10 n with
  | [] => exact absurd h Nat.toDigits_ne_nil
  | d :: ds =>
    exact ⟨d, ds, rfl, Nat.isDigit_of_mem_toDigits (n := n) (b := 10) (by norm_num) (by norm_num)
      (by rw [h]; simp)⟩

theorem roundDiv_pos {n d : Nat} (hd : 0 < d) (h : d ≤ n) : 0 < roundDiv n d := by
  have : 0 < n / d := Nat.div_pos h hd
  unfold roundDiv
  dsimp only
  split
  · exact this
  · split
    · omega
    · split <;> omega

/-- Every number of the code's format starts with a digit. -/
theorem digitFirst : C.DigitFirst := by
  intro c
  change ∃ d ds, fmtReal (fun _ => ['0', '.', '5']) c = d :: ds ∧ d.isDigit = true
  unfold fmtReal
  split
  · unfold fmtNat6
    split
    · exact digits_first _
    · rename_i h
      dsimp only
      split
      · exact mantText_digit _ _ (by norm_num)
      · apply mantText_digit
        apply roundDiv_pos (by positivity)
        have hl := (Nat.length_toDigits_le_iff (b := 10) (n := ⌊c⌋₊)
          (k := (Nat.toDigits 10 ⌊c⌋₊).length - 1) (by norm_num))
        by_contra hlt
        have h7 : 7 ≤ (Nat.toDigits 10 ⌊c⌋₊).length := by
          by_contra h7
          have := (Nat.length_toDigits_le_iff (b := 10) (n := ⌊c⌋₊) (k := 6) (by norm_num)
            (by norm_num)).1 (by omega)
          omega
        have hlt' : ⌊c⌋₊ < 10 ^ ((Nat.toDigits 10 ⌊c⌋₊).length - 1) := by
          refine lt_of_lt_of_le (not_le.1 hlt) ?_
          exact Nat.pow_le_pow_right (by norm_num) (by omega)
        have := (hl (by omega)).2 hlt'
        omega
  · exact ⟨'0', _, rfl, by decide⟩

/-! ### Names -/

def x : Expr ℝ := .var ['x']
def y : Expr ℝ := .var ['y']

theorem name_x : NameText ['x'] :=
  ⟨⟨'x', [], rfl, .inl (by decide)⟩, by intro c hc; left; simp at hc; subst hc; decide⟩

/-- C03: `y + 1` for `x` in `x * exp(x)`. -/
example (ρ : Env) : eval C ρ (subst C ['x'] (.add [y, .con 1]) (.prod [x, .exp x]))
    = (ρ.v ['y'] + 1) * Real.exp (ρ.v ['y'] + 1) := by
  rw [subst_eval exact digitFirst name_x]
  simp [x, y, Env.bind, C, realCfg]

/-! ### Tables -/

/-- One function `sq` of one argument, no models. -/
def T : Tables := ⟨fun s => if s = ['s', 'q'] then some 1 else none, fun _ => false⟩

theorem wf_x : WF T SmallInt x := .var (by decide) (by decide) (by decide) rfl
theorem wf_y : WF T SmallInt y := .var (by decide) (by decide) (by decide) rfl

/-- `x - 2*y*sq(x) + pow(y,(-3))`, as held by the engine. -/
noncomputable def big : Expr ℝ :=
  .add [x, .prod [.con (-2), y, .user ['s', 'q'] [x]], .pow y (.con (-3))]

theorem small (z : ℤ) (h : |z| < 1000000) : SmallInt (z : ℝ) := ⟨z, rfl, h⟩

theorem wf_big : WF T SmallInt big := by
  refine .add (by simp) ?_
  intro v hv
  simp only [List.mem_cons, List.not_mem_nil, or_false] at hv
  rcases hv with rfl | rfl | rfl
  · exact wf_x
  · refine .prod (by simp) ?_
    intro v hv
    simp only [List.mem_cons, List.not_mem_nil, or_false] at hv
    rcases hv with rfl | rfl | rfl
    · exact .con (by simpa using small (-2) (by norm_num))
    · exact wf_y
    · refine .user (by decide) (by decide) (by decide) rfl (by simp) ?_
      intro v hv
      rw [List.mem_singleton.1 hv]; exact wf_x
  · exact .pow wf_y (.con (by simpa using small (-3) (by norm_num)))

/-- C07: it reads back. -/
example : ∃ e', parse C T (readReal fun _ => 0) (str C big) = some e' ∧
    ∀ ρ, eval C ρ e' = eval C ρ big := parse_print exact faithful wf_big

/-- C03, expressions: replacing `pow(y,(-3))` in it by something of the same value. -/
example (ρ : Env) (h : ρ.v ['y'] = 1) :
    eval C ρ (subst C (str C (.pow y (.con (-3)))) (.con 1) big) = eval C ρ big := by
  refine subst_same exact faithful (.pow wf_y (.con (by simpa using small (-3) (by norm_num))))
    wf_big ρ ?_
  simp [y, h, C, realCfg]

/-! ### Differentiation -/

/-- The derivative table: `d sq(a)/d a = 2*a`. -/
noncomputable def U : UTab ℝ := fun f =>
  if f = ['s', 'q'] then [(['@', 'a'], some (.prod [.con 2, .var ['@', 'a']]))] else []

/-- `x` moves, `y = 3`, the model `m` is the square of `x`, `sq` squares. -/
noncomputable def γ (τ : ℝ) : Env where
  v s := if s = ['x'] then τ else 3
  m s := if s = ['x'] then τ else if s = ['m'] then τ * τ else 0
  u f as := if f = ['s', 'q'] then as.headD 0 ^ 2 else 0

/-- The derivative of the model `m` is `2*x`. -/
noncomputable def md : Str → Str → Expr ℝ := fun m s =>
  if m = ['m'] ∧ s = ['x'] then .prod [.con 2, x] else .con 0

theorem curve (t : ℝ) : Curve C md ['x'] γ t where
  var s := by
    by_cases h : ['x'] = s
    · subst h
      simp only [γ, if_true]
      exact hasDerivAt_id t
    · have : s ≠ ['x'] := fun h' => h h'.symm
      simp only [γ, this, h, if_false]
      exact hasDerivAt_const t _
  model m := by
    by_cases h : ['x'] = m
    · subst h
      simp only [γ, if_true]
      exact hasDerivAt_id t
    · have h1 : m ≠ ['x'] := fun h' => h h'.symm
      by_cases h2 : m = ['m']
      · subst h2
        have h3 : eval C (γ t) (md ['m'] ['x']) = 1 * t + t * 1 := by
          simp [md, γ, x, C, realCfg]; ring
        rw [if_neg h, h3]
        simp only [γ, h1, if_false, if_true]
        exact (hasDerivAt_id t).fun_mul (hasDerivAt_id t)
      · have h3 : eval C (γ t) (md m ['x']) = 0 := by
          simp [md, h2, C, realCfg]
        rw [if_neg h, h3]
        simp only [γ, h1, h2, if_false]
        exact hasDerivAt_const t _
  func τ := rfl

/-- `sq(x)*exp(x) + log(x) + m + pow(y,x)`. -/
noncomputable def f : Expr ℝ :=
  .add [.prod [.user ['s', 'q'] [x], .exp x], .log x, .model ['m'], .pow y x]

theorem userOK (t : ℝ) : UserOK C U (γ t) ['s', 'q'] [x] (fun _ => false) where
  len := rfl
  names := by
    left
    intro p hp
    simp only [U, if_true, List.mem_singleton] at hp
    subst hp
    refine ⟨⟨'@', ['a'], rfl, .inr rfl⟩, ?_⟩
    intro c hc
    simp only [List.mem_cons, List.not_mem_nil, or_false] at hc
    rcases hc with rfl | rfl
    · simp
    · left; decide
  fresh p hp _ a ha := by
    simp only [U, if_true, List.mem_singleton] at hp
    subst hp
    rw [List.mem_singleton] at ha
    subst ha
    simp [varRefs, modelRefs, x, refs, ifType, Expr.ty, str_var]
  diff := by
    have h : ∀ w : Fin [x].length → ℝ, (γ t).u ['s', 'q'] (List.ofFn w) = w 0 * w 0 := by
      intro w
      simp [γ, sq]
    simp only [Bool.false_eq_true, if_false, h]
    have h1 : HasFDerivAt (fun w : Fin [x].length → ℝ => w 0)
        (ContinuousLinearMap.proj (R := ℝ) (φ := fun _ : Fin [x].length => ℝ) 0)
        (fun i => eval C (γ t) [x][i]) := hasFDerivAt_apply 0 _
    have h2 := h1.mul h1
    refine h2.congr_fderiv ?_
    ext w
    simp [U, partialAt, Env.binds, Env.bind, C, realCfg, x, γ]
    ring

theorem regular : Regular C U γ 2 f := by
  refine .add ?_
  intro v hv
  simp only [List.mem_cons, List.not_mem_nil, or_false] at hv
  rcases hv with rfl | rfl | rfl | rfl
  · refine .prod ?_ (by simp)
    intro v hv
    simp only [List.mem_cons, List.not_mem_nil, or_false] at hv
    rcases hv with rfl | rfl
    · refine .user _ ?_ (by simp) (userOK 2)
      intro v hv
      rw [List.mem_singleton.1 hv]; exact .var _
    · exact .exp (.var _)
  · exact .log (.var _) (by simp [x, γ])
  · exact .model _
  · exact .pow (.var _) (.var _) (.inl (by simp [y, γ]))

/-- C01: the derivative of `x^2*exp(x) + log(x) + x^2 + 3^x` at `2`. -/
example : HasDerivAt (fun τ => eval C (γ τ) f) (eval C (γ 2) (deriv C U md ['x'] f)) 2 :=
  deriv_correct exact digitFirst U md ['x'] γ 2 (curve 2) f regular

/-- F2: the derivative of a product of one factor is zero. No operation of the engine makes
such a product from ordinary expressions, so this needs the hypothesis only. -/
theorem deriv_singleton : deriv C U md ['x'] (.prod [x]) = conI C 0 := by
  have h : isZero C (conI C 1) = false := by
    rw [← Bool.not_eq_true]
    intro h
    have := eval_isZero exact ⟨fun _ => 0, fun _ => 0, fun _ _ => 0⟩ _ h
    rw [eval_conI exact] at this
    norm_num at this
  have h1 : isOne C (conI C 1) = true := by
    simp only [conI, isOne]; exact (exact.eqInt _ _).2 (exact.ofInt 1)
  simp [deriv, derivL, x, prodTerms, prodTerm, h, h1, sumOf]

/-- F42: formal arguments that are not renamed are captured: with the formals `x`, `y` the partial
derivative `x` of `f(y, z)` becomes `z` instead of `y`. -/
theorem capture (z : Str) (hz : z ≠ ['x'] ∧ z ≠ ['y']) :
    substAll C [['x'], ['y']] [y, .var z] x = .var z := by
  simp [substAll, x, y, subst, str_var]

/-- F45: differentiating a function of two arguments with respect to a name it does not depend on
gives a sum of zeros, which the engine does not recognise as zero. -/
theorem two_args_not_zero (p q : Option (Expr ℝ)) :
    isZero C (deriv C (fun _ => [(['@', 'a'], p), (['@', 'b'], q)]) md ['z']
      (.user ['g'] [x, y])) = false := by
  have h0 := isZero_conI exact
  have h : deriv C (fun _ => [(['@', 'a'], p), (['@', 'b'], q)]) md ['z'] (.user ['g'] [x, y])
      = mkAdd C [conI C 0, conI C 0] := by
    simp [deriv, derivL, x, y, userTerm, h0, sumUser]
  rw [h, mkAdd]
  simp [isZero]

/-- C05: the derivative of `f` with respect to an unrelated name has the value zero. -/
example (ρ : Env) : eval C ρ (deriv C U md ['z'] f) = 0 := by
  refine deriv_fresh exact U md ['z'] ρ f ?_ ?_ ?_
  · simp [varRefs, f, x, y, refs, refsL, unite, ifType, Expr.ty, str_var]
  · simp [modelRefs, f, x, y, refs, refsL, unite, ifType, Expr.ty, str_model]
  · intro m _
    simp [md, C, realCfg]

end Verif.Sym.Examples
