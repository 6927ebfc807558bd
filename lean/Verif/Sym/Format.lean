import Verif.Sym.Fresh

/-!
# The number format of the code

`Constant::createStringValue` writes an integer with the default precision of the stream (six
significant digits) and any other number with sixteen digits. Below a million the text of an integer
is its decimal expansion, so printing is faithful (C06, C07 without assumption on the format); above
it is not (F1).
-/

namespace Verif.Sym

/-- Division of naturals rounded to nearest, ties to even. -/
def roundDiv (n d : Nat) : Nat :=
  let q := n / d
  let r := n % d
  if 2 * r < d then q else if 2 * r > d then q + 1 else if q % 2 = 0 then q else q + 1

/-- The exponent part `e+XX` of `%g`. -/
def expoText (e : Nat) : Str :=
  ['e', '+'] ++ (if e < 10 then ['0'] else []) ++ Nat.toDigits 10 e

/-- `m` significant digits with trailing zeros removed and a point after the first (`%g`). -/
def mantText (m : Nat) : Str :=
  match (Nat.toDigits 10 m).reverse.dropWhile (· = '0') |>.reverse with
  | [] => []
  | [d] => [d]
  | d :: ds => d :: '.' :: ds

/-- `os << x` with the default flags (`%g`, six significant digits) for the number `x = n`
(`EquationObject.cc:292-304`: no flag is set when `dvalue == floor(dvalue)`). -/
def fmtNat6 (n : Nat) : Str :=
  if n < 1000000 then Nat.toDigits 10 n
  else
    let k := (Nat.toDigits 10 n).length
    let m := roundDiv n (10 ^ (k - 6))
    if m = 1000000 then mantText 100000 ++ expoText k else mantText m ++ expoText (k - 1)

open Classical in
/-- `Constant::createStringValue` for a non-negative number (`EquationObject.cc:289-305`); `frac` is the
text of the numbers that are no integers. -/
noncomputable def fmtReal (frac : ℝ → Str) (x : ℝ) : Str :=
  if ∃ n : ℕ, x = n then fmtNat6 ⌊x⌋₊ else frac x

open Classical in
/-- The engine over exact real numbers with the number format of the code, for any sorting routine
and any format of the numbers that are no integers. -/
noncomputable def realCfg (frac fmt6 : ℝ → Str) (srt : List (Expr ℝ) → List (Expr ℝ))
    (hs : ∀ l, (srt l).Perm l) : Cfg ℝ where
  val x := x
  ofInt z := z
  add a b := a + b
  mul a b := a * b
  pow a b := a ^ b
  neg a := -a
  inv a := a⁻¹
  eqInt a z := decide (a = z)
  isNeg a := decide (a < 0)
  lt100 a := decide (a < 100)
  fmt := fmtReal frac
  fmt6 := fmt6
  srt := srt
  srt_perm := hs

/-- The integers of less than a million in magnitude. -/
def SmallInt (x : ℝ) : Prop := ∃ z : ℤ, x = z ∧ |z| < 1000000

/-- What `atoi` returns for a text of digits; `rd` for the other texts. -/
noncomputable def readReal (rd : Str → ℝ) (s : Str) : ℝ :=
  if s.all Char.isDigit then (Nat.ofDigitChars 10 s 0 : ℕ) else rd s

section
variable (frac fmt6 : ℝ → Str) (srt : List (Expr ℝ) → List (Expr ℝ)) (hs : ∀ l, (srt l).Perm l)

theorem realCfg_exact : (realCfg frac fmt6 srt hs).Exact where
  ofInt z := rfl
  add a b := rfl
  mul a b := rfl
  neg a := rfl
  inv a _ := rfl
  pow a b _ := rfl
  eqInt a z := by simp [realCfg]
  isNeg a := by simp [realCfg]

theorem toDigits_isDigit (n : Nat) : (Nat.toDigits 10 n).all Char.isDigit = true := by
  rw [List.all_eq_true]
  exact fun c hc => Nat.isDigit_of_mem_toDigits (by norm_num) (by norm_num) hc

theorem small_nat {x : ℝ} (h : SmallInt x) (hx : ¬ x < 0) : ∃ n : ℕ, x = n ∧ n < 1000000 := by
  obtain ⟨z, rfl, hz⟩ := h
  have h0 : 0 ≤ z := by
    by_contra h
    exact hx (by exact_mod_cast not_le.1 h)
  obtain ⟨n, rfl⟩ := Int.eq_ofNat_of_zero_le h0
  refine ⟨n, by simp, ?_⟩
  rw [abs_of_nonneg h0] at hz
  exact_mod_cast hz

theorem fmtReal_small {n : ℕ} (h : n < 1000000) :
    fmtReal frac (n : ℝ) = Nat.toDigits 10 n := by
  unfold fmtReal
  rw [if_pos ⟨n, rfl⟩, Nat.floor_natCast, fmtNat6, if_pos h]

/-- The format of the code is faithful for the integers below a million. -/
theorem realCfg_faithful (rd : Str → ℝ) :
    (realCfg frac fmt6 srt hs).Faithful SmallInt (readReal rd) where
  num c hc hn := by
    have hn' : ¬ c < 0 := by simpa [realCfg] using hn
    obtain ⟨n, rfl, h⟩ := small_nat hc hn'
    change isNumber (fmtReal frac n) = true
    rw [fmtReal_small frac h]
    unfold isNumber
    have : isInteger (Nat.toDigits 10 n) = true := by
      unfold isInteger
      rw [toDigits_isDigit]
      simp [Nat.toDigits_ne_nil]
    rw [this, Bool.or_true]
  val c hc hn := by
    have hn' : ¬ c < 0 := by simpa [realCfg] using hn
    obtain ⟨n, rfl, h⟩ := small_nat hc hn'
    change readReal rd (fmtReal frac n) = n
    rw [fmtReal_small frac h]
    unfold readReal
    rw [if_pos (toDigits_isDigit n), Nat.ofDigitChars_toDigits (by norm_num) (by norm_num)]
  ofInt z hz := by
    refine ⟨z, rfl, ?_⟩
    rcases hz with rfl | rfl | rfl <;> norm_num
  neg c hc := by
    obtain ⟨z, rfl, h⟩ := hc
    exact ⟨-z, by simp [realCfg], by rwa [abs_neg]⟩
  one := by
    change readReal rd ['1'] = 1
    unfold readReal
    rw [if_pos (by decide)]
    have : Nat.ofDigitChars 10 ['1'] 0 = 1 := by decide
    rw [this]; norm_num

/-- **C07** for the number format of the code: an expression whose constants are integers of less than
a million in magnitude prints as a text that reads back with the same value. -/
theorem parse_print_partial {T : Tables} (rd : Str → ℝ) {e : Expr ℝ} (he : WF T SmallInt e) :
    ∃ e', parse (realCfg frac fmt6 srt hs) T (readReal rd) (str (realCfg frac fmt6 srt hs) e) = some e' ∧
      ∀ ρ, eval (realCfg frac fmt6 srt hs) ρ e' = eval (realCfg frac fmt6 srt hs) ρ e :=
  parse_print (realCfg_exact frac fmt6 srt hs) (realCfg_faithful frac fmt6 srt hs rd) he

/-- **C06** for the number format of the code. -/
theorem eval_of_str_eq_partial {T : Tables} {a b : Expr ℝ} (ha : WF T SmallInt a)
    (hb : WF T SmallInt b)
    (h : str (realCfg frac fmt6 srt hs) a = str (realCfg frac fmt6 srt hs) b) (ρ : Env) :
    eval (realCfg frac fmt6 srt hs) ρ a = eval (realCfg frac fmt6 srt hs) ρ b :=
  eval_of_str_eq (realCfg_exact frac fmt6 srt hs)
    (realCfg_faithful frac fmt6 srt hs fun _ => 0) ha hb h ρ

/-- F1: above a million distinct integers print the same. -/
theorem fmtNat6_collision : fmtNat6 1234567 = "1.23457e+06".toList ∧
    fmtNat6 1234568 = "1.23457e+06".toList := by decide

/-- F1: the code identifies two expressions of different value, because they print the same. -/
theorem str_eq_value_ne (ρ : Env) : ∃ a b : Expr ℝ,
    str (realCfg frac fmt6 srt hs) a = str (realCfg frac fmt6 srt hs) b ∧
    eval (realCfg frac fmt6 srt hs) ρ a ≠ eval (realCfg frac fmt6 srt hs) ρ b := by
  refine ⟨.con 1234567, .con 1234568, ?_, ?_⟩
  · have h : ∀ n : ℕ, str (realCfg frac fmt6 srt hs) (.con (n : ℝ)) = fmtNat6 n := by
      intro n
      unfold str
      rw [ptree_con, if_neg]
      · simp only [render]
        change fmtReal frac n = _
        unfold fmtReal
        rw [if_pos ⟨n, rfl⟩, Nat.floor_natCast]
      · simp [realCfg]
    have h1 := h 1234567
    have h2 := h 1234568
    rw [fmtNat6_collision.1] at h1
    rw [fmtNat6_collision.2] at h2
    push_cast at h1 h2
    exact h1.trans h2.symm
  · simp only [eval_con]
    change (1234567 : ℝ) ≠ 1234568
    norm_num

end

end Verif.Sym
