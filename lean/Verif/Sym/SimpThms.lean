import Verif.Sym.SimpEval
import Verif.Sym.Format
import Mathlib.Tactic.DeriveEncodable

/-!
# Simplification: the theorems of C02, and where simplification is wrong
-/

namespace Verif.Sym

section
variable {K : Type} {C : Cfg K}

/-- **C02** (partial: `Simplify` is assumed to return, and the numbers it computes are assumed to print
faithfully). Where an expression is good, `Simplify` returns one with the same value, that is good
again. -/
theorem simp_eval_partial (hC : C.Exact) {T : Tables} {S : K → Prop} {read : Str → K}
    (hF : C.Faithful S read) (hS : C.Closed S) {ρ : Env} {e e' : Expr K} (he : WF T S e)
    (hg : G C ρ e) {n : Nat} (h : simp C n e = some e') : eval C ρ e' = eval C ρ e ∧ G C ρ e' :=
  simp_keeps hC hF hS n false e e' he (.inl hg) h

/-- **C02** for the function `Simplify` of the command, which repeats until the text is stable. -/
theorem simpLoop_eval_partial (hC : C.Exact) {T : Tables} {S : K → Prop} {read : Str → K}
    (hF : C.Faithful S read) (hS : C.Closed S) {ρ : Env} {n : Nat} : ∀ {k : Nat} {e e' : Expr K},
    WF T S e → G C ρ e → simpLoop C n k e = some e' → eval C ρ e' = eval C ρ e ∧ WF T S e'
  | 0, _, _, _, _, h => by simp [simpLoop] at h
  | k + 1, e, e', he, hg, h => by
    simp only [simpLoop] at h
    split at h
    · rename_i e1 h1
      have hw := simp_WF (T := T) hF hS n e e1 he h1
      obtain ⟨h2, h3⟩ := simp_eval_partial hC hF hS he hg h1
      split at h
      · cases h; exact ⟨h2, hw⟩
      · obtain ⟨h4, h5⟩ := simpLoop_eval_partial hC hF hS (k := k) hw h3 h
        exact ⟨by rw [h4, h2], h5⟩
    · cases h

/-- Sums, products and exponentials: good everywhere. -/
inductive Poly : Expr K → Prop
  | con (c) : Poly (.con c)
  | var (x) : Poly (.var x)
  | model (x) : Poly (.model x)
  | add {vs} : (∀ v ∈ vs, Poly v) → Poly (.add vs)
  | prod {vs} : (∀ v ∈ vs, Poly v) → Poly (.prod vs)
  | exp {a} : Poly a → Poly (.exp a)

theorem Poly.good {ρ : Env} {e : Expr K} (h : Poly e) : G C ρ e := by
  induction h with
  | con => exact .con _
  | var => exact .var _
  | model => exact .model _
  | add _ ih => exact .add (by simp) ih
  | prod _ ih => exact .prod ih
  | exp _ ih => exact .exp ih

/-- Sums, products, exponentials, powers and logarithms of positive numbers, variables and models:
good where the variables and models are positive. -/
inductive Pos (C : Cfg K) : Expr K → Prop
  | con {c} : 0 < C.val c → Pos C (.con c)
  | var (x) : Pos C (.var x)
  | model (x) : Pos C (.model x)
  | add {vs} : vs ≠ [] → (∀ v ∈ vs, Pos C v) → Pos C (.add vs)
  | prod {vs} : (∀ v ∈ vs, Pos C v) → Pos C (.prod vs)
  | exp {a} : Pos C a → Pos C (.exp a)
  | pow {b e} : Pos C b → Pos C e → Pos C (.pow b e)

theorem Pos.p {ρ : Env} (hv : ∀ x, 0 < ρ.v x) (hm : ∀ x, 0 < ρ.m x) {e : Expr K} (h : Pos C e) :
    P C ρ e := by
  induction h with
  | con h => exact .conP h
  | var x => exact .varP (hv x)
  | model x => exact .modelP (hm x)
  | add hne _ ih => exact .add (fun _ => hne) ih
  | prod _ ih => exact .prod ih
  | exp _ ih => exact .exp ih.g
  | pow _ _ ihb ihe => exact .powP ihb ihe.g

/-- On positive data powers with any exponent keep their value, and so does the logarithm. -/
theorem simp_pos_partial (hC : C.Exact) {T : Tables} {S : K → Prop} {read : Str → K}
    (hF : C.Faithful S read) (hS : C.Closed S) {e e' : Expr K} (he : WF T S (.log e)) (hp : Pos C e)
    {n : Nat} (h : simp C n (.log e) = some e') {ρ : Env} (hv : ∀ x, 0 < ρ.v x)
    (hm : ∀ x, 0 < ρ.m x) : eval C ρ e' = Real.log (eval C ρ e) := by
  rw [(simp_eval_partial hC hF hS he (.log (hp.p hv hm)) h).1, eval_log]

/-- Sums, products and exponentials keep their value in every environment. -/
theorem simp_poly_partial (hC : C.Exact) {T : Tables} {S : K → Prop} {read : Str → K}
    (hF : C.Faithful S read) (hS : C.Closed S) {e e' : Expr K} (he : WF T S e) (hp : Poly e) {n : Nat}
    (h : simp C n e = some e') (ρ : Env) : eval C ρ e' = eval C ρ e :=
  (simp_eval_partial hC hF hS he hp.good h).1

end

/-! ### Where simplification is wrong -/

section
variable (frac fmt6 : ℝ → Str) (srt : List (Expr ℝ) → List (Expr ℝ)) (hs : ∀ l, (srt l).Perm l)

/-- A power of zero simplifies to zero, also where the exponent is zero. -/
theorem simp_zero_pow (y : Str) : ∃ e', simp (realCfg frac fmt6 srt hs) 2 (.pow (.con 0) (.var y)) = some e' ∧
    ∀ ρ : Env, ρ.v y = 0 → eval (realCfg frac fmt6 srt hs) ρ e' = 0 ∧
      eval (realCfg frac fmt6 srt hs) ρ (.pow (.con 0) (.var y)) = 1 := by
  refine ⟨conI (realCfg frac fmt6 srt hs) 0, ?_, ?_⟩
  · have h0 : (realCfg frac fmt6 srt hs).eqInt (0 : ℝ) 0 = true := by simp [realCfg]
    have h1 : (realCfg frac fmt6 srt hs).eqInt (0 : ℝ) 1 = false := by simp [realCfg]
    simp [simp, isZero, isOne, h0, h1]
  · intro ρ hy
    refine ⟨by rw [eval_conI (realCfg_exact ..)]; simp, ?_⟩
    rw [eval_pow, eval_var, hy, Real.rpow_zero]

/-- The square root of a square simplifies to the number itself, also where it is negative. -/
theorem simp_sqrt_square (x : Str) : ∃ e', simp (realCfg frac fmt6 srt hs) 4
      (.pow (.pow (.var x) (.con 2)) (.con (1 / 2))) = some e' ∧
    ∀ ρ : Env, eval (realCfg frac fmt6 srt hs) ρ e' = ρ.v x ∧
      eval (realCfg frac fmt6 srt hs) ρ (.pow (.pow (.var x) (.con 2)) (.con (1 / 2))) = |ρ.v x| := by
  set C := realCfg frac fmt6 srt hs with hCd
  have hC : C.Exact := realCfg_exact frac fmt6 srt hs
  have q20 : C.eqInt (2 : ℝ) 0 = false := by simp [hCd, realCfg]
  have q21 : C.eqInt (2 : ℝ) 1 = false := by simp [hCd, realCfg]
  have qh0 : C.eqInt (1 / 2 : ℝ) 0 = false := by simp [hCd, realCfg]
  have qh1 : C.eqInt (1 / 2 : ℝ) 1 = false := by simp [hCd, realCfg]
  have q11 : C.eqInt (1 : ℝ) 1 = true := by simp [hCd, realCfg]
  have hm : C.mul (2 : ℝ) (1 / 2) = (1 : ℝ) := by simp [hCd, realCfg]
  have ho : C.ofInt 1 = (1 : ℝ) := by simp [hCd, realCfg]
  have hone : isOne C (.con (1 : ℝ)) = true := by simp only [isOne, q11]
  -- one constant
  have pv1 : ∀ n, prodVec C (simp C n) [.con (1 : ℝ)] = some [.con 1] := by
    intro n
    rw [prodVec_eq]
    have : grouped C [.con (1 : ℝ)] = [.con 1] := by
      unfold grouped
      rw [List.map_cons, List.map_nil, toPow, groupTy, List.filter_nil, List.filter_nil, groupTy]
      · rfl
      · rintro _ ⟨⟩
    rw [this]
    simp [hone, mapO, conI, ho]
  have pv2 : ∀ n, prodVec C (simp C n) [.con (2 : ℝ), .con (1 / 2)] = some [.con 1] := by
    intro n
    rw [prodVec_eq]
    have : grouped C [.con (2 : ℝ), .con (1 / 2)] = [.con 1] := by
      unfold grouped
      rw [List.map_cons, List.map_cons, List.map_nil, toPow, toPow, groupTy]
      · have e1 : ([Expr.con (1 / 2 : ℝ)].filter fun w => w.ty == (Expr.con (2 : ℝ)).ty)
            = [.con (1 / 2)] := rfl
        have e2 : ([Expr.con (1 / 2 : ℝ)].filter fun w => w.ty != (Expr.con (2 : ℝ)).ty) = [] := rfl
        rw [e1, e2, groupTy]
        simp only [List.map_cons, List.map_nil, List.flatMap_cons, List.flatMap_nil, List.append_nil,
          List.isEmpty_cons, Bool.false_eq_true, if_false, combineProd, consts, List.foldl_cons,
          List.foldl_nil, hm, Expr.factors]
      · rintro _ ⟨⟩
      · rintro _ ⟨⟩
    rw [this]
    simp [hone, mapO, conI, ho]
  have hprod : ∀ n, simp C (n + 2) (.prod [.con (2 : ℝ), .con (1 / 2)]) = some (.con 1) := by
    intro n
    have hsc : ∀ c : ℝ, simp C (n + 1) (.con c) = some (.con c) := fun c => rfl
    have hany : [Expr.con (2 : ℝ), .con (1 / 2)].any (isZero C) = false := by
      simp only [List.any_cons, List.any_nil, isZero, q20, qh0, Bool.or_self]
    have hmap : mapO (simp C (n + 1)) [.con (2 : ℝ), .con (1 / 2)] = some [.con 2, .con (1 / 2)] := by
      simp only [mapO, hsc]
    rw [simp]
    unfold prodSimp
    simp only [hany, hmap, pv2, pv1, List.length_cons, List.length_nil, Nat.zero_add, single,
      Bool.false_eq_true, if_false, Nat.lt_irrefl, List.flatMap_cons, List.flatMap_nil, thirdItem,
      clone, List.append_nil, reduce, Option.map_some, shorter, ite_self]
  refine ⟨.pow (.var x) (.con 1), ?_, ?_⟩
  · have hmul : mul C (.con (2 : ℝ)) (.con (1 / 2)) = .prod [.con 2, .con (1 / 2)] := by
      simp only [mul, isZero, isOne, q20, q21, qh0, qh1, Bool.or_false, Bool.false_eq_true, if_false]
    have hin : simp C 3 (.pow (.var x) (.con (2 : ℝ))) = some (.pow (.var x) (.con 2)) := by
      simp only [simp, isZero, isOne, q20, q21, Bool.false_eq_true, if_false]
    rw [simp]
    have hh : simp C 3 (.con (1 / 2 : ℝ)) = some (.con (1 / 2)) := rfl
    simp only [hin, hh]
    simp only [isZero, isOne, qh0, qh1, Bool.false_eq_true, if_false, hmul, hprod 1, Option.map_some]
  · intro ρ
    have e2 : C.val (2 : ℝ) = 2 := rfl
    have e1 : C.val (1 : ℝ) = 1 := rfl
    have eh : C.val (1 / 2 : ℝ) = 1 / 2 := rfl
    constructor
    · rw [eval_pow, eval_con, eval_var, e1, Real.rpow_one]
    · rw [eval_pow, eval_pow, eval_con, eval_con, eval_var, e2, eh, Real.rpow_two,
        ← Real.sqrt_eq_rpow, Real.sqrt_sq_eq_abs]

end

/-! ### A case that meets the hypotheses -/

namespace SimpEx

/-- Constants kept as terms. -/
inductive Num
  | int (z : ℤ)
  | add (a b : Num)
  | mul (a b : Num)
  | pow (a b : Num)
  | neg (a : Num)
  | inv (a : Num)
deriving Encodable, DecidableEq

noncomputable def Num.val : Num → ℝ
  | .int z => z
  | .add a b => a.val + b.val
  | .mul a b => a.val * b.val
  | .pow a b => a.val ^ b.val
  | .neg a => - a.val
  | .inv a => a.val⁻¹

def fmt (t : Num) : Str :=
  if t = .int 1 then ['1'] else Nat.toDigits 10 (Encodable.encode t + 2)

def read (s : Str) : Num :=
  if s = ['1'] then .int 1
  else (Encodable.decode (Nat.ofDigitChars 10 s 0 - 2)).getD (.int 0)

open Classical in
/-- An engine that prints every number faithfully. -/
noncomputable def C : Cfg Num where
  val := Num.val
  ofInt := .int
  add := .add
  mul := .mul
  pow := .pow
  neg := .neg
  inv := .inv
  eqInt a z := decide (a.val = z)
  isNeg a := decide (a.val < 0)
  lt100 a := decide (a.val < 100)
  fmt := fmt
  fmt6 := fmt
  srt := id
  srt_perm l := List.Perm.refl l

theorem exact : C.Exact where
  ofInt z := rfl
  add a b := rfl
  mul a b := rfl
  neg a := rfl
  inv a _ := rfl
  pow a b _ := rfl
  eqInt a z := by simp [C]
  isNeg a := by simp [C]

theorem read_fmt (t : Num) : read (fmt t) = t := by
  unfold fmt
  split
  · rename_i h; rw [h]; rfl
  · unfold read
    rw [if_neg, Nat.ofDigitChars_toDigits (by norm_num) (by norm_num)]
    · simp
    · intro h
      have := congrArg (fun s => Nat.ofDigitChars 10 s 0) h
      rw [Nat.ofDigitChars_toDigits (by norm_num) (by norm_num)] at this
      have h1 : Nat.ofDigitChars 10 ['1'] 0 = 1 := by decide
      omega

theorem faithful : C.Faithful (fun _ => True) read where
  num c _ _ := by
    change isNumber (fmt c) = true
    unfold fmt
    split
    · decide
    · unfold isNumber
      have : isInteger (Nat.toDigits 10 (Encodable.encode c + 2)) = true := by
        unfold isInteger
        rw [toDigits_isDigit]
        simp [Nat.toDigits_ne_nil]
      rw [this, Bool.or_true]
  val c _ _ := by
    change C.val (read (fmt c)) = _
    rw [read_fmt]
  ofInt _ _ := trivial
  neg _ _ := trivial
  one := by
    have : read ['1'] = .int 1 := rfl
    rw [this]
    change ((1 : ℤ) : ℝ) = 1
    norm_num

theorem closed : C.Closed (fun _ => True) := ⟨fun _ _ _ _ => trivial, fun _ _ _ _ => trivial,
  fun _ _ _ _ => trivial⟩

def T : Tables := ⟨fun _ => none, fun _ => false⟩

/-- `pow(x, 1/2) * pow(x, 1/2) + log(x)` is well-formed, and good where `x` is positive. -/
noncomputable def e : Expr Num :=
  .add [.prod [.pow (.var ['x']) (.con (.inv (.int 2))), .pow (.var ['x']) (.con (.inv (.int 2)))],
    .log (.var ['x'])]

theorem wf : WF T (fun _ => True) e := by
  have hx : WF T (fun _ => True) (.var ['x'] : Expr Num) :=
    .var (by decide) (by decide) (by decide) rfl
  have hp : WF T (fun _ => True) (.pow (.var ['x']) (.con (.inv (.int 2))) : Expr Num) :=
    .pow hx (.con trivial)
  refine .add (by simp) fun v hv => ?_
  simp only [List.mem_cons, List.not_mem_nil, or_false] at hv
  rcases hv with rfl | rfl
  · refine .prod (by simp) fun v hv => ?_
    simp only [List.mem_cons, List.not_mem_nil, or_false] at hv
    rcases hv with rfl | rfl <;> exact hp
  · exact .log hx

theorem good_e {ρ : Env} (h : 0 < ρ.v ['x']) : G C ρ e := by
  have hx : P C ρ (.var ['x']) := .varP h
  have hp : G C ρ (.pow (.var ['x']) (.con (.inv (.int 2)))) := .powP hx (.con _)
  refine .add (by simp) fun v hv => ?_
  simp only [List.mem_cons, List.not_mem_nil, or_false] at hv
  rcases hv with rfl | rfl
  · refine .prod fun v hv => ?_
    simp only [List.mem_cons, List.not_mem_nil, or_false] at hv
    rcases hv with rfl | rfl <;> exact hp
  · exact .log hx

end SimpEx

end Verif.Sym
