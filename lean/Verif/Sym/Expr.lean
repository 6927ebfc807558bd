import Mathlib.Analysis.SpecialFunctions.Pow.Real
import Mathlib.Analysis.SpecialFunctions.Log.Basic

/-!
# Symbolic expressions (`src/adiff`): objects and their meaning

The expression objects of the symbolic engine (`EquationObject` and its subclasses), and the real
number each of them denotes in an environment.
-/

namespace Verif.Sym

/-- Text (`std::string`). -/
abbrev Str := List Char

/-- The operator of a `BinaryLogical` (`LogicalFunc.hh:70-126`; the parser only ever passes these
eight, `mcParser.y:159-166`). -/
inductive LOp
  | eq | neq | lt | lte | gt | gte | and | or
deriving DecidableEq, Repr

/-- `EquationObject` and its subclasses (`EquationObject.hh:26-512`, `LogicalFunc.hh:20-126`,
`UserFunc.hh:25-74`, `mcModel.hh:12-56`). `K` is the type of the numbers held by `Constant`
(`double dvalue` in the code). Shared pointers are modelled as values: no method of the engine
modifies an object after its construction. The operator string of `UnaryLogical` is always `!`. -/
inductive Expr (K : Type)
  | con (c : K)
  | var (x : Str)
  | model (m : Str)
  | add (vs : List (Expr K))
  | prod (vs : List (Expr K))
  | exp (a : Expr K)
  | log (a : Expr K)
  | pow (b e : Expr K)
  | user (f : Str) (as : List (Expr K))
  | blog (op : LOp) (a b : Expr K)
  | ulog (a : Expr K)

variable {K : Type}

/-- The induction principle with one hypothesis per list element. -/
theorem Expr.ind {P : Expr K → Prop}
    (hcon : ∀ c, P (.con c)) (hvar : ∀ x, P (.var x)) (hmodel : ∀ m, P (.model m))
    (hadd : ∀ vs, (∀ v ∈ vs, P v) → P (.add vs))
    (hprod : ∀ vs, (∀ v ∈ vs, P v) → P (.prod vs))
    (hexp : ∀ a, P a → P (.exp a)) (hlog : ∀ a, P a → P (.log a))
    (hpow : ∀ b e, P b → P e → P (.pow b e))
    (huser : ∀ f as, (∀ v ∈ as, P v) → P (.user f as))
    (hblog : ∀ op a b, P a → P b → P (.blog op a b))
    (hulog : ∀ a, P a → P (.ulog a)) : ∀ e, P e
  | .con c => hcon c
  | .var x => hvar x
  | .model m => hmodel m
  | .add vs => hadd vs fun v hv =>
      have : sizeOf v < sizeOf vs := List.sizeOf_lt_of_mem hv
      Expr.ind hcon hvar hmodel hadd hprod hexp hlog hpow huser hblog hulog v
  | .prod vs => hprod vs fun v hv =>
      have : sizeOf v < sizeOf vs := List.sizeOf_lt_of_mem hv
      Expr.ind hcon hvar hmodel hadd hprod hexp hlog hpow huser hblog hulog v
  | .exp a => hexp a (Expr.ind hcon hvar hmodel hadd hprod hexp hlog hpow huser hblog hulog a)
  | .log a => hlog a (Expr.ind hcon hvar hmodel hadd hprod hexp hlog hpow huser hblog hulog a)
  | .pow b e => hpow b e
      (Expr.ind hcon hvar hmodel hadd hprod hexp hlog hpow huser hblog hulog b)
      (Expr.ind hcon hvar hmodel hadd hprod hexp hlog hpow huser hblog hulog e)
  | .user f as => huser f as fun v hv =>
      have : sizeOf v < sizeOf as := List.sizeOf_lt_of_mem hv
      Expr.ind hcon hvar hmodel hadd hprod hexp hlog hpow huser hblog hulog v
  | .blog op a b => hblog op a b
      (Expr.ind hcon hvar hmodel hadd hprod hexp hlog hpow huser hblog hulog a)
      (Expr.ind hcon hvar hmodel hadd hprod hexp hlog hpow huser hblog hulog b)
  | .ulog a => hulog a (Expr.ind hcon hvar hmodel hadd hprod hexp hlog hpow huser hblog hulog a)
termination_by e => sizeOf e

/-- What the engine takes from the machine: the numbers and their arithmetic (`double`), the text
the output stream writes for a number, and the sorting routine. -/
structure Cfg (K : Type) where
  /-- the real number a constant stands for -/
  val : K → ℝ
  /-- a small integer literal of the source, `con(0)`, `con(1)`, `con(-1)`, `con(2.0)` -/
  ofInt : ℤ → K
  add : K → K → K
  mul : K → K → K
  /-- `std::pow` -/
  pow : K → K → K
  neg : K → K
  /-- `1.0/x` -/
  inv : K → K
  /-- `x == z` for a small integer literal `z` of the source -/
  eqInt : K → ℤ → Bool
  /-- `x < 0.0` -/
  isNeg : K → Bool
  /-- `dval < 100` -/
  lt100 : K → Bool
  /-- `os << x` for a non-negative number, with the flags `Constant::createStringValue` sets -/
  fmt : K → Str
  /-- `os << x` for a non-negative number with the default flags, as in `Pow::expand` -/
  fmt6 : K → Str
  /-- `SortEqVector` (`EquationObject.cc:154-157`). Only that it permutes its argument is used, so
  every `std::sort` and every comparison is covered. -/
  srt : List (Expr K) → List (Expr K)
  srt_perm : ∀ l, (srt l).Perm l

/-- The arithmetic of the constants carries out the real operations exactly. Rounding of `double`
arithmetic is not modelled. `std::pow` is only asked to be right where it is defined. -/
structure Cfg.Exact (C : Cfg K) : Prop where
  ofInt : ∀ z, C.val (C.ofInt z) = z
  add : ∀ a b, C.val (C.add a b) = C.val a + C.val b
  mul : ∀ a b, C.val (C.mul a b) = C.val a * C.val b
  neg : ∀ a, C.val (C.neg a) = - C.val a
  inv : ∀ a, C.val a ≠ 0 → C.val (C.inv a) = (C.val a)⁻¹
  pow : ∀ a b, (0 < C.val a ∨ (C.val a ≠ 0 ∧ ∃ z : ℤ, C.val b = z)) →
    C.val (C.pow a b) = C.val a ^ C.val b
  eqInt : ∀ a z, C.eqInt a z = true ↔ C.val a = z
  isNeg : ∀ a, C.isNeg a = true ↔ C.val a < 0

/-- The values of the free names of an expression: variables (nodes and parameters), models and
functions. -/
structure Env where
  v : Str → ℝ
  m : Str → ℝ
  u : Str → List ℝ → ℝ

/-- The environment with variable `x` bound to `t`. -/
def Env.set (ρ : Env) (x : Str) (t : ℝ) : Env :=
  { ρ with v := Function.update ρ.v x t }

open Classical in
/-- C++ truth of a comparison, as the numbers 1 and 0. -/
noncomputable def LOp.sem (op : LOp) (a b : ℝ) : ℝ :=
  match op with
  | .eq => if a = b then 1 else 0
  | .neq => if a ≠ b then 1 else 0
  | .lt => if a < b then 1 else 0
  | .lte => if a ≤ b then 1 else 0
  | .gt => if a > b then 1 else 0
  | .gte => if a ≥ b then 1 else 0
  | .and => if a ≠ 0 ∧ b ≠ 0 then 1 else 0
  | .or => if a ≠ 0 ∨ b ≠ 0 then 1 else 0

open Classical in
/-- C++ `!a`, as the numbers 1 and 0. -/
noncomputable def notSem (a : ℝ) : ℝ := if a = 0 then 1 else 0

mutual
/-- The value of an expression, in real arithmetic: what the C++ code generated from its printed
text computes (`mcModelCompiler.cc`), up to rounding. `Real.rpow` and `Real.log` agree with
`std::pow` and `std::log` wherever the latter are defined, which the theorems' hypotheses
require when it matters. -/
noncomputable def eval (C : Cfg K) (ρ : Env) : Expr K → ℝ
  | .con c => C.val c
  | .var x => ρ.v x
  | .model m => ρ.m m
  | .add vs => (evalL C ρ vs).sum
  | .prod vs => (evalL C ρ vs).prod
  | .exp a => Real.exp (eval C ρ a)
  | .log a => Real.log (eval C ρ a)
  | .pow b e => eval C ρ b ^ eval C ρ e
  | .user f as => ρ.u f (evalL C ρ as)
  | .blog op a b => op.sem (eval C ρ a) (eval C ρ b)
  | .ulog a => notSem (eval C ρ a)
/-- The values of a list of expressions. -/
noncomputable def evalL (C : Cfg K) (ρ : Env) : List (Expr K) → List ℝ
  | [] => []
  | v :: vs => eval C ρ v :: evalL C ρ vs
end

theorem evalL_eq (C : Cfg K) (ρ : Env) : ∀ vs, evalL C ρ vs = vs.map (eval C ρ)
  | [] => rfl
  | v :: vs => by simp only [evalL, List.map_cons, evalL_eq C ρ vs]

section EvalLemmas
variable (C : Cfg K) (ρ : Env)

@[simp] theorem eval_con (c : K) : eval C ρ (.con c) = C.val c := by simp only [eval]
@[simp] theorem eval_var (x : Str) : eval C ρ (.var x) = ρ.v x := by simp only [eval]
@[simp] theorem eval_model (x : Str) : eval C ρ (.model x) = ρ.m x := by simp only [eval]
@[simp] theorem eval_add (vs) : eval C ρ (.add vs) = (vs.map (eval C ρ)).sum := by
  simp only [eval, evalL_eq]
@[simp] theorem eval_prod (vs) : eval C ρ (.prod vs) = (vs.map (eval C ρ)).prod := by
  simp only [eval, evalL_eq]
@[simp] theorem eval_exp (a) : eval C ρ (.exp a) = Real.exp (eval C ρ a) := by simp only [eval]
@[simp] theorem eval_log (a) : eval C ρ (.log a) = Real.log (eval C ρ a) := by simp only [eval]
@[simp] theorem eval_pow (b e) : eval C ρ (.pow b e) = eval C ρ b ^ eval C ρ e := by
  simp only [eval]
@[simp] theorem eval_user (f as) : eval C ρ (.user f as) = ρ.u f (as.map (eval C ρ)) := by
  simp only [eval, evalL_eq]
@[simp] theorem eval_blog (op a b) :
    eval C ρ (.blog op a b) = op.sem (eval C ρ a) (eval C ρ b) := by simp only [eval]
@[simp] theorem eval_ulog (a) : eval C ρ (.ulog a) = notSem (eval C ρ a) := by simp only [eval]

end EvalLemmas

/-! ### Type tests -/

/-- `getType()`: the enumeration order used by the sort (`EquationObject.hh:28`). -/
def Expr.ty : Expr K → Nat
  | .con _ => 0 | .var _ => 1 | .add _ => 2 | .prod _ => 3 | .exp _ => 4 | .pow _ _ => 5
  | .log _ => 6 | .model _ => 7 | .user _ _ => 8 | .blog _ _ _ => 9 | .ulog _ => 10

def Expr.isCon : Expr K → Bool
  | .con _ => true
  | _ => false

/-- The factors of a product, the object itself otherwise. -/
def Expr.factors : Expr K → List (Expr K)
  | .prod vs => vs
  | e => [e]

/-- The terms of a sum, the object itself otherwise. -/
def Expr.terms : Expr K → List (Expr K)
  | .add vs => vs
  | e => [e]

mutual
/-- `isZero` (`EquationObject.cc:347-350` for constants, `729-739` for products; every other class
returns false). -/
def isZero (C : Cfg K) : Expr K → Bool
  | .con c => C.eqInt c 0
  | .prod vs => anyZero C vs
  | _ => false
def anyZero (C : Cfg K) : List (Expr K) → Bool
  | [] => false
  | v :: vs => isZero C v || anyZero C vs
end

mutual
/-- `isOne` (`EquationObject.cc:352-355`, `741-755`; an empty product is not one). -/
def isOne (C : Cfg K) : Expr K → Bool
  | .con c => C.eqInt c 1
  | .prod vs => !vs.isEmpty && allOne C vs
  | _ => false
def allOne (C : Cfg K) : List (Expr K) → Bool
  | [] => true
  | v :: vs => isOne C v && allOne C vs
end

theorem anyZero_eq (C : Cfg K) : ∀ vs, anyZero C vs = vs.any (isZero C)
  | [] => rfl
  | v :: vs => by simp only [anyZero, List.any_cons, anyZero_eq C vs]

theorem allOne_eq (C : Cfg K) : ∀ vs, allOne C vs = vs.all (isOne C)
  | [] => rfl
  | v :: vs => by simp only [allOne, List.all_cons, allOne_eq C vs]

theorem isZero_prod (C : Cfg K) (vs) : isZero C (.prod vs) = vs.any (isZero C) := by
  simp only [isZero, anyZero_eq]

theorem isOne_prod (C : Cfg K) (vs) :
    isOne C (.prod vs) = (!vs.isEmpty && vs.all (isOne C)) := by
  simp only [isOne, allOne_eq]

theorem eval_isZero {C : Cfg K} (hC : C.Exact) (ρ : Env) :
    ∀ e, isZero C e = true → eval C ρ e = 0 := by
  intro e
  induction e using Expr.ind with
  | hcon c => intro h; simp only [isZero] at h; simpa using (hC.eqInt _ _).1 h
  | hprod vs ih =>
    intro h
    rw [isZero_prod, List.any_eq_true] at h
    obtain ⟨v, hv, hz⟩ := h
    rw [eval_prod, List.prod_eq_zero_iff]
    exact List.mem_map.2 ⟨v, hv, ih v hv hz⟩
  | _ => intros; simp_all [isZero]

theorem eval_isOne {C : Cfg K} (hC : C.Exact) (ρ : Env) :
    ∀ e, isOne C e = true → eval C ρ e = 1 := by
  intro e
  induction e using Expr.ind with
  | hcon c => intro h; simp only [isOne] at h; simpa using (hC.eqInt _ _).1 h
  | hprod vs ih =>
    intro h
    rw [isOne_prod, Bool.and_eq_true, List.all_eq_true] at h
    rw [eval_prod]
    apply List.prod_eq_one
    intro x hx
    obtain ⟨v, hv, rfl⟩ := List.mem_map.1 hx
    exact ih v hv (h.2 v hv)
  | _ => intros; simp_all [isOne]

/-! ### Constructors -/

/-- `con(z)` for a literal. -/
def conI (C : Cfg K) (z : ℤ) : Expr K := .con (C.ofInt z)

/-- `Product(std::vector)` (`EquationObject.cc:384-388`): the factors are sorted. -/
def mkProd (C : Cfg K) (vs : List (Expr K)) : Expr K := .prod (C.srt vs)

/-- `Add(std::vector)` (`EquationObject.cc:1012-1016`): the terms are sorted. -/
def mkAdd (C : Cfg K) (vs : List (Expr K)) : Expr K := .add (C.srt vs)

/-- `operator*` (`EquationObject.hh:555-608`). With neither argument a product the two-argument
constructor is used, which does not sort. -/
def mul (C : Cfg K) (x y : Expr K) : Expr K :=
  if isZero C x || isZero C y then conI C 0
  else if isOne C x then y
  else if isOne C y then x
  else match x, y with
    | .prod xs, .prod ys => mkProd C (xs ++ ys)
    | .prod xs, y => mkProd C (xs ++ [y])
    | x, .prod ys => mkProd C (x :: ys)
    | x, y => .prod [x, y]

/-- `operator+` (`EquationObject.hh:624-673`). -/
def plus (C : Cfg K) (x y : Expr K) : Expr K :=
  if isZero C x then y
  else if isZero C y then x
  else match x, y with
    | .add xs, .add ys => mkAdd C (xs ++ ys)
    | .add xs, y => mkAdd C (xs ++ [y])
    | x, .add ys => mkAdd C (x :: ys)
    | x, y => .add [x, y]

/-- `operator-` (`EquationObject.hh:675-678`). -/
def minus (C : Cfg K) (x y : Expr K) : Expr K := plus C x (mul C (conI C (-1)) y)

section Cons
variable {C : Cfg K} (hC : C.Exact) (ρ : Env)
include hC

@[simp] theorem eval_conI (z : ℤ) : eval C ρ (conI C z) = z := by simp [conI, hC.ofInt]

theorem perm_prod {l l' : List (Expr K)} (h : l.Perm l') :
    (l.map (eval C ρ)).prod = (l'.map (eval C ρ)).prod := (h.map _).prod_eq

theorem eval_mkProd (vs) : eval C ρ (mkProd C vs) = (vs.map (eval C ρ)).prod := by
  rw [mkProd, eval_prod]; exact ((C.srt_perm vs).map _).prod_eq

theorem eval_mkAdd (vs) : eval C ρ (mkAdd C vs) = (vs.map (eval C ρ)).sum := by
  rw [mkAdd, eval_add]; exact ((C.srt_perm vs).map _).sum_eq

/-- `operator*` multiplies. -/
theorem eval_mul (x y : Expr K) : eval C ρ (mul C x y) = eval C ρ x * eval C ρ y := by
  unfold mul
  split
  · rename_i h
    rw [Bool.or_eq_true] at h
    rcases h with h | h <;> simp [eval_isZero hC ρ _ h, eval_conI hC]
  · split
    · rename_i h; simp [eval_isOne hC ρ _ h]
    · split
      · rename_i h; simp [eval_isOne hC ρ _ h]
      · split <;> simp [eval_mkProd hC]

/-- `operator+` adds. -/
theorem eval_plus (x y : Expr K) : eval C ρ (plus C x y) = eval C ρ x + eval C ρ y := by
  unfold plus
  split
  · rename_i h; simp [eval_isZero hC ρ _ h]
  · split
    · rename_i h; simp [eval_isZero hC ρ _ h]
    · split <;> simp [eval_mkAdd hC]

/-- `operator-` subtracts. -/
theorem eval_minus (x y : Expr K) : eval C ρ (minus C x y) = eval C ρ x - eval C ρ y := by
  rw [minus, eval_plus hC, eval_mul hC, eval_conI hC]; push_cast; ring

end Cons

end Verif.Sym
