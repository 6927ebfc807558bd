import Verif.Sym.Deriv
import Verif.Sym.Print
import Verif.MathFn.BernSpec
import Verif.MathFn.Fermi
import Verif.MathFn.GaussDeriv
import Mathlib.Analysis.SpecialFunctions.Arcosh
import Mathlib.Analysis.SpecialFunctions.Arsinh
import Mathlib.Analysis.SpecialFunctions.Artanh
import Mathlib.Analysis.SpecialFunctions.Trigonometric.DerivHyp

/-!
# The derivatives of the functions that come with the program (`DefaultDerivatives.cc`)

The text of the table is the text of the source; it is read by the scanner and parser of `Verif.Sym`.
-/

namespace Verif.MathFn
open Verif.Sym Real

variable {K : Type}

/-! ### Model -/

/-- One `define(f(x1, ...), d1, ...)`. -/
structure Row where
  f : String
  formals : List String
  ders : List String

/-- The `define` commands of `CreateDefaultDerivatives` (`DefaultDerivatives.cc:18-62`), except
`vec_sum`, which is not a function of the values at a point. -/
def rows : List Row :=
  [ ⟨"B", ["x"], ["dBdx(x)"]⟩,
    ⟨"abs", ["x"], ["sgn(x)"]⟩,
    ⟨"erf", ["x"], ["derfdx(x)"]⟩,
    ⟨"erfc", ["x"], ["derfcdx(x)"]⟩,
    ⟨"erf_inv", ["x"], ["derf_invdx(x)"]⟩,
    ⟨"erfc_inv", ["x"], ["derfc_invdx(x)"]⟩,
    ⟨"Fermi", ["x"], ["dFermidx(x)"]⟩,
    ⟨"InvFermi", ["x"], ["dInvFermidx(x)"]⟩,
    ⟨"dot2d", ["ax", "ay", "bx", "by"], ["bx", "by", "ax", "ay"]⟩,
    ⟨"max", ["x", "y"], ["x >= y", "x < y"]⟩,
    ⟨"min", ["x", "y"], ["x <= y", "x > y"]⟩,
    ⟨"kahan3", ["a", "b", "c"], ["1", "1", "1"]⟩,
    ⟨"kahan4", ["a", "b", "c", "d"], ["1", "1", "1", "1"]⟩,
    ⟨"asinh", ["x"], ["((1 + (x^2))^(-1/2))"]⟩,
    ⟨"acosh", ["x"], ["(((x^2) - 1)^(-1/2))"]⟩,
    ⟨"atanh", ["x"], ["((1 - (x^2))^(-1))"]⟩,
    ⟨"sinh", ["x"], ["cosh(x)"]⟩,
    ⟨"cosh", ["x"], ["sinh(x)"]⟩,
    ⟨"tanh", ["x"], ["1 - pow(tanh(x), 2)"]⟩,
    ⟨"gfi", ["x", "y"], ["dgfidx(x,y)", "0"]⟩,
    ⟨"igfi", ["x", "y"], ["digfidx(x,y)", "0"]⟩ ]

/-- The functions that are declared but not defined (`DefaultDerivatives.cc:18-58`), with the number
of arguments. -/
def decls : List (String × Nat) :=
  [("dBdx", 1), ("sgn", 1), ("step", 1), ("derfdx", 1), ("derfcdx", 1), ("derf_invdx", 1),
    ("derfc_invdx", 1), ("dFermidx", 1), ("dInvFermidx", 1), ("dgfidx", 2), ("digfidx", 2)]

/-- The functions the parser knows when these texts are read. -/
def defTables : Tables where
  arity s := match rows.find? (fun r => r.f.toList = s) with
    | some r => some r.formals.length
    | none => (decls.find? (fun d => d.1.toList = s)).map (·.2)
  isModel _ := false

/-- The renaming of the formal arguments to reserved names (`mcParser.y:247-256`). -/
def rename (C : Cfg K) (formals : List Str) (e : Expr K) : Expr K :=
  formals.foldl (fun e x => subst C x (.var ('@' :: x)) e) e

/-- The entry a `define` makes (`mcParser.y:244-263`). -/
def Row.entry (C : Cfg K) (read : Str → K) (r : Row) : List (Str × Option (Expr K)) :=
  List.zipWith (fun x t => ('@' :: x.toList, (parse C defTables read t.toList).map
    (rename C (r.formals.map (·.toList))))) r.formals r.ders

/-- The table after `CreateDefaultDerivatives`: an entry for each `define`, the empty entries of
`CreateUserFunc` (`UserFunc.cc:23-27`) for each `declare`. -/
def defTab (C : Cfg K) (read : Str → K) : UTab K := fun f =>
  match rows.find? (fun r => r.f.toList = f) with
  | some r => r.entry C read
  | none => match decls.find? (fun d => d.1.toList = f) with
    | some d => List.replicate d.2 ([], none)
    | none => []

/-- `min` and `max` (`AdditionalMath.hh:11-35`). -/
noncomputable def minF (x y : ℝ) : ℝ := if x ≤ y then x else y
/-- `max` (`AdditionalMath.hh:24-35`). -/
noncomputable def maxF (x y : ℝ) : ℝ := if x ≥ y then x else y
/-- `step` (`AdditionalMath.hh:37-41`). -/
noncomputable def stepF (x : ℝ) : ℝ := if x ≥ 0 then 1 else 0
/-- `sgn` (`AdditionalMath.hh:43-47`). -/
noncomputable def sgnF (x : ℝ) : ℝ := if x ≥ 0 then 1 else -1

/-! ### Specification -/

/-- What the functions mean (`MathEval.cc:109-173`), in exact arithmetic. -/
structure Std (L : InvErf) (u : Str → List ℝ → ℝ) : Prop where
  B : ∀ x, u "B".toList [x] = bern x
  dBdx : ∀ x, u "dBdx".toList [x] = dbern x
  abs : ∀ x, u "abs".toList [x] = |x|
  sgn : ∀ x, u "sgn".toList [x] = sgnF x
  step : ∀ x, u "step".toList [x] = stepF x
  erf : ∀ x, u "erf".toList [x] = MathFn.erf x
  erfc : ∀ x, u "erfc".toList [x] = MathFn.erfc x
  derfdx : ∀ x, u "derfdx".toList [x] = MathFn.derfdx x
  derfcdx : ∀ x, u "derfcdx".toList [x] = MathFn.derfcdx x
  erf_inv : ∀ x, u "erf_inv".toList [x] = L.erfInv x
  erfc_inv : ∀ x, u "erfc_inv".toList [x] = L.erfcInv x
  derf_invdx : ∀ x, u "derf_invdx".toList [x] = L.derfInvdx x
  derfc_invdx : ∀ x, u "derfc_invdx".toList [x] = L.derfcInvdx x
  invFermi : ∀ x, u "InvFermi".toList [x] = MathFn.invFermi x
  dInvFermidx : ∀ x, u "dInvFermidx".toList [x] = MathFn.dInvFermidx x
  dot2d : ∀ a b c d, u "dot2d".toList [a, b, c, d] = a * c + b * d
  max : ∀ x y, u "max".toList [x, y] = maxF x y
  min : ∀ x y, u "min".toList [x, y] = minF x y
  kahan3 : ∀ a b c, u "kahan3".toList [a, b, c] = a + b + c
  kahan4 : ∀ a b c d, u "kahan4".toList [a, b, c, d] = a + b + c + d
  asinh : ∀ x, u "asinh".toList [x] = arsinh x
  acosh : ∀ x, u "acosh".toList [x] = arcosh x
  atanh : ∀ x, u "atanh".toList [x] = artanh x
  sinh : ∀ x, u "sinh".toList [x] = Real.sinh x
  cosh : ∀ x, u "cosh".toList [x] = Real.cosh x
  tanh : ∀ x, u "tanh".toList [x] = Real.tanh x
  gfi : ∀ z s, u "gfi".toList [z, s] = gfiH (L.hOf s) z s
  dgfidx : ∀ z s, u "dgfidx".toList [z, s] = dgfidxH (L.hOf s) z s

/-- Where each function is differentiable, with the derivative of the table. The list is the arguments
that must not move (the second argument of `gfi`). -/
inductive Smooth : String → List ℝ → List Bool → Prop
  | B (x) : Smooth "B" [x] [false]
  | abs (x) : x ≠ 0 → Smooth "abs" [x] [false]
  | sgn (x) : x ≠ 0 → Smooth "sgn" [x] [false]
  | step (x) : x ≠ 0 → Smooth "step" [x] [false]
  | erf (x) : Smooth "erf" [x] [false]
  | erfc (x) : Smooth "erfc" [x] [false]
  | erf_inv (x) : -1 < x → x < 1 → Smooth "erf_inv" [x] [false]
  | erfc_inv (x) : 0 < x → x < 2 → Smooth "erfc_inv" [x] [false]
  | invFermi (x) : 0 < x → x < fBreak → Smooth "InvFermi" [x] [false]
  | dot2d (a b c d) : Smooth "dot2d" [a, b, c, d] [false, false, false, false]
  | max (x y) : x ≠ y → Smooth "max" [x, y] [false, false]
  | min (x y) : x ≠ y → Smooth "min" [x, y] [false, false]
  | kahan3 (a b c) : Smooth "kahan3" [a, b, c] [false, false, false]
  | kahan4 (a b c d) : Smooth "kahan4" [a, b, c, d] [false, false, false, false]
  | asinh (x) : Smooth "asinh" [x] [false]
  | acosh (x) : 1 < x → Smooth "acosh" [x] [false]
  | atanh (x) : -1 < x → x < 1 → Smooth "atanh" [x] [false]
  | sinh (x) : Smooth "sinh" [x] [false]
  | cosh (x) : Smooth "cosh" [x] [false]
  | tanh (x) : Smooth "tanh" [x] [false]
  | gfi (z s) : s ≠ 0 → Smooth "gfi" [z, s] [false, true]

/-- The digits of the table are read as numbers. -/
structure Reads (C : Cfg K) (read : Str → K) : Prop where
  zero : C.val (read ['0']) = 0
  one : C.val (read ['1']) = 1
  two : C.val (read ['2']) = 2

/-- No name in the expression starts with the reserved character. -/
def NoReserved (C : Cfg K) (e : Expr K) : Prop :=
  ∀ x : Str, '@' :: x ∉ varRefs C e ∧ '@' :: x ∉ modelRefs C e

/-! ### The texts -/

mutual
/-- Equality of parsed expressions, as a program. -/
def rawSame : Raw → Raw → Bool
  | .num a, .num b => a = b
  | .name a, .name b => a = b
  | .call f as, .call g bs => decide (f = g) && rawSameL as bs
  | .neg a, .neg b => rawSame a b
  | .pos a, .pos b => rawSame a b
  | .not a, .not b => rawSame a b
  | .bin o a b, .bin o' a' b' => decide (o = o') && rawSame a a' && rawSame b b'
  | _, _ => false
def rawSameL : List Raw → List Raw → Bool
  | [], [] => true
  | a :: as, b :: bs => rawSame a b && rawSameL as bs
  | _, _ => false
end

mutual
theorem rawSame_eq : ∀ a b : Raw, rawSame a b = true → a = b
  | .num a, b, h => by cases b <;> simp_all [rawSame]
  | .name a, b, h => by cases b <;> simp_all [rawSame]
  | .call f as, b, h => by
    cases b <;> simp only [rawSame, Bool.and_eq_true, decide_eq_true_eq, Bool.false_eq_true] at h
    rw [h.1, rawSameL_eq as _ h.2]
  | .neg a, b, h => by
    cases b <;> simp only [rawSame, Bool.false_eq_true] at h
    rw [rawSame_eq a _ h]
  | .pos a, b, h => by
    cases b <;> simp only [rawSame, Bool.false_eq_true] at h
    rw [rawSame_eq a _ h]
  | .not a, b, h => by
    cases b <;> simp only [rawSame, Bool.false_eq_true] at h
    rw [rawSame_eq a _ h]
  | .bin o a b, c, h => by
    cases c <;> simp only [rawSame, Bool.and_eq_true, decide_eq_true_eq, Bool.false_eq_true] at h
    rw [h.1.1, rawSame_eq a _ h.1.2, rawSame_eq b _ h.2]
theorem rawSameL_eq : ∀ as bs : List Raw, rawSameL as bs = true → as = bs
  | [], [], _ => rfl
  | [], _ :: _, h => by simp [rawSameL] at h
  | _ :: _, [], h => by simp [rawSameL] at h
  | a :: as, b :: bs, h => by
    simp only [rawSameL, Bool.and_eq_true] at h
    rw [rawSame_eq a b h.1, rawSameL_eq as bs h.2]
end

/-- The text `t` is parsed as `r`, as a program. -/
def reads (t : String) (r : Raw) : Bool :=
  match parseRaw defTables.fn t.toList with
  | some r' => rawSame r' r
  | none => false

mutual
/-- The semantic actions succeed, as a program. -/
def actsB : Raw → Bool
  | .num _ => true
  | .name _ => true
  | .call f as => actsBL as &&
      (if f = ['e', 'x', 'p'] then as.length == 1
      else if f = ['l', 'o', 'g'] then as.length == 1
      else if f = ['p', 'o', 'w'] then as.length == 2
      else !builtins.contains f && defTables.arity f == some as.length)
  | .neg r => actsB r
  | .pos r => actsB r
  | .not r => actsB r
  | .bin _ a b => actsB a && actsB b
def actsBL : List Raw → Bool
  | [] => true
  | r :: rs => actsB r && actsBL rs
end

section
variable (C : Cfg K) (read : Str → K)

mutual
theorem acts_of_actsB : ∀ r : Raw, actsB r = true → Acts C defTables read r
  | .num s, _ => ⟨_, rfl⟩
  | .name s, _ => ⟨_, rfl⟩
  | .call f as, h => by
    simp only [actsB, Bool.and_eq_true] at h
    obtain ⟨es, he, hl⟩ := actsL_of_actsBL as h.1
    have h2 := h.2
    unfold Acts
    simp only [act, he]
    unfold callAct
    split_ifs at h2 ⊢
    · have : es.length = 1 := by simpa [hl] using h2
      match es, this with
      | [a], _ => exact ⟨_, rfl⟩
    · have : es.length = 1 := by simpa [hl] using h2
      match es, this with
      | [a], _ => exact ⟨_, rfl⟩
    · have : es.length = 2 := by simpa [hl] using h2
      match es, this with
      | [a, b], _ => exact ⟨_, rfl⟩
    · simp_all
    · exact ⟨_, rfl⟩
    · simp_all
  | .neg r, h => by
    obtain ⟨e, he⟩ := acts_of_actsB r (by simpa only [actsB] using h)
    exact ⟨negAct C e, by simp only [act, he, Option.map_some]⟩
  | .pos r, h => by
    obtain ⟨e, he⟩ := acts_of_actsB r (by simpa only [actsB] using h)
    exact ⟨e, by simp only [act, he]⟩
  | .not r, h => by
    obtain ⟨e, he⟩ := acts_of_actsB r (by simpa only [actsB] using h)
    exact ⟨.ulog e, by simp only [act, he, Option.map_some]⟩
  | .bin o a b, h => by
    simp only [actsB, Bool.and_eq_true] at h
    obtain ⟨e, he⟩ := acts_of_actsB a h.1
    obtain ⟨e', he'⟩ := acts_of_actsB b h.2
    exact ⟨binAct C o e e', by simp only [act, he, he']⟩
theorem actsL_of_actsBL : ∀ rs : List Raw, actsBL rs = true →
    ∃ es, actL C defTables read rs = some es ∧ es.length = rs.length
  | [], _ => ⟨[], rfl, rfl⟩
  | r :: rs, h => by
    simp only [actsBL, Bool.and_eq_true] at h
    obtain ⟨e, he⟩ := acts_of_actsB r h.1
    obtain ⟨es, hes, hl⟩ := actsL_of_actsBL rs h.2
    exact ⟨e :: es, by simp only [actL, he, hes], by simp [hl]⟩
end

end

/-- Plain names: usable as formal arguments, not reserved. -/
def plainB (x : Str) : Bool :=
  match x with
  | [] => false
  | c :: cs => c.isAlpha && cs.all fun d => d.isAlphanum || d == '_'

theorem plainB_name {x : Str} (h : plainB x = true) : NameText x ∧ NameText ('@' :: x) ∧
    ∀ y, x ≠ '@' :: y := by
  cases x with
  | nil => cases h
  | cons c cs =>
    simp only [plainB, Bool.and_eq_true, List.all_eq_true, Bool.or_eq_true, beq_iff_eq] at h
    have ht : ∀ d ∈ c :: cs, d.isAlphanum ∨ d = '_' ∨ d = ':' ∨ d = '@' := by
      intro d hd
      rcases List.mem_cons.1 hd with rfl | hd
      · left; simp [Char.isAlphanum, h.1]
      · rcases h.2 d hd with h | h
        · exact .inl h
        · exact .inr (.inl h)
    refine ⟨⟨⟨c, cs, rfl, .inl h.1⟩, ht⟩, ⟨⟨'@', c :: cs, rfl, .inr rfl⟩, ?_⟩, ?_⟩
    · intro d hd
      rcases List.mem_cons.1 hd with rfl | hd
      · simp
      · exact ht d hd
    · rintro y hy
      cases hy
      exact absurd h.1 (by decide)

theorem binds_v_of_not_mem (ρ : Env) (x : Str) : ∀ (fs : List Str) (vs : List ℝ), x ∉ fs →
    (ρ.binds fs vs).v x = ρ.v x
  | [], _, _ => by simp [Env.binds]
  | _ :: _, [], _ => by simp [Env.binds]
  | f :: fs, v :: vs, h => by
    simp only [List.mem_cons, not_or] at h
    rw [Env.binds, Env.bind]
    simp only [Function.update_of_ne h.1]
    exact binds_v_of_not_mem ρ x fs vs h.2

theorem binds_u (ρ : Env) : ∀ (fs : List Str) (vs : List ℝ), (ρ.binds fs vs).u = ρ.u
  | [], _ => by simp [Env.binds]
  | _ :: _, [] => by simp [Env.binds]
  | f :: fs, v :: vs => by rw [Env.binds, Env.bind]; exact binds_u ρ fs vs

section
variable {C : Cfg K} (hC : C.Exact) (hF : C.DigitFirst)
include hC hF

/-- The renamed expression, with the reserved names bound, has the value of the original with the plain
names bound. -/
theorem eval_rename : ∀ (fs : List Str) (vs : List ℝ) (ρ : Env) (e : Expr K),
    (∀ x ∈ fs, plainB x = true) → fs.length = vs.length →
    (∀ (i : ℕ) (h : i < fs.length) (h' : i < vs.length), ρ.v ('@' :: fs[i]) = vs[i]) →
    eval C ρ (rename C fs e) = eval C (ρ.binds fs vs) e
  | [], [], ρ, e, _, _, _ => by simp [rename, Env.binds]
  | [], _ :: _, _, _, _, h, _ => by simp at h
  | _ :: _, [], _, _, _, h, _ => by simp at h
  | f :: fs, v :: vs, ρ, e, hp, hl, hv => by
    have hpl := fun x hx => plainB_name (hp x hx)
    have h1 : rename C (f :: fs) e = rename C fs (subst C f (.var ('@' :: f)) e) := rfl
    rw [h1, eval_rename fs vs ρ _ (fun x hx => hp x (by simp [hx])) (by simpa using hl)
      (fun i h h' => hv (i + 1) (by simpa using h) (by simpa using h')),
      subst_eval hC hF (hpl f (by simp)).1, Env.binds, eval_var, binds_v_of_not_mem]
    · rw [show ρ.v ('@' :: f) = v from hv 0 (by simp) (by simp)]
    · intro h
      exact (hpl _ (List.mem_cons_of_mem _ h)).2.2 f rfl

/-- The value of one partial derivative of the table. -/
theorem partial_eq {read : Str → K} {t : String} {r : Raw} (h1 : reads t r = true)
    (h2 : actsB r = true) (fs : List Str) (vs : List ℝ) (ρ : Env)
    (hp : ∀ x ∈ fs, plainB x = true) (hl : fs.length = vs.length) (hn : fs.Nodup) :
    partialAt C ρ (fs.map ('@' :: ·)) vs ((parse C defTables read t.toList).map (rename C fs))
      = rv C defTables read ((ρ.binds (fs.map ('@' :: ·)) vs).binds fs vs) r := by
  have h3 : parseRaw defTables.fn t.toList = some r := by
    unfold reads at h1
    split at h1
    · rename_i r' hr; rw [hr, rawSame_eq _ _ h1]
    · cases h1
  obtain ⟨e, he⟩ := acts_of_actsB C read r h2
  have h4 : parse C defTables read t.toList = some e := by simp only [parse, h3, he]
  rw [h4, Option.map_some, partialAt, eval_rename hC hF fs vs _ e hp hl ?_,
    eval_act hC defTables read _ r e he]
  intro i h h'
  clear hl
  induction fs generalizing vs i with
  | nil => simp at h
  | cons f fs ih =>
    cases vs with
    | nil => simp at h'
    | cons v vs =>
      rw [List.map_cons, Env.binds, Env.bind]
      cases i with
      | zero => simp
      | succ i =>
        simp only [List.getElem_cons_succ]
        have hne : '@' :: fs[i]'(by simpa using h) ≠ '@' :: f := by
          intro heq
          simp only [List.cons.injEq, true_and] at heq
          exact (List.nodup_cons.1 hn).1 (heq ▸ List.getElem_mem _)
        rw [Function.update_of_ne hne]
        exact ih vs (fun x hx => hp x (by simp [hx])) (List.nodup_cons.1 hn).2 i _ _

end

end Verif.MathFn
