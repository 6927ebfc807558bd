import Verif.Sym.Refs
import Mathlib.Analysis.SpecialFunctions.Pow.Deriv
import Mathlib.Analysis.SpecialFunctions.ExpDeriv
import Mathlib.Analysis.SpecialFunctions.Log.Deriv
import Mathlib.Analysis.Calculus.Deriv.Pi
import Mathlib.Analysis.Calculus.Deriv.Comp

/-!
# Differentiation (`Derivative`, property C01)
-/

namespace Verif.Sym

variable {K : Type}

/-! ### Model -/

/-- `UserFuncMap` (`UserFunc.cc:20-54`): for every function its formal arguments with the
expression of the partial derivative (a null pointer for a function that is only declared). -/
abbrev UTab (K : Type) := Str → List (Str × Option (Expr K))

/-- The common end of `Add::Derivative` and `Product::Derivative`
(`EquationObject.cc:468-474`, `1055-1061`). -/
def sumOf (C : Cfg K) : List (Expr K) → Expr K
  | [] => conI C 0
  | [e] => e
  | es => mkAdd C es

/-- The contribution of one factor with derivative `d` to the derivative of a product, `others`
being the other factors (`EquationObject.cc:446-465`). -/
def prodTerm (C : Cfg K) (d : Expr K) (others : List (Expr K)) : List (Expr K) :=
  if isZero C d then []
  else match (if isOne C d then [] else [d]) ++ others with
    | [] => []
    | [e] => [e]
    | es => [mkProd C es]

/-- The loop of `Product::Derivative` (`EquationObject.cc:443-466`): `pre` are the factors already
visited, `vs` those to come with derivatives `ds`. -/
def prodTerms (C : Cfg K) (pre : List (Expr K)) : List (Expr K) → List (Expr K) → List (Expr K)
  | v :: vs, d :: ds => prodTerm C d (pre ++ vs) ++ prodTerms C (pre ++ [v]) vs ds
  | _, _ => []

/-- `Pow::Derivative` (`EquationObject.cc:1573-1622`), from the derivatives `db`, `de` of base and
exponent. -/
def powDeriv (C : Cfg K) (b e db de : Expr K) : Expr K :=
  match e with
  | .con c =>
    if C.eqInt c 0 || b.isCon then conI C 0
    else if C.eqInt c 1 then db
    else if C.eqInt c 2 then mul C (mul C (conI C 2) b) db
    else mul C (mul C (.con c) (.pow b (.con (C.add c (C.ofInt (-1)))))) db
  | e =>
    if b.isCon then
      if isZero C b || isOne C b then conI C 0
      else mul C (mul C (.log b) (.pow b e)) de
    else plus C (mul C (mul C e (.pow b (minus C e (conI C 1)))) db)
      (mul C (mul C (.log b) (.pow (clone C b) (clone C e))) de)

/-- The substitution loop of `UserFunc::Derivative` (`UserFunc.cc:126-130`). -/
def substAll (C : Cfg K) (formals : List Str) (as : List (Expr K)) (x : Expr K) : Expr K :=
  (formals.zip as).foldl (fun x p => subst C p.1 p.2 x) x

/-- One argument of `UserFunc::Derivative` (`UserFunc.cc:112-142`): `p` the expression of the
partial derivative, `y` the derivative of the argument. -/
def userTerm (C : Cfg K) (formals : List Str) (as : List (Expr K)) (p : Option (Expr K))
    (y : Expr K) : Expr K :=
  if isZero C y then conI C 0
  else if isOne C y then substAll C formals as (p.getD (conI C 0))
  else mul C (substAll C formals as (p.getD (conI C 0))) y

/-- The end of `UserFunc::Derivative` (`UserFunc.cc:143-147`). -/
def sumUser (C : Cfg K) : List (Expr K) → Expr K
  | [e] => e
  | es => mkAdd C es

mutual
/-- `Derivative(foo)` of every class, with `s` the text of `foo` (`EquationObject.cc:199-205`,
`307-311`, `434-479`, `1041-1065`, `1332-1342`, `1443-1456`, `1573-1622`, `UserFunc.cc:106-148`,
`LogicalFunc.cc:32-35`, `134-137`, `mcModel.cc:62-91`). The derivative `md m s` of a model is a
parameter here: in the code it is a constant zero or the name of another model. -/
def deriv (C : Cfg K) (T : UTab K) (md : Str → Str → Expr K) (s : Str) : Expr K → Expr K
  | .con _ => conI C 0
  | .var x => if s = x then conI C 1 else conI C 0
  | .model m => if s = m then conI C 1 else md m s
  | .add vs => sumOf C ((derivL C T md s vs).filter fun d => !isZero C d)
  | .prod vs => sumOf C (prodTerms C [] vs (derivL C T md s vs))
  | .exp a => if a.isCon then conI C 0 else mul C (deriv C T md s a) (.exp a)
  | .log a =>
    if a.isCon then conI C 0 else mul C (deriv C T md s a) (.pow a (conI C (-1)))
  | .pow b e => powDeriv C b e (deriv C T md s b) (deriv C T md s e)
  | .user f as => sumUser C (List.zipWith (userTerm C ((T f).map (·.1)) as) ((T f).map (·.2))
      (derivL C T md s as))
  | .blog _ _ _ => conI C 0
  | .ulog _ => conI C 0
def derivL (C : Cfg K) (T : UTab K) (md : Str → Str → Expr K) (s : Str) :
    List (Expr K) → List (Expr K)
  | [] => []
  | v :: vs => deriv C T md s v :: derivL C T md s vs
end

theorem derivL_eq (C : Cfg K) (T : UTab K) (md s) :
    ∀ vs, derivL C T md s vs = vs.map (deriv C T md s)
  | [] => rfl
  | v :: vs => by simp only [derivL, List.map_cons, derivL_eq C T md s vs]

/-! ### Specification -/

/-- A curve of environments along which the name `s` is the coordinate: `s` moves with speed one, the
other variables are at rest, a model moves with the speed its derivative expression says, the
functions do not change. -/
structure Curve (C : Cfg K) (md : Str → Str → Expr K) (s : Str) (γ : ℝ → Env) (t : ℝ) : Prop where
  var : ∀ y, HasDerivAt (fun τ => (γ τ).v y) (if s = y then 1 else 0) t
  model : ∀ m, HasDerivAt (fun τ => (γ τ).m m)
    (if s = m then 1 else eval C (γ t) (md m s)) t
  func : ∀ τ, (γ τ).u = (γ t).u

/-- The environment in which each formal argument means the value of the argument. -/
noncomputable def Env.binds (ρ : Env) : List Str → List ℝ → Env
  | x :: xs, a :: as => (ρ.binds xs as).bind x a
  | _, _ => ρ

/-- The partial derivative a function table gives: the value of the expression with the formal
arguments bound to the values of the arguments, zero for a function that is only declared. -/
noncomputable def partialAt (C : Cfg K) (ρ : Env) (formals : List Str) (vals : List ℝ) :
    Option (Expr K) → ℝ
  | none => 0
  | some p => eval C (ρ.binds formals vals) p

/-- The function `f` is differentiable at the values of the arguments, with the partial derivatives
the table declares, and the declaration is usable: as many entries as arguments; formal arguments that
are names occurring in none of the arguments, or no formal arguments and no derivatives at all (a
function that is only declared). Arguments marked by `fx` are held at their value: the derivative
by them does not matter. -/
structure UserOK (C : Cfg K) (T : UTab K) (ρ : Env) (f : Str) (as : List (Expr K))
    (fx : Fin as.length → Bool) : Prop where
  len : (T f).length = as.length
  names : (∀ p ∈ T f, NameText p.1) ∨ ∀ p ∈ T f, p = ([], none)
  fresh : ∀ p ∈ T f, p.1 ≠ [] → ∀ a ∈ as, p.1 ∉ varRefs C a ∧ p.1 ∉ modelRefs C a
  diff : HasFDerivAt (fun w : Fin as.length → ℝ =>
      ρ.u f (List.ofFn fun i => if fx i then eval C ρ as[i] else w i))
    (∑ i : Fin as.length, (if fx i then 0 else
      partialAt C ρ ((T f).map (·.1)) (as.map (eval C ρ)) (((T f).map (·.2)).getD i none)) •
        ContinuousLinearMap.proj (R := ℝ) (φ := fun _ : Fin as.length => ℝ) i)
    (fun i => eval C ρ as[i])

/-- Where `b ^ e` is differentiable: a positive base; or a constant exponent, with a nonzero base or
an exponent at least one (or both constant, or exponent zero); or base one; or base zero and an
exponent that does not vanish. -/
def PowOK (C : Cfg K) (ρ : Env) (b e : Expr K) : Prop :=
  0 < eval C ρ b ∨
  (∃ c, e = .con c ∧ (b.isCon = true ∨ C.val c = 0 ∨ eval C ρ b ≠ 0 ∨ 1 ≤ C.val c)) ∨
  (∃ c, b = .con c ∧ C.val c = 0 ∧ eval C ρ e ≠ 0)

/-- Every part of the expression is differentiable at the point: logarithms of positive numbers,
powers as in `PowOK`, functions with the declared derivatives by the arguments that move, logical expressions away from
their switching points. -/
inductive Regular (C : Cfg K) (T : UTab K) (γ : ℝ → Env) (t : ℝ) : Expr K → Prop
  | con (c) : Regular C T γ t (.con c)
  | var (x) : Regular C T γ t (.var x)
  | model (m) : Regular C T γ t (.model m)
  | add {vs} : (∀ v ∈ vs, Regular C T γ t v) → Regular C T γ t (.add vs)
  | prod {vs} : (∀ v ∈ vs, Regular C T γ t v) → vs.length ≠ 1 → Regular C T γ t (.prod vs)
  | exp {a} : Regular C T γ t a → Regular C T γ t (.exp a)
  | log {a} : Regular C T γ t a → 0 < eval C (γ t) a → Regular C T γ t (.log a)
  | pow {b e} : Regular C T γ t b → Regular C T γ t e → PowOK C (γ t) b e →
      Regular C T γ t (.pow b e)
  | user {f as} (fx : Fin as.length → Bool) : (∀ v ∈ as, Regular C T γ t v) →
      (∀ i, fx i = true → ∀ᶠ τ in nhds t, eval C (γ τ) as[i] = eval C (γ t) as[i]) →
      UserOK C T (γ t) f as fx → Regular C T γ t (.user f as)
  | blog {op a b} : ContinuousAt (fun τ => eval C (γ τ) (.blog op a b)) t →
      Regular C T γ t (.blog op a b)
  | ulog {a} : ContinuousAt (fun τ => eval C (γ τ) (.ulog a)) t → Regular C T γ t (.ulog a)

/-! ### Proof -/

section Parts
variable {C : Cfg K} (hC : C.Exact) (ρ : Env)
include hC

theorem eval_sumOf (es : List (Expr K)) : eval C ρ (sumOf C es) = (es.map (eval C ρ)).sum := by
  unfold sumOf
  split
  · simp [eval_conI hC]
  · simp
  · rw [eval_mkAdd hC]

theorem sum_filter_zero (es : List (Expr K)) :
    ((es.filter fun d => !isZero C d).map (eval C ρ)).sum = (es.map (eval C ρ)).sum := by
  induction es with
  | nil => rfl
  | cons e es ih =>
    rw [List.filter_cons]
    cases h : isZero C e with
    | true => simp [ih, eval_isZero hC ρ e h]
    | false => simp [ih]

theorem eval_prodTerm (d : Expr K) (others : List (Expr K)) (hne : others ≠ []) :
    ((prodTerm C d others).map (eval C ρ)).sum
      = eval C ρ d * (others.map (eval C ρ)).prod := by
  unfold prodTerm
  split
  · rename_i h; simp [eval_isZero hC ρ d h]
  · have h : (((if isOne C d then [] else [d]) ++ others).map (eval C ρ)).prod
        = eval C ρ d * (others.map (eval C ρ)).prod := by
      split
      · rename_i h; simp [eval_isOne hC ρ d h]
      · simp
    rw [← h]
    have hne' : ((if isOne C d then [] else [d]) ++ others) ≠ [] := by simp [hne]
    generalize (if isOne C d then [] else [d]) ++ others = l at hne' ⊢
    split
    · exact absurd rfl hne'
    · simp
    · rw [List.map_singleton, List.sum_singleton, eval_mkProd hC]

/-- The derivative of a product, as a sum over the factors. -/
noncomputable def leibniz : List ℝ → List ℝ → ℝ
  | v :: vs, d :: ds => d * vs.prod + v * leibniz vs ds
  | _, _ => 0

theorem eval_prodTerms (pre vs ds : List (Expr K)) (hl : vs.length = ds.length)
    (hne : pre.length + vs.length ≠ 1) :
    ((prodTerms C pre vs ds).map (eval C ρ)).sum
      = (pre.map (eval C ρ)).prod * leibniz (vs.map (eval C ρ)) (ds.map (eval C ρ)) := by
  induction vs generalizing pre ds with
  | nil => simp [prodTerms, leibniz]
  | cons v vs ih =>
    match ds, hl with
    | d :: ds, hl =>
      rw [prodTerms, List.map_append, List.sum_append, eval_prodTerm hC, ih]
      · simp only [List.map_append, List.prod_append, List.map_cons, List.map_nil, List.prod_cons,
          List.prod_nil, leibniz]
        ring
      · simpa using hl
      · simp only [List.length_append, List.length_singleton, List.length_cons] at hne ⊢; omega
      · intro h
        have := congrArg List.length h
        simp only [List.length_append, List.length_nil, List.length_cons] at this hne
        omega

theorem eval_binds_fresh (ρ : Env) (formals : List Str) (vals : List ℝ) (a : Expr K)
    (hf : ∀ x ∈ formals, x ∉ varRefs C a ∧ x ∉ modelRefs C a) :
    eval C (ρ.binds formals vals) a = eval C ρ a := by
  induction formals generalizing vals with
  | nil => cases vals <;> rfl
  | cons x xs ih =>
    cases vals with
    | nil => rfl
    | cons v vals =>
      rw [Env.binds, eval_bind_fresh C _ _ _ _ (hf x (by simp)).1 (hf x (by simp)).2]
      exact ih vals fun y hy => hf y (by simp [hy])

theorem eval_substAll (hF : C.DigitFirst) (formals : List Str) (as : List (Expr K)) (x : Expr K)
    (hn : ∀ s ∈ formals, NameText s)
    (hf : ∀ s ∈ formals, ∀ a ∈ as, s ∉ varRefs C a ∧ s ∉ modelRefs C a) :
    eval C ρ (substAll C formals as x) = eval C (ρ.binds formals (as.map (eval C ρ))) x := by
  induction formals generalizing as x with
  | nil => cases as <;> rfl
  | cons s ss ih =>
    cases as with
    | nil => rfl
    | cons a as =>
      have h := ih as (subst C s a x) (fun s' h => hn s' (by simp [h]))
        (fun s' h a' ha => hf s' (by simp [h]) a' (by simp [ha]))
      have h' : substAll C (s :: ss) (a :: as) x = substAll C ss as (subst C s a x) := rfl
      rw [h', h, subst_eval hC hF (hn s (by simp)), List.map_cons, Env.binds,
        eval_binds_fresh hC ρ ss _ a (fun s' h => hf s' (by simp [h]) a (by simp))]

theorem eval_userTerm (hF : C.DigitFirst) (formals : List Str) (as : List (Expr K))
    (p : Option (Expr K)) (y : Expr K) (hn : ∀ s ∈ formals, NameText s)
    (hf : ∀ s ∈ formals, ∀ a ∈ as, s ∉ varRefs C a ∧ s ∉ modelRefs C a) :
    eval C ρ (userTerm C formals as p y)
      = partialAt C ρ formals (as.map (eval C ρ)) p * eval C ρ y := by
  have h : eval C ρ (substAll C formals as (p.getD (conI C 0)))
      = partialAt C ρ formals (as.map (eval C ρ)) p := by
    rw [eval_substAll hC ρ hF formals as _ hn hf]
    cases p <;> simp [partialAt, eval_conI hC]
  unfold userTerm
  split
  · rename_i hz; simp [eval_conI hC, eval_isZero hC ρ y hz]
  · split
    · rename_i h1; rw [h, eval_isOne hC ρ y h1, mul_one]
    · rw [eval_mul hC, h]

/-- A function that is only declared: the derivative is zero. -/
theorem eval_userTerm_none (hF : C.DigitFirst) (formals : List Str) (as : List (Expr K))
    (y : Expr K) (hn : ∀ s ∈ formals, s = []) :
    eval C ρ (userTerm C formals as none y)
      = partialAt C ρ formals (as.map (eval C ρ)) none * eval C ρ y := by
  have h0 : ∀ c : K, ([] : Str) ≠ str C (.con c) := by
    intro c h
    have h' := congrArg List.length h
    rw [str, ptree_con] at h'
    split at h'
    · obtain ⟨rest, hr⟩ := render_paren UOp.neg (.num (C.fmt (C.neg c))) .nil
      rw [hr] at h'; simp at h'
    · obtain ⟨d, ds, h1, -⟩ := hF c
      simp only [render, h1, List.length_nil, List.length_cons] at h'
      omega
  have h1 : substAll C formals as (conI C 0) = conI C 0 := by
    have : ∀ l : List (Str × Expr K), (∀ p ∈ l, p.1 = []) →
        l.foldl (fun x p => subst C p.1 p.2 x) (conI C 0) = conI C 0 := by
      intro l
      induction l with
      | nil => intro _; rfl
      | cons p l ih =>
        intro h
        rw [List.foldl_cons, h p (by simp)]
        have : subst C [] p.2 (conI C 0) = conI C 0 := by
          unfold conI
          simp only [subst, h0, if_false]
        rw [this]
        exact ih fun q hq => h q (by simp [hq])
    refine this _ fun p hp => hn p.1 ?_
    exact (List.of_mem_zip hp).1
  unfold userTerm
  split
  · simp [eval_conI hC, partialAt]
  · split
    · simp [h1, eval_conI hC, partialAt]
    · rw [eval_mul hC]; simp [h1, eval_conI hC, partialAt]

theorem eval_sumUser (es : List (Expr K)) :
    eval C ρ (sumUser C es) = (es.map (eval C ρ)).sum := by
  unfold sumUser
  split
  · simp
  · rw [eval_mkAdd hC]

end Parts

theorem hasDerivAt_list_sum {fs : List (ℝ → ℝ)} {ds : List ℝ} {t : ℝ}
    (h : List.Forall₂ (fun f d => HasDerivAt f d t) fs ds) :
    HasDerivAt (fun τ => (fs.map (· τ)).sum) ds.sum t := by
  induction h with
  | nil => simpa using hasDerivAt_const t (0 : ℝ)
  | cons h1 _ ih => simpa using HasDerivAt.fun_add h1 ih

theorem hasDerivAt_list_prod {fs : List (ℝ → ℝ)} {ds : List ℝ} {t : ℝ}
    (h : List.Forall₂ (fun f d => HasDerivAt f d t) fs ds) :
    HasDerivAt (fun τ => (fs.map (· τ)).prod) (leibniz (fs.map (· t)) ds) t := by
  induction h with
  | nil => simpa [leibniz] using hasDerivAt_const t (1 : ℝ)
  | cons h1 _ ih => simpa [leibniz] using HasDerivAt.fun_mul h1 ih

/-- A function that takes only the values 0 and 1 and is continuous at a point has derivative
zero there. -/
theorem hasDerivAt_zero_of_01 {f : ℝ → ℝ} {t : ℝ} (h01 : ∀ τ, f τ = 0 ∨ f τ = 1)
    (hc : ContinuousAt f t) : HasDerivAt f 0 t := by
  have h : ∀ᶠ τ in nhds t, f τ = f t := by
    have := (Metric.continuousAt_iff.1 hc) (1 / 2) (by norm_num)
    obtain ⟨δ, hδ, hd⟩ := this
    refine Metric.eventually_nhds_iff.2 ⟨δ, hδ, fun {τ} hτ => ?_⟩
    have := hd hτ
    rw [Real.dist_eq] at this
    rcases h01 τ with h | h <;> rcases h01 t with h' | h' <;> rw [h, h'] at this ⊢ <;>
      norm_num at this
  exact (hasDerivAt_const t (f t)).congr_of_eventuallyEq h

theorem LOp.sem_01 (op : LOp) (a b : ℝ) : op.sem a b = 0 ∨ op.sem a b = 1 := by
  cases op <;> simp only [LOp.sem] <;> split <;> simp

theorem notSem_01 (a : ℝ) : notSem a = 0 ∨ notSem a = 1 := by
  unfold notSem; split <;> simp

theorem hasDerivAt_pow {C : Cfg K} (hC : C.Exact) {ρ : ℝ → Env} {t : ℝ} {b e db de : Expr K}
    (hb : HasDerivAt (fun τ => eval C (ρ τ) b) (eval C (ρ t) db) t)
    (he : HasDerivAt (fun τ => eval C (ρ τ) e) (eval C (ρ t) de) t)
    (h : PowOK C (ρ t) b e) :
    HasDerivAt (fun τ => eval C (ρ τ) (.pow b e)) (eval C (ρ t) (powDeriv C b e db de)) t := by
  simp only [eval_pow]
  by_cases hce : ∃ c, e = .con c
  · -- constant exponent
    obtain ⟨c, rfl⟩ := hce
    simp only [eval_con]
    have hOK : b.isCon = true ∨ C.val c = 0 ∨ eval C (ρ t) b ≠ 0 ∨ 1 ≤ C.val c := by
      rcases h with h | ⟨c', h1, h2⟩ | ⟨c', h1, h2, h3⟩
      · exact .inr (.inr (.inl h.ne'))
      · cases h1; exact h2
      · subst h1; exact .inl rfl
    simp only [powDeriv]
    by_cases hb0 : b.isCon = true
    · rw [hb0, Bool.or_true, if_pos rfl, eval_conI hC]
      obtain ⟨d, rfl⟩ : ∃ d, b = .con d := by
        cases b <;> first | exact ⟨_, rfl⟩ | cases hb0
      simpa using hasDerivAt_const t (C.val d ^ C.val c)
    · by_cases hc0 : C.eqInt c 0 = true
      · rw [hc0, Bool.true_or, if_pos rfl, eval_conI hC]
        have := (hC.eqInt _ _).1 hc0
        simpa [this] using hasDerivAt_const t (1 : ℝ)
      · rw [if_neg (by simp [hb0, hc0])]
        have hc0' : C.val c ≠ 0 := fun h => hc0 ((hC.eqInt _ _).2 (by simpa using h))
        have hOK' : eval C (ρ t) b ≠ 0 ∨ 1 ≤ C.val c := by
          rcases hOK with h | h | h | h
          · exact absurd h hb0
          · exact absurd h hc0'
          · exact .inl h
          · exact .inr h
        have hd := HasDerivAt.rpow_const hb hOK'
        split
        · rename_i h1
          have := (hC.eqInt _ _).1 h1
          simpa [this] using hd
        · split
          · rename_i h2
            have := (hC.eqInt _ _).1 h2
            rw [eval_mul hC, eval_mul hC, eval_conI hC]
            convert hd using 1
            rw [this]; push_cast; norm_num; ring
          · rw [eval_mul hC, eval_mul hC, eval_con, eval_pow, eval_con, hC.add, hC.ofInt]
            convert hd using 1
            push_cast
            rw [← sub_eq_add_neg]; ring
  · -- the exponent is not a constant
    have hp : powDeriv C b e db de =
        if b.isCon then
          if isZero C b || isOne C b then conI C 0
          else mul C (mul C (.log b) (.pow b e)) de
        else plus C (mul C (mul C e (.pow b (minus C e (conI C 1)))) db)
          (mul C (mul C (.log b) (.pow (clone C b) (clone C e))) de) := by
      cases e <;> first | rfl | exact absurd ⟨_, rfl⟩ hce
    rw [hp]
    have hOK : 0 < eval C (ρ t) b ∨ (∃ c, b = .con c ∧ C.val c = 0 ∧ eval C (ρ t) e ≠ 0) := by
      rcases h with h | ⟨c', h1, h2⟩ | h
      · exact .inl h
      · exact absurd ⟨_, h1⟩ hce
      · exact .inr h
    split
    · rename_i hb0
      obtain ⟨d, rfl⟩ : ∃ d, b = .con d := by
        cases b <;> first | exact ⟨_, rfl⟩ | cases hb0
      rcases hOK with hpos | ⟨c, hc, hc0, hne⟩
      · have hd := HasDerivAt.const_rpow (a := C.val d) (by simpa using hpos) he
        split
        · rename_i h01
          rw [eval_conI hC]
          rw [Bool.or_eq_true] at h01
          rcases h01 with h | h
          · have := eval_isZero hC (ρ t) _ h
            rw [this] at hpos; exact absurd hpos (lt_irrefl _)
          · have := eval_isOne hC (ρ t) _ h
            rw [eval_con] at this
            simpa [this] using hasDerivAt_const t (1 : ℝ)
        · rw [eval_mul hC, eval_mul hC, eval_log, eval_pow]
          simpa [mul_comm, mul_left_comm, mul_assoc] using hd
      · cases hc
        have hz : isZero C (.con d) = true := by
          simp only [isZero]; exact (hC.eqInt _ _).2 (by simpa using hc0)
        rw [hz, Bool.true_or, if_pos rfl, eval_conI hC]
        have hev : ∀ᶠ τ in nhds t, eval C (ρ τ) e ≠ 0 := he.continuousAt.eventually_ne hne
        have : HasDerivAt (fun _ : ℝ => (0 : ℝ)) (0 : ℝ) t := hasDerivAt_const t 0
        rw [Int.cast_zero]
        refine this.congr_of_eventuallyEq (hev.mono fun τ hτ => ?_)
        simp only [eval_con]
        rw [hc0, Real.zero_rpow hτ]
    · rename_i hb0
      have hpos : 0 < eval C (ρ t) b := by
        rcases hOK with h | ⟨c, rfl, _⟩
        · exact h
        · exact absurd rfl hb0
      have hd := HasDerivAt.rpow hb he hpos
      simp only [eval_plus hC, eval_mul hC, eval_log, eval_pow, eval_minus hC, eval_conI hC,
        eval_clone hC]
      convert hd using 1
      push_cast; ring

/-- **C01.** The expression `diff` returns evaluates to the derivative of the value of the expression
with respect to the name, at every point where every part of the expression is
differentiable. -/
theorem deriv_correct {C : Cfg K} (hC : C.Exact) (hF : C.DigitFirst) (T : UTab K)
    (md : Str → Str → Expr K) (s : Str) (γ : ℝ → Env) (t : ℝ) (hγ : Curve C md s γ t)
    (e : Expr K) (he : Regular C T γ t e) :
    HasDerivAt (fun τ => eval C (γ τ) e) (eval C (γ t) (deriv C T md s e)) t := by
  have hL : ∀ vs : List (Expr K),
      (∀ v ∈ vs, HasDerivAt (fun τ => eval C (γ τ) v) (eval C (γ t) (deriv C T md s v)) t) →
      List.Forall₂ (fun f d => HasDerivAt f d t) (vs.map fun v τ => eval C (γ τ) v)
        ((derivL C T md s vs).map (eval C (γ t))) := by
    intro vs h
    rw [derivL_eq, List.map_map]
    induction vs with
    | nil => exact .nil
    | cons v vs ih =>
      exact .cons (h v (by simp)) (ih fun w hw => h w (by simp [hw]))
  induction he with
  | con c => simpa [deriv, eval_conI hC] using hasDerivAt_const t (C.val c)
  | var x =>
    have := hγ.var x
    simp only [eval_var, deriv]
    split
    · rename_i h; simpa [h, eval_conI hC] using this
    · rename_i h; simpa [h, eval_conI hC] using this
  | model m =>
    have := hγ.model m
    simp only [eval_model, deriv]
    split
    · rename_i h; simpa [h, eval_conI hC] using this
    · rename_i h; simpa [h] using this
  | @add vs _ ih =>
    have h := hasDerivAt_list_sum (hL vs ih)
    simp only [deriv, eval_sumOf hC, sum_filter_zero hC, eval_add]
    simpa [List.map_map, Function.comp_def] using h
  | @prod vs _ hl ih =>
    have h := hasDerivAt_list_prod (hL vs ih)
    simp only [deriv, eval_sumOf hC, eval_prod]
    rw [eval_prodTerms hC (γ t) [] vs _ (by rw [derivL_eq, List.length_map])
      (by simpa using hl)]
    simpa [List.map_map, Function.comp_def] using h
  | @exp a _ ih =>
    simp only [eval_exp, deriv]
    split
    · rename_i h
      cases a <;> first | cases h | skip
      simpa [eval_conI hC] using hasDerivAt_const t _
    · rw [eval_mul hC, eval_exp, mul_comm]
      exact ih.exp
  | @log a _ hpos ih =>
    simp only [eval_log, deriv]
    split
    · rename_i h
      cases a <;> first | cases h | skip
      simpa [eval_conI hC] using hasDerivAt_const t _
    · rw [eval_mul hC, eval_pow, eval_conI hC]
      have := ih.log hpos.ne'
      rw [div_eq_mul_inv] at this
      rw [Int.cast_neg, Int.cast_one, Real.rpow_neg_one]
      exact this
  | pow _ _ h ihb ihe => exact hasDerivAt_pow hC ihb ihe h
  | @user f as fx _ hfx hu ih =>
    have hg : HasDerivAt (fun τ => fun i : Fin as.length => eval C (γ τ) as[i])
        (fun i => eval C (γ t) (deriv C T md s as[i])) t :=
      hasDerivAt_pi.2 fun i => ih _ (List.getElem_mem _)
    have h := hu.diff.comp_hasDerivAt t hg
    have e1 : (fun τ => eval C (γ τ) (.user f as)) =ᶠ[nhds t]
        (fun w : Fin as.length → ℝ =>
          (γ t).u f (List.ofFn fun i => if fx i then eval C (γ t) as[i] else w i)) ∘
          fun τ => fun i : Fin as.length => eval C (γ τ) as[i] := by
      have hall : ∀ᶠ τ in nhds t, ∀ i : Fin as.length, fx i = true →
          eval C (γ τ) as[i] = eval C (γ t) as[i] := by
        rw [Filter.eventually_all]
        intro i
        by_cases hi : fx i = true
        · exact (hfx i hi).mono fun τ h _ => h
        · exact Filter.Eventually.of_forall fun τ h => absurd h hi
      refine hall.mono fun τ hτ => ?_
      simp only [eval_user, Function.comp_apply, hγ.func τ]
      congr 1
      apply List.ext_getElem
      · simp
      · intro i h1 h2
        have hi : i < as.length := by simpa using h1
        simp only [List.getElem_map, List.getElem_ofFn]
        split
        · exact hτ ⟨i, hi⟩ ‹_›
        · rfl
    refine HasDerivAt.congr_of_eventuallyEq (HasDerivAt.congr_deriv h ?_) e1
    have hfz : ∀ i : Fin as.length, fx i = true → eval C (γ t) (deriv C T md s as[i]) = 0 := by
      intro i hi
      have h1 := ih as[i] (List.getElem_mem _)
      have h2 : HasDerivAt (fun τ => eval C (γ τ) as[i]) 0 t :=
        (hasDerivAt_const t (eval C (γ t) as[i])).congr_of_eventuallyEq (hfx i hi)
      exact h1.unique h2
    symm
    simp only [deriv, eval_sumUser hC, derivL_eq]
    have hterm : ∀ p ∈ (T f).map (·.2), ∀ y, eval C (γ t) (userTerm C ((T f).map (·.1)) as p y)
        = partialAt C (γ t) ((T f).map (·.1)) (as.map (eval C (γ t))) p * eval C (γ t) y := by
      intro p hp y
      rcases hu.names with hn | hn
      · refine eval_userTerm hC (γ t) hF _ _ _ _ ?_ ?_
        · intro x hx
          obtain ⟨p, hp, rfl⟩ := List.mem_map.1 hx
          exact hn p hp
        · intro x hx
          obtain ⟨p, hp, rfl⟩ := List.mem_map.1 hx
          refine hu.fresh p hp ?_
          intro h0
          obtain ⟨c, cs, h1, -⟩ := (hn p hp).head
          rw [h0] at h1; cases h1
      · obtain ⟨q, hq, rfl⟩ := List.mem_map.1 hp
        rw [hn q hq]
        refine eval_userTerm_none hC (γ t) hF _ _ _ ?_
        intro x hx
        obtain ⟨p, hp, rfl⟩ := List.mem_map.1 hx
        rw [hn p hp]
    rw [ContinuousLinearMap.sum_apply, ← List.sum_ofFn]
    congr 1
    apply List.ext_getElem
    · simp [hu.len]
    · intro i h1 h2
      have hi : i < as.length := by simpa using h2
      have hi' : i < (T f).length := hu.len ▸ hi
      rw [List.getElem_map, List.getElem_zipWith, hterm _ (List.getElem_mem _), List.getElem_ofFn]
      have h3 := hfz ⟨i, hi⟩
      simp only [ContinuousLinearMap.smul_apply, ContinuousLinearMap.proj_apply,
        List.getD_eq_getElem?_getD, List.getElem?_map, List.getElem_map, Fin.getElem_fin,
        smul_eq_mul] at h3 ⊢
      by_cases hx : fx ⟨i, hi⟩ = true
      · rw [if_pos hx, zero_mul, h3 hx, mul_zero]
      · rw [if_neg hx]
        simp [hi']
  | @blog op a b hc =>
    simp only [deriv, eval_conI hC, Int.cast_zero]
    refine hasDerivAt_zero_of_01 (fun τ => ?_) hc
    rw [eval_blog]; exact op.sem_01 _ _
  | @ulog a hc =>
    simp only [deriv, eval_conI hC, Int.cast_zero]
    refine hasDerivAt_zero_of_01 (fun τ => ?_) hc
    rw [eval_ulog]; exact notSem_01 _

end Verif.Sym
