import Verif.Sym.Deriv
import Verif.Sym.Print

/-!
# Names an expression does not report (second part of C05), equal-valued replacements (C03)
-/

namespace Verif.Sym

variable {K : Type}

section Fresh
variable {C : Cfg K} (hC : C.Exact)
include hC

theorem sum_zero_of {ρ : Env} {es : List (Expr K)} (h : ∀ e ∈ es, eval C ρ e = 0) :
    (es.map (eval C ρ)).sum = 0 := by
  apply List.sum_eq_zero
  intro x hx
  obtain ⟨e, he, rfl⟩ := List.mem_map.1 hx
  exact h e he

theorem prodTerms_zero {ρ : Env} : ∀ (vs ds pre : List (Expr K)),
    (∀ d ∈ ds, eval C ρ d = 0) → ∀ e ∈ prodTerms C pre vs ds, eval C ρ e = 0
  | [], _, pre, _, e, he => by simp [prodTerms] at he
  | v :: vs, [], pre, _, e, he => by simp [prodTerms] at he
  | v :: vs, d :: ds, pre, h, e, he => by
    simp only [prodTerms, List.mem_append] at he
    rcases he with he | he
    · have hd := h d (by simp)
      unfold prodTerm at he
      split at he
      · simp at he
      · have h1 : isOne C d = false := by
          rw [← Bool.not_eq_true]
          intro h1
          rw [eval_isOne hC ρ d h1] at hd
          exact one_ne_zero hd
        rw [h1] at he
        simp only [Bool.false_eq_true, if_false, List.singleton_append] at he
        split at he
        · simp at he
        · rename_i e' he'
          have : e' = d := by injection he' with h _; exact h.symm
          rw [List.mem_singleton] at he
          rw [he, this, hd]
        · rename_i es _ _
          rw [List.mem_singleton] at he
          rw [he, eval_mkProd hC, List.map_cons, List.prod_cons, hd, zero_mul]
    · exact prodTerms_zero vs ds _ (fun d' hd' => h d' (by simp [hd'])) e he

/-- **C05, derivative.** The derivative with respect to a name that the expression does not report has
the value zero, in every environment, when the models it reports have zero derivatives too. -/
theorem deriv_fresh (T : UTab K) (md : Str → Str → Expr K) (s : Str) (ρ : Env) (e : Expr K)
    (hv : s ∉ varRefs C e) (hm : s ∉ modelRefs C e)
    (hmd : ∀ m ∈ modelRefs C e, eval C ρ (md m s) = 0) :
    eval C ρ (deriv C T md s e) = 0 := by
  unfold varRefs at hv
  unfold modelRefs at hm hmd
  have hL : ∀ vs : List (Expr K),
      (∀ v ∈ vs, s ∉ refs C 1 v → s ∉ refs C 7 v → (∀ m ∈ refs C 7 v, eval C ρ (md m s) = 0) →
        eval C ρ (deriv C T md s v) = 0) →
      s ∉ refsL C 1 vs → s ∉ refsL C 7 vs → (∀ m ∈ refsL C 7 vs, eval C ρ (md m s) = 0) →
      ∀ d ∈ derivL C T md s vs, eval C ρ d = 0 := by
    intro vs ih h1 h2 h3 d hd
    rw [derivL_eq] at hd
    obtain ⟨v, hv, rfl⟩ := List.mem_map.1 hd
    have hr1 : ∀ x, x ∈ refs C 1 v → x ∈ refsL C 1 vs := fun x hx =>
      refsL_mem.2 ⟨v, hv, by rw [unite_var]; exact hx⟩
    have hr7 : ∀ x, x ∈ refs C 7 v → x ∈ refsL C 7 vs := fun x hx =>
      refsL_mem.2 ⟨v, hv, by rw [unite_model]; exact hx⟩
    exact ih v hv (fun h => h1 (hr1 _ h)) (fun h => h2 (hr7 _ h)) (fun m h => h3 m (hr7 _ h))
  induction e using Expr.ind with
  | hcon c => simp [deriv, eval_conI hC]
  | hvar x =>
    have : s ≠ x := by
      intro h; apply hv; simp [refs, ifType, Expr.ty, str_var, h]
    simp [deriv, this, eval_conI hC]
  | hmodel x =>
    have : s ≠ x := by
      intro h; apply hm; simp [refs, ifType, Expr.ty, str_model, h]
    simp only [deriv, this, if_false]
    exact hmd x (by simp [refs, ifType, Expr.ty, str_model])
  | hadd vs ih =>
    simp only [refs] at hv hm hmd
    rw [deriv, eval_sumOf hC]
    apply sum_zero_of hC
    intro d hd
    exact hL vs ih hv hm hmd d (List.mem_filter.1 hd).1
  | hprod vs ih =>
    simp only [refs] at hv hm hmd
    rw [deriv, eval_sumOf hC]
    apply sum_zero_of hC
    exact prodTerms_zero hC vs _ [] (hL vs ih hv hm hmd)
  | hexp a ih =>
    simp only [refs] at hv hm hmd
    rw [deriv]
    split
    · simp [eval_conI hC]
    · rw [eval_mul hC, ih hv hm hmd, zero_mul]
  | hlog a ih =>
    simp only [refs] at hv hm hmd
    rw [deriv]
    split
    · simp [eval_conI hC]
    · rw [eval_mul hC, ih hv hm hmd, zero_mul]
  | hpow b e ihb ihe =>
    simp only [refs, unite_var, unite_model, List.mem_append, not_or] at hv hm hmd
    have h1 := ihb hv.1 hm.1 (fun m h => hmd m (.inl h))
    have h2 := ihe hv.2 hm.2 (fun m h => hmd m (.inr h))
    rw [deriv]
    unfold powDeriv
    split
    · split
      · simp [eval_conI hC]
      · split
        · exact h1
        · split <;> rw [eval_mul hC, h1, mul_zero]
    · split
      · split
        · simp [eval_conI hC]
        · rw [eval_mul hC, h2, mul_zero]
      · rw [eval_plus hC, eval_mul hC, h1, eval_mul hC _ (mul C (.log b) _), h2]; simp
  | huser f as ih =>
    simp only [refs] at hv hm hmd
    have h0 := hL as ih hv hm hmd
    rw [deriv]
    have key : ∀ (fs : List Str) (ps : List (Option (Expr K))) (ds : List (Expr K)),
        (∀ d ∈ ds, eval C ρ d = 0) →
        ∀ e ∈ List.zipWith (userTerm C fs as) ps ds, eval C ρ e = 0 := by
      intro fs ps
      induction ps with
      | nil => intro ds _ e he; simp at he
      | cons p ps ihp =>
        intro ds hds e he
        cases ds with
        | nil => simp at he
        | cons d ds =>
          simp only [List.zipWith_cons_cons, List.mem_cons] at he
          rcases he with rfl | he
          · have hd := hds d (by simp)
            unfold userTerm
            split
            · simp [eval_conI hC]
            · split
              · rename_i h1
                rw [eval_isOne hC ρ d h1] at hd
                exact absurd hd one_ne_zero
              · rw [eval_mul hC, hd, mul_zero]
          · exact ihp ds (fun d' h => hds d' (by simp [h])) e he
    have key' := key ((T f).map (·.1)) ((T f).map (·.2)) _ h0
    unfold sumUser
    split
    · rename_i e' he'
      rw [he'] at key'
      exact key' e' (by simp)
    · rw [eval_mkAdd hC]
      exact sum_zero_of hC key'
  | hblog op a b iha ihb => simp [deriv, eval_conI hC]
  | hulog a ih => simp [deriv, eval_conI hC]

omit hC in
/-- Functions are applied to one argument throughout. -/
inductive Unary : Expr K → Prop
  | con (c) : Unary (.con c)
  | var (x) : Unary (.var x)
  | model (m) : Unary (.model m)
  | add {vs} : (∀ v ∈ vs, Unary v) → Unary (.add vs)
  | prod {vs} : (∀ v ∈ vs, Unary v) → Unary (.prod vs)
  | exp {a} : Unary a → Unary (.exp a)
  | log {a} : Unary a → Unary (.log a)
  | pow {b e} : Unary b → Unary e → Unary (.pow b e)
  | user {f a} : Unary a → Unary (.user f [a])
  | blog (op a b) : Unary (.blog op a b)
  | ulog (a) : Unary (.ulog a)

theorem isZero_conI : isZero C (conI C 0) = true := by
  simp only [conI, isZero]; exact (hC.eqInt _ _).2 (hC.ofInt 0)

theorem isZero_mul_left {x : Expr K} (y : Expr K) (h : isZero C x = true) :
    isZero C (mul C x y) = true := by
  unfold mul; rw [h]; simp [isZero_conI hC]

theorem isZero_mul_right (x : Expr K) {y : Expr K} (h : isZero C y = true) :
    isZero C (mul C x y) = true := by
  unfold mul; rw [h]; simp [isZero_conI hC]

theorem isZero_plus {x y : Expr K} (hx : isZero C x = true) (hy : isZero C y = true) :
    isZero C (plus C x y) = true := by
  unfold plus; rw [if_pos hx]; exact hy

/-- **C05, derivative, literal form.** With functions of one argument only, differentiating with
respect to a name that is not reported gives an object the engine recognises as zero (so that
sums drop it). -/
theorem deriv_fresh_isZero (T : UTab K) (hT : ∀ f, (T f).length = 1)
    (md : Str → Str → Expr K) (s : Str) (e : Expr K) (he : Unary e)
    (hv : s ∉ varRefs C e) (hm : s ∉ modelRefs C e)
    (hmd : ∀ m ∈ modelRefs C e, isZero C (md m s) = true) :
    isZero C (deriv C T md s e) = true := by
  unfold varRefs at hv
  unfold modelRefs at hm hmd
  have hL : ∀ vs : List (Expr K),
      (∀ v ∈ vs, s ∉ refs C 1 v → s ∉ refs C 7 v → (∀ m ∈ refs C 7 v, isZero C (md m s) = true) →
        isZero C (deriv C T md s v) = true) →
      s ∉ refsL C 1 vs → s ∉ refsL C 7 vs → (∀ m ∈ refsL C 7 vs, isZero C (md m s) = true) →
      ∀ d ∈ derivL C T md s vs, isZero C d = true := by
    intro vs ih h1 h2 h3 d hd
    rw [derivL_eq] at hd
    obtain ⟨v, hv, rfl⟩ := List.mem_map.1 hd
    have hr1 : ∀ x, x ∈ refs C 1 v → x ∈ refsL C 1 vs := fun x hx =>
      refsL_mem.2 ⟨v, hv, by rw [unite_var]; exact hx⟩
    have hr7 : ∀ x, x ∈ refs C 7 v → x ∈ refsL C 7 vs := fun x hx =>
      refsL_mem.2 ⟨v, hv, by rw [unite_model]; exact hx⟩
    exact ih v hv (fun h => h1 (hr1 _ h)) (fun h => h2 (hr7 _ h)) (fun m h => h3 m (hr7 _ h))
  have h0 := isZero_conI hC
  induction he with
  | con c => simpa only [deriv] using h0
  | @var x =>
    have : s ≠ x := by
      intro h; apply hv; simp [refs, ifType, Expr.ty, str_var, h]
    simpa only [deriv, this, if_false] using h0
  | @model x =>
    have : s ≠ x := by
      intro h; apply hm; simp [refs, ifType, Expr.ty, str_model, h]
    simp only [deriv, this, if_false]
    exact hmd x (by simp [refs, ifType, Expr.ty, str_model])
  | @add vs _ ih =>
    simp only [refs] at hv hm hmd
    have : (derivL C T md s vs).filter (fun d => !isZero C d) = [] := by
      rw [List.filter_eq_nil_iff]
      intro d hd
      simp [hL vs ih hv hm hmd d hd]
    rw [deriv, this]
    exact h0
  | @prod vs _ ih =>
    simp only [refs] at hv hm hmd
    have key : ∀ (vs ds pre : List (Expr K)), (∀ d ∈ ds, isZero C d = true) →
        prodTerms C pre vs ds = [] := by
      intro vs
      induction vs with
      | nil => intro ds pre _; simp [prodTerms]
      | cons v vs ihv =>
        intro ds pre h
        cases ds with
        | nil => simp [prodTerms]
        | cons d ds =>
          rw [prodTerms, ihv ds _ fun d' hd' => h d' (by simp [hd'])]
          unfold prodTerm
          rw [if_pos (h d (by simp))]; rfl
    rw [deriv, key vs _ [] (hL vs ih hv hm hmd)]
    exact h0
  | exp _ ih =>
    simp only [refs] at hv hm hmd
    rw [deriv]
    split
    · exact h0
    · exact isZero_mul_left hC _ (ih hv hm hmd)
  | log _ ih =>
    simp only [refs] at hv hm hmd
    rw [deriv]
    split
    · exact h0
    · exact isZero_mul_left hC _ (ih hv hm hmd)
  | pow _ _ ihb ihe =>
    simp only [refs, unite_var, unite_model, List.mem_append, not_or] at hv hm hmd
    have h1 := ihb hv.1 hm.1 (fun m h => hmd m (.inl h))
    have h2 := ihe hv.2 hm.2 (fun m h => hmd m (.inr h))
    rw [deriv]
    unfold powDeriv
    split
    · split
      · exact h0
      · split
        · exact h1
        · split <;> exact isZero_mul_right hC _ h1
    · split
      · split
        · exact h0
        · exact isZero_mul_right hC _ h2
      · exact isZero_plus hC (isZero_mul_right hC _ h1) (isZero_mul_right hC _ h2)
  | @user f a _ ih =>
    simp only [refs, refsL, List.append_nil, unite_var, unite_model] at hv hm hmd
    have h1 := ih hv hm hmd
    rw [deriv]
    simp only [derivL]
    match hTf : T f, hT f with
    | [p], _ =>
      simp only [List.map_cons, List.map_nil, List.zipWith_cons_cons, List.zipWith_nil_left,
        sumUser]
      unfold userTerm
      rw [if_pos h1]
      exact h0
  | blog => simpa only [deriv] using h0
  | ulog => simpa only [deriv] using h0

end Fresh

/-- **C03, expressions.** Replacing every occurrence of a sub-expression `b` by an expression `r`
with the same value does not change the value. -/
theorem subst_same {C : Cfg K} (hC : C.Exact) {T : Tables} {S : K → Prop} {read : Str → K}
    (hF : C.Faithful S read) {b r e : Expr K} (hb : WF T S b) (he : WF T S e) (ρ : Env)
    (h : eval C ρ r = eval C ρ b) :
    eval C ρ (subst C (str C b) r e) = eval C ρ e := by
  have key : ∀ e : Expr K, WF T S e → str C b = str C e → eval C ρ r = eval C ρ e :=
    fun e he hs => h.trans (eval_of_str_eq hC hF hb he hs ρ)
  induction he with
  | con hc =>
    simp only [subst]
    split
    · exact key _ (.con hc) ‹_›
    · rfl
  | var h1 h2 h3 h4 =>
    simp only [subst]
    split
    · exact key _ (.var h1 h2 h3 h4) ‹_›
    · rfl
  | model h1 h2 h3 h4 =>
    simp only [subst]
    split
    · exact key _ (.model h1 h2 h3 h4) ‹_›
    · rfl
  | @add vs hne hv ih =>
    simp only [subst]
    split
    · exact key _ (.add hne hv) ‹_›
    · rw [eval_mkAdd hC, substL_eq, List.map_map, eval_add]
      congr 1
      exact List.map_congr_left ih
  | @prod vs hl hv ih =>
    simp only [subst]
    split
    · exact key _ (.prod hl hv) ‹_›
    · split
      · rename_i h'
        rw [eval_mul hC, key _ ((WF.prod hl hv).unscaled hF) h', ← eval_scale_unscaled hC ρ (.prod vs)]
      · rw [eval_mkProd hC, substL_eq, List.map_map, eval_prod]
        congr 1
        exact List.map_congr_left ih
  | exp ha ih =>
    simp only [subst]
    split
    · exact key _ (.exp ha) ‹_›
    · simp [ih]
  | log ha ih =>
    simp only [subst]
    split
    · exact key _ (.log ha) ‹_›
    · simp [ih]
  | pow hb he ihb ihe =>
    simp only [subst]
    split
    · exact key _ (.pow hb he) ‹_›
    · simp [ihb, ihe]
  | @user f as h1 h2 h3 h4 h5 hv ih =>
    simp only [subst]
    split
    · exact key _ (.user h1 h2 h3 h4 h5 hv) ‹_›
    · rw [eval_user, substL_eq, List.map_map, eval_user]
      congr 1
      exact List.map_congr_left ih
  | blog ha hb iha ihb =>
    simp only [subst]
    split
    · rw [eval_clone hC]; exact key _ (.blog ha hb) ‹_›
    · simp [iha, ihb]
  | ulog ha iha =>
    simp only [subst]
    split
    · rw [eval_clone hC]; exact key _ (.ulog ha) ‹_›
    · simp [iha]

end Verif.Sym
