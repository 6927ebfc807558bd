import Verif.Sym.Subst

/-!
# Referenced names (`getReferencedType`, property C05)
-/

namespace Verif.Sym

variable {K : Type}

/-- `CreateSetIfThisType` (`EquationObject.hh:127-135`). -/
def ifType (C : Cfg K) (rt : Nat) (e : Expr K) : List Str := if e.ty = rt then [str C e] else []

/-- One element of `UniteReferencedType` (`EquationObject.cc:1823-1876`): an object of the wanted
type contributes its text, any other object the names `r` it reports itself. -/
def unite (C : Cfg K) (rt : Nat) (e : Expr K) (r : List Str) : List Str :=
  if e.ty = rt then [str C e] else r

mutual
/-- `getReferencedType(rt)` (`EquationObject.hh:218-220`, `264-267`, `318-320`, `362-365`,
`407-410`, `452-455`, `498-501`, `LogicalFunc.hh:58-60`, `110-112`, `UserFunc.cc:243-246`,
`mcModel.hh:44-46`). The set is modelled as a list of which only membership matters. -/
def refs (C : Cfg K) (rt : Nat) : Expr K → List Str
  | .con c => ifType C rt (.con c)
  | .var x => ifType C rt (.var x)
  | .model m => ifType C rt (.model m)
  | .add vs => refsL C rt vs
  | .prod vs => refsL C rt vs
  | .exp a => refs C rt a
  | .log a => refs C rt a
  | .pow b e => unite C rt b (refs C rt b) ++ unite C rt e (refs C rt e)
  | .user _ as => refsL C rt as
  | .blog _ a b => unite C rt a (refs C rt a) ++ unite C rt b (refs C rt b)
  | .ulog a => refs C rt a
def refsL (C : Cfg K) (rt : Nat) : List (Expr K) → List Str
  | [] => []
  | v :: vs => unite C rt v (refs C rt v) ++ refsL C rt vs
end

/-- The variables an expression reports. -/
def varRefs (C : Cfg K) (e : Expr K) : List Str := refs C 1 e

/-- The models an expression reports. -/
def modelRefs (C : Cfg K) (e : Expr K) : List Str := refs C 7 e

theorem refsL_mem {C : Cfg K} {rt : Nat} {x : Str} {vs : List (Expr K)} :
    x ∈ refsL C rt vs ↔ ∃ v ∈ vs, x ∈ unite C rt v (refs C rt v) := by
  induction vs with
  | nil => simp [refsL]
  | cons v vs ih => simp [refsL, ih]

theorem unite_var (C : Cfg K) (e : Expr K) : unite C 1 e (refs C 1 e) = refs C 1 e := by
  cases e <;> simp [unite, Expr.ty, refs, ifType]

theorem unite_model (C : Cfg K) (e : Expr K) : unite C 7 e (refs C 7 e) = refs C 7 e := by
  cases e <;> simp [unite, Expr.ty, refs, ifType]

/-- **C05, independence.** Two environments that agree on the variables and models an expression
reports (and on the functions) give it the same value. -/
theorem eval_refs (C : Cfg K) (ρ ρ' : Env) (hu : ρ.u = ρ'.u) (e : Expr K)
    (hv : ∀ x ∈ varRefs C e, ρ.v x = ρ'.v x) (hm : ∀ m ∈ modelRefs C e, ρ.m m = ρ'.m m) :
    eval C ρ e = eval C ρ' e := by
  unfold varRefs at hv
  unfold modelRefs at hm
  have hL : ∀ vs : List (Expr K),
      (∀ v ∈ vs, (∀ x ∈ refs C 1 v, ρ.v x = ρ'.v x) → (∀ m ∈ refs C 7 v, ρ.m m = ρ'.m m) →
        eval C ρ v = eval C ρ' v) →
      (∀ x ∈ refsL C 1 vs, ρ.v x = ρ'.v x) → (∀ m ∈ refsL C 7 vs, ρ.m m = ρ'.m m) →
      vs.map (eval C ρ) = vs.map (eval C ρ') := by
    intro vs ih h1 h2
    refine List.map_congr_left fun v hv => ih v hv (fun x hx => h1 x ?_) (fun x hx => h2 x ?_)
    · exact refsL_mem.2 ⟨v, hv, by rw [unite_var]; exact hx⟩
    · exact refsL_mem.2 ⟨v, hv, by rw [unite_model]; exact hx⟩
  induction e using Expr.ind with
  | hcon c => simp
  | hvar x => simpa using hv x (by simp [refs, ifType, Expr.ty, str_var])
  | hmodel x => simpa using hm x (by simp [refs, ifType, Expr.ty, str_model])
  | hadd vs ih =>
    simp only [refs] at hv hm
    rw [eval_add, eval_add, hL vs ih hv hm]
  | hprod vs ih =>
    simp only [refs] at hv hm
    rw [eval_prod, eval_prod, hL vs ih hv hm]
  | hexp a ih => simp only [refs] at hv hm; rw [eval_exp, eval_exp, ih hv hm]
  | hlog a ih => simp only [refs] at hv hm; rw [eval_log, eval_log, ih hv hm]
  | hpow b e ihb ihe =>
    simp only [refs, unite_var, unite_model, List.mem_append] at hv hm
    rw [eval_pow, eval_pow, ihb (fun x h => hv x (.inl h)) (fun x h => hm x (.inl h)),
      ihe (fun x h => hv x (.inr h)) (fun x h => hm x (.inr h))]
  | huser f as ih =>
    simp only [refs] at hv hm
    rw [eval_user, eval_user, hL as ih hv hm, hu]
  | hblog op a b iha ihb =>
    simp only [refs, unite_var, unite_model, List.mem_append] at hv hm
    rw [eval_blog, eval_blog, iha (fun x h => hv x (.inl h)) (fun x h => hm x (.inl h)),
      ihb (fun x h => hv x (.inr h)) (fun x h => hm x (.inr h))]
  | hulog a ih => simp only [refs] at hv hm; rw [eval_ulog, eval_ulog, ih hv hm]

/-- Binding a name that is not reported does not matter. -/
theorem eval_bind_fresh (C : Cfg K) (ρ : Env) (x : Str) (t : ℝ) (e : Expr K)
    (hv : x ∉ varRefs C e) (hm : x ∉ modelRefs C e) : eval C (ρ.bind x t) e = eval C ρ e := by
  apply eval_refs C (ρ.bind x t) ρ rfl
  · intro y hy
    have : y ≠ x := fun h => hv (h ▸ hy)
    simp [Env.bind, Function.update_of_ne this]
  · intro y hy
    have : y ≠ x := fun h => hm (h ▸ hy)
    simp [Env.bind, Function.update_of_ne this]

end Verif.Sym
