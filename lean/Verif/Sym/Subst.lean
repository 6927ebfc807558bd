import Verif.Sym.Algebra

/-!
# Substitution (`subst`, property C03)
-/

namespace Verif.Sym

variable {K : Type}

mutual
/-- `subst(str, eqo)` of every class (`EquationObject.cc:250-256`, `362-368`, `916-935`,
`1262-1275`, `1419-1425`, `1545-1551`, `1758-1768`, `UserFunc.cc:89-102`, `LogicalFunc.cc:106-116`,
`208-218`, `mcModel.cc:44-50`): an object that prints as `s` becomes `r`; a product whose unscaled
value prints as `s` becomes its scale times `r`. -/
def subst (C : Cfg K) (s : Str) (r : Expr K) : Expr K → Expr K
  | .con c => if s = str C (.con c) then r else .con c
  | .var x => if s = str C (.var x) then r else .var x
  | .model m => if s = str C (.model m) then r else .model m
  | .add vs => if s = str C (.add vs) then r else mkAdd C (substL C s r vs)
  | .prod vs =>
    if s = str C (.prod vs) then r
    else if s = str C (unscaled C (.prod vs)) then mul C (scale C (.prod vs)) r
    else mkProd C (substL C s r vs)
  | .exp a => if s = str C (.exp a) then r else .exp (subst C s r a)
  | .log a => if s = str C (.log a) then r else .log (subst C s r a)
  | .pow b e => if s = str C (.pow b e) then r else .pow (subst C s r b) (subst C s r e)
  | .user f as => if s = str C (.user f as) then r else .user f (substL C s r as)
  | .blog op a b =>
    if s = str C (.blog op a b) then clone C r else .blog op (subst C s r a) (subst C s r b)
  | .ulog a => if s = str C (.ulog a) then clone C r else .ulog (subst C s r a)
def substL (C : Cfg K) (s : Str) (r : Expr K) : List (Expr K) → List (Expr K)
  | [] => []
  | v :: vs => subst C s r v :: substL C s r vs
end

theorem substL_eq (C : Cfg K) (s : Str) (r : Expr K) : ∀ vs, substL C s r vs = vs.map (subst C s r)
  | [] => rfl
  | v :: vs => by simp only [substL, List.map_cons, substL_eq C s r vs]

/-! ### Specification -/

/-- The text of a name: it starts with a letter, or with the `@` the engine puts in front of the
formal arguments of a function, and goes on with letters, digits, `_` and `:`
(`mcScanner.l:92`, `mcParser.y:247-253`). -/
structure NameText (s : Str) : Prop where
  head : ∃ c cs, s = c :: cs ∧ (c.isAlpha ∨ c = '@')
  tail : ∀ c ∈ s, c.isAlphanum ∨ c = '_' ∨ c = ':' ∨ c = '@'

/-- Numbers are printed starting with a digit (infinities and NaN, which print as `inf` and `nan`,
are not among the constants considered). -/
def Cfg.DigitFirst (C : Cfg K) : Prop := ∀ c, ∃ d ds, C.fmt c = d :: ds ∧ d.isDigit

/-- The environment in which the name `x` means `t`. -/
def Env.bind (ρ : Env) (x : Str) (t : ℝ) : Env :=
  { ρ with v := Function.update ρ.v x t, m := Function.update ρ.m x t }

/-! ### Which objects print as a name -/

theorem NameText.ne_paren {s rest : Str} (h : NameText s) : s ≠ '(' :: rest := by
  rintro rfl
  obtain ⟨c, cs, h1, h2⟩ := h.head
  cases h1
  revert h2; decide

theorem NameText.no_paren {s : Str} (h : NameText s) : '(' ∉ s := by
  intro hm
  have := h.tail _ hm
  revert this; decide

theorem render_paren (u hd tl) : ∃ rest, render (.paren u hd tl) = '(' :: rest := by
  simp only [render, List.singleton_append, List.cons_append, List.append_assoc]
  exact ⟨_, rfl⟩

theorem str_call_ne {x f sep as} (h : NameText x) : render (.call f sep as) ≠ x := by
  rintro rfl
  refine h.no_paren ?_
  simp [render]

theorem prodTree_paren (ts : List PTree) : ∃ rest, render (prodTree ts) = '(' :: rest := by
  match ts with
  | [] => exact ⟨_, rfl⟩
  | [t] => exact render_paren _ _ _
  | t :: t1 :: ts =>
    simp only [prodTree]
    split
    · exact render_paren _ _ _
    · exact render_paren _ _ _

theorem addTree_paren (ts : List (Bool × PTree)) : ∃ rest, render (addTree ts) = '(' :: rest := by
  match ts with
  | [] => exact ⟨_, rfl⟩
  | (s, t) :: ts => exact render_paren _ _ _

/-- Only a variable and a model print as a name. -/
theorem str_eq_name {C : Cfg K} (hF : C.DigitFirst) {x : Str} (hx : NameText x) (e : Expr K)
    (h : x = str C e) : e = .var x ∨ e = .model x := by
  unfold str at h
  cases e with
  | con c =>
    rw [ptree_con] at h
    split at h
    · obtain ⟨rest, hr⟩ := render_paren UOp.neg (.num (C.fmt (C.neg c))) .nil
      exact absurd (h.trans hr) hx.ne_paren
    · simp only [render] at h
      obtain ⟨d, ds, h1, h2⟩ := hF c
      obtain ⟨c', cs, h3, h4⟩ := hx.head
      rw [h1] at h
      rw [h3] at h
      cases h
      exfalso
      rcases h4 with h4 | rfl
      · simp only [Char.isDigit, Char.isAlpha, Char.isUpper, Char.isLower, Bool.and_eq_true,
          Bool.or_eq_true, decide_eq_true_eq, ge_iff_le] at h2 h4
        rcases h4 with h4 | h4
        · have := UInt32.le_trans h4.1 h2.2; revert this; decide
        · have := UInt32.le_trans h4.1 h2.2; revert this; decide
      · revert h2; decide
  | var y => left; rw [ptree_var] at h; simp only [render] at h; rw [h]
  | model y => right; rw [ptree_model] at h; simp only [render] at h; rw [h]
  | add vs =>
    rw [ptree_add] at h
    obtain ⟨rest, hr⟩ := addTree_paren (vs.map fun v =>
      if negSign C v then (true, ptree C (unsigned C v)) else (false, ptree C v))
    exact absurd (h.trans hr) hx.ne_paren
  | prod vs =>
    rw [ptree_prod] at h
    obtain ⟨rest, hr⟩ := prodTree_paren (vs.map (ptree C))
    exact absurd (h.trans hr) hx.ne_paren
  | exp a => rw [ptree_exp] at h; exact absurd h.symm (str_call_ne hx)
  | log a => rw [ptree_log] at h; exact absurd h.symm (str_call_ne hx)
  | pow b e => rw [ptree_pow] at h; exact absurd h.symm (str_call_ne hx)
  | user f as => rw [ptree_user] at h; exact absurd h.symm (str_call_ne hx)
  | blog op a b =>
    rw [ptree_blog] at h
    obtain ⟨rest, hr⟩ := render_paren .none (ptree C a) (.cons (.logic op) (ptree C b) .nil)
    exact absurd (h.trans hr) hx.ne_paren
  | ulog a =>
    rw [ptree_ulog] at h
    obtain ⟨rest, hr⟩ := render_paren .not (ptree C a) .nil
    exact absurd (h.trans hr) hx.ne_paren

theorem str_var (C : Cfg K) (x : Str) : str C (.var x) = x := by
  rw [str, ptree_var]; simp only [render]

theorem str_model (C : Cfg K) (x : Str) : str C (.model x) = x := by
  rw [str, ptree_model]; simp only [render]

theorem eval_bind_name (C : Cfg K) (ρ : Env) (x : Str) (t : ℝ) (e : Expr K)
    (h : e = .var x ∨ e = .model x) : eval C (ρ.bind x t) e = t := by
  rcases h with rfl | rfl <;> simp [Env.bind]

/-! ### The property -/

/-- **C03.** Substituting `r` for the name `x` in `e` gives an expression whose value in any
environment is the value of `e` in the environment where `x` means the value of `r`. All other
names keep their meaning. -/
theorem subst_eval {C : Cfg K} (hC : C.Exact) (hF : C.DigitFirst) {x : Str} (hx : NameText x)
    (r : Expr K) (ρ : Env) (e : Expr K) :
    eval C ρ (subst C x r e) = eval C (ρ.bind x (eval C ρ r)) e := by
  have key : ∀ e : Expr K, x = str C e → eval C ρ r = eval C (ρ.bind x (eval C ρ r)) e :=
    fun e h => (eval_bind_name C ρ x _ e (str_eq_name hF hx e h)).symm
  induction e using Expr.ind with
  | hcon c =>
    simp only [subst]
    split
    · exact key _ ‹_›
    · simp
  | hvar y =>
    simp only [subst]
    split
    · exact key _ ‹_›
    · rename_i h; rw [str_var] at h
      simp [Env.bind, Function.update_of_ne (Ne.symm h)]
  | hmodel y =>
    simp only [subst]
    split
    · exact key _ ‹_›
    · rename_i h; rw [str_model] at h
      simp [Env.bind, Function.update_of_ne (Ne.symm h)]
  | hadd vs ih =>
    simp only [subst]
    split
    · exact key _ ‹_›
    · rw [eval_mkAdd hC, substL_eq, List.map_map, eval_add]
      congr 1
      exact List.map_congr_left ih
  | hprod vs ih =>
    simp only [subst]
    split
    · exact key _ ‹_›
    · split
      · rename_i h
        have h1 := eval_scale_unscaled hC (ρ.bind x (eval C ρ r)) (.prod vs)
        rw [← key _ h] at h1
        rw [eval_mul hC, ← h1]
        simp [scale]
      · rw [eval_mkProd hC, substL_eq, List.map_map, eval_prod]
        congr 1
        exact List.map_congr_left ih
  | hexp a ih =>
    simp only [subst]
    split
    · exact key _ ‹_›
    · simp [ih]
  | hlog a ih =>
    simp only [subst]
    split
    · exact key _ ‹_›
    · simp [ih]
  | hpow b e ihb ihe =>
    simp only [subst]
    split
    · exact key _ ‹_›
    · simp [ihb, ihe]
  | huser f as ih =>
    simp only [subst]
    split
    · exact key _ ‹_›
    · rw [eval_user, substL_eq, List.map_map, eval_user]
      change ρ.u f _ = ρ.u f _
      congr 1
      exact List.map_congr_left ih
  | hblog op a b iha ihb =>
    simp only [subst]
    split
    · rw [eval_clone hC]; exact key _ ‹_›
    · simp [iha, ihb]
  | hulog a iha =>
    simp only [subst]
    split
    · rw [eval_clone hC]; exact key _ ‹_›
    · simp [iha]

end Verif.Sym
