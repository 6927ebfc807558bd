import Verif.Sym.Simplify

/-!
# Where simplification is valid (specification of C02)

`G` (good) and `P` (positive) say of an expression and an environment: every logarithm and every power
with an exponent that is no integer is taken of an expression made of positive parts without
subtraction; a power with an integer exponent has a non-zero base or a literal exponent of at least
one. All other parts are unrestricted.
-/

namespace Verif.Sym

variable {K : Type}

/-- `Cls C ρ false e`: the expression is good at `ρ`. `Cls C ρ true e`: it is, and it is made of positive
parts. -/
inductive Cls (C : Cfg K) (ρ : Env) : Bool → Expr K → Prop
  | con (c) : Cls C ρ false (.con c)
  | conP {c} : 0 < C.val c → Cls C ρ true (.con c)
  | var (x) : Cls C ρ false (.var x)
  | varP {x} : 0 < ρ.v x → Cls C ρ true (.var x)
  | model (x) : Cls C ρ false (.model x)
  | modelP {x} : 0 < ρ.m x → Cls C ρ true (.model x)
  | add {m vs} : (m = true → vs ≠ []) → (∀ v ∈ vs, Cls C ρ m v) → Cls C ρ m (.add vs)
  | prod {m vs} : (∀ v ∈ vs, Cls C ρ m v) → Cls C ρ m (.prod vs)
  | exp {m a} : Cls C ρ false a → Cls C ρ m (.exp a)
  | log {a} : Cls C ρ true a → Cls C ρ false (.log a)
  | powP {m b e} : Cls C ρ true b → Cls C ρ false e → Cls C ρ m (.pow b e)
  | powI {b e} {z : ℤ} : Cls C ρ false b → Cls C ρ false e → eval C ρ e = z → eval C ρ b ≠ 0 →
      Cls C ρ false (.pow b e)
  | powL {b c} {k : ℕ} : Cls C ρ false b → C.val c = k → 1 ≤ k → Cls C ρ false (.pow b (.con c))
  | user {m f as} : (m = true → 0 < eval C ρ (.user f as)) → (∀ v ∈ as, Cls C ρ false v) →
      Cls C ρ m (.user f as)
  | blog (op a b) : Cls C ρ false (.blog op a b)
  | ulog (a) : Cls C ρ false (.ulog a)

/-- Good. -/
abbrev G (C : Cfg K) (ρ : Env) (e : Expr K) : Prop := Cls C ρ false e

/-- Made of positive parts. -/
abbrev P (C : Cfg K) (ρ : Env) (e : Expr K) : Prop := Cls C ρ true e

section
variable {C : Cfg K} {ρ : Env}

theorem Cls.g {m : Bool} {e : Expr K} (h : Cls C ρ m e) : G C ρ e := by
  induction h with
  | con => exact .con _
  | conP => exact .con _
  | var => exact .var _
  | varP => exact .var _
  | model => exact .model _
  | modelP => exact .model _
  | add _ _ ih => exact .add (by simp) ih
  | prod _ ih => exact .prod ih
  | exp h _ => exact .exp h
  | log h _ => exact .log h
  | powP hb he _ _ => exact .powP hb he
  | powI hb he hz h0 _ _ => exact .powI hb he hz h0
  | powL hb hc hk _ => exact .powL hb hc hk
  | user _ h _ => exact .user (by simp) h
  | blog => exact .blog _ _ _
  | ulog => exact .ulog _

theorem sum_pos' : ∀ {l : List ℝ}, l ≠ [] → (∀ x ∈ l, 0 < x) → 0 < l.sum
  | [], h, _ => absurd rfl h
  | [x], _, h => by simpa using h x (by simp)
  | x :: y :: l, _, h => by
    rw [List.sum_cons]
    exact add_pos (h x (by simp)) (sum_pos' (by simp) fun z hz => h z (by simp [hz]))

theorem prod_pos' : ∀ {l : List ℝ}, (∀ x ∈ l, 0 < x) → 0 < l.prod
  | [], _ => by simp
  | x :: l, h => by
    rw [List.prod_cons]
    exact mul_pos (h x (by simp)) (prod_pos' fun z hz => h z (by simp [hz]))

theorem Cls.pos {m : Bool} {e : Expr K} (h : Cls C ρ m e) : m = true → 0 < eval C ρ e := by
  induction h with
  | conP h => intro _; simpa using h
  | varP h => intro _; simpa using h
  | modelP h => intro _; simpa using h
  | add hne _ ih =>
    intro hm
    rw [eval_add]
    refine sum_pos' ?_ ?_
    · intro h0; exact hne hm (List.map_eq_nil_iff.1 h0)
    · intro x hx
      obtain ⟨v, hv, rfl⟩ := List.mem_map.1 hx
      exact ih v hv hm
  | prod _ ih =>
    intro hm
    rw [eval_prod]
    refine prod_pos' ?_
    intro x hx
    obtain ⟨v, hv, rfl⟩ := List.mem_map.1 hx
    exact ih v hv hm
  | exp => intro _; rw [eval_exp]; exact Real.exp_pos _
  | powP _ _ ihb _ => intro _; rw [eval_pow]; exact Real.rpow_pos_of_pos (ihb rfl) _
  | user h _ _ => intro hm; exact h hm
  | _ => intro h; cases h

theorem P_pos {e : Expr K} (h : P C ρ e) : 0 < eval C ρ e := h.pos rfl

/-! Inversion -/

theorem Cls.add_inv {m : Bool} {vs : List (Expr K)} (h : Cls C ρ m (.add vs)) :
    ∀ v ∈ vs, Cls C ρ m v := by cases h with | add _ h => exact h

theorem Cls.prod_inv {m : Bool} {vs : List (Expr K)} (h : Cls C ρ m (.prod vs)) :
    ∀ v ∈ vs, Cls C ρ m v := by cases h with | prod h => exact h

theorem Cls.exp_inv {m : Bool} {a : Expr K} (h : Cls C ρ m (.exp a)) : G C ρ a := by
  cases h with | exp h => exact h

theorem Cls.log_inv {m : Bool} {a : Expr K} (h : Cls C ρ m (.log a)) : P C ρ a := by
  cases h with | log h => exact h

theorem Cls.user_inv {m : Bool} {f} {as : List (Expr K)} (h : Cls C ρ m (.user f as)) :
    ∀ v ∈ as, G C ρ v := by cases h with | user _ h => exact h

theorem Cls.powP_inv {b e : Expr K} (h : P C ρ (.pow b e)) : P C ρ b ∧ G C ρ e := by
  cases h with | powP h1 h2 => exact ⟨h1, h2⟩

/-- What a good power is. -/
theorem Cls.pow_inv {m : Bool} {b e : Expr K} (h : Cls C ρ m (.pow b e)) : G C ρ b ∧ G C ρ e ∧
    (P C ρ b ∨ ((∃ z : ℤ, eval C ρ e = z) ∧ eval C ρ b ≠ 0) ∨
      (∃ c, e = .con c ∧ ∃ k : ℕ, C.val c = k ∧ 1 ≤ k)) := by
  cases h with
  | powP h1 h2 => exact ⟨h1.g, h2, .inl h1⟩
  | powI h1 h2 h3 h4 => exact ⟨h1, h2, .inr (.inl ⟨⟨_, h3⟩, h4⟩)⟩
  | powL h1 h2 h3 => exact ⟨h1, .con _, .inr (.inr ⟨_, rfl, _, h2, h3⟩)⟩

theorem Cls.factors {m : Bool} {v : Expr K} (h : Cls C ρ m v) : ∀ w ∈ v.factors, Cls C ρ m w := by
  intro w hw
  unfold Expr.factors at hw
  split at hw
  · exact h.prod_inv w hw
  · rw [List.mem_singleton.1 hw]; exact h

theorem Cls.terms {m : Bool} {v : Expr K} (h : Cls C ρ m v) : ∀ w ∈ v.terms, Cls C ρ m w := by
  intro w hw
  unfold Expr.terms at hw
  split at hw
  · exact h.add_inv w hw
  · rw [List.mem_singleton.1 hw]; exact h

/-! Closure -/

theorem Cls.mkProd {m : Bool} {vs : List (Expr K)} (h : ∀ v ∈ vs, Cls C ρ m v) :
    Cls C ρ m (mkProd C vs) := .prod fun v hv => h v ((C.srt_perm vs).mem_iff.1 hv)

theorem Cls.mkAdd {m : Bool} {vs : List (Expr K)} (hne : vs ≠ []) (h : ∀ v ∈ vs, Cls C ρ m v) :
    Cls C ρ m (mkAdd C vs) := by
  refine .add (fun _ h0 => ?_) fun v hv => h v ((C.srt_perm vs).mem_iff.1 hv)
  have := (C.srt_perm vs).length_eq
  rw [h0] at this
  exact hne (List.length_eq_zero_iff.1 this.symm)

theorem Cls.mul (hC : C.Exact) {m : Bool} {x y : Expr K} (hx : Cls C ρ m x) (hy : Cls C ρ m y) :
    Cls C ρ m (mul C x y) := by
  unfold Verif.Sym.mul
  split
  · rename_i h
    cases m with
    | false => exact .con _
    | true =>
      rw [Bool.or_eq_true] at h
      rcases h with h | h
      · have := P_pos hx; rw [eval_isZero hC ρ _ h] at this; exact absurd this (lt_irrefl _)
      · have := P_pos hy; rw [eval_isZero hC ρ _ h] at this; exact absurd this (lt_irrefl _)
  · split
    · exact hy
    · split
      · exact hx
      · split
        · refine .mkProd fun v hv => ?_
          rcases List.mem_append.1 hv with hv | hv
          · exact hx.prod_inv v hv
          · exact hy.prod_inv v hv
        · refine .mkProd fun v hv => ?_
          rcases List.mem_append.1 hv with hv | hv
          · exact hx.prod_inv v hv
          · rw [List.mem_singleton.1 hv]; exact hy
        · refine .mkProd fun v hv => ?_
          rcases List.mem_cons.1 hv with rfl | hv
          · exact hx
          · exact hy.prod_inv v hv
        · refine .prod fun v hv => ?_
          simp only [List.mem_cons, List.not_mem_nil, or_false] at hv
          rcases hv with rfl | rfl
          · exact hx
          · exact hy

theorem G.plus {x y : Expr K} (hx : G C ρ x) (hy : G C ρ y) : G C ρ (plus C x y) := by
  unfold Verif.Sym.plus
  split
  · exact hy
  · split
    · exact hx
    · split
      · refine .add (by simp) fun v hv => ?_
        rcases List.mem_append.1 ((C.srt_perm _).mem_iff.1 hv) with hv | hv
        · exact hx.add_inv v hv
        · exact hy.add_inv v hv
      · refine .add (by simp) fun v hv => ?_
        rcases List.mem_append.1 ((C.srt_perm _).mem_iff.1 hv) with hv | hv
        · exact hx.add_inv v hv
        · rw [List.mem_singleton.1 hv]; exact hy
      · refine .add (by simp) fun v hv => ?_
        rcases List.mem_cons.1 ((C.srt_perm _).mem_iff.1 hv) with rfl | hv
        · exact hx
        · exact hy.add_inv v hv
      · refine .add (by simp) fun v hv => ?_
        simp only [List.mem_cons, List.not_mem_nil, or_false] at hv
        rcases hv with rfl | rfl
        · exact hx
        · exact hy

theorem Cls.clone (hC : C.Exact) {m : Bool} {e : Expr K} (h : Cls C ρ m e) :
    Cls C ρ m (clone C e) := by
  induction h with
  | con => exact .con _
  | conP h => exact .conP h
  | var => exact .var _
  | varP h => exact .varP h
  | model => exact .model _
  | modelP h => exact .modelP h
  | @add m vs hne _ ih =>
    rw [Verif.Sym.clone, cloneL_eq]
    refine .add (fun hm h0 => ?_) fun v hv => ?_
    · have := (C.srt_perm (vs.map (Verif.Sym.clone C))).length_eq
      rw [h0] at this
      simp only [List.length_nil, List.length_map] at this
      exact hne hm (List.length_eq_zero_iff.1 this.symm)
    · obtain ⟨w, hw, rfl⟩ := List.mem_map.1 ((C.srt_perm _).mem_iff.1 hv)
      exact ih w hw
  | prod _ ih =>
    rw [Verif.Sym.clone, cloneL_eq]
    exact .mkProd (by simpa using ih)
  | exp _ ih => exact .exp ih
  | log _ ih => exact .log ih
  | powP _ _ ihb ihe => exact .powP ihb ihe
  | powI _ _ hz h0 ihb ihe =>
    exact .powI ihb ihe (by rw [eval_clone hC]; exact hz) (by rw [eval_clone hC]; exact h0)
  | powL _ hc hk ihb => exact .powL ihb hc hk
  | user hp _ ih =>
    have he := eval_clone hC ρ (.user ‹Str› ‹List (Expr K)›)
    rw [Verif.Sym.clone, cloneL_eq] at he ⊢
    exact .user (fun hm => by rw [he]; exact hp hm) (by simpa using ih)
  | blog => exact .blog _ _ _
  | ulog => exact .ulog _

theorem nonconsts_mem : ∀ {vs : List (Expr K)} {v}, v ∈ nonconsts vs → v ∈ vs := by
  intro vs v h; exact nonconsts_sub vs v h

theorem Cls.unscaled (hC : C.Exact) {m : Bool} {e : Expr K} (h : Cls C ρ m e) :
    Cls C ρ m (unscaled C e) := by
  have hone : Cls C ρ m (conI C 1) := by
    cases m with
    | false => exact .con _
    | true => exact .conP (by rw [hC.ofInt]; norm_num)
  unfold Verif.Sym.unscaled
  split
  · exact hone
  · have hm := h.prod_inv
    split
    · exact hone
    · rename_i v hv
      exact hm v (nonconsts_mem (by rw [hv]; simp))
    · exact .mkProd fun v hv => hm v (nonconsts_mem hv)
  · exact h

theorem Cls.scale (hC : C.Exact) {m : Bool} {e : Expr K} (h : Cls C ρ m e) :
    Cls C ρ m (scale C e) := by
  unfold Verif.Sym.scale
  split
  · exact h
  · rename_i vs
    cases m with
    | false => exact .con _
    | true =>
      refine .conP ?_
      rw [val_foldConsts hC]
      refine prod_pos' ?_
      intro x hx
      obtain ⟨c, hc, rfl⟩ := List.mem_map.1 hx
      have := P_pos (h.prod_inv _ (consts_sub vs c hc))
      simpa using this
  · cases m with
    | false => exact .con _
    | true => exact .conP (by rw [hC.ofInt]; norm_num)

end

end Verif.Sym
