import Verif.Sym.Print

/-!
# Expansion of products over sums (`expand`, property C04)
-/

namespace Verif.Sym

variable {K : Type}

/-! ### Model -/

/-- A loop that fails when one of its steps fails. -/
def mapO {α β : Type} (f : α → Option β) : List α → Option (List β)
  | [] => some []
  | a :: as => match f a, mapO f as with
    | some b, some bs => some (b :: bs)
    | _, _ => none

/-- `getType() == ADD_OBJ`. -/
def Expr.isAdd : Expr K → Bool
  | .add _ => true
  | _ => false

/-- `atoi` of a text that starts with digits. -/
def atoi (s : Str) : Nat := Nat.ofDigitChars 10 (s.takeWhile Char.isDigit) 0

/-- The test of `Pow::expand` (`EquationObject.cc:1782-1803`): the exponent is a constant below 100
whose text, with the default precision of six digits, has no point and starts with an
integer above one. Returns that integer and whether the constant is negative. -/
def intExp (C : Cfg K) : Expr K → Option (Nat × Bool)
  | .con c =>
    let d := if C.isNeg c then C.neg c else c
    if C.lt100 d && !(C.fmt6 d).contains '.' && decide (1 < atoi (C.fmt6 d)) then
      some (atoi (C.fmt6 d), C.isNeg c)
    else none
  | _ => none

/-- The multiplication loop of `Pow::expand` (`EquationObject.cc:1808-1811`). -/
def mulN (C : Cfg K) (b : Expr K) : Nat → Expr K → Expr K
  | 0, out => out
  | k + 1, out => mulN C b k (mul C out b)

/-- The factor in front of the sums in `Product::expand` (`EquationObject.cc:954-963`). -/
def scaleOf (C : Cfg K) : List (Expr K) → Expr K
  | [] => conI C 1
  | [e] => e
  | es => mkProd C es

/-- The distribution loop of `Product::expand` (`EquationObject.cc:978-998`). -/
def distr (C : Cfg K) (s : Expr K) : List (Expr K) → Expr K
  | [] => s
  | a :: as => distr C (mkAdd C (if isOne C s then a.terms else a.terms.map (mul C s))) as

/-- `expand` of every class (`EquationObject.cc:258-261`, `370-373`, `938-1003`, `1307-1318`,
`1427-1430`, `1553-1556`, `1774-1821`, `UserFunc.cc:230-241`, `LogicalFunc.cc:96-99`, `198-201`,
`mcModel.cc:34-37`), with at most `n` nested calls: `none` means that the recursion goes deeper. The
empty products and sums on which the code asserts are not excluded here. -/
def expandF (C : Cfg K) : Nat → Expr K → Option (Expr K)
  | 0, _ => none
  | n + 1, e => match e with
    | .add vs => (mapO (expandF C n) vs).map (mkAdd C)
    | .prod vs => match mapO (expandF C n) (vs.filter fun v => !v.isAdd),
        mapO (expandF C n) (vs.filter Expr.isAdd) with
      | some t, some a => some (distr C (scaleOf C t) a)
      | _, _ => none
    | .exp a => (expandF C n a).map .exp
    | .log a => (expandF C n a).map .log
    | .user f as => (mapO (expandF C n) as).map (.user f)
    | .pow b e => match expandF C n b, expandF C n e with
      | some b', some e' => match intExp C e' with
        | none => some (.pow b' e')
        | some (ex, neg) =>
          (expandF C n (mulN C (clone C b') (ex - 1) (clone C b'))).map fun o =>
            if neg then .pow o (conI C (-1)) else o
      | _, _ => none
    | e => some e

/-- The loop of `Expand` (`EquationObject.hh:750-760`) without the simplification at its end: `expand`
until the text does not change, at most `k` times. -/
def expandLoop (C : Cfg K) (n : Nat) : Nat → Expr K → Option (Expr K)
  | 0, _ => none
  | k + 1, e => match expandF C n e with
    | some e' => if str C e = str C e' then some e' else expandLoop C n k e'
    | none => none

/-! ### Specification -/

/-- The text test of `Pow::expand` recognises integers: an exponent it takes for the integer `n` is `n`
or `-n`. -/
def Cfg.IntText (C : Cfg K) : Prop :=
  ∀ c n neg, intExp C (.con c) = some (n, neg) → C.val c = if neg then -(n : ℝ) else n

/-! ### The value is preserved -/

theorem intExp_gt {C : Cfg K} {e : Expr K} {n : Nat} {neg : Bool}
    (h : intExp C e = some (n, neg)) : 1 < n := by
  cases e with
  | con c =>
    unfold intExp at h
    dsimp only at h
    generalize (if C.isNeg c then C.neg c else c) = d at h
    by_cases hc : (C.lt100 d && !(C.fmt6 d).contains '.' && decide (1 < atoi (C.fmt6 d))) = true
    · rw [if_pos hc] at h
      simp only [Bool.and_eq_true, decide_eq_true_eq] at hc
      cases h; exact hc.2
    · rw [if_neg hc] at h; cases h
  | _ => cases h

theorem mapO_forall₂ {α β : Type} {f : α → Option β} : ∀ {l : List α} {l' : List β},
    mapO f l = some l' → List.Forall₂ (fun a b => f a = some b) l l'
  | [], l', h => by simp only [mapO, Option.some.injEq] at h; subst h; exact .nil
  | a :: l, l', h => by
    simp only [mapO] at h
    split at h
    · rename_i b bs hb hbs
      cases h
      exact .cons hb (mapO_forall₂ hbs)
    · cases h

theorem eval_terms (C : Cfg K) (ρ : Env) (a : Expr K) :
    (a.terms.map (eval C ρ)).sum = eval C ρ a := by
  unfold Expr.terms
  split <;> simp

section Value
variable {C : Cfg K} (hC : C.Exact) (ρ : Env)
include hC

theorem eval_distr : ∀ (as : List (Expr K)) (s : Expr K),
    eval C ρ (distr C s as) = eval C ρ s * (as.map (eval C ρ)).prod
  | [], s => by simp [distr]
  | a :: as, s => by
    rw [distr, eval_distr as, eval_mkAdd hC, List.map_cons, List.prod_cons, ← mul_assoc]
    congr 1
    split
    · rename_i h
      rw [eval_terms, eval_isOne hC ρ s h, one_mul]
    · rw [List.map_map]
      have : (eval C ρ ∘ mul C s) = fun v => eval C ρ s * eval C ρ v := by
        funext v; exact eval_mul hC ρ s v
      rw [this, ← eval_terms C ρ a, List.sum_map_mul_left]

theorem eval_scaleOf (es : List (Expr K)) :
    eval C ρ (scaleOf C es) = (es.map (eval C ρ)).prod := by
  unfold scaleOf
  split
  · simp [eval_conI hC]
  · simp
  · rw [eval_mkProd hC]

theorem eval_mulN (b : Expr K) : ∀ (k : Nat) (out : Expr K),
    eval C ρ (mulN C b k out) = eval C ρ out * eval C ρ b ^ k
  | 0, out => by simp [mulN]
  | k + 1, out => by rw [mulN, eval_mulN b k, eval_mul hC, pow_succ]; ring

omit hC in
theorem forall₂_map {f g : Expr K → ℝ} {l l' : List (Expr K)}
    (h : List.Forall₂ (fun a b => g b = f a) l l') : l'.map g = l.map f := by
  induction h with
  | nil => rfl
  | cons h _ ih => rw [List.map_cons, List.map_cons, h, ih]

omit hC in
theorem prod_filter (vs : List (Expr K)) (p : Expr K → Bool) (f : Expr K → ℝ) :
    ((vs.filter fun v => !p v).map f).prod * ((vs.filter p).map f).prod = (vs.map f).prod := by
  induction vs with
  | nil => simp
  | cons v vs ih =>
    rw [List.filter_cons, List.filter_cons, List.map_cons, List.prod_cons, ← ih]
    cases p v <;> simp <;> ring

/-- **C04, value.** Whatever `expand` returns has the value of its argument, in every
environment. -/
theorem expandF_eval (hI : C.IntText) : ∀ (n : Nat) (e e' : Expr K), expandF C n e = some e' →
    eval C ρ e' = eval C ρ e := by
  intro n
  induction n with
  | zero => intro e e' h; cases h
  | succ n ih =>
    have hL : ∀ l l', mapO (expandF C n) l = some l' → l'.map (eval C ρ) = l.map (eval C ρ) := by
      intro l l' h
      exact forall₂_map ((mapO_forall₂ h).imp fun a b hab => ih a b hab)
    intro e e' h
    cases e with
    | add vs =>
      simp only [expandF, Option.map_eq_some_iff] at h
      obtain ⟨l, hl, rfl⟩ := h
      rw [eval_mkAdd hC, hL _ _ hl, eval_add]
    | prod vs =>
      simp only [expandF] at h
      split at h
      · rename_i t a ht ha
        cases h
        rw [eval_distr hC, eval_scaleOf hC, hL _ _ ht, hL _ _ ha, eval_prod]
        exact prod_filter vs Expr.isAdd (eval C ρ)
      · cases h
    | exp a =>
      simp only [expandF, Option.map_eq_some_iff] at h
      obtain ⟨a', ha, rfl⟩ := h
      simp [ih a a' ha]
    | log a =>
      simp only [expandF, Option.map_eq_some_iff] at h
      obtain ⟨a', ha, rfl⟩ := h
      simp [ih a a' ha]
    | user f as =>
      simp only [expandF, Option.map_eq_some_iff] at h
      obtain ⟨l, hl, rfl⟩ := h
      simp [hL _ _ hl]
    | pow b e =>
      simp only [expandF] at h
      split at h
      · rename_i b' e₁ hb he
        have hb' := ih b b' hb
        have he' := ih e e₁ he
        split at h
        · cases h
          rw [eval_pow, eval_pow, hb', he']
        · rename_i ex neg hex
          simp only [Option.map_eq_some_iff] at h
          obtain ⟨o, ho, rfl⟩ := h
          have ho' := ih _ _ ho
          have hp : eval C ρ o = eval C ρ b ^ ex := by
            rw [ho', eval_mulN hC, eval_clone hC, hb', ← pow_succ']
            congr 1
            have := intExp_gt hex
            omega
          have hv : eval C ρ e = if neg then -(ex : ℝ) else ex := by
            rw [← he']
            cases e₁ with
            | con c => rw [eval_con]; exact hI c ex neg hex
            | _ => simp [intExp] at hex
          rw [eval_pow, hv]
          cases neg with
          | true =>
            simp only [if_true, eval_pow, hp, eval_conI hC]
            push_cast
            have e1 : (-1 : ℝ) = ((-1 : ℤ) : ℝ) := by push_cast; rfl
            have e2 : -(ex : ℝ) = ((-(ex : ℤ) : ℤ) : ℝ) := by push_cast; rfl
            rw [e1, e2, Real.rpow_intCast, Real.rpow_intCast, zpow_neg, zpow_neg, zpow_natCast,
              zpow_one]
          | false => simp [hp, Real.rpow_natCast]
      · cases h
    | con c => simp only [expandF] at h; cases h; rfl
    | var x => simp only [expandF] at h; cases h; rfl
    | model x => simp only [expandF] at h; cases h; rfl
    | blog op a b => simp only [expandF] at h; cases h; rfl
    | ulog a => simp only [expandF] at h; cases h; rfl

/-- **C04, the loop of the `expand` command.** -/
theorem expandLoop_eval (hI : C.IntText) (n : Nat) : ∀ (k : Nat) (e e' : Expr K),
    expandLoop C n k e = some e' → eval C ρ e' = eval C ρ e := by
  intro k
  induction k with
  | zero => intro e e' h; cases h
  | succ k ih =>
    intro e e' h
    simp only [expandLoop] at h
    split at h
    · rename_i e₁ h1
      split at h
      · cases h; exact expandF_eval hC ρ hI n e _ h1
      · rw [ih _ _ h, expandF_eval hC ρ hI n e _ h1]
    · cases h

end Value

/-! ### It terminates -/

/-- Products have at least two factors, everywhere. -/
inductive Two : Expr K → Prop
  | con (c) : Two (.con c)
  | var (x) : Two (.var x)
  | model (m) : Two (.model m)
  | add {vs} : (∀ v ∈ vs, Two v) → Two (.add vs)
  | prod {vs} : 2 ≤ vs.length → (∀ v ∈ vs, Two v) → Two (.prod vs)
  | exp {a} : Two a → Two (.exp a)
  | log {a} : Two a → Two (.log a)
  | pow {b e} : Two b → Two e → Two (.pow b e)
  | user {f as} : (∀ v ∈ as, Two v) → Two (.user f as)
  | blog (op a b) : Two (.blog op a b)
  | ulog (a) : Two (.ulog a)

theorem WF.toTwo {T : Tables} {S : K → Prop} {e : Expr K} (h : WF T S e) : Two e := by
  induction h with
  | con => exact .con _
  | var => exact .var _
  | model => exact .model _
  | add _ _ ih => exact .add ih
  | prod hl _ ih => exact .prod hl ih
  | exp _ ih => exact .exp ih
  | log _ ih => exact .log ih
  | pow _ _ ihb ihe => exact .pow ihb ihe
  | user _ _ _ _ _ _ ih => exact .user ih
  | blog => exact .blog _ _ _
  | ulog => exact .ulog _

/-- No power that `expand` would multiply out is left (and products have at least two factors). -/
inductive Flat (C : Cfg K) : Expr K → Prop
  | con (c) : Flat C (.con c)
  | var (x) : Flat C (.var x)
  | model (m) : Flat C (.model m)
  | add {vs} : (∀ v ∈ vs, Flat C v) → Flat C (.add vs)
  | prod {vs} : 2 ≤ vs.length → (∀ v ∈ vs, Flat C v) → Flat C (.prod vs)
  | exp {a} : Flat C a → Flat C (.exp a)
  | log {a} : Flat C a → Flat C (.log a)
  | pow {b e} : Flat C b → Flat C e → intExp C e = none → Flat C (.pow b e)
  | user {f as} : (∀ v ∈ as, Flat C v) → Flat C (.user f as)
  | blog (op a b) : Flat C (.blog op a b)
  | ulog (a) : Flat C (.ulog a)

/-- A constant that is 0 or 1. -/
def ZeroOne (C : Cfg K) (e : Expr K) : Prop := ∀ c, e = .con c → C.val c = 0 ∨ C.val c = 1

section Term
variable {C : Cfg K} (hC : C.Exact) (hI : C.IntText)

theorem mapO_exists {α β : Type} {f : α → Option β} {P : α → β → Prop} : ∀ {l : List α},
    (∀ a ∈ l, ∃ b, f a = some b ∧ P a b) → ∃ l', mapO f l = some l' ∧ List.Forall₂ P l l'
  | [], _ => ⟨[], rfl, .nil⟩
  | a :: l, h => by
    obtain ⟨b, hb, hp⟩ := h a (by simp)
    obtain ⟨l', hl, hf⟩ := mapO_exists (l := l) fun a' ha => h a' (by simp [ha])
    exact ⟨b :: l', by simp only [mapO, hb, hl], .cons hp hf⟩

theorem mapO_mono {α β : Type} {f g : α → Option β} (h : ∀ a b, f a = some b → g a = some b) :
    ∀ {l : List α} {l' : List β}, mapO f l = some l' → mapO g l = some l'
  | [], l', hl => hl
  | a :: l, l', hl => by
    simp only [mapO] at hl
    split at hl
    · rename_i b bs hb hbs
      cases hl
      simp only [mapO, h a b hb, mapO_mono h hbs]
    · cases hl

/-- More nesting allowed does not change the result. -/
theorem expandF_mono : ∀ (n : Nat) (e e' : Expr K), expandF C n e = some e' →
    expandF C (n + 1) e = some e' := by
  intro n
  induction n with
  | zero => intro e e' h; cases h
  | succ n ih =>
    have ihL : ∀ l l', mapO (expandF C n) l = some l' → mapO (expandF C (n + 1)) l = some l' :=
      fun l l' h => mapO_mono ih h
    intro e e' h
    cases e with
    | add vs =>
      rw [expandF] at h ⊢
      simp only [Option.map_eq_some_iff] at h ⊢
      obtain ⟨l, hl, rfl⟩ := h
      exact ⟨l, ihL _ _ hl, rfl⟩
    | prod vs =>
      rw [expandF] at h ⊢
      split at h
      · rename_i t a ht ha
        rw [ihL _ _ ht, ihL _ _ ha]
        exact h
      · cases h
    | exp a =>
      rw [expandF] at h ⊢
      simp only [Option.map_eq_some_iff] at h ⊢
      obtain ⟨l, hl, rfl⟩ := h
      exact ⟨l, ih _ _ hl, rfl⟩
    | log a =>
      rw [expandF] at h ⊢
      simp only [Option.map_eq_some_iff] at h ⊢
      obtain ⟨l, hl, rfl⟩ := h
      exact ⟨l, ih _ _ hl, rfl⟩
    | user f as =>
      rw [expandF] at h ⊢
      simp only [Option.map_eq_some_iff] at h ⊢
      obtain ⟨l, hl, rfl⟩ := h
      exact ⟨l, ihL _ _ hl, rfl⟩
    | pow b e =>
      rw [expandF] at h ⊢
      split at h
      · rename_i b' e₁ hb he
        rw [ih _ _ hb, ih _ _ he]
        dsimp only
        split at h
        · exact h
        · simp only [Option.map_eq_some_iff] at h ⊢
          obtain ⟨o, ho, rfl⟩ := h
          exact ⟨o, ih _ _ ho, rfl⟩
      · cases h
    | _ => simpa only [expandF] using h

theorem expandF_le {n m : Nat} (h : n ≤ m) {e e' : Expr K} (he : expandF C n e = some e') :
    expandF C m e = some e' := by
  induction h with
  | refl => exact he
  | step _ ih => exact expandF_mono _ _ _ ih

include hC in
theorem isOne_con {c : K} (h : isOne C (.con c) = true) : C.val c = 1 := by
  simp only [isOne] at h; simpa using (hC.eqInt _ _).1 h

include hC in
theorem isOne_con' {c : K} (h : C.val c = 1) : isOne C (.con c) = true := by
  simp only [isOne]; exact (hC.eqInt _ _).2 (by simpa using h)

include hC in
theorem isZero_con {c : K} (h : isZero C (.con c) = true) : C.val c = 0 := by
  simp only [isZero] at h; simpa using (hC.eqInt _ _).1 h

include hC hI in
theorem ZeroOne.intExp {e : Expr K} (h : ZeroOne C e) : intExp C e = none := by
  cases e with
  | con c =>
    match hx : Verif.Sym.intExp C (.con c) with
    | none => rfl
    | some (n, neg) =>
      exfalso
      have h1 := hI c n neg hx
      have h2 : 1 < n := intExp_gt hx
      have h3 : (1 : ℝ) < n := by exact_mod_cast h2
      rcases h c rfl with h0 | h0 <;> rw [h0] at h1 <;> split at h1 <;> linarith
  | _ => rfl

include hC hI in
theorem intExp_mone : intExp C (conI C (-1)) = none := by
  match hx : Verif.Sym.intExp C (conI C (-1)) with
  | none => rfl
  | some (n, neg) =>
    exfalso
    have h1 := hI _ n neg hx
    rw [hC.ofInt] at h1
    have h2 : 1 < n := intExp_gt hx
    have h3 : (1 : ℝ) < n := by exact_mod_cast h2
    push_cast at h1
    split at h1 <;> linarith

theorem Flat.factors {vs : List (Expr K)} (h : Flat C (.prod vs)) : ∀ v ∈ vs, Flat C v := by
  cases h with | prod _ h => exact h

theorem Flat.two {vs : List (Expr K)} (h : Flat C (.prod vs)) : 2 ≤ vs.length := by
  cases h with | prod h _ => exact h

theorem Flat.mkProd {vs : List (Expr K)} (hl : 2 ≤ vs.length) (h : ∀ v ∈ vs, Flat C v) :
    Flat C (mkProd C vs) :=
  .prod (by rw [(C.srt_perm vs).length_eq]; exact hl) fun v hv => h v ((C.srt_perm vs).mem_iff.1 hv)

theorem Flat.mkAdd {vs : List (Expr K)} (h : ∀ v ∈ vs, Flat C v) : Flat C (mkAdd C vs) :=
  .add fun v hv => h v ((C.srt_perm vs).mem_iff.1 hv)

theorem Flat.mul {x y : Expr K} (hx : Flat C x) (hy : Flat C y) : Flat C (mul C x y) := by
  unfold Verif.Sym.mul
  split
  · exact .con _
  · split
    · exact hy
    · split
      · exact hx
      · split
        · refine .mkProd ?_ ?_
          · have := hx.two; simp only [List.length_append]; omega
          · intro v hv
            rcases List.mem_append.1 hv with hv | hv
            · exact hx.factors v hv
            · exact hy.factors v hv
        · refine .mkProd ?_ ?_
          · have := hx.two; simp only [List.length_append]; omega
          · intro v hv
            rcases List.mem_append.1 hv with hv | hv
            · exact hx.factors v hv
            · rw [List.mem_singleton.1 hv]; exact hy
        · refine .mkProd ?_ ?_
          · have := hy.two; simp only [List.length_cons]; omega
          · intro v hv
            rcases List.mem_cons.1 hv with rfl | hv
            · exact hx
            · exact hy.factors v hv
        · refine .prod (by simp) ?_
          intro v hv
          simp only [List.mem_cons, List.not_mem_nil, or_false] at hv
          rcases hv with rfl | rfl
          · exact hx
          · exact hy

theorem intExp_clone (e : Expr K) : intExp C (clone C e) = intExp C e := by
  cases e <;> simp only [clone, intExp, mkAdd, mkProd]

theorem Flat.clone {e : Expr K} (h : Flat C e) : Flat C (clone C e) := by
  induction h with
  | con => exact .con _
  | var => exact .var _
  | model => exact .model _
  | add _ ih =>
    rw [Verif.Sym.clone, cloneL_eq]
    exact .mkAdd (by simpa using ih)
  | prod hl _ ih =>
    rw [Verif.Sym.clone, cloneL_eq]
    exact .mkProd (by simpa using hl) (by simpa using ih)
  | exp _ ih => exact .exp ih
  | log _ ih => exact .log ih
  | pow _ _ hi ihb ihe => exact .pow ihb ihe (by rw [intExp_clone]; exact hi)
  | user _ ih =>
    rw [Verif.Sym.clone, cloneL_eq]
    exact .user (by simpa using ih)
  | blog => exact .blog _ _ _
  | ulog => exact .ulog _

theorem Flat.mulN {b : Expr K} (hb : Flat C b) : ∀ (k : Nat) (out : Expr K), Flat C out →
    Flat C (mulN C b k out)
  | 0, _, h => h
  | k + 1, _, h => Flat.mulN hb k _ (h.mul hb)

theorem Flat.terms {a : Expr K} (h : Flat C a) : ∀ v ∈ a.terms, Flat C v := by
  intro v hv
  cases h with
  | add h => exact h v hv
  | _ => (simp only [Expr.terms, List.mem_singleton] at hv; subst hv; constructor <;> assumption)

theorem Flat.distr : ∀ (as : List (Expr K)) (s : Expr K), Flat C s → (∀ a ∈ as, Flat C a) →
    Flat C (distr C s as)
  | [], s, hs, _ => hs
  | a :: as, s, hs, h => by
    rw [Verif.Sym.distr]
    refine Flat.distr as _ (.mkAdd ?_) fun a' ha => h a' (by simp [ha])
    intro v hv
    have ha := (h a (by simp)).terms
    split at hv
    · exact ha v hv
    · obtain ⟨w, hw, rfl⟩ := List.mem_map.1 hv
      exact hs.mul (ha w hw)

theorem distr_add : ∀ (as : List (Expr K)) (s : Expr K), as ≠ [] → ∃ vs, distr C s as = .add vs
  | [], _, h => absurd rfl h
  | [a], s, _ => ⟨_, by simp only [distr, mkAdd]; rfl⟩
  | a :: a' :: as, s, _ => by
    rw [distr]; exact distr_add (a' :: as) _ (by simp)

theorem isOne_mkProd_false {vs : List (Expr K)} {v : Expr K} (hv : v ∈ vs)
    (h : isOne C v = false) : isOne C (mkProd C vs) = false := by
  rw [mkProd, isOne_prod, Bool.and_eq_false_iff]
  right
  rw [← Bool.not_eq_true, List.all_eq_true]
  intro h'
  rw [h' v ((C.srt_perm vs).mem_iff.2 hv)] at h
  cases h

theorem isZero_mkProd_false {vs : List (Expr K)} (h : ∀ v ∈ vs, isZero C v = false) :
    isZero C (mkProd C vs) = false := by
  rw [mkProd, isZero_prod, ← Bool.not_eq_true, List.any_eq_true]
  rintro ⟨v, hv, hz⟩
  rw [h v ((C.srt_perm vs).mem_iff.1 hv)] at hz
  cases hz

include hC in
/-- Multiplying an object by itself does not make a constant, except 0 and 1. -/
theorem mulN_zeroOne (b : Expr K) : ∀ k, ZeroOne C (mulN C b (k + 1) b) := by
  by_cases hcon : ∃ c, b = .con c
  · obtain ⟨c, rfl⟩ := hcon
    by_cases hz : isZero C (.con c) = true
    · have key : ∀ k out, (out = .con c ∨ out = conI C 0) →
          mulN C (.con c) (k + 1) out = conI C 0 := by
        intro k
        induction k with
        | zero => intro out _; simp only [mulN]; unfold mul; simp [hz]
        | succ k ih =>
          intro out h
          rw [mulN]
          apply ih
          right
          unfold mul; simp [hz]
      intro k c' h
      rw [key k _ (.inl rfl)] at h
      cases h
      left; exact (by simpa using hC.ofInt 0)
    · by_cases ho : isOne C (.con c) = true
      · have key : ∀ k, mulN C (.con c) k (.con c) = .con c := by
          intro k
          induction k with
          | zero => rfl
          | succ k ih =>
            rw [mulN]
            have : mul C (.con c) (.con c) = .con c := by
              unfold mul; simp [hz, ho]
            rw [this]; exact ih
        intro k c' h
        rw [key] at h
        cases h
        right; exact isOne_con hC ho
      · simp only [Bool.not_eq_true] at hz ho
        have key : ∀ k (xs : List (Expr K)), xs ≠ [] → (∀ v ∈ xs, v = .con c) →
            ∃ ys, mulN C (.con c) k (.prod xs) = .prod ys := by
          intro k
          induction k with
          | zero => intro xs _ _; exact ⟨xs, rfl⟩
          | succ k ih =>
            intro xs hne h
            have hz' : isZero C (.prod xs) = false := by
              rw [isZero_prod, ← Bool.not_eq_true, List.any_eq_true]
              rintro ⟨v, hv, hz'⟩
              rw [h v hv, hz] at hz'; cases hz'
            have ho' : isOne C (.prod xs) = false := by
              rw [isOne_prod, Bool.and_eq_false_iff]
              right
              rw [← Bool.not_eq_true, List.all_eq_true]
              intro h'
              obtain ⟨v, hv⟩ := List.exists_mem_of_ne_nil xs hne
              have := h' v hv
              rw [h v hv, ho] at this; cases this
            have : mul C (.prod xs) (.con c) = .prod (C.srt (xs ++ [.con c])) := by
              unfold mul; simp [hz, ho, hz', ho', mkProd]
            rw [mulN, this]
            apply ih
            · intro h0
              have := (C.srt_perm (xs ++ [.con c])).length_eq
              rw [h0] at this; simp at this
            · intro v hv
              rcases List.mem_append.1 ((C.srt_perm _).mem_iff.1 hv) with hv | hv
              · exact h v hv
              · exact List.mem_singleton.1 hv
        intro k c' h
        have : mul C (.con c) (.con c) = .prod [.con c, .con c] := by
          unfold mul; simp [hz, ho]
        rw [mulN, this] at h
        obtain ⟨ys, hy⟩ := key k [.con c, .con c] (by simp) (by simp)
        rw [hy] at h; cases h
  · have hb : ∀ c, b ≠ .con c := fun c h => hcon ⟨c, h⟩
    have key : ∀ k out, ZeroOne C out → ZeroOne C (mulN C b k out) := by
      intro k
      induction k with
      | zero => intro out h; exact h
      | succ k ih =>
        intro out h
        rw [mulN]
        apply ih
        intro c hc
        unfold mul at hc
        split at hc
        · cases hc; left; simpa using hC.ofInt 0
        · split at hc
          · exact absurd hc (hb c)
          · split at hc
            · exact h c hc
            · split at hc <;> simp [mkProd] at hc
    intro k
    exact key (k + 1) b fun c hc => absurd hc (hb c)

include hC hI in
/-- Expressions without powers to multiply out: `expand` goes no deeper than the expression. -/
theorem expandF_flat : ∀ (n : Nat) (e : Expr K), size e ≤ n → Flat C e →
    ∃ e', expandF C n e = some e' ∧ Flat C e' ∧ (∀ c, e' = .con c → e = .con c ∨ C.val c = 0 ∨ C.val c = 1) := by
  intro n
  induction n with
  | zero => intro e h; have := size_pos e; omega
  | succ n ih =>
    intro e hn he
    have hL : ∀ vs : List (Expr K), (∀ v ∈ vs, Flat C v) → sizeL vs ≤ n →
        ∃ l', mapO (expandF C n) vs = some l' ∧ List.Forall₂ (fun _ b => Flat C b) vs l' := by
      intro vs hv hs
      exact mapO_exists fun v hv' => by
        have := size_le_sizeL hv'
        obtain ⟨b, h1, h2, _⟩ := ih v (by omega) (hv v hv')
        exact ⟨b, h1, h2⟩
    have hmem : ∀ {l l' : List (Expr K)}, List.Forall₂ (fun _ b => Flat C b) l l' →
        ∀ v ∈ l', Flat C v := by
      intro l l' h
      induction h with
      | nil => intro v hv; cases hv
      | cons h _ ih =>
        intro v hv
        rcases List.mem_cons.1 hv with rfl | hv
        · exact h
        · exact ih v hv
    cases he with
    | con c => exact ⟨_, rfl, .con c, fun c' h => .inl h⟩
    | var x => exact ⟨_, rfl, .var x, fun c' h => .inl h⟩
    | model x => exact ⟨_, rfl, .model x, fun c' h => .inl h⟩
    | blog op a b => exact ⟨_, rfl, .blog op a b, fun c' h => .inl h⟩
    | ulog a => exact ⟨_, rfl, .ulog a, fun c' h => .inl h⟩
    | @add vs hv =>
      simp only [size] at hn
      obtain ⟨l', h1, h2⟩ := hL vs hv (by omega)
      refine ⟨mkAdd C l', by simp only [expandF, h1]; rfl, .mkAdd (hmem h2), ?_⟩
      intro c h; simp [mkAdd] at h
    | @prod vs hl hv =>
      simp only [size] at hn
      have hfil : ∀ p : Expr K → Bool, sizeL (vs.filter p) ≤ sizeL vs := by
        intro p
        rw [sizeL_eq, sizeL_eq]
        exact List.Sublist.sum_le_sum ((List.filter_sublist (l := vs)).map _) (by simp)
      obtain ⟨t, h1, h2⟩ := hL (vs.filter fun v => !v.isAdd)
        (fun v h => hv v (List.mem_filter.1 h).1) (by have := hfil fun v => !v.isAdd; omega)
      obtain ⟨a, h3, h4⟩ := hL (vs.filter Expr.isAdd)
        (fun v h => hv v (List.mem_filter.1 h).1) (by have := hfil Expr.isAdd; omega)
      have hs : Flat C (scaleOf C t) := by
        unfold scaleOf
        split
        · exact .con _
        · exact hmem h2 _ (by simp)
        · rename_i h5 h6
          refine .mkProd ?_ (hmem h2)
          match t with
          | [] => exact absurd rfl h5
          | [v] => exact absurd rfl (h6 v)
          | _ :: _ :: _ => simp
      refine ⟨distr C (scaleOf C t) a, by simp only [expandF, h1, h3], .distr a _ hs (hmem h4), ?_⟩
      intro c h
      exfalso
      match a, h3, h4 with
      | [], h3, h4 =>
        have h5 : vs.filter Expr.isAdd = [] := by
          generalize vs.filter Expr.isAdd = w at h4
          cases h4; rfl
        have h6 : vs.filter (fun v => !v.isAdd) = vs := by
          rw [List.filter_eq_self]
          rw [List.filter_eq_nil_iff] at h5
          intro v hv; simpa using h5 v hv
        rw [h6] at h2
        have h7 := h2.length_eq
        match t with
        | [] => rw [h7] at hl; simp at hl
        | [_] => rw [h7] at hl; simp at hl
        | _ :: _ :: _ => simp [distr, scaleOf, mkProd] at h
      | x :: xs, _, _ =>
        obtain ⟨ys, hy⟩ := distr_add (C := C) (x :: xs) (scaleOf C t) (by simp)
        rw [hy] at h; cases h
    | exp ha =>
      simp only [size] at hn
      obtain ⟨a', h1, h2, _⟩ := ih _ (by omega) ha
      exact ⟨.exp a', by simp only [expandF, h1]; rfl, .exp h2, fun c h => by cases h⟩
    | log ha =>
      simp only [size] at hn
      obtain ⟨a', h1, h2, _⟩ := ih _ (by omega) ha
      exact ⟨.log a', by simp only [expandF, h1]; rfl, .log h2, fun c h => by cases h⟩
    | @user f as hv =>
      simp only [size] at hn
      obtain ⟨l', h1, h2⟩ := hL as hv (by omega)
      exact ⟨.user f l', by simp only [expandF, h1]; rfl, .user (hmem h2), fun c h => by cases h⟩
    | @pow b e hb he hi =>
      simp only [size] at hn
      obtain ⟨b', h1, h2, _⟩ := ih b (by omega) hb
      obtain ⟨e', h3, h4, h5⟩ := ih e (by omega) he
      have h6 : intExp C e' = none := by
        cases e' with
        | con c =>
          rcases h5 c rfl with rfl | h
          · exact hi
          · refine ZeroOne.intExp hC hI ?_
            intro c' hc; cases hc; exact h
        | _ => rfl
      exact ⟨.pow b' e', by simp only [expandF, h1, h3, h6], .pow h2 h4 h6, fun c h => by cases h⟩

include hC hI in
/-- **C04, termination.** `expand` terminates on every expression (products of at least two factors), and
leaves no power to multiply out. -/
theorem expandF_terminates (e : Expr K) (he : Two e) :
    ∃ n e', expandF C n e = some e' ∧ Flat C e' := by
  suffices h : ∃ n e', expandF C n e = some e' ∧ Flat C e' ∧ (∀ c, e' = .con c → e = .con c ∨ C.val c = 0 ∨ C.val c = 1) by
    obtain ⟨n, e', h1, h2, _⟩ := h
    exact ⟨n, e', h1, h2⟩
  have hL : ∀ vs : List (Expr K), (∀ v ∈ vs, ∃ n e', expandF C n v = some e' ∧ Flat C e' ∧
      (∀ c, e' = .con c → v = .con c ∨ C.val c = 0 ∨ C.val c = 1)) →
      ∃ n l', mapO (expandF C n) vs = some l' ∧ List.Forall₂ (fun _ b => Flat C b) vs l' := by
    intro vs
    induction vs with
    | nil => intro _; exact ⟨0, [], rfl, .nil⟩
    | cons v vs ih =>
      intro h
      obtain ⟨n, e', h1, h2, _⟩ := h v (by simp)
      obtain ⟨m, l', h3, h4⟩ := ih fun v' hv => h v' (by simp [hv])
      refine ⟨max n m, e' :: l', ?_, .cons h2 h4⟩
      have h5 := expandF_le (le_max_left n m) h1
      have h6 : mapO (expandF C (max n m)) vs = some l' :=
        mapO_mono (fun a b hab => expandF_le (le_max_right n m) hab) h3
      simp only [mapO, h5, h6]
  have hmem : ∀ {l l' : List (Expr K)}, List.Forall₂ (fun _ b => Flat C b) l l' →
      ∀ v ∈ l', Flat C v := by
    intro l l' h
    induction h with
    | nil => intro v hv; cases hv
    | cons h _ ih =>
      intro v hv
      rcases List.mem_cons.1 hv with rfl | hv
      · exact h
      · exact ih v hv
  induction he with
  | con c => exact ⟨1, _, rfl, .con c, fun c' h => .inl h⟩
  | var x => exact ⟨1, _, rfl, .var x, fun c' h => .inl h⟩
  | model x => exact ⟨1, _, rfl, .model x, fun c' h => .inl h⟩
  | blog op a b => exact ⟨1, _, rfl, .blog op a b, fun c' h => .inl h⟩
  | ulog a => exact ⟨1, _, rfl, .ulog a, fun c' h => .inl h⟩
  | @add vs _ ih =>
    obtain ⟨n, l', h1, h2⟩ := hL vs ih
    refine ⟨n + 1, mkAdd C l', by simp only [expandF, h1]; rfl, .mkAdd (hmem h2), ?_⟩
    intro c h; simp [mkAdd] at h
  | @prod vs hl _ ih =>
    obtain ⟨n, t, h1, h2⟩ := hL (vs.filter fun v => !v.isAdd)
      (fun v h => ih v (List.mem_filter.1 h).1)
    obtain ⟨m, a, h3, h4⟩ := hL (vs.filter Expr.isAdd)
      (fun v h => ih v (List.mem_filter.1 h).1)
    have h1' : mapO (expandF C (max n m)) _ = some t :=
      mapO_mono (fun a b hab => expandF_le (le_max_left n m) hab) h1
    have h3' : mapO (expandF C (max n m)) _ = some a :=
      mapO_mono (fun a b hab => expandF_le (le_max_right n m) hab) h3
    have hs : Flat C (scaleOf C t) := by
      unfold scaleOf
      split
      · exact .con _
      · exact hmem h2 _ (by simp)
      · rename_i h5 h6
        refine .mkProd ?_ (hmem h2)
        match t with
        | [] => exact absurd rfl h5
        | [v] => exact absurd rfl (h6 v)
        | _ :: _ :: _ => simp
    refine ⟨max n m + 1, distr C (scaleOf C t) a, by simp only [expandF, h1', h3'],
      .distr a _ hs (hmem h4), ?_⟩
    intro c h
    exfalso
    match a, h4 with
    | [], h4 =>
      have h5 : vs.filter Expr.isAdd = [] := by
        generalize vs.filter Expr.isAdd = w at h4
        cases h4; rfl
      have h6 : vs.filter (fun v => !v.isAdd) = vs := by
        rw [List.filter_eq_self]
        rw [List.filter_eq_nil_iff] at h5
        intro v hv; simpa using h5 v hv
      rw [h6] at h2
      have h7 := h2.length_eq
      match t with
      | [] => rw [h7] at hl; simp at hl
      | [_] => rw [h7] at hl; simp at hl
      | _ :: _ :: _ => simp [distr, scaleOf, mkProd] at h
    | x :: xs, _ =>
      obtain ⟨ys, hy⟩ := distr_add (C := C) (x :: xs) (scaleOf C t) (by simp)
      rw [hy] at h; cases h
  | exp _ ih =>
    obtain ⟨n, a', h1, h2, _⟩ := ih
    exact ⟨n + 1, .exp a', by simp only [expandF, h1]; rfl, .exp h2, fun c h => by cases h⟩
  | log _ ih =>
    obtain ⟨n, a', h1, h2, _⟩ := ih
    exact ⟨n + 1, .log a', by simp only [expandF, h1]; rfl, .log h2, fun c h => by cases h⟩
  | @user f as _ ih =>
    obtain ⟨n, l', h1, h2⟩ := hL as ih
    exact ⟨n + 1, .user f l', by simp only [expandF, h1]; rfl, .user (hmem h2),
      fun c h => by cases h⟩
  | @pow b e _ _ ihb ihe =>
    obtain ⟨n, b', h1, h2, _⟩ := ihb
    obtain ⟨m, e', h3, h4, _⟩ := ihe
    match h5 : intExp C e' with
    | none =>
      refine ⟨max n m + 1, .pow b' e', ?_, .pow h2 h4 h5, fun c h => by cases h⟩
      simp only [expandF, expandF_le (le_max_left n m) h1, expandF_le (le_max_right n m) h3, h5]
    | some (ex, neg) =>
      have hex : 1 < ex := intExp_gt h5
      have hp : Flat C (mulN C (clone C b') (ex - 1) (clone C b')) :=
        Flat.mulN h2.clone _ _ h2.clone
      obtain ⟨o, h6, h7, h8⟩ := expandF_flat hC hI _ _ le_rfl hp
      have hz : ZeroOne C (mulN C (clone C b') (ex - 1) (clone C b')) := by
        obtain ⟨k, hk⟩ : ∃ k, ex - 1 = k + 1 := ⟨ex - 2, by omega⟩
        rw [hk]; exact mulN_zeroOne hC _ k
      generalize hP : mulN C (clone C b') (ex - 1) (clone C b') = p at *
      refine ⟨max (max n m) (size p) + 1, if neg then .pow o (conI C (-1)) else o, ?_, ?_, ?_⟩
      · simp only [expandF, expandF_le (le_trans (le_max_left n m) (le_max_left _ (size p))) h1,
          expandF_le (le_trans (le_max_right n m) (le_max_left _ (size p))) h3, h5, hP,
          expandF_le (le_max_right (max n m) (size p)) h6, Option.map_some]
      · split
        · exact .pow h7 (.con _) (intExp_mone hC hI)
        · exact h7
      · intro c h
        split at h
        · cases h
        · rcases h8 c h with h' | h'
          · exact .inr (hz c h')
          · exact .inr h'

end Term

/-- F43: the exponent `2e-07` is taken for the integer 2, because its text has no point and `atoi` stops at
the `e`. Then `pow(x,2e-07)` expands to `x * x`. -/
theorem expand_tiny_exponent {C : Cfg K} {c : K} (hp : C.isNeg c = false)
    (hl : C.lt100 c = true) (hf : C.fmt6 c = "2e-07".toList) (x : Str) :
    expandF C 3 (.pow (.var x) (.con c)) = some (.prod (C.srt [.var x, .var x])) := by
  have h : intExp C (.con c) = some (2, false) := by
    simp [intExp, hp, hf, hl]
    exact ⟨by decide, by decide⟩
  simp [expandF, h, clone, mulN, mul, isZero, isOne, mapO, Expr.isAdd, distr, scaleOf, mkProd]

end Verif.Sym
