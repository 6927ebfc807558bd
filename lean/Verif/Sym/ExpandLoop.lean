import Verif.Sym.ExpandEx

/-!
# The loop of the `expand` command ends (C04)
-/

namespace Verif.Sym

variable {K : Type}

mutual
/-- A weight that distribution of a product over a sum reduces. -/
def wt : Expr K → Nat
  | .add vs => 2 + wtSum vs
  | .prod vs => wtProd vs
  | .exp a => 1 + wt a
  | .log a => 1 + wt a
  | .pow b e => wt b + wt e
  | .user _ as => 2 + wtSum as
  | .blog _ a b => 2 + size a + size b
  | .ulog a => 2 + size a
  | _ => 2
def wtSum : List (Expr K) → Nat
  | [] => 0
  | v :: vs => wt v + wtSum vs
def wtProd : List (Expr K) → Nat
  | [] => 1
  | v :: vs => wt v * wtProd vs
end

theorem wtSum_eq : ∀ vs : List (Expr K), wtSum vs = (vs.map wt).sum
  | [] => by simp [wtSum]
  | v :: vs => by simp [wtSum, wtSum_eq vs]

theorem wtProd_eq : ∀ vs : List (Expr K), wtProd vs = (vs.map wt).prod
  | [] => by simp [wtProd]
  | v :: vs => by simp [wtProd, wtProd_eq vs]

theorem wt_add (vs : List (Expr K)) : wt (.add vs) = 2 + (vs.map wt).sum := by
  rw [wt, wtSum_eq]
theorem wt_prod (vs : List (Expr K)) : wt (.prod vs) = (vs.map wt).prod := by
  rw [wt, wtProd_eq]
theorem wt_user (f) (vs : List (Expr K)) : wt (.user f vs) = 2 + (vs.map wt).sum := by
  rw [wt, wtSum_eq]

mutual
/-- The expression with all sums and products sorted. -/
def resort (C : Cfg K) : Expr K → Expr K
  | .add vs => mkAdd C (resortL C vs)
  | .prod vs => mkProd C (resortL C vs)
  | .exp a => .exp (resort C a)
  | .log a => .log (resort C a)
  | .pow b e => .pow (resort C b) (resort C e)
  | .user f as => .user f (resortL C as)
  | e => e
def resortL (C : Cfg K) : List (Expr K) → List (Expr K)
  | [] => []
  | v :: vs => resort C v :: resortL C vs
end

theorem resortL_eq (C : Cfg K) : ∀ vs, resortL C vs = vs.map (resort C)
  | [] => by simp [resortL]
  | v :: vs => by simp [resortL, resortL_eq C vs]

/-- Sorting twice is sorting once, if sorting leaves a sorted list as it is. -/
theorem resort_idem {C : Cfg K} (hs : ∀ l, C.srt (C.srt l) = C.srt l) (e : Expr K) :
    resort C (resort C e) = resort C e := by
  have key : ∀ vs : List (Expr K), (∀ v ∈ vs, resort C (resort C v) = resort C v) →
      (C.srt (vs.map (resort C))).map (resort C) = C.srt (vs.map (resort C)) := by
    intro vs ih
    conv_rhs => rw [← List.map_id (C.srt (vs.map (resort C)))]
    apply List.map_congr_left
    intro w hw
    obtain ⟨v, hv, rfl⟩ := List.mem_map.1 ((C.srt_perm _).mem_iff.1 hw)
    exact ih v hv
  induction e using Expr.ind with
  | hadd vs ih =>
    simp only [resort, mkAdd, resortL_eq]
    rw [key vs ih, hs]
  | hprod vs ih =>
    simp only [resort, mkProd, resortL_eq]
    rw [key vs ih, hs]
  | huser f vs ih =>
    simp only [resort, resortL_eq, List.map_map]
    congr 1
    exact List.map_congr_left ih
  | _ => simp_all [resort]

section
variable {C : Cfg K} (hC : C.Exact) (hI : C.IntText)

theorem two_le_prod : ∀ {l : List Nat}, l ≠ [] → (∀ x ∈ l, 2 ≤ x) → 2 ≤ l.prod
  | [], h, _ => absurd rfl h
  | [x], _, h => by simpa using h x (by simp)
  | x :: y :: l, _, h => by
    have h1 := h x (by simp)
    have h2 := two_le_prod (l := y :: l) (by simp) fun z hz => h z (by simp [hz])
    rw [List.prod_cons]
    nlinarith

theorem Flat.two_le_wt {e : Expr K} (h : Flat C e) : 2 ≤ wt e := by
  induction h with
  | add => rw [wt_add]; omega
  | prod hl _ ih =>
    rw [wt_prod]
    refine two_le_prod ?_ ?_
    · intro h0
      rw [List.map_eq_nil_iff] at h0
      rw [h0] at hl; simp at hl
    · intro x hx
      obtain ⟨v, hv, rfl⟩ := List.mem_map.1 hx
      exact ih v hv
  | exp _ ih => rw [wt]; omega
  | log _ ih => rw [wt]; omega
  | pow _ _ _ ihb ihe => rw [wt]; omega
  | user => rw [wt_user]; omega
  | con => simp [wt]
  | var => simp [wt]
  | model => simp [wt]
  | blog => rw [wt]; omega
  | ulog => rw [wt]; omega

theorem sum_le_prod : ∀ {l : List Nat}, (∀ x ∈ l, 2 ≤ x) → l ≠ [] → l.sum ≤ l.prod
  | [], _, h => absurd rfl h
  | [x], _, _ => by simp
  | x :: y :: l, h, _ => by
    have h1 := h x (by simp)
    have hr : ∀ z ∈ y :: l, 2 ≤ z := fun z hz => h z (by simp [hz])
    have h2 := sum_le_prod hr (by simp)
    have h3 := two_le_prod (l := y :: l) (by simp) hr
    rw [List.sum_cons, List.prod_cons]
    nlinarith

theorem Flat.size_lt_wt {e : Expr K} (h : Flat C e) : size e < wt e := by
  induction h with
  | add _ ih =>
    rw [wt_add, size, sizeL_eq]
    have : ∀ vs : List (Expr K), (∀ v ∈ vs, size v < wt v) → (vs.map size).sum ≤ (vs.map wt).sum := by
      intro vs h
      exact List.sum_le_sum fun v hv => (h v hv).le
    have := this _ ih
    omega
  | @prod vs hl hv ih =>
    rw [wt_prod, size, sizeL_eq]
    have h1 : ∀ vs : List (Expr K), (∀ v ∈ vs, size v < wt v) →
        (vs.map size).sum + vs.length ≤ (vs.map wt).sum := by
      intro vs
      induction vs with
      | nil => simp
      | cons v vs ih =>
        intro h
        have := h v (by simp)
        have := ih fun w hw => h w (by simp [hw])
        simp only [List.map_cons, List.sum_cons, List.length_cons]
        omega
    have h2 := h1 vs ih
    have h3 : (vs.map wt).sum ≤ (vs.map wt).prod := by
      refine sum_le_prod ?_ ?_
      · intro x hx
        obtain ⟨v, hv', rfl⟩ := List.mem_map.1 hx
        exact (hv v hv').two_le_wt
      · intro h0
        rw [List.map_eq_nil_iff] at h0
        rw [h0] at hl; simp at hl
    omega
  | exp _ ih => rw [wt, size]; omega
  | log _ ih => rw [wt, size]; omega
  | pow _ _ _ ihb ihe => rw [wt, size]; omega
  | user _ ih =>
    rw [wt_user, size, sizeL_eq]
    have : ∀ vs : List (Expr K), (∀ v ∈ vs, size v < wt v) → (vs.map size).sum ≤ (vs.map wt).sum := by
      intro vs h
      exact List.sum_le_sum fun v hv => (h v hv).le
    have := this _ ih
    omega
  | con => simp [wt, size]
  | var => simp [wt, size]
  | model => simp [wt, size]
  | blog op a b => simp only [wt, size]; omega
  | ulog a => simp only [wt, size]; omega

theorem wt_mkProd (vs : List (Expr K)) : wt (mkProd C vs) = (vs.map wt).prod := by
  rw [mkProd, wt_prod]; exact ((C.srt_perm vs).map wt).prod_eq

theorem wt_mkAdd (vs : List (Expr K)) : wt (mkAdd C vs) = 2 + (vs.map wt).sum := by
  rw [mkAdd, wt_add]; rw [((C.srt_perm vs).map wt).sum_eq]

theorem wt_mul {x y : Expr K} (hx : Flat C x) (hy : Flat C y) : wt (mul C x y) ≤ wt x * wt y := by
  have h1 := hx.two_le_wt
  have h2 := hy.two_le_wt
  unfold mul
  split
  · simp only [conI, wt]; nlinarith
  · split
    · nlinarith
    · split
      · nlinarith
      · split
        · rw [wt_mkProd, wt_prod, wt_prod, List.map_append, List.prod_append]
        · rw [wt_mkProd, wt_prod, List.map_append, List.prod_append]; simp
        · rw [wt_mkProd, wt_prod, List.map_cons, List.prod_cons]
        · rw [wt_prod]; simp

/-- Distribution over at least one sum reduces the weight. -/
theorem wt_distr : ∀ (as : List (Expr K)) (s : Expr K), Flat C s → (∀ a ∈ as, Flat C a) →
    (∀ a ∈ as, a.isAdd = true) → as ≠ [] → wt (distr C s as) < wt s * (as.map wt).prod := by
  have step : ∀ (a s : Expr K), Flat C s → Flat C a → a.isAdd = true →
      Flat C (mkAdd C (if isOne C s then a.terms else a.terms.map (mul C s))) ∧
      wt (mkAdd C (if isOne C s then a.terms else a.terms.map (mul C s))) < wt s * wt a := by
    intro a s hs ha hadd
    cases a with
    | add vs =>
      have hv : ∀ v ∈ vs, Flat C v := by cases ha with | add h => exact h
      have hs2 := hs.two_le_wt
      constructor
      · refine .mkAdd ?_
        intro w hw
        split at hw
        · exact hv w hw
        · obtain ⟨v, hv', rfl⟩ := List.mem_map.1 hw
          exact hs.mul (hv v hv')
      · rw [wt_mkAdd, wt_add]
        split
        · simp only [Expr.terms]
          generalize (vs.map wt).sum = z
          nlinarith [Nat.mul_le_mul_right (2 + z) hs2]
        · simp only [Expr.terms, List.map_map]
          have hle : (vs.map (wt ∘ mul C s)).sum ≤ (vs.map fun v => wt s * wt v).sum :=
            List.sum_le_sum fun v hv' => wt_mul hs (hv v hv')
          rw [List.sum_map_mul_left] at hle
          nlinarith
    | _ => cases hadd
  intro as
  induction as with
  | nil => intro s _ _ _ h; exact absurd rfl h
  | cons a as ih =>
    intro s hs h hadd _
    obtain ⟨h1, h2⟩ := step a s hs (h a (by simp)) (hadd a (by simp))
    rw [distr, List.map_cons, List.prod_cons, ← mul_assoc]
    by_cases hne : as = []
    · subst hne; simpa [distr] using h2
    · have h3 := ih _ h1 (fun a' ha => h a' (by simp [ha])) (fun a' ha => hadd a' (by simp [ha])) hne
      exact lt_of_lt_of_le h3 (Nat.mul_le_mul_right _ h2.le)

theorem prod_le_eq : ∀ {l l' : List (Expr K)}, List.Forall₂ (fun a b => wt b ≤ wt a ∧ 2 ≤ wt b) l l' →
    (l'.map wt).prod ≤ (l.map wt).prod ∧
    ((l'.map wt).prod = (l.map wt).prod → List.Forall₂ (fun a b => wt b = wt a) l l') := by
  intro l l' h
  induction h with
  | nil => exact ⟨le_rfl, fun _ => .nil⟩
  | @cons a b l l' h ht ih =>
    obtain ⟨h1, h2⟩ := ih
    have hp : 0 < (l'.map wt).prod := by
      have : ∀ x ∈ l', 2 ≤ wt x := by
        clear h1 h2
        induction ht with
        | nil => intro x hx; cases hx
        | cons h _ ih =>
          intro x hx
          rcases List.mem_cons.1 hx with rfl | hx
          · exact h.2
          · exact ih x hx
      apply List.prod_pos
      intro x hx
      obtain ⟨v, hv, rfl⟩ := List.mem_map.1 hx
      have := this v hv
      omega
    simp only [List.map_cons, List.prod_cons]
    refine ⟨Nat.mul_le_mul h.1 h1, ?_⟩
    intro he
    have e1 : wt b = wt a := by
      by_contra hne
      have hlt : wt b < wt a := lt_of_le_of_ne h.1 hne
      nlinarith
    refine .cons e1 (h2 ?_)
    rw [e1] at he
    exact Nat.eq_of_mul_eq_mul_left (by omega) he

theorem sum_le_eq : ∀ {l l' : List (Expr K)}, List.Forall₂ (fun a b => wt b ≤ wt a) l l' →
    (l'.map wt).sum ≤ (l.map wt).sum ∧
    ((l'.map wt).sum = (l.map wt).sum → List.Forall₂ (fun a b => wt b = wt a) l l') := by
  intro l l' h
  induction h with
  | nil => exact ⟨le_rfl, fun _ => .nil⟩
  | @cons a b l l' h ht ih =>
    obtain ⟨h1, h2⟩ := ih
    simp only [List.map_cons, List.sum_cons]
    refine ⟨by omega, fun he => .cons (by omega) (h2 (by omega))⟩

theorem forall₂_resort {l l' : List (Expr K)}
    (h : List.Forall₂ (fun a b => wt b = wt a → b = resort C a) l l')
    (h' : List.Forall₂ (fun a b => wt b = wt a) l l') : l' = l.map (resort C) := by
  induction h with
  | nil => rfl
  | cons h _ ih =>
    cases h' with
    | cons h1 h2 => rw [List.map_cons, ← ih h2, ← h h1]

theorem forall₂_and {α β : Type} {P Q : α → β → Prop} {l : List α} {l' : List β}
    (h : List.Forall₂ P l l') (h' : List.Forall₂ Q l l') :
    List.Forall₂ (fun a b => P a b ∧ Q a b) l l' := by
  induction h with
  | nil => exact .nil
  | cons h _ ih => cases h' with | cons h1 h2 => exact .cons ⟨h, h1⟩ (ih h2)

theorem forall₂_mem {P : Expr K → Expr K → Prop} {l l' : List (Expr K)}
    (h : List.Forall₂ P l l') {Q : Expr K → Prop} (hq : ∀ a b, P a b → Q b) : ∀ b ∈ l', Q b := by
  induction h with
  | nil => intro b hb; cases hb
  | cons h _ ih =>
    intro b hb
    rcases List.mem_cons.1 hb with rfl | hb
    · exact hq _ _ h
    · exact ih b hb

theorem isAdd_mkAdd (vs : List (Expr K)) : (mkAdd C vs).isAdd = true := rfl

include hC hI in
/-- On an expression without powers to multiply out, `expand` reduces the weight, or else only
sorts. -/
theorem expandF_weight : ∀ (n : Nat) (e e' : Expr K), Flat C e → expandF C n e = some e' →
    Flat C e' ∧ wt e' ≤ wt e ∧ (wt e' = wt e → e' = resort C e) ∧ (e.isAdd = true → e'.isAdd = true) := by
  intro n
  induction n with
  | zero => intro e e' _ h; cases h
  | succ n ih =>
    have hL : ∀ vs l', (∀ v ∈ vs, Flat C v) → mapO (expandF C n) vs = some l' →
        List.Forall₂ (fun a b => Flat C b ∧ wt b ≤ wt a ∧ (wt b = wt a → b = resort C a) ∧
          (a.isAdd = true → b.isAdd = true)) vs l' := by
      intro vs
      induction vs with
      | nil => intro l' _ h; simp only [mapO] at h; cases h; exact .nil
      | cons v vs ihv =>
        intro l' hv h
        simp only [mapO] at h
        split at h
        · rename_i b bs hb hbs
          cases h
          exact .cons (ih v b (hv v (by simp)) hb) (ihv bs (fun w hw => hv w (by simp [hw])) hbs)
        · cases h
    intro e e' he h
    have hflat : Flat C e' := by
      obtain ⟨e'', h1, h2, _⟩ := expandF_flat hC hI (max (size e) (n + 1)) e (le_max_left _ _) he
      rw [expandF_le (le_max_right _ _) h] at h1
      cases h1; exact h2
    refine ⟨hflat, ?_⟩
    cases he with
    | con c => cases h; exact ⟨le_rfl, fun _ => rfl, fun h => h⟩
    | var c => cases h; exact ⟨le_rfl, fun _ => rfl, fun h => h⟩
    | model c => cases h; exact ⟨le_rfl, fun _ => rfl, fun h => h⟩
    | blog => cases h; exact ⟨le_rfl, fun _ => rfl, fun h => h⟩
    | ulog => cases h; exact ⟨le_rfl, fun _ => rfl, fun h => h⟩
    | @add vs hv =>
      simp only [expandF, Option.map_eq_some_iff] at h
      obtain ⟨l, hl, rfl⟩ := h
      have hf := hL vs l hv hl
      obtain ⟨h1, h2⟩ := sum_le_eq (hf.imp fun a b h => h.2.1)
      rw [wt_mkAdd, wt_add]
      refine ⟨by omega, fun h => ?_, fun _ => rfl⟩
      rw [resort, resortL_eq, forall₂_resort (hf.imp fun a b h => h.2.2.1) (h2 (by omega))]
    | @user f vs hv =>
      simp only [expandF, Option.map_eq_some_iff] at h
      obtain ⟨l, hl, rfl⟩ := h
      have hf := hL vs l hv hl
      obtain ⟨h1, h2⟩ := sum_le_eq (hf.imp fun a b h => h.2.1)
      rw [wt_user, wt_user]
      refine ⟨by omega, fun h => ?_, fun h => by cases h⟩
      rw [resort, resortL_eq, forall₂_resort (hf.imp fun a b h => h.2.2.1) (h2 (by omega))]
    | @exp a ha =>
      simp only [expandF, Option.map_eq_some_iff] at h
      obtain ⟨l, hl, rfl⟩ := h
      obtain ⟨_, h1, h2, _⟩ := ih _ _ ha hl
      simp only [wt, resort]
      exact ⟨by omega, fun h => by rw [h2 (by omega)], fun h => by cases h⟩
    | @log a ha =>
      simp only [expandF, Option.map_eq_some_iff] at h
      obtain ⟨l, hl, rfl⟩ := h
      obtain ⟨_, h1, h2, _⟩ := ih _ _ ha hl
      simp only [wt, resort]
      exact ⟨by omega, fun h => by rw [h2 (by omega)], fun h => by cases h⟩
    | @pow b e hb he hi =>
      simp only [expandF] at h
      split at h
      · rename_i b' e₁ hb1 he1
        obtain ⟨_, b1, b2, _⟩ := ih _ _ hb hb1
        obtain ⟨_, e1, e2, _⟩ := ih _ _ he he1
        have hi' : intExp C e₁ = none := by
          obtain ⟨e'', h1, _, h3⟩ := expandF_flat hC hI (max (size e) n) e (le_max_left _ _) he
          rw [expandF_le (le_max_right _ _) he1] at h1
          cases h1
          cases e₁ with
          | con c =>
            rcases h3 c rfl with h | h
            · rw [h] at hi; exact hi
            · refine ZeroOne.intExp hC hI ?_
              intro c' hc; cases hc; exact h
          | _ => rfl
        rw [hi'] at h
        cases h
        simp only [wt, resort]
        exact ⟨by omega, fun h => by rw [b2 (by omega), e2 (by omega)], fun h => by cases h⟩
      · cases h
    | @prod vs hl hv =>
      simp only [expandF] at h
      split at h
      · rename_i t a ht ha
        cases h
        have ft := hL _ t (fun v h => hv v (List.mem_filter.1 h).1) ht
        have fa := hL _ a (fun v h => hv v (List.mem_filter.1 h).1) ha
        have tflat := forall₂_mem ft (Q := Flat C) fun a b h => h.1
        have aflat := forall₂_mem fa (Q := Flat C) fun a b h => h.1
        have aadd : ∀ b ∈ a, b.isAdd = true := by
          have : List.Forall₂ (fun a b : Expr K => b.isAdd = true) (vs.filter Expr.isAdd) a := by
            have hm : ∀ v ∈ vs.filter Expr.isAdd, v.isAdd = true :=
              fun v hv => (List.mem_filter.1 hv).2
            generalize vs.filter Expr.isAdd = w at fa hm
            clear ha aflat hflat
            induction fa with
            | nil => exact .nil
            | cons h _ ih =>
              exact .cons (h.2.2.2 (hm _ (by simp))) (ih fun v hv => hm v (by simp [hv]))
          exact forall₂_mem this fun a b h => h
        obtain ⟨pt1, pt2⟩ := prod_le_eq (ft.imp fun a b h => ⟨h.2.1, h.1.two_le_wt⟩)
        have pa1 := (prod_le_eq (fa.imp fun a b h => ⟨h.2.1, h.1.two_le_wt⟩)).1
        have hsplit : ((vs.filter fun v => !v.isAdd).map wt).prod *
            ((vs.filter Expr.isAdd).map wt).prod = (vs.map wt).prod := by
          clear pt1 pt2 pa1 ft fa ht ha hl hv hflat
          induction vs with
          | nil => simp
          | cons v vs ih =>
            rw [List.filter_cons, List.filter_cons, List.map_cons, List.prod_cons, ← ih]
            cases v.isAdd <;> simp <;> ring
        rw [wt_prod, ← hsplit]
        have hlt : a ≠ [] → wt (distr C (scaleOf C t) a) <
            ((vs.filter fun v => !v.isAdd).map wt).prod *
              ((vs.filter Expr.isAdd).map wt).prod := by
          intro hne
          match t, tflat, pt1, ft with
          | [], _, _, ft =>
            -- no other factor: the first sum is copied
            have hvs : vs.filter Expr.isAdd = vs := by
              have : vs.filter (fun v => !v.isAdd) = [] := by
                generalize vs.filter (fun v => !v.isAdd) = w at ft
                cases ft; rfl
              rw [List.filter_eq_nil_iff] at this
              rw [List.filter_eq_self]
              intro v hv'; simpa using this v hv'
            have hlen := fa.length_eq
            rw [hvs] at hlen
            match a, hne, aflat, aadd, pa1, hlen with
            | [_], _, _, _, _, hlen => rw [hlen] at hl; simp at hl
            | a₁ :: a₂ :: as, _, aflat, aadd, pa1, _ =>
              have hone : isOne C (scaleOf C ([] : List (Expr K))) = true := by
                simp only [scaleOf, conI]
                exact isOne_con' hC (by simpa using hC.ofInt 1)
              have h1 := aadd a₁ (by simp)
              have h2 : wt (distr C (scaleOf C []) (a₁ :: a₂ :: as)) =
                  wt (distr C (mkAdd C a₁.terms) (a₂ :: as)) := by
                rw [distr, hone, if_pos rfl]
              have h3 : Flat C (mkAdd C a₁.terms) ∧ wt (mkAdd C a₁.terms) = wt a₁ := by
                cases a₁ with
                | add ws =>
                  have := aflat (.add ws) (by simp)
                  refine ⟨.mkAdd (by cases this with | add h => exact h), ?_⟩
                  rw [wt_mkAdd, wt_add]; rfl
                | _ => cases h1
              have h4 := wt_distr (C := C) (a₂ :: as) _ h3.1 (fun x hx => aflat x (by simp [hx]))
                (fun x hx => aadd x (by simp [hx])) (by simp)
              rw [h2]
              rw [h3.2] at h4
              have h5 : (((vs.filter fun v => !v.isAdd)).map wt).prod = 1 := by
                generalize vs.filter (fun v => !v.isAdd) = w at ft
                cases ft; simp
              rw [h5, one_mul]
              refine lt_of_lt_of_le h4 (le_trans (le_of_eq ?_) pa1)
              simp
          | t₁ :: ts, tflat, pt1, _ =>
            have hs : Flat C (scaleOf C (t₁ :: ts)) ∧
                wt (scaleOf C (t₁ :: ts)) = ((t₁ :: ts).map wt).prod := by
              match ts, tflat with
              | [], tflat => exact ⟨tflat t₁ (by simp), by simp [scaleOf]⟩
              | t₂ :: ts, tflat =>
                refine ⟨?_, ?_⟩
                · simp only [scaleOf]; exact .mkProd (by simp) tflat
                · simp only [scaleOf]; rw [wt_mkProd]
            have h4 := wt_distr (C := C) a _ hs.1 aflat aadd hne
            rw [hs.2] at h4
            exact lt_of_lt_of_le h4 (Nat.mul_le_mul pt1 pa1)
        by_cases hne : a = []
        · subst hne
          have hnil : vs.filter Expr.isAdd = [] := by
            generalize vs.filter Expr.isAdd = w at fa
            cases fa; rfl
          have hall : vs.filter (fun v => !v.isAdd) = vs := by
            rw [List.filter_eq_self]
            rw [List.filter_eq_nil_iff] at hnil
            intro v hv'; simpa using hnil v hv'
          rw [hall] at ft pt1 pt2 ⊢
          rw [hnil]
          have hlen := ft.length_eq
          have hsc : scaleOf C t = mkProd C t := by
            match t, hlen with
            | [], hlen => rw [hlen] at hl; simp at hl
            | [_], hlen => rw [hlen] at hl; simp at hl
            | _ :: _ :: _, _ => rfl
          simp only [distr, hsc, List.map_nil, List.prod_nil, mul_one]
          rw [wt_mkProd]
          refine ⟨pt1, fun h => ?_, fun h => by cases h⟩
          rw [resort, resortL_eq, forall₂_resort (ft.imp fun a b h => h.2.2.1) (pt2 h)]
        · have := hlt hne
          exact ⟨this.le, fun h => absurd h this.ne, fun h => by cases h⟩
      · cases h

include hC hI in
theorem expandLoop_flat (hs : ∀ l, C.srt (C.srt l) = C.srt l) (N : Nat) :
    ∀ (w : Nat) (e : Expr K), Flat C e → wt e ≤ w → w ≤ N →
    ∃ k e', expandLoop C N k e = some e' := by
  intro w
  induction w with
  | zero => intro e he hw _; have := he.two_le_wt; omega
  | succ w ih =>
    intro e he hw hN
    have next : ∀ e : Expr K, Flat C e → wt e ≤ N → ∃ e', expandF C N e = some e' := by
      intro e he hw
      obtain ⟨e', h, _⟩ := expandF_flat hC hI N e (by have := he.size_lt_wt; omega) he
      exact ⟨e', h⟩
    obtain ⟨e₁, h1⟩ := next e he (by omega)
    obtain ⟨f1, l1, r1, _⟩ := expandF_weight hC hI N e e₁ he h1
    by_cases hstr : str C e = str C e₁
    · exact ⟨1, e₁, by simp only [expandLoop, h1, if_pos hstr]⟩
    · by_cases heq : wt e₁ = wt e
      · obtain ⟨e₂, h2⟩ := next e₁ f1 (by omega)
        obtain ⟨f2, l2, r2, _⟩ := expandF_weight hC hI N e₁ e₂ f1 h2
        by_cases heq2 : wt e₂ = wt e₁
        · have : e₂ = e₁ := by rw [r2 heq2, r1 heq, resort_idem hs]
          subst this
          exact ⟨2, e₂, by simp only [expandLoop, h1, h2, if_neg hstr, if_true]⟩
        · by_cases hstr2 : str C e₁ = str C e₂
          · exact ⟨2, e₂, by simp only [expandLoop, h1, h2, if_neg hstr, if_pos hstr2]⟩
          · obtain ⟨k, e', hk⟩ := ih e₂ f2 (by omega) (by omega)
            exact ⟨k + 2, e', by
              simp only [expandLoop, h1, if_neg hstr, h2, if_neg hstr2]; exact hk⟩
      · obtain ⟨k, e', hk⟩ := ih e₁ f1 (by omega) (by omega)
        exact ⟨k + 1, e', by simp only [expandLoop, h1, if_neg hstr]; exact hk⟩

theorem expandLoop_le {N M : Nat} (h : N ≤ M) : ∀ (k : Nat) (e e' : Expr K),
    expandLoop C N k e = some e' → expandLoop C M k e = some e' := by
  intro k
  induction k with
  | zero => intro e e' h; cases h
  | succ k ih =>
    intro e e' he
    rw [expandLoop] at he ⊢
    split at he
    · rename_i e₁ h1
      simp only [expandF_le h h1]
      split at he
      · rename_i h2; rw [if_pos h2]; exact he
      · rename_i h2; rw [if_neg h2]; exact ih _ _ he
    · cases he

include hC hI in
/-- **C04, termination of the loop.** Repeating `expand` until the text does not change comes to an end,
on every expression (products of at least two factors), if sorting leaves a sorted list as it
is. -/
theorem expandLoop_terminates (hs : ∀ l, C.srt (C.srt l) = C.srt l) (e : Expr K) (he : Two e) :
    ∃ n k e', expandLoop C n k e = some e' := by
  obtain ⟨n, e₁, h1, f1⟩ := expandF_terminates hC hI e he
  by_cases hstr : str C e = str C e₁
  · exact ⟨n, 1, e₁, by simp only [expandLoop, h1, if_pos hstr]⟩
  · obtain ⟨k, e', hk⟩ := expandLoop_flat hC hI hs (max n (wt e₁)) (wt e₁) e₁ f1 le_rfl
      (le_max_right _ _)
    exact ⟨max n (wt e₁), k + 1, e', by
      rw [expandLoop]; simp only [expandF_le (le_max_left _ _) h1, if_neg hstr]; exact hk⟩

/-- A sort as in `ExpandEx.C` meets the hypothesis. -/
theorem ex_srt : ∀ l, ExpandEx.C.srt (ExpandEx.C.srt l) = ExpandEx.C.srt l := fun _ => rfl

end

end Verif.Sym
