import Verif.Sym.SimpCon

/-!
# Simplification keeps values (property C02)
-/

namespace Verif.Sym

variable {K : Type} {C : Cfg K} {ρ : Env}

/-! ### Powers -/

/-- Good, or (only inside `ProductVecSimplify`) a power with a sum of literals for an exponent. -/
def Cls1 (C : Cfg K) (ρ : Env) (m : Bool) (e : Expr K) : Prop :=
  Cls C ρ m e ∨ (m = false ∧ ∃ (b l : Expr K) (k : ℕ), e = .pow b l ∧ G C ρ b ∧ Lit l ∧
    eval C ρ l = k ∧ 1 ≤ k)

theorem Cls1.cls {m : Bool} {e : Expr K} (h : Cls1 C ρ m e) (he : ∀ b l, e ≠ .pow b l) :
    Cls C ρ m e := by
  rcases h with h | ⟨_, b, l, _, rfl, _⟩
  · exact h
  · exact absurd rfl (he b l)

theorem Cls1.p {e : Expr K} (h : Cls1 C ρ true e) : P C ρ e := by
  rcases h with h | ⟨h, _⟩
  · exact h
  · cases h

/-- What kind of power an expression is. -/
def PowKind (C : Cfg K) (ρ : Env) (m : Bool) (b e : Expr K) : Prop :=
  P C ρ b ∨ (m = false ∧ ((∃ z : ℤ, eval C ρ e = z) ∧ eval C ρ b ≠ 0 ∨
    Lit e ∧ ∃ k : ℕ, eval C ρ e = k ∧ 1 ≤ k))

theorem Cls1.pow_inv {m : Bool} {b e : Expr K} (h : Cls1 C ρ m (.pow b e)) :
    G C ρ b ∧ G C ρ e ∧ PowKind C ρ m b e := by
  rcases h with h | ⟨hm, b', l, k, h, hb, hl, hk⟩
  · cases m with
    | true => exact ⟨h.powP_inv.1.g, h.powP_inv.2, .inl h.powP_inv.1⟩
    | false =>
      obtain ⟨h1, h2, h3⟩ := h.pow_inv
      refine ⟨h1, h2, ?_⟩
      rcases h3 with h3 | h3 | ⟨c, rfl, k, h3⟩
      · exact .inl h3
      · exact .inr ⟨rfl, .inl h3⟩
      · exact .inr ⟨rfl, .inr ⟨.con c, k, by simpa using h3⟩⟩
  · cases h
    exact ⟨hb, hl.g, .inr ⟨hm, .inr ⟨hl, k, hk⟩⟩⟩

theorem PowKind.cls1 {m : Bool} {b e : Expr K} (h : PowKind C ρ m b e) (hb : G C ρ b) (he : G C ρ e) :
    Cls1 C ρ m (.pow b e) := by
  rcases h with h | ⟨rfl, ⟨⟨z, hz⟩, h0⟩ | ⟨hl, k, hk⟩⟩
  · exact .inl (.powP h he)
  · exact .inl (.powI hb he hz h0)
  · exact .inr ⟨rfl, b, e, k, rfl, hb, hl, hk⟩

/-! ### Values of lists -/

theorem eval_factors (C : Cfg K) (ρ : Env) (a : Expr K) :
    (a.factors.map (eval C ρ)).prod = eval C ρ a := by
  unfold Expr.factors
  split <;> simp

theorem prod_flatMap {α : Type} (g : α → List (Expr K)) (h : α → ℝ) : ∀ {l : List α},
    (∀ a ∈ l, ((g a).map (eval C ρ)).prod = h a) →
    ((l.flatMap g).map (eval C ρ)).prod = (l.map h).prod
  | [], _ => by simp
  | a :: l, hg => by
    rw [List.flatMap_cons, List.map_append, List.prod_append, hg a (by simp),
      prod_flatMap g h fun x hx => hg x (by simp [hx]), List.map_cons, List.prod_cons]

theorem sum_flatMap {α : Type} (g : α → List (Expr K)) (h : α → ℝ) : ∀ {l : List α},
    (∀ a ∈ l, ((g a).map (eval C ρ)).sum = h a) →
    ((l.flatMap g).map (eval C ρ)).sum = (l.map h).sum
  | [], _ => by simp
  | a :: l, hg => by
    rw [List.flatMap_cons, List.map_append, List.sum_append, hg a (by simp),
      sum_flatMap g h fun x hx => hg x (by simp [hx]), List.map_cons, List.sum_cons]

theorem consts_map {t : List (Expr K)} (h : ∀ v ∈ t, v.ty = 0) :
    (consts t).map C.val = t.map (eval C ρ) := by
  induction t with
  | nil => rfl
  | cons v t ih =>
    obtain ⟨c, rfl⟩ := ty_con.1 (h v (by simp))
    simp only [consts, List.map_cons, eval_con, ih fun w hw => h w (by simp [hw])]

theorem val_foldl_add (hC : C.Exact) (c : K) (cs : List K) :
    C.val (cs.foldl C.add c) = C.val c + (cs.map C.val).sum := by
  induction cs generalizing c with
  | nil => simp
  | cons d cs ih => rw [List.foldl_cons, ih, hC.add, List.map_cons, List.sum_cons, add_assoc]

/-- Powers of one base: exponents add. -/
theorem pow_group {β : ℝ} {xs : List ℝ} (h : 0 < β ∨ (β ≠ 0 ∧ ∀ x ∈ xs, ∃ z : ℤ, x = z) ∨
    (∀ x ∈ xs, ∃ k : ℕ, x = k)) : β ^ xs.sum = (xs.map (β ^ ·)).prod := by
  induction xs with
  | nil => simp
  | cons x xs ih =>
    rw [List.sum_cons, List.map_cons, List.prod_cons]
    rcases h with h | ⟨h0, h⟩ | h
    · rw [Real.rpow_add h, ih (.inl h)]
    · rw [← ih (.inr (.inl ⟨h0, fun y hy => h y (by simp [hy])⟩))]
      obtain ⟨z, rfl⟩ := h x (by simp)
      rw [add_comm, Real.rpow_add_intCast h0, mul_comm, Real.rpow_intCast]
    · rw [← ih (.inr (.inr fun y hy => h y (by simp [hy])))]
      have hs : ∃ k : ℕ, xs.sum = k := by
        have h' : ∀ y ∈ xs, ∃ k : ℕ, y = k := fun y hy => h y (by simp [hy])
        clear ih h
        induction xs with
        | nil => exact ⟨0, by simp⟩
        | cons y ys ih =>
          obtain ⟨k, hk⟩ := ih fun z hz => h' z (by simp [hz])
          obtain ⟨j, hj⟩ := h' y (by simp)
          exact ⟨j + k, by rw [List.sum_cons, hj, hk]; push_cast; ring⟩
      obtain ⟨j, hj⟩ := hs
      obtain ⟨k, rfl⟩ := h x (by simp)
      rw [hj, ← Nat.cast_add, Real.rpow_natCast, Real.rpow_natCast, Real.rpow_natCast, pow_add]

theorem sum_int {xs : List ℝ} (h : ∀ x ∈ xs, ∃ z : ℤ, x = z) : ∃ z : ℤ, xs.sum = z := by
  induction xs with
  | nil => exact ⟨0, by simp⟩
  | cons y ys ih =>
    obtain ⟨k, hk⟩ := ih fun z hz => h z (by simp [hz])
    obtain ⟨j, hj⟩ := h y (by simp)
    exact ⟨j + k, by rw [List.sum_cons, hj, hk]; push_cast; ring⟩

theorem sum_nat0 {xs : List ℝ} (h : ∀ x ∈ xs, ∃ k : ℕ, x = k) : ∃ k : ℕ, xs.sum = k := by
  induction xs with
  | nil => exact ⟨0, by simp⟩
  | cons y ys ih =>
    obtain ⟨k, hk⟩ := ih fun z hz => h z (by simp [hz])
    obtain ⟨j, hj⟩ := h y (by simp)
    exact ⟨j + k, by rw [List.sum_cons, hj, hk]; push_cast; ring⟩

theorem sum_nat {xs : List ℝ} (h : ∀ x ∈ xs, ∃ k : ℕ, x = k ∧ 1 ≤ k) (hne : xs ≠ []) :
    ∃ k : ℕ, xs.sum = k ∧ 1 ≤ k := by
  match xs, hne with
  | x :: xs, _ =>
    obtain ⟨k, hk⟩ := sum_nat0 fun y hy => by
      obtain ⟨j, hj, _⟩ := h y (List.mem_cons_of_mem x hy); exact ⟨j, hj⟩
    obtain ⟨j, hj, h1⟩ := h x (by simp)
    exact ⟨j + k, by rw [List.sum_cons, hj, hk]; push_cast; ring, by omega⟩

section
variable {T : Tables} {S : K → Prop} {read : Str → K} (hC : C.Exact) (hF : C.Faithful S read)

include hC hF in
/-- One collected power. -/
theorem powItem_spec {m : Bool} {l : List (Expr K × Expr K)}
    (hl : ∀ x ∈ l, WF T S x.1 ∧ WF T S x.2 ∧ Cls1 C ρ m (.pow x.1 x.2)) {p : Expr K × List (Expr K)}
    {q : List (Expr K × Expr K)} (h : BaseGroup C l p q) : Cls1 C ρ m (powItem C p) ∧
      eval C ρ (powItem C p) = (q.map fun x => eval C ρ (.pow x.1 x.2)).prod := by
  obtain ⟨b, es⟩ := p
  have hsnd := h.snd
  dsimp only at hsnd
  subst hsnd
  obtain ⟨e0, he0⟩ := h.fst
  have hq : ∀ x ∈ q, WF T S x.1 ∧ WF T S x.2 ∧ Cls1 C ρ m (.pow x.1 x.2) := fun x hx =>
    hl x (h.sub x hx)
  have hb0 := hq _ he0
  have hbG := hb0.2.2.pow_inv.1
  have hev : ∀ x ∈ q, eval C ρ x.1 = eval C ρ b := fun x hx =>
    eval_of_str_eq hC hF (hq x hx).1 hb0.1 (h.str x hx) ρ
  have hgen : Cls1 C ρ m (.pow b (mkAdd C (q.map Prod.snd))) ∧
      eval C ρ (.pow b (mkAdd C (q.map Prod.snd)))
        = (q.map fun x => eval C ρ (.pow x.1 x.2)).prod := by
    have heG : G C ρ (mkAdd C (q.map Prod.snd)) := by
      refine Cls.mkAdd (by simpa using h.ne) ?_
      intro v hv
      obtain ⟨x, hx, rfl⟩ := List.mem_map.1 hv
      exact (hq x hx).2.2.pow_inv.2.1
    have hR : (q.map fun x => eval C ρ (.pow x.1 x.2)).prod
        = ((q.map fun x => eval C ρ x.2).map (eval C ρ b ^ ·)).prod := by
      rw [List.map_map]
      congr 1
      refine List.map_congr_left fun x hx => ?_
      simp only [Function.comp_apply]
      rw [eval_pow, hev x hx]
    rw [hR, eval_pow, eval_mkAdd hC, List.map_map]
    have hcomp : q.map (eval C ρ ∘ Prod.snd) = q.map fun x => eval C ρ x.2 := rfl
    rw [hcomp]
    by_cases hP : ∃ x ∈ q, P C ρ x.1
    · obtain ⟨x, hx, hxP⟩ := hP
      have hbP : P C ρ b := P_of_str hC hF (hq x hx).1 hb0.1 (h.str x hx) hxP hbG
      exact ⟨(PowKind.cls1 (.inl hbP) hbG heG), pow_group (.inl (P_pos hbP))⟩
    · have hk : ∀ x ∈ q, m = false ∧ ((∃ z : ℤ, eval C ρ x.2 = z) ∧ eval C ρ b ≠ 0 ∨
          Lit x.2 ∧ ∃ k : ℕ, eval C ρ x.2 = k ∧ 1 ≤ k) := by
        intro x hx
        obtain ⟨_, _, hk⟩ := (hq x hx).2.2.pow_inv
        rcases hk with hk | hk
        · exact absurd ⟨x, hx, hk⟩ hP
        · rwa [hev x hx] at hk
      have hm : m = false := (hk _ he0).1
      by_cases h0 : eval C ρ b = 0
      · have hL : ∀ x ∈ q, Lit x.2 ∧ ∃ k : ℕ, eval C ρ x.2 = k ∧ 1 ≤ k := by
          intro x hx
          rcases (hk x hx).2 with h' | h'
          · exact absurd h0 h'.2
          · exact h'
        have hn : ∀ y ∈ q.map (fun x => eval C ρ x.2), ∃ k : ℕ, y = k ∧ 1 ≤ k := by
          intro y hy
          obtain ⟨x, hx, rfl⟩ := List.mem_map.1 hy
          exact (hL x hx).2
        refine ⟨PowKind.cls1 (.inr ⟨hm, .inr ⟨?_, ?_⟩⟩) hbG heG, ?_⟩
        · refine .add fun v hv => ?_
          obtain ⟨x, hx, rfl⟩ := List.mem_map.1 ((C.srt_perm _).mem_iff.1 hv)
          exact (hL x hx).1
        · rw [eval_mkAdd hC, List.map_map, hcomp]
          exact sum_nat hn (by simpa using h.ne)
        · exact pow_group (.inr (.inr fun y hy => by
            obtain ⟨k, hk, _⟩ := hn y hy; exact ⟨k, hk⟩))
      · have hz : ∀ y ∈ q.map (fun x => eval C ρ x.2), ∃ z : ℤ, y = z := by
          intro y hy
          obtain ⟨x, hx, rfl⟩ := List.mem_map.1 hy
          rcases (hk x hx).2 with h' | ⟨_, k, h', _⟩
          · exact h'.1
          · exact ⟨k, by rw [h']; simp⟩
        refine ⟨PowKind.cls1 (.inr ⟨hm, .inl ⟨?_, h0⟩⟩) hbG heG, pow_group (.inr (.inl ⟨h0, hz⟩))⟩
        rw [eval_mkAdd hC, List.map_map, hcomp]
        exact sum_int hz
  match q, h.ne, he0, hgen with
  | [x], _, he0, _ =>
    have hx : x = (b, e0) := (List.mem_singleton.1 he0).symm
    subst hx
    simp only [List.map_cons, List.map_nil, powItem, List.prod_cons, List.prod_nil, mul_one]
    exact ⟨hb0.2.2, trivial⟩
  | x :: y :: q, _, _, hgen => exact hgen

include hC in
theorem single_spec {m : Bool} {l : List (Expr K)} : eval C ρ (single C l) = (l.map (eval C ρ)).prod ∧
    ((∀ v ∈ l, Cls C ρ m v) → Cls C ρ m (single C l)) := by
  unfold single
  split
  · exact ⟨by simp, fun h => h _ (by simp)⟩
  · exact ⟨eval_mkProd hC ρ _, fun h => .mkProd h⟩

theorem factors_single {Q : Expr K → Prop} {l : List (Expr K)} (h : ∀ v ∈ l, Q v)
    (hp : ∀ v ∈ l, v.ty = 5) : ∀ w ∈ (single C l).factors, Q w := by
  intro w hw
  unfold single at hw
  split at hw
  · rename_i v
    have := hp v (by simp)
    have hv : v.factors = [v] := by
      unfold Expr.factors
      split
      · simp [Expr.ty] at this
      · rfl
    rw [hv] at hw
    rw [List.mem_singleton.1 hw]
    exact h v (by simp)
  · exact h w ((C.srt_perm _).mem_iff.1 hw)

include hC hF in
/-- `CombineProduct` multiplies. -/
theorem combineProd_spec {m : Bool} {h : Expr K} {t : List (Expr K)} (hh : WF T S h ∧ Cls1 C ρ m h)
    (ht : ∀ v ∈ t, WF T S v ∧ Cls1 C ρ m v ∧ v.ty = h.ty) :
    (∀ w ∈ (combineProd C h t).factors, Cls1 C ρ m w) ∧
      eval C ρ (combineProd C h t) = eval C ρ h * (t.map (eval C ρ)).prod := by
  have hdef : (∀ w ∈ (mkProd C (t ++ [h])).factors, Cls1 C ρ m w) ∧
      eval C ρ (mkProd C (t ++ [h])) = eval C ρ h * (t.map (eval C ρ)).prod := by
    constructor
    · intro w hw
      have := (C.srt_perm (t ++ [h])).mem_iff.1 hw
      rcases List.mem_append.1 this with h' | h'
      · exact (ht w h').2.1
      · rw [List.mem_singleton.1 h']; exact hh.2
    · rw [eval_mkProd hC, List.map_append, List.prod_append, List.map_singleton, List.prod_singleton,
        mul_comm]
  unfold combineProd
  split
  · rename_i c
    have hcm := consts_map (C := C) (ρ := ρ) (t := t) fun v hv => (ht v hv).2.2
    have he : eval C ρ (.con ((consts t).foldl C.mul c))
        = eval C ρ (.con c) * (t.map (eval C ρ)).prod := by
      rw [eval_con, val_foldl_mul hC, hcm, eval_con]
    refine ⟨?_, he⟩
    intro w hw
    rw [List.mem_singleton.1 hw]
    left
    cases m with
    | false => exact .con _
    | true =>
      refine .conP ?_
      rw [eval_con] at he
      rw [he]
      refine mul_pos (P_pos hh.2.p) (prod_pos' fun x hx => ?_)
      obtain ⟨v, hv, rfl⟩ := List.mem_map.1 hx
      exact P_pos (ht v hv).2.1.p
  · rename_i vs
    have hvs := (hh.2.cls (by simp)).prod_inv
    constructor
    · intro w hw
      have := (C.srt_perm _).mem_iff.1 hw
      rcases List.mem_append.1 this with h' | h'
      · exact .inl (hvs w h')
      · obtain ⟨v, hv, hw⟩ := List.mem_flatMap.1 h'
        obtain ⟨_, h2, h3⟩ := ht v hv
        exact .inl ((h2.cls (by rintro b l rfl; simp [Expr.ty] at h3)).factors w hw)
    · rw [eval_mkProd hC, List.map_append, List.prod_append, eval_prod,
        prod_flatMap Expr.factors (eval C ρ) fun a _ => eval_factors C ρ a]
  · rename_i a
    have hex : ∀ v ∈ t, ∃ x, v = .exp x := by
      intro v hv
      have := (ht v hv).2.2
      cases v <;> simp [Expr.ty] at this ⊢
    constructor
    · intro w hw
      rw [List.mem_singleton.1 hw]
      refine .inl (.exp (.mkAdd (by simp) ?_))
      intro v hv
      rcases List.mem_cons.1 hv with rfl | hv
      · exact (hh.2.cls (by simp)).exp_inv
      · obtain ⟨u, hu, hv⟩ := List.mem_flatMap.1 hv
        obtain ⟨x, rfl⟩ := hex u hu
        rw [List.mem_singleton.1 hv]
        exact ((ht _ hu).2.1.cls (by simp)).exp_inv
    · rw [eval_exp, eval_mkAdd hC, List.map_cons, List.sum_cons, Real.exp_add, eval_exp]
      congr 1
      clear hdef ht
      induction t with
      | nil => simp
      | cons v t ih =>
        obtain ⟨x, rfl⟩ := hex v (by simp)
        rw [List.flatMap_cons, List.map_append, List.sum_append, Real.exp_add,
          ih fun w hw => hex w (by simp [hw]), List.map_cons, List.prod_cons]
        simp [expArg]
  · rename_i b e
    have hpw : ∀ v ∈ t, ∃ x y, v = .pow x y := by
      intro v hv
      have := (ht v hv).2.2
      cases v <;> simp [Expr.ty] at this ⊢
    have hl : ∀ x ∈ t.flatMap powPair ++ [(b, e)],
        WF T S x.1 ∧ WF T S x.2 ∧ Cls1 C ρ m (.pow x.1 x.2) := by
      intro x hx
      rcases List.mem_append.1 hx with hx | hx
      · obtain ⟨v, hv, hx⟩ := List.mem_flatMap.1 hx
        obtain ⟨y, z, rfl⟩ := hpw v hv
        rw [List.mem_singleton.1 hx]
        exact ⟨(ht _ hv).1.pow_inv.1, (ht _ hv).1.pow_inv.2, (ht _ hv).2.1⟩
      · rw [List.mem_singleton.1 hx]
        exact ⟨hh.1.pow_inv.1, hh.1.pow_inv.2, hh.2⟩
    obtain ⟨qs, h1, h2⟩ := groupBase_spec C (t.flatMap powPair ++ [(b, e)])
    have hit := h1.imp fun p q hpq => powItem_spec hC hF hl hpq
    constructor
    · refine factors_single ?_ ?_
      · intro v hv
        obtain ⟨p, hp, rfl⟩ := List.mem_map.1 hv
        clear h1 h2
        revert hit
        generalize groupBase C (t.flatMap powPair ++ [(b, e)]) = L at hp ⊢
        intro hit
        clear hv
        induction hit with
        | nil => cases hp
        | cons hpq _ ih =>
          rcases List.mem_cons.1 hp with rfl | hp
          · exact hpq.1
          · exact ih hp
      · intro v hv
        obtain ⟨p, hp, rfl⟩ := List.mem_map.1 hv
        unfold powItem
        split <;> rfl
    · rw [(single_spec hC (m := m)).1, List.map_map]
      have e1 : ((groupBase C (t.flatMap powPair ++ [(b, e)])).map (eval C ρ ∘ powItem C)).prod
          = (qs.flatten.map fun x => eval C ρ (.pow x.1 x.2)).prod := by
        clear h1 h2
        revert hit
        generalize groupBase C (t.flatMap powPair ++ [(b, e)]) = L
        intro hit
        induction hit with
        | nil => rfl
        | cons hpq _ ih =>
          rw [List.map_cons, List.prod_cons, Function.comp_apply, hpq.2, ih, List.flatten_cons,
            List.map_append, List.prod_append]
      rw [e1, (h2.map _).prod_eq, List.map_append, List.prod_append, List.map_singleton,
        List.prod_singleton, mul_comm]
      congr 1
      clear hl h1 h2 hit e1 hdef ht
      induction t with
      | nil => rfl
      | cons v t ih =>
        obtain ⟨y, z, rfl⟩ := hpw v (by simp)
        rw [List.flatMap_cons, List.map_append, List.prod_append, ih fun w hw => hpw w (by simp [hw]),
          List.map_cons, List.prod_cons]
        simp [powPair]
  · exact hdef

include hC in
theorem Cls.one {m : Bool} : Cls C ρ m (conI C 1) := by
  cases m with
  | false => exact .con _
  | true => exact .conP (by rw [hC.ofInt]; norm_num)

include hC in
theorem pow_one_spec {m : Bool} {v : Expr K} (h : Cls C ρ m v) : Cls C ρ m (.pow v (conI C 1)) ∧
    eval C ρ (.pow v (conI C 1)) = eval C ρ v := by
  constructor
  · cases m with
    | true => exact .powP h (.con _)
    | false => exact .powL (k := 1) h (by rw [hC.ofInt]; norm_num) le_rfl
  · rw [eval_pow, eval_conI hC]; simp

include hC in
theorem toPow_spec {m : Bool} {v : Expr K} (h : Cls1 C ρ m v) :
    Cls1 C ρ m (toPow C v) ∧ eval C ρ (toPow C v) = eval C ρ v := by
  unfold toPow
  split
  · exact ⟨.inl (pow_one_spec hC (h.cls (by simp))).1, (pow_one_spec hC (h.cls (by simp))).2⟩
  · exact ⟨h, rfl⟩

include hC in
theorem asPow_spec {m : Bool} {v : Expr K} (h : Cls C ρ m v) :
    Cls C ρ m (asPow C v) ∧ eval C ρ (asPow C v) = eval C ρ v := by
  unfold asPow
  split
  · exact ⟨h, rfl⟩
  · exact pow_one_spec hC h

include hC hF in
theorem grouped_spec {m : Bool} {l : List (Expr K)} (hl : ∀ v ∈ l, WF T S v ∧ Cls1 C ρ m v) :
    (∀ v ∈ grouped C l, Cls1 C ρ m v) ∧
      ((grouped C l).map (eval C ρ)).prod = (l.map (eval C ρ)).prod := by
  have hm : ∀ v ∈ l.map (toPow C), WF T S v ∧ Cls1 C ρ m v := by
    intro v hv
    obtain ⟨w, hw, rfl⟩ := List.mem_map.1 hv
    exact ⟨(hl w hw).1.toPow hF, (toPow_spec hC (hl w hw).2).1⟩
  have hc : ∀ p ∈ groupTy (l.map (toPow C)),
      (∀ w ∈ (if p.2.isEmpty then p.1 else combineProd C p.1 p.2).factors, Cls1 C ρ m w) ∧
      eval C ρ (if p.2.isEmpty then p.1 else combineProd C p.1 p.2)
        = ((p.1 :: p.2).map (eval C ρ)).prod := by
    intro p hp
    obtain ⟨h1, h2⟩ := groupTy_mem _ p hp
    split
    · rename_i hemp
      rw [List.isEmpty_iff] at hemp
      rw [hemp]
      refine ⟨?_, by simp⟩
      intro w hw
      have hcl := (hm _ h1).2
      generalize p.1 = x at hcl hw
      unfold Expr.factors at hw
      split at hw
      · exact .inl ((hcl.cls (by simp)).prod_inv w hw)
      · rw [List.mem_singleton.1 hw]; exact hcl
    · rw [List.map_cons, List.prod_cons]
      exact combineProd_spec hC hF (hm _ h1) fun v hv => ⟨(hm v (h2 v hv).1).1, (hm v (h2 v hv).1).2,
        (h2 v hv).2⟩
  constructor
  · intro v hv
    obtain ⟨w, hw, hv⟩ := List.mem_flatMap.1 hv
    obtain ⟨p, hp, rfl⟩ := List.mem_map.1 hw
    exact (hc p hp).1 v hv
  · unfold grouped
    rw [prod_flatMap Expr.factors (eval C ρ) fun a _ => eval_factors C ρ a, List.map_map]
    have e1 : ((groupTy (l.map (toPow C))).map (eval C ρ ∘ fun p : Expr K × List (Expr K) =>
          if p.2.isEmpty then p.1 else combineProd C p.1 p.2))
        = (groupTy (l.map (toPow C))).map fun p => ((p.1 :: p.2).map (eval C ρ)).prod :=
      List.map_congr_left fun p hp => (hc p hp).2
    rw [e1, ← prod_flatMap (C := C) (ρ := ρ) (fun p : Expr K × List (Expr K) => p.1 :: p.2) _
      (fun a _ => rfl), ((groupTy_perm _).map _).prod_eq, List.map_map]
    congr 1
    exact List.map_congr_left fun v hv => (toPow_spec hC (hl v hv).2).2

/-- What is assumed of the calls of `Simplify`. -/
def Keeps (C : Cfg K) (T : Tables) (S : K → Prop) (ρ : Env) (f : Expr K → Option (Expr K)) : Prop :=
  ∀ m e e', WF T S e → Cls1 C ρ m e → f e = some e' → eval C ρ e' = eval C ρ e ∧ Cls C ρ m e'

include hC in
theorem filter_one : ∀ l : List (Expr K),
    ((l.filter fun v => !isOne C v).map (eval C ρ)).prod = (l.map (eval C ρ)).prod
  | [] => rfl
  | v :: l => by
    rw [List.filter_cons]
    split
    · rw [List.map_cons, List.prod_cons, filter_one l, List.map_cons, List.prod_cons]
    · rename_i h
      have : eval C ρ v = 1 := eval_isOne hC ρ v (by simpa using h)
      rw [filter_one l, List.map_cons, List.prod_cons, this, one_mul]

theorem mapO_keeps {f : Expr K → Option (Expr K)} (hf : Keeps C T S ρ f) {m : Bool}
    {l l' : List (Expr K)} (hl : ∀ v ∈ l, WF T S v ∧ Cls1 C ρ m v) (h : mapO f l = some l') :
    (∀ v ∈ l', Cls C ρ m v) ∧ l'.map (eval C ρ) = l.map (eval C ρ) := by
  constructor
  · intro v hv
    obtain ⟨a, ha, hav⟩ := mapO_mem h v hv
    exact (hf m a v (hl a ha).1 (hl a ha).2 hav).2
  · exact mapO_map h fun a ha b hab => (hf m a b (hl a ha).1 (hl a ha).2 hab).1

include hC hF in
theorem prodVec_spec (hS : C.Closed S) {f : Expr K → Option (Expr K)} (hf : Keeps C T S ρ f) {m : Bool}
    {l t : List (Expr K)} (hl : ∀ v ∈ l, WF T S v ∧ Cls1 C ρ m v) (h : prodVec C f l = some t) :
    (∀ v ∈ t, Cls C ρ m v) ∧ (t.map (eval C ρ)).prod = (l.map (eval C ρ)).prod := by
  rw [prodVec_eq, Option.map_eq_some_iff] at h
  obtain ⟨t', h1, rfl⟩ := h
  obtain ⟨g1, g2⟩ := grouped_spec hC hF hl
  have gw := (grouped_WF hF hS (C := C) fun v hv => (hl v hv).1).1
  obtain ⟨k1, k2⟩ := mapO_keeps hf (m := m) (fun v hv =>
    ⟨gw v (List.mem_filter.1 hv).1, g1 v (List.mem_filter.1 hv).1⟩) h1
  have hv : (t'.map (eval C ρ)).prod = (l.map (eval C ρ)).prod := by
    rw [k2, filter_one hC, g2]
  split
  · rename_i hc
    rw [Bool.and_eq_true, List.isEmpty_iff] at hc
    rw [hc.1] at hv
    refine ⟨?_, by simpa [eval_conI hC] using hv⟩
    intro v hv
    rw [List.mem_singleton.1 hv]; exact .one hC
  · exact ⟨k1, hv⟩

include hC hF in
theorem reduce_spec (hS : C.Closed S) {f : Expr K → Option (Expr K)} (hw : KeepsWF T S f)
    (hf : Keeps C T S ρ f) {m : Bool} : ∀ (k : Nat)
    {l t : List (Expr K)}, (∀ v ∈ l, WF T S v ∧ Cls1 C ρ m v) → l ≠ [] → reduce C f k l = some t →
    (∀ v ∈ t, Cls C ρ m v) ∧ (t.map (eval C ρ)).prod = (l.map (eval C ρ)).prod
  | 0, _, _, _, _, h => by simp [reduce] at h
  | k + 1, l, t, hl, hne, h => by
    simp only [reduce] at h
    split at h
    · rename_i t' ht'
      obtain ⟨h1, h2⟩ := prodVec_spec hC hF hS hf hl ht'
      obtain ⟨w1, w2⟩ := prodVec_WF hF hS hw (fun v hv => (hl v hv).1) hne ht'
      split at h
      · obtain ⟨h3, h4⟩ := reduce_spec hS hw hf k (fun v hv => ⟨w1 v hv, .inl (h1 v hv)⟩) w2 h
        exact ⟨h3, by rw [h4, h2]⟩
      · cases h; exact ⟨h1, h2⟩
    · cases h

include hC in
/-- `c - 1` for a literal `c` is a sum of literals. -/
theorem Lit.minus_one (c : K) : Lit (minus C (.con c) (conI C 1)) := by
  have h1 : ∃ d, mul C (conI C (-1)) (conI C 1) = .con d := by
    have hone : isOne C (conI C 1) = true := by
      simp only [conI, isOne]; rw [hC.eqInt, hC.ofInt]
    unfold mul
    split
    · exact ⟨_, rfl⟩
    · split
      · exact ⟨_, rfl⟩
      · exact ⟨_, rfl⟩
      
  obtain ⟨d, hd⟩ := h1
  unfold minus
  rw [hd]
  unfold plus
  split
  · exact .con _
  · split
    · exact .con _
    · refine .add fun v hv => ?_
      simp only [List.mem_cons, List.not_mem_nil, or_false] at hv
      rcases hv with rfl | rfl <;> exact .con _

include hC in
/-- One factor taken out of a power. -/
theorem thirdItem_spec {m : Bool} {v : Expr K} (h : Cls C ρ m v) :
    (∀ w ∈ thirdItem C v, Cls1 C ρ m w) ∧ ((thirdItem C v).map (eval C ρ)).prod = eval C ρ v := by
  unfold thirdItem
  split
  · rename_i b e
    obtain ⟨hb, he, hk⟩ := Cls1.pow_inv (.inl h)
    have hbm : Cls C ρ m b := by
      cases m with
      | false => exact hb
      | true => exact h.powP_inv.1
    split
    · rename_i h1
      refine ⟨fun w hw => ?_, ?_⟩
      · rw [List.mem_singleton.1 hw]; exact .inl hbm
      · rw [List.map_singleton, List.prod_singleton, eval_pow, eval_isOne hC ρ e h1, Real.rpow_one]
    · rename_i h1
      have hme : eval C ρ (minus C e (conI C 1)) = eval C ρ e - 1 := by
        rw [eval_minus hC, eval_conI hC]; norm_num
      have hmG : G C ρ (minus C e (conI C 1)) := G.plus he (Cls.mul hC (.con _) (.con _))
      rw [List.map_append, List.prod_append, eval_factors, List.map_singleton, List.prod_singleton,
        eval_pow, eval_pow, hme]
      have hcl : PowKind C ρ m b (minus C e (conI C 1)) ∧
          eval C ρ b * eval C ρ b ^ (eval C ρ e - 1) = eval C ρ b ^ eval C ρ e := by
        by_cases h0 : eval C ρ b = 0
        · cases h with
          | powP hp _ => exact absurd h0 (P_pos hp).ne'
          | powI _ _ _ hn => exact absurd h0 hn
          | @powL _ c k _ hc hk1 =>
            have hk2 : k ≠ 1 := by
              rintro rfl
              exact h1 (by simp only [isOne]; rw [hC.eqInt, hc]; norm_num)
            refine ⟨.inr ⟨rfl, .inr ⟨Lit.minus_one hC c, k - 1, ?_, by omega⟩⟩, ?_⟩
            · rw [hme, eval_con, hc, Nat.cast_sub hk1, Nat.cast_one]
            · rw [h0, zero_mul, eval_con, hc, Real.zero_rpow]
              exact_mod_cast (by omega : k ≠ 0)
        · refine ⟨?_, ?_⟩
          · rcases hk with hk | ⟨hm, hk⟩
            · exact .inl hk
            · refine .inr ⟨hm, .inl ⟨?_, h0⟩⟩
              have : ∃ z : ℤ, eval C ρ e = z := by
                rcases hk with hk | ⟨_, k, hk, _⟩
                · exact hk.1
                · exact ⟨k, by rw [hk]; simp⟩
              obtain ⟨z, hz⟩ := this
              exact ⟨z - 1, by rw [hme, hz]; push_cast; ring⟩
          · rw [Real.rpow_sub_one h0]; field_simp
      refine ⟨fun w hw => ?_, hcl.2⟩
      rcases List.mem_append.1 hw with hw | hw
      · exact .inl (hbm.factors w hw)
      · rw [List.mem_singleton.1 hw]; exact hcl.1.cls1 hb hmG
  · refine ⟨fun w hw => ?_, ?_⟩
    · rw [List.mem_singleton.1 hw]; exact .inl (h.clone hC)
    · rw [List.map_singleton, List.prod_singleton, eval_clone hC]

include hC in
theorem Cls.not_zero {m : Bool} {e : Expr K} (h : Cls C ρ m e) (hz : eval C ρ e = 0) : m = false := by
  cases m with
  | false => rfl
  | true => exact absurd hz (P_pos h).ne'

include hC hF in
theorem prodSimp_spec (hS : C.Closed S) {f : Expr K → Option (Expr K)} (hw : KeepsWF T S f)
    (hf : Keeps C T S ρ f) {m : Bool} {vs : List (Expr K)} (hv : ∀ v ∈ vs, WF T S v ∧ Cls C ρ m v)
    (hne : vs ≠ []) {e' : Expr K} (h : prodSimp C f vs = some e') :
    eval C ρ e' = (vs.map (eval C ρ)).prod ∧ Cls C ρ m e' := by
  rcases prodSimp_cases h with ⟨hz, rfl⟩ | ⟨v, rfl, h'⟩ | ⟨t0, tv, h0, h1, h⟩
  · rw [List.any_eq_true] at hz
    obtain ⟨v, hv', hz⟩ := hz
    have hz := eval_isZero hC ρ v hz
    have hm : m = false := (hv v hv').2.not_zero hC hz
    subst hm
    refine ⟨?_, .con _⟩
    rw [eval_conI hC, eq_comm, Int.cast_zero, List.prod_eq_zero_iff]
    exact List.mem_map.2 ⟨v, hv', hz⟩
  · have := hf m v e' (hv v (by simp)).1 (.inl (hv v (by simp)).2) h'
    exact ⟨by rw [this.1]; simp, this.2⟩
  · obtain ⟨c0, e0⟩ := mapO_keeps hf (m := m) (fun v hv' => ⟨(hv v hv').1, .inl (hv v hv').2⟩) h0
    have w0 := mapO_WF hw h0 fun v hv' => (hv v hv').1
    have n0 : t0 ≠ [] := by
      intro h'; have := mapO_length h0; rw [h'] at this
      exact hne (List.length_eq_zero_iff.1 this.symm)
    obtain ⟨wv, nv⟩ := prodVec_WF hF hS hw w0 n0 h1
    obtain ⟨cv, ev⟩ := prodVec_spec hC hF hS hf (m := m) (fun v hv' => ⟨w0 v hv', .inl (c0 v hv')⟩) h1
    rw [← e0, ← ev]
    have hs : ∀ t : List (Expr K), (∀ v ∈ t, Cls C ρ m v) →
        (t.map (eval C ρ)).prod = (tv.map (eval C ρ)).prod →
        eval C ρ (single C t) = (tv.map (eval C ρ)).prod ∧ Cls C ρ m (single C t) := by
      intro t h1 h2
      obtain ⟨s1, s2⟩ := single_spec hC (ρ := ρ) (m := m) (l := t)
      exact ⟨by rw [s1, h2], s2 h1⟩
    rcases h with rfl | ⟨_, t, ht, rfl⟩ | ⟨k, t, ht, rfl⟩
    · exact hs tv cv rfl
    · have hp := C.srt_perm (tv.map (asPow C))
      obtain ⟨h1, h2⟩ := prodVec_spec hC hF hS hf (m := m) (fun v hv => by
        obtain ⟨w, hw, rfl⟩ := List.mem_map.1 (hp.mem_iff.1 hv)
        exact ⟨(wv w hw).asPow hF, .inl (asPow_spec hC (cv w hw)).1⟩) ht
      refine hs t h1 ?_
      rw [h2, (hp.map _).prod_eq, List.map_map]
      congr 1
      exact List.map_congr_left fun v hv => (asPow_spec hC (cv v hv)).2
    · obtain ⟨h1, h2⟩ := reduce_spec hC hF hS hw hf (m := m) k (fun v hv => by
        obtain ⟨w, hw, hv⟩ := List.mem_flatMap.1 hv
        exact ⟨(thirdItem_WF hF (wv w hw)).1 v hv, (thirdItem_spec hC (cv w hw)).1 v hv⟩) (fun h0 => by
          match tv, nv, wv, h0 with
          | w :: ws, _, wv, h0 =>
            rw [List.flatMap_cons, List.append_eq_nil_iff] at h0
            exact (thirdItem_WF hF (wv w (by simp))).2 h0.1) ht
      refine hs t h1 ?_
      rw [h2, prod_flatMap (thirdItem C) (eval C ρ) fun a ha => (thirdItem_spec hC (cv a ha)).2]

/-! ### Sums -/

include hC in
theorem combineAdd_spec {m : Bool} {h : Expr K} {t : List (Expr K)} (hh : Cls C ρ m h)
    (ht : ∀ v ∈ t, Cls C ρ m v ∧ v.ty = h.ty) : Cls C ρ m (combineAdd C h t) ∧
      eval C ρ (combineAdd C h t) = eval C ρ h + (t.map (eval C ρ)).sum := by
  have hdef : ∀ h', Cls C ρ m h' → eval C ρ h' = eval C ρ h → Cls C ρ m (mkAdd C (t ++ [h'])) ∧
      eval C ρ (mkAdd C (t ++ [h'])) = eval C ρ h + (t.map (eval C ρ)).sum := by
    intro h' hc he
    constructor
    · refine .mkAdd (by simp) fun v hv => ?_
      rcases List.mem_append.1 hv with hv | hv
      · exact (ht v hv).1
      · rw [List.mem_singleton.1 hv]; exact hc
    · rw [eval_mkAdd hC, List.map_append, List.sum_append, List.map_singleton, List.sum_singleton,
        add_comm, he]
  unfold combineAdd
  split
  · rename_i c
    have hcm := consts_map (C := C) (ρ := ρ) (t := t) fun v hv => (ht v hv).2
    have he : eval C ρ (.con ((consts t).foldl C.add (C.add (C.ofInt 0) c)))
        = eval C ρ (.con c) + (t.map (eval C ρ)).sum := by
      rw [eval_con, val_foldl_add hC, hcm, eval_con, hC.add, hC.ofInt]; simp
    refine ⟨?_, he⟩
    cases m with
    | false => exact .con _
    | true =>
      refine .conP ?_
      rw [eval_con] at he
      rw [he, ← List.sum_cons, ← List.map_cons]
      refine sum_pos' (by simp) fun x hx => ?_
      obtain ⟨v, hv, rfl⟩ := List.mem_map.1 hx
      rcases List.mem_cons.1 hv with rfl | hv
      · exact P_pos hh
      · exact P_pos (ht v hv).1
  · rename_i vs
    constructor
    · refine .add ?_ fun v hv => ?_
      · intro hm h0
        subst hm
        have hl := (C.srt_perm (vs ++ t.flatMap Expr.terms)).length_eq
        rw [h0] at hl
        cases hh with
        | add hne _ =>
          have := hne rfl
          simp only [List.length_nil, List.length_append] at hl
          exact this (List.length_eq_zero_iff.1 (by omega))
      · rcases List.mem_append.1 ((C.srt_perm _).mem_iff.1 hv) with hv | hv
        · exact hh.add_inv v hv
        · obtain ⟨w, hw, hv⟩ := List.mem_flatMap.1 hv
          exact (ht w hw).1.terms v hv
    · rw [eval_mkAdd hC, List.map_append, List.sum_append, eval_add,
        sum_flatMap Expr.terms (eval C ρ) fun a _ => eval_terms C ρ a]
  · exact hdef _ (.mkProd hh.prod_inv) (by rw [eval_mkProd hC, eval_prod])
  · exact hdef _ hh rfl

include hC in
theorem filter_zero : ∀ l : List (Expr K),
    ((l.filter fun v => !isZero C v).map (eval C ρ)).sum = (l.map (eval C ρ)).sum
  | [] => rfl
  | v :: l => by
    rw [List.filter_cons]
    split
    · rw [List.map_cons, List.sum_cons, filter_zero l, List.map_cons, List.sum_cons]
    · rename_i h
      have : eval C ρ v = 0 := eval_isZero hC ρ v (by simpa using h)
      rw [filter_zero l, List.map_cons, List.sum_cons, this, zero_add]

include hC hF in
/-- Collecting like terms keeps the sum. -/
theorem like_spec (hS : C.Closed S) {f : Expr K → Option (Expr K)} (hw : KeepsWF T S f)
    (hf : Keeps C T S ρ f) {m : Bool} (l : List (Expr K)) : ∀ {t : List (Expr K)},
    (∀ v ∈ l, WF T S v ∧ Cls C ρ m v) → like C f l = some t →
    (∀ v ∈ t, Cls C ρ m v) ∧ (t.map (eval C ρ)).sum = (l.map (eval C ρ)).sum := by
  induction l using filter_ind (p := fun v u => str C (unscaled C v) != str C (unscaled C u)) with
  | h0 => intro t _ h; rw [like] at h; cases h; simp
  | h1 v r ih =>
    intro t hl h
    rw [like] at h
    have hr : ∀ u ∈ r, WF T S u ∧ Cls C ρ m u := fun u hu => hl u (by simp [hu])
    have hv := hl v (by simp)
    split at h
    · cases h
    · rename_i fact hfact
      let same := r.filter fun u => str C (unscaled C v) == str C (unscaled C u)
      have hsame : ∀ u ∈ same, (WF T S u ∧ Cls C ρ m u) ∧
          eval C ρ (unscaled C u) = eval C ρ (unscaled C v) := by
        intro u hu
        obtain ⟨h1, h2⟩ := List.mem_filter.1 hu
        have := hr u h1
        exact ⟨this, (eval_of_str_eq hC hF (hv.1.unscaled hF) (this.1.unscaled hF)
          (by simpa using h2) ρ).symm⟩
      have wadd : WF T S (mkAdd C (scale C v :: same.map (scale C))) := by
        refine .mkAdd (by simp) ?_
        intro w hw
        rcases List.mem_cons.1 hw with rfl | hw
        · exact hv.1.scale hF hS
        · obtain ⟨u, hu, rfl⟩ := List.mem_map.1 hw
          exact (hsame u hu).1.1.scale hF hS
      have cadd : Cls C ρ m (mkAdd C (scale C v :: same.map (scale C))) := by
        refine .mkAdd (by simp) ?_
        intro w hw
        rcases List.mem_cons.1 hw with rfl | hw
        · exact hv.2.scale hC
        · obtain ⟨u, hu, rfl⟩ := List.mem_map.1 hw
          exact (hsame u hu).1.2.scale hC
      have wf := hw _ _ wadd hfact
      obtain ⟨ef, cf⟩ := hf m _ _ wadd (.inl cadd) hfact
      have esame : eval C ρ fact * eval C ρ (unscaled C v)
          = eval C ρ v + (same.map (eval C ρ)).sum := by
        rw [ef, eval_mkAdd hC, List.map_cons, List.sum_cons, add_mul, eval_scale_unscaled hC]
        congr 1
        rw [List.map_map, ← List.sum_map_mul_right]
        congr 1
        refine List.map_congr_left fun u hu => ?_
        rw [Function.comp_apply, ← (hsame u hu).2, eval_scale_unscaled hC]
      split at h
      · rename_i x vs hx hvs
        cases h
        obtain ⟨i1, i2⟩ := ih (fun u hu => hr u (List.mem_filter.1 hu).1) hvs
        have hx' : Cls C ρ m x ∧ eval C ρ x = eval C ρ fact * eval C ρ (unscaled C v) := by
          split at hx
          · rename_i h1
            cases hx
            exact ⟨hv.2.unscaled hC, by rw [eval_isOne hC ρ fact h1, one_mul]⟩
          · have := hf m _ _ (.mul hF wf (hv.1.unscaled hF)) (.inl (cf.mul hC (hv.2.unscaled hC))) hx
            exact ⟨this.2, by rw [this.1, eval_mul hC]⟩
        constructor
        · intro w hw
          rcases List.mem_cons.1 hw with rfl | hw
          · exact hx'.1
          · exact i1 w hw
        · rw [List.map_cons, List.sum_cons, hx'.2, esame, i2, List.map_cons, List.sum_cons, add_assoc,
            ← List.sum_append, ← List.map_append]
          congr 1
          exact ((filter_split (fun u => str C (unscaled C v) == str C (unscaled C u)) r).map _).sum_eq
      · cases h

include hC hF in
theorem addSimp_spec (hS : C.Closed S) {f : Expr K → Option (Expr K)} (hw : KeepsWF T S f)
    (hf : Keeps C T S ρ f) {m : Bool} {vs : List (Expr K)} (hv : ∀ v ∈ vs, WF T S v ∧ Cls C ρ m v)
    (hne : vs ≠ []) {e' : Expr K} (h : addSimp C f vs = some e') :
    eval C ρ e' = (vs.map (eval C ρ)).sum ∧ Cls C ρ m e' := by
  rcases addSimp_cases h with ⟨v, rfl, h'⟩ | ⟨t0, t3, l, h0, h3, hl, h⟩
  · have := hf m v e' (hv v (by simp)).1 (.inl (hv v (by simp)).2) h'
    exact ⟨by rw [this.1]; simp, this.2⟩
  · obtain ⟨c0, e0⟩ := mapO_keeps hf (m := m) (fun v hv' => ⟨(hv v hv').1, .inl (hv v hv').2⟩) h0
    have w0 := mapO_WF hw h0 fun v hv' => (hv v hv').1
    have hc : ∀ p ∈ groupTy t0, WF T S (if p.2.isEmpty then p.1 else combineAdd C p.1 p.2) ∧
        Cls C ρ m (if p.2.isEmpty then p.1 else combineAdd C p.1 p.2) ∧
        eval C ρ (if p.2.isEmpty then p.1 else combineAdd C p.1 p.2)
          = ((p.1 :: p.2).map (eval C ρ)).sum := by
      intro p hp
      obtain ⟨h1, h2⟩ := groupTy_mem _ p hp
      split
      · rename_i hemp
        rw [List.isEmpty_iff] at hemp
        rw [hemp]
        exact ⟨w0 _ h1, c0 _ h1, by simp⟩
      · rw [List.map_cons, List.sum_cons]
        exact ⟨WF.combineAdd hF hS (w0 _ h1) fun v hv => w0 _ (h2 v hv).1,
          combineAdd_spec hC (c0 _ h1) fun v hv => ⟨c0 _ (h2 v hv).1, (h2 v hv).2⟩⟩
    obtain ⟨c3, e3⟩ := mapO_keeps hf (m := m) (by
      intro v hv
      obtain ⟨w, hw, hv⟩ := List.mem_flatMap.1 hv
      obtain ⟨p, hp, rfl⟩ := List.mem_map.1 hw
      exact ⟨(hc p hp).1.terms v hv, .inl ((hc p hp).2.1.terms v hv)⟩) h3
    have w3 := mapO_WF hw h3 (by
      intro v hv
      obtain ⟨w, hw, hv⟩ := List.mem_flatMap.1 hv
      obtain ⟨p, hp, rfl⟩ := List.mem_map.1 hw
      exact (hc p hp).1.terms v hv)
    have es3 : (t3.map (eval C ρ)).sum = (vs.map (eval C ρ)).sum := by
      rw [e3, sum_flatMap Expr.terms (eval C ρ) fun a _ => eval_terms C ρ a, List.map_map]
      have e1 : ((groupTy t0).map (eval C ρ ∘ fun p : Expr K × List (Expr K) =>
            if p.2.isEmpty then p.1 else combineAdd C p.1 p.2))
          = (groupTy t0).map fun p => ((p.1 :: p.2).map (eval C ρ)).sum :=
        List.map_congr_left fun p hp => (hc p hp).2.2
      rw [e1, ← sum_flatMap (C := C) (ρ := ρ) (fun p : Expr K × List (Expr K) => p.1 :: p.2) _
        (fun a _ => rfl), ((groupTy_perm _).map _).sum_eq, e0]
    obtain ⟨cl, el⟩ := like_spec hC hF hS hw hf (m := m) _ (fun v hv =>
      ⟨w3 v (List.mem_filter.1 hv).1, c3 v (List.mem_filter.1 hv).1⟩) hl
    rw [filter_zero hC, es3] at el
    rw [← el]
    rcases h with ⟨rfl, rfl⟩ | rfl | ⟨hn, rfl⟩
    · refine ⟨by simp [eval_conI hC], ?_⟩
      cases m with
      | false => exact .con _
      | true =>
        have hpos : 0 < (vs.map (eval C ρ)).sum := sum_pos' (by simpa using hne) (by
          intro x hx
          obtain ⟨v, hv', rfl⟩ := List.mem_map.1 hx
          exact P_pos (hv v hv').2)
        rw [← el] at hpos
        simp at hpos
    · exact ⟨by simp, cl _ (by simp)⟩
    · exact ⟨eval_mkAdd hC ρ l, .mkAdd (by rintro rfl; simp at hn) cl⟩

/-! ### All classes -/

include hC hF in
/-- `Simplify` keeps the value of every good expression, and keeps it good. -/
theorem simp_keeps (hS : C.Closed S) : ∀ n, Keeps C T S ρ (simp C n)
  | 0 => by intro m e e' _ _ h; simp [simp] at h
  | n + 1 => by
    intro m e e' hw hc h
    have ih := simp_keeps hS n
    have ihw := simp_WF (T := T) hF hS n
    simp only [simp] at h
    split at h
    · rename_i vs
      have hcl := hc.cls (by simp)
      rw [eval_add]
      refine addSimp_spec hC hF hS ihw ih (fun v hv => ⟨hw.terms_mem v hv, hcl.add_inv v hv⟩) ?_ h
      cases hw with | add h _ => exact h
    · rename_i vs
      have hcl := hc.cls (by simp)
      rw [eval_prod]
      refine prodSimp_spec hC hF hS ihw ih (fun v hv => ⟨hw.factors_mem v hv, hcl.prod_inv v hv⟩) ?_ h
      have := hw.two
      rintro rfl; simp at this
    · rename_i a
      have hcl := hc.cls (by simp)
      split at h
      · rename_i hz
        cases h
        exact ⟨by rw [eval_conI hC, eval_exp, eval_isZero hC ρ a hz]; simp, .one hC⟩
      · split at h
        · cases h
          have hp := hcl.exp_inv.log_inv
          refine ⟨by rw [eval_exp, eval_log, Real.exp_log (P_pos hp)], ?_⟩
          cases m with
          | true => exact hp
          | false => exact hp.g
        · rw [Option.map_eq_some_iff] at h
          obtain ⟨a', ha, rfl⟩ := h
          obtain ⟨h1, h2⟩ := ih false _ _ hw.exp_inv (.inl hcl.exp_inv) ha
          exact ⟨by rw [eval_exp, eval_exp, h1], .exp h2⟩
    · rename_i a
      have hcl := hc.cls (by simp)
      have hm : m = false := by cases hcl; rfl
      subst hm
      have hp := hcl.log_inv
      split at h
      · rename_i hz
        cases h
        exact ⟨by rw [eval_conI hC, eval_log, eval_isOne hC ρ a hz]; simp, .con _⟩
      · split at h
        · cases h
          exact ⟨by rw [eval_log, eval_exp, Real.log_exp], hp.exp_inv⟩
        · cases h
          obtain ⟨hb, he⟩ := hp.powP_inv
          exact ⟨by rw [eval_mul hC, eval_log, eval_log, eval_pow, Real.log_rpow (P_pos hb)],
            .mul hC he (.log hb)⟩
        · rw [Option.map_eq_some_iff] at h
          obtain ⟨a', ha, rfl⟩ := h
          obtain ⟨h1, h2⟩ := ih true _ _ hw.log_inv (.inl hp) ha
          exact ⟨by rw [eval_log, eval_log, h1], .log h2⟩
    · rename_i b e
      obtain ⟨wb, we⟩ := hw.pow_inv
      obtain ⟨hb, he, hk⟩ := hc.pow_inv
      split at h
      · rename_i b' e'' hb' he'
        have ⟨eb, cb⟩ := ih false _ _ wb (.inl hb) hb'
        have ⟨ee, ce⟩ := ih false _ _ we (.inl he) he'
        have wb' := ihw _ _ wb hb'
        have we' := ihw _ _ we he'
        have cP : P C ρ b → P C ρ b' := fun h => (ih true _ _ wb (.inl h) hb').2
        have cL : Lit e → ∃ c, e'' = .con c := fun h => simp_lit n h he'
        have hmb : m = true → P C ρ b := by
          rintro rfl
          rcases hk with hk | ⟨hk, _⟩
          · exact hk
          · cases hk
        split at h
        · rename_i hz
          cases h
          have := eval_isZero hC ρ e'' hz
          exact ⟨by rw [eval_pow, ← ee, this, eval_conI hC]; simp, .one hC⟩
        · split at h
          · rename_i h1
            cases h
            have := eval_isOne hC ρ e'' h1
            refine ⟨by rw [eval_pow, ← ee, this]; simp, ?_⟩
            cases m with
            | true => exact hmb rfl
            | false => exact hb
          · split at h
            · rename_i h1
              cases h
              have := eval_isOne hC ρ b' h1
              exact ⟨by rw [eval_pow, ← eb, this, eval_conI hC]; simp, .one hC⟩
            · split at h
              · rename_i h1
                cases h
                have h0 := eval_isZero hC ρ b' h1
                rw [eb] at h0
                rcases hk with hk | ⟨rfl, hk | ⟨hl, k, hk, hk1⟩⟩
                · exact absurd h0 (P_pos hk).ne'
                · exact absurd h0 hk.2
                · refine ⟨?_, .con _⟩
                  rw [eval_conI hC, eval_pow, h0, hk, Real.zero_rpow, Int.cast_zero]
                  exact_mod_cast (by omega : k ≠ 0)
              · rename_i hz1 hz2 hz3 hz4
                split at h
                · rename_i x y
                  cases h
                  have hx0 : C.val x ≠ 0 := by
                    intro h0
                    apply hz4
                    simp only [isZero]; rw [hC.eqInt, h0]; norm_num
                  rw [eval_con] at eb ee
                  have hval : C.val (C.pow x y) = C.val x ^ C.val y := by
                    refine hC.pow x y ?_
                    rcases hk with hk | ⟨_, hk | ⟨hl, k, hk, hk1⟩⟩
                    · left; rw [eb]; exact P_pos hk
                    · right; exact ⟨hx0, by rw [ee]; exact hk.1⟩
                    · right; exact ⟨hx0, k, by rw [ee, hk]; simp⟩
                  refine ⟨by rw [eval_con, hval, eb, ee, eval_pow], ?_⟩
                  cases m with
                  | false => exact .con _
                  | true =>
                    refine .conP ?_
                    rw [hval, eb]
                    exact Real.rpow_pos_of_pos (P_pos (hmb rfl)) _
                · rename_i y z
                  rw [Option.map_eq_some_iff] at h
                  obtain ⟨w, hw', rfl⟩ := h
                  obtain ⟨wy, wz⟩ := wb'.pow_inv
                  obtain ⟨hy, hz, hyz⟩ := cb.pow_inv
                  have hzG : G C ρ (mul C z e'') := hz.mul hC ce
                  obtain ⟨ew, cw⟩ := ih false _ _ (.mul hF wz we') (.inl hzG) hw'
                  rw [eval_mul hC, ee] at ew
                  rw [eval_pow] at eb
                  rw [eval_pow, eval_pow, ew, ← eb]
                  by_cases hyP : P C ρ y
                  · exact ⟨by rw [Real.rpow_mul (P_pos hyP).le], .powP hyP cw⟩
                  · have hnb : ¬ P C ρ b := fun hbP => hyP (cP hbP).powP_inv.1
                    rcases hk with hk | ⟨hm, hk⟩
                    · exact absurd hk hnb
                    · subst hm
                      have hei : ∃ j : ℤ, eval C ρ e = j := by
                        rcases hk with hk | ⟨_, k, hk, _⟩
                        · exact hk.1
                        · exact ⟨k, by rw [hk]; simp⟩
                      have hzi : ∃ j : ℤ, eval C ρ z = j := by
                        rcases hyz with hyz | hyz | ⟨c, rfl, k, hk, _⟩
                        · exact absurd hyz hyP
                        · exact hyz.1
                        · exact ⟨k, by rw [eval_con, hk]; simp⟩
                      obtain ⟨j, hj⟩ := hei
                      obtain ⟨i, hi⟩ := hzi
                      have hmulz : ∀ x : ℝ, x ^ ((i : ℝ) * (j : ℝ)) = (x ^ (i : ℝ)) ^ (j : ℝ) := by
                        intro x
                        rw [← Int.cast_mul, Real.rpow_intCast, Real.rpow_intCast, Real.rpow_intCast,
                          zpow_mul]
                      rw [hj, hi, hmulz]
                      refine ⟨rfl, ?_⟩
                      by_cases hy0 : eval C ρ y = 0
                      · -- both exponents are literals
                        have hlz : ∃ c, z = .con c ∧ ∃ k : ℕ, C.val c = k ∧ 1 ≤ k := by
                          rcases hyz with hyz | hyz | hyz
                          · exact absurd hyz hyP
                          · exact absurd hy0 hyz.2
                          · exact hyz
                        obtain ⟨c, rfl, k, hck, hk1⟩ := hlz
                        have hb0 : eval C ρ b = 0 := by
                          rw [← eb, hy0, eval_con, hck, Real.zero_rpow]
                          exact_mod_cast (by omega : k ≠ 0)
                        rcases hk with hk | ⟨hl, k', hk', hk1'⟩
                        · exact absurd hb0 hk.2
                        · obtain ⟨d, rfl⟩ := cL hl
                          obtain ⟨c', rfl⟩ := simp_mul_con hw'
                          refine .powL (k := k * k') hy ?_ (Nat.mul_pos hk1 hk1')
                          rw [eval_con, eval_con, hck, hk'] at ew
                          rw [ew]; push_cast; ring
                      · exact .powI (z := i * j) hy cw (by rw [ew, hi, hj]; push_cast; ring) hy0
                · cases h
                  rw [eval_pow, eval_pow, eb, ee]
                  refine ⟨rfl, ?_⟩
                  rcases hk with hk | ⟨rfl, ⟨⟨z, hz⟩, h0⟩ | ⟨hl, k, hk, hk1⟩⟩
                  · exact .powP (cP hk) ce
                  · exact .powI cb ce (by rw [ee, hz]) (by rw [eb]; exact h0)
                  · obtain ⟨c, rfl⟩ := cL hl
                    exact .powL (k := k) cb (by rw [← eval_con C ρ, ee, hk]) hk1
      · cases h
    · rename_i f as
      have hcl := hc.cls (by simp)
      rw [Option.map_eq_some_iff] at h
      obtain ⟨as', ha, rfl⟩ := h
      have was : ∀ v ∈ as, WF T S v := by cases hw with | user _ _ _ _ _ h => exact h
      obtain ⟨h1, h2⟩ := mapO_keeps ih (m := false) (fun v hv =>
        ⟨was v hv, .inl (hcl.user_inv v hv)⟩) ha
      have he : eval C ρ (.user f as') = eval C ρ (.user f as) := by
        rw [eval_user, eval_user, h2]
      refine ⟨he, .user (fun hm => ?_) h1⟩
      subst hm
      rw [he]
      exact P_pos hcl
    · cases h
      refine ⟨rfl, ?_⟩
      rename_i h1 h2 h3 h4 h5 h6
      exact hc.cls fun b l h => h5 b l h

end

end Verif.Sym
