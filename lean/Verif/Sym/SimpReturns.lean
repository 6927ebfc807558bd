import Verif.Sym.SimpTotal
import Verif.Sym.SimpThms

/-!
# Simplification returns (C02): numbers, and the theorem
-/

namespace Verif.Sym

variable {K : Type} {C : Cfg K}

/-! ### Expressions made of numbers -/

/-- A number, or the empty product. -/
def Num (e : Expr K) : Prop := (∃ c, e = .con c) ∨ e = .prod []

theorem srt_nil (C : Cfg K) : C.srt [] = [] := List.perm_nil.1 (C.srt_perm [])

theorem lim_simp {e e' : Expr K} (h : lim C e = some e') : ∃ n, simp C n e = some e' :=
  (lim_iff.1 h).exists

theorem mapO_con {l : List (Expr K)} (h : AllCon l) : mapO (lim C) l = some l := by
  induction l with
  | nil => rfl
  | cons v l ih =>
    obtain ⟨c, rfl⟩ := h v (by simp)
    simp only [mapO, lim_con, ih fun w hw => h w (by simp [hw])]

theorem groupTy_empties {l : List (Expr K)} (h : ∀ v ∈ l, v = .prod []) (hne : l ≠ []) :
    ∃ r, (∀ v ∈ r, v = Expr.prod []) ∧ groupTy l = [(.prod [], r)] := by
  match l, hne with
  | v :: vs, _ =>
    have hv := h v (by simp)
    subst hv
    have hvs : ∀ w ∈ vs, w = Expr.prod [] := fun w hw => h w (by simp [hw])
    refine ⟨vs, hvs, ?_⟩
    rw [groupTy]
    have e1 : (vs.filter fun w => w.ty == (Expr.prod [] : Expr K).ty) = vs := by
      rw [List.filter_eq_self]
      intro w hw; rw [hvs w hw]; rfl
    have e2 : (vs.filter fun w => w.ty != (Expr.prod [] : Expr K).ty) = [] := by
      rw [List.filter_eq_nil_iff]
      intro w hw; rw [hvs w hw]; simp [Expr.ty]
    rw [e1, e2, groupTy]

/-- Groups of numbers and empty products: at most one of each. -/
theorem groupTy_num {l : List (Expr K)} (h : ∀ v ∈ l, Num v) : ∃ a b, groupTy l = a ++ b ∧
    a.length ≤ 1 ∧ b.length ≤ 1 ∧ (∀ p ∈ a ++ b, (∃ c, p.1 = .con c ∧ AllCon p.2) ∨
      (p.1 = .prod [] ∧ ∀ v ∈ p.2, v = Expr.prod [])) ∧
    ((∀ p ∈ a, ∃ c, p.1 = .con c) ∧ (∀ p ∈ b, p.1 = .prod []) ∨
      (∀ p ∈ b, ∃ c, p.1 = .con c) ∧ (∀ p ∈ a, p.1 = .prod [])) := by
  match l with
  | [] => exact ⟨[], [], by rw [groupTy]; simp, by simp, by simp, by simp, .inl (by simp)⟩
  | v :: vs =>
    have hvs : ∀ w ∈ vs, Num w := fun w hw => h w (by simp [hw])
    rcases h v (by simp) with ⟨c, rfl⟩ | rfl
    · have hf : ∀ w ∈ vs.filter (fun w => w.ty != (Expr.con c).ty), w = Expr.prod [] := by
        intro w hw
        obtain ⟨h1, h2⟩ := List.mem_filter.1 hw
        rcases hvs w h1 with ⟨d, rfl⟩ | rfl
        · simp [Expr.ty] at h2
        · rfl
      have hg : AllCon (vs.filter fun w => w.ty == (Expr.con c).ty) := by
        intro w hw
        obtain ⟨h1, h2⟩ := List.mem_filter.1 hw
        rcases hvs w h1 with ⟨d, rfl⟩ | rfl
        · exact ⟨d, rfl⟩
        · simp [Expr.ty] at h2
      rw [groupTy]
      by_cases hne : vs.filter (fun w => w.ty != (Expr.con c).ty) = []
      · rw [hne, groupTy]
        exact ⟨[(.con c, vs.filter fun w => w.ty == (Expr.con c).ty)], [], rfl, by simp, by simp,
          (by
            simp only [List.append_nil, List.mem_singleton, forall_eq]
            exact .inl ⟨c, rfl, hg⟩), .inl (by simp)⟩
      · obtain ⟨r, h1, h2⟩ := groupTy_empties hf hne
        rw [h2]
        exact ⟨[(.con c, vs.filter fun w => w.ty == (Expr.con c).ty)], [(.prod [], r)], rfl, by simp,
          by simp, (by
            simp only [List.singleton_append, List.mem_cons, List.not_mem_nil, or_false, forall_eq_or_imp,
              forall_eq]
            exact ⟨.inl ⟨c, rfl, hg⟩, .inr ⟨trivial, h1⟩⟩), .inl (by simp)⟩
    · have hf : AllCon (vs.filter fun w => w.ty != (Expr.prod [] : Expr K).ty) := by
        intro w hw
        obtain ⟨h1, h2⟩ := List.mem_filter.1 hw
        rcases hvs w h1 with ⟨d, rfl⟩ | rfl
        · exact ⟨d, rfl⟩
        · simp [Expr.ty] at h2
      have hg : ∀ w ∈ vs.filter (fun w => w.ty == (Expr.prod [] : Expr K).ty), w = Expr.prod [] := by
        intro w hw
        obtain ⟨h1, h2⟩ := List.mem_filter.1 hw
        rcases hvs w h1 with ⟨d, rfl⟩ | rfl
        · simp [Expr.ty] at h2
        · rfl
      rw [groupTy]
      by_cases hne : vs.filter (fun w => w.ty != (Expr.prod [] : Expr K).ty) = []
      · rw [hne, groupTy]
        exact ⟨[(.prod [], vs.filter fun w => w.ty == (Expr.prod [] : Expr K).ty)], [], rfl, by simp,
          by simp, (by
            simp only [List.append_nil, List.mem_singleton, forall_eq]
            exact .inr ⟨trivial, hg⟩), .inr (by simp)⟩
      · obtain ⟨c, r, h1, h2⟩ := groupTy_allCon hf hne
        rw [h2]
        exact ⟨[(.prod [], vs.filter fun w => w.ty == (Expr.prod [] : Expr K).ty)], [(.con c, r)], rfl,
          by simp, by simp, (by
            simp only [List.singleton_append, List.mem_cons, List.not_mem_nil, or_false, forall_eq_or_imp,
              forall_eq]
            exact ⟨.inr ⟨trivial, hg⟩, .inl ⟨c, rfl, h1⟩⟩), .inr (by simp)⟩

theorem flatMap_len {α β : Type} {f : α → List β} {l : List α} (h : l.length ≤ 1)
    (hf : ∀ a ∈ l, (f a).length ≤ 1) : (l.flatMap f).length ≤ 1 := by
  match l, h with
  | [], _ => simp
  | [a], _ => simpa using hf a (by simp)

theorem flatMap_nil' {α β : Type} {f : α → List β} {l : List α} (hf : ∀ a ∈ l, f a = []) :
    l.flatMap f = [] := by simpa using hf

/-- Numbers and empty products multiply to at most one number. -/
theorem grouped_num {l : List (Expr K)} (h : ∀ v ∈ l, Num v) :
    AllCon (grouped C l) ∧ (grouped C l).length ≤ 1 := by
  have e : l.map (toPow C) = l := by
    conv_rhs => rw [← List.map_id l]
    refine List.map_congr_left fun v hv => ?_
    rcases h v hv with ⟨c, rfl⟩ | rfl <;> rfl
  obtain ⟨a, b, h1, ha, hb, h2, h3⟩ := groupTy_num h
  have hcon : ∀ p : Expr K × List (Expr K), (∃ c, p.1 = .con c) →
      ∃ d, (if p.2.isEmpty then p.1 else combineProd C p.1 p.2).factors = [.con d] := by
    rintro ⟨p, r⟩ ⟨c, hp⟩
    dsimp only at hp
    subst hp
    split
    · exact ⟨c, rfl⟩
    · exact ⟨_, rfl⟩
  have hprod : ∀ p ∈ a ++ b, p.1 = .prod [] →
      (if p.2.isEmpty then p.1 else combineProd C p.1 p.2).factors = [] := by
    rintro ⟨p, r⟩ hpm hp
    dsimp only at hp
    subst hp
    split
    · rfl
    · rcases h2 _ hpm with ⟨c, hc, -⟩ | ⟨-, hr⟩
      · cases hc
      · have : r.flatMap Expr.factors = [] := flatMap_nil' fun v hv => by rw [hr v hv]; rfl
        simp only [combineProd, List.nil_append, this, mkProd, srt_nil, Expr.factors]
  unfold grouped
  rw [e, h1, List.map_append, List.flatMap_append, List.flatMap_map, List.flatMap_map]
  rcases h3 with ⟨h4, h5⟩ | ⟨h4, h5⟩
  · rw [flatMap_nil' (l := b) fun p hp => hprod p (by simp [hp]) (h5 p hp), List.append_nil]
    constructor
    · intro v hv
      obtain ⟨p, hp, hv⟩ := List.mem_flatMap.1 hv
      obtain ⟨d, hd⟩ := hcon p (h4 p hp)
      rw [hd] at hv
      exact ⟨d, List.mem_singleton.1 hv⟩
    · refine flatMap_len ha fun p hp => ?_
      obtain ⟨d, hd⟩ := hcon p (h4 p hp)
      rw [hd]; simp
  · rw [flatMap_nil' (l := a) fun p hp => hprod p (by simp [hp]) (h5 p hp), List.nil_append]
    constructor
    · intro v hv
      obtain ⟨p, hp, hv⟩ := List.mem_flatMap.1 hv
      obtain ⟨d, hd⟩ := hcon p (h4 p hp)
      rw [hd] at hv
      exact ⟨d, List.mem_singleton.1 hv⟩
    · refine flatMap_len hb fun p hp => ?_
      obtain ⟨d, hd⟩ := hcon p (h4 p hp)
      rw [hd]; simp

theorem prodVec_num {l : List (Expr K)} (h : ∀ v ∈ l, Num v) :
    ∃ t, prodVec C (lim C) l = some t ∧ (AllCon t ∧ t.length ≤ 1) := by
  obtain ⟨h1, h2⟩ := grouped_num (C := C) h
  have h3 : AllCon ((grouped C l).filter fun v => !isOne C v) :=
    fun v hv => h1 v (List.mem_filter.1 hv).1
  rw [prodVec_eq, mapO_con h3, Option.map_some]
  refine ⟨_, rfl, ?_⟩
  split
  · exact ⟨fun v hv => ⟨_, List.mem_singleton.1 hv⟩, by simp⟩
  · exact ⟨h3, le_trans (List.length_filter_le _ _) h2⟩

theorem Num.single {t : List (Expr K)} (h : AllCon t) (hl : t.length ≤ 1) : Num (single C t) := by
  match t, hl with
  | [], _ => exact .inr (by rw [Verif.Sym.single, mkProd, srt_nil]; simp)
  | [v], _ => exact .inl (h v (by simp))

/-- Products of numbers return a number (or the empty product). -/
theorem prod_num {vs : List (Expr K)} (h : ∀ v ∈ vs, ∃ v', lim C v = some v' ∧ Num v') :
    ∃ e', lim C (.prod vs) = some e' ∧ Num e' := by
  obtain ⟨e', h1, h2⟩ := prodSimp_total (C := C) (f := lim C) (P0 := fun l => ∀ v ∈ l, Num v)
    (P := fun l => AllCon l ∧ l.length ≤ 1) (mapO_total h) (fun l hl => prodVec_num hl)
    (fun l hl => prodVec_num fun v hv => .inl (hl.1 v hv))
    (fun l hl hlt => absurd hlt (by have := hl.2; omega))
    (fun l hl => by
      have hc : ∀ v ∈ l, thirdItem C v = [v] := by
        intro v hv
        obtain ⟨c, rfl⟩ := hl.1 v hv
        simp [thirdItem, clone]
      refine ⟨fun v hv => ?_, flatMap_len hl.2 fun v hv => by rw [hc v hv]; simp⟩
      obtain ⟨w, hw, hv⟩ := List.mem_flatMap.1 hv
      rw [hc w hw, List.mem_singleton] at hv
      subst hv
      exact hl.1 _ hw)
  refine ⟨e', lim_prod h1, ?_⟩
  rcases h2 with rfl | ⟨v, -, hp⟩ | ⟨t, hp, rfl⟩
  · exact .inl ⟨_, rfl⟩
  · exact hp _ (by simp)
  · exact .single hp.1 hp.2

theorem lim_mul_con (a b : K) : ∃ c, lim C (mul C (.con a) (.con b)) = some (.con c) := by
  rcases mul_con C a b with ⟨c, hc⟩ | hm
  · rw [hc]; exact ⟨c, lim_con c⟩
  · obtain ⟨e', h1, -⟩ := prod_num (C := C) (vs := [.con a, .con b]) (by
      intro v hv
      simp only [List.mem_cons, List.not_mem_nil, or_false] at hv
      rcases hv with rfl | rfl <;> exact ⟨_, lim_con _, .inl ⟨_, rfl⟩⟩)
    rw [← hm] at h1
    obtain ⟨n, hn⟩ := lim_simp h1
    obtain ⟨c, rfl⟩ := simp_mul_con hn
    exact ⟨c, h1⟩

/-- Sums of numbers return a number. -/
theorem sum_con {l : List (Expr K)} (h : AllCon l) : ∃ c, lim C (.add l) = some (.con c) := by
  have key : ∃ e', addSimp C (lim C) l = some e' := by
    unfold addSimp
    split
    · rename_i v
      obtain ⟨c, rfl⟩ := h v (by simp)
      exact ⟨_, lim_con c⟩
    · simp only [mapO_con h]
      by_cases hne : l = []
      · subst hne
        refine ⟨conI C 0, ?_⟩
        rw [groupTy]
        simp only [List.map_nil, List.flatMap_nil, mapO, List.filter_nil, like, Option.map_some]
      · obtain ⟨c, r, hr, hg⟩ := groupTy_allCon h hne
        have h3 : ∃ d, ((groupTy l).map fun p => if p.2.isEmpty then p.1
            else combineAdd C p.1 p.2).flatMap Expr.terms = [.con d] := by
          rw [hg]
          simp only [List.map_cons, List.map_nil, List.flatMap_cons, List.flatMap_nil, List.append_nil]
          split
          · exact ⟨_, rfl⟩
          · exact ⟨_, rfl⟩
        obtain ⟨d, hd⟩ := h3
        rw [hd, mapO_con fun v hv => ⟨d, List.mem_singleton.1 hv⟩]
        have hlike : ∃ t, like C (lim C) [.con d] = some t := by
          rw [like, List.filter_nil, List.filter_nil, like, List.map_nil, mkAdd, srt_singleton, scale]
          have : lim C (.add [.con d]) = some (.con d) := lim_add (by simp only [addSimp, lim_con])
          simp only [this]
          by_cases ho : isOne C (.con d) = true
          · simp only [if_pos ho]; exact ⟨_, rfl⟩
          · obtain ⟨c', hc'⟩ := lim_mul_con (C := C) d (C.ofInt 1)
            simp only [if_neg ho, unscaled, conI, hc']; exact ⟨_, rfl⟩
        by_cases hz : isZero C (.con d) = true
        · have : ([Expr.con d].filter fun v => !isZero C v) = [] := by simp [hz]
          simp only [this, like, Option.map_some]
          exact ⟨_, rfl⟩
        · have : ([Expr.con d].filter fun v => !isZero C v) = [.con d] := by simp [hz]
          obtain ⟨t, ht⟩ := hlike
          simp only [this, ht, Option.map_some]
          exact ⟨_, rfl⟩
  obtain ⟨e', he⟩ := key
  have h1 := lim_add he
  obtain ⟨n, hn⟩ := lim_simp h1
  obtain ⟨c, rfl⟩ := simp_lit n (.add fun v hv => by obtain ⟨c, rfl⟩ := h v hv; exact .con c) hn
  exact ⟨c, h1⟩

theorem mkAdd_con (l : List (Expr K)) (h : AllCon l) (_ : l ≠ []) :
    ∃ c, lim C (mkAdd C l) = some (.con c) := sum_con fun v hv => h v (mem_srt.1 hv)

theorem unscaled_num {v : Expr K} (h : Num v) : unscaled C v = conI C 1 := by
  rcases h with ⟨c, rfl⟩ | rfl
  · rfl
  · simp only [unscaled, nonconsts]

theorem like_one {f : Expr K → Option (Expr K)} {l t : List (Expr K)}
    (hl : ∀ v ∈ l, unscaled C v = conI C 1) (h : like C f l = some t) : t.length ≤ 1 := by
  match l with
  | [] => rw [like] at h; cases h; simp
  | v :: r =>
    have hf : (r.filter fun u => str C (unscaled C v) != str C (unscaled C u)) = [] := by
      rw [List.filter_eq_nil_iff]
      intro u hu
      rw [hl v (by simp), hl u (by simp [hu])]
      simp
    rw [like, hf, like] at h
    split at h
    · cases h
    · split at h
      · rename_i hvs
        cases hvs
        cases h
        simp
      · cases h

/-- Sums of numbers and empty products return a number (or the empty product). -/
theorem add_num {vs : List (Expr K)} (h : ∀ v ∈ vs, ∃ v', lim C v = some v' ∧ Num v') :
    ∃ e', lim C (.add vs) = some e' ∧ Num e' := by
  have hnum : ∀ v : Expr K, Num v → ∃ v', lim C v = some v' ∧ Num v' := by
    rintro _ (⟨c, rfl⟩ | rfl)
    · exact ⟨_, lim_con c, .inl ⟨c, rfl⟩⟩
    · exact prod_num (by simp)
  obtain ⟨t0, e0, p0⟩ := mapO_total h
  obtain ⟨t3, e3, p3⟩ := mapO_total (f := lim C) (P := Num)
    (l := ((groupTy t0).map fun p => if p.2.isEmpty then p.1 else combineAdd C p.1 p.2).flatMap Expr.terms)
    (by
      intro a ha
      refine hnum a ?_
      obtain ⟨u, hu, ha⟩ := List.mem_flatMap.1 ha
      obtain ⟨⟨p, r⟩, hp, rfl⟩ := List.mem_map.1 hu
      obtain ⟨h1, h2⟩ := groupTy_mem _ _ hp
      dsimp only at ha h1 h2
      have hr : ∀ w ∈ r, Num w := fun w hw => p0 _ (h2 w hw).1
      rcases p0 _ h1 with ⟨c, rfl⟩ | rfl
      · split at ha
        · exact .inl ⟨c, List.mem_singleton.1 ha⟩
        · exact .inl ⟨_, List.mem_singleton.1 ha⟩
      · split at ha
        · exact .inr (List.mem_singleton.1 ha)
        · simp only [combineAdd, mkAdd, Expr.terms, mem_srt, mkProd, srt_nil, List.mem_append,
            List.mem_singleton] at ha
          rcases ha with ha | rfl
          · exact hr a ha
          · exact .inr rfl)
  obtain ⟨l, e4, p4⟩ := like_total (C := C) (P := Num) mkAdd_con
    (fun v hv => by rw [unscaled_num hv]; exact .inl ⟨_, rfl⟩)
    (fun v c hv => by
      rw [unscaled_num hv]
      obtain ⟨d, hd⟩ := lim_mul_con (C := C) c (C.ofInt 1)
      exact ⟨_, hd, .inl ⟨d, rfl⟩⟩)
    (t3.filter fun v => !isZero C v) (fun v hv => p3 v (List.mem_filter.1 hv).1)
  have hlen := like_one (fun v hv => unscaled_num (p3 v (List.mem_filter.1 hv).1)) e4
  have key : ∃ e', addSimp C (lim C) vs = some e' ∧ Num e' := by
    unfold addSimp
    split
    · rename_i v
      exact h v (by simp)
    · simp only [e0, e3]
      rw [e4, Option.map_some]
      refine ⟨_, rfl, ?_⟩
      match l, hlen with
      | [], _ => exact .inl ⟨_, rfl⟩
      | [v], _ => exact p4 v (by simp)
  obtain ⟨e', h1, h2⟩ := key
  exact ⟨e', lim_add h1, h2⟩

/-- Expressions made of numbers only. -/
theorem num_total (e : Expr K) (h : ht e = 0) : ∃ e', lim C e = some e' ∧ Num e' := by
  induction e using Expr.ind with
  | hcon c => exact ⟨_, lim_con c, .inl ⟨c, rfl⟩⟩
  | hadd vs ih =>
    exact add_num fun v hv => ih v hv (by have := le_htL hv; rw [ht] at h; omega)
  | hprod vs ih =>
    exact prod_num fun v hv => ih v hv (by have := le_htL hv; rw [ht] at h; omega)
  | _ => simp [ht] at h

/-! ### All expressions -/

theorem Num.ht {e : Expr K} (h : Num e) : Verif.Sym.ht e = 0 := by
  rcases h with ⟨c, rfl⟩ | rfl
  · rfl
  · simp [Verif.Sym.ht, htL]

/-- A factor that does not count. -/
theorem mul_light {h k : Nat} {x y : Expr K} (hx : Verif.Sym.ht x < h) (hy : BW h k y) :
    BM h (k + 1) (mul C x y) := by
  unfold mul
  split
  · exact .light (by rw [ht_conI]; omega)
  · split
    · exact hy.bm.mono (by omega)
    · split
      · exact .light hx
      · have hxs : ∀ w ∈ x.factors, BW h k w := (BW.light hx (m := k)).factors
        have hys := hy.factors
        split
        · refine BM_prod.2 fun w hw => ?_
          rcases List.mem_append.1 (mem_srt.1 hw) with hw | hw
          · exact hxs w hw
          · exact hys w hw
        · refine BM_prod.2 fun w hw => ?_
          rcases List.mem_append.1 (mem_srt.1 hw) with hw | hw
          · exact hxs w hw
          · rw [List.mem_singleton.1 hw]; exact hy
        · refine BM_prod.2 fun w hw => ?_
          rcases List.mem_cons.1 (mem_srt.1 hw) with rfl | hw
          · exact .light hx
          · exact hys w hw
        · refine BM_prod.2 fun w hw => ?_
          simp only [List.mem_cons, List.not_mem_nil, or_false] at hw
          rcases hw with rfl | rfl
          · exact .light hx
          · exact hy

theorem lim_total (e : Expr K) : ∃ e', lim C e = some e' ∧ NotHigher e e' := by
  suffices ∀ (p : ℕ ×ₗ ℕ) (e : Expr K), toLex (ht e, mm e) = p →
      ∃ e', lim C e = some e' ∧ NotHigher e e' from this _ e rfl
  intro p
  induction p using WellFoundedLT.induction with
  | ind p IH0 =>
  rintro e rfl
  have IH : ∀ x : Expr K, (ht x < ht e ∨ (ht x = ht e ∧ mm x < mm e)) →
      ∃ x', lim C x = some x' ∧ NotHigher x x' := by
    intro x hx
    exact IH0 (toLex (ht x, mm x)) (Prod.Lex.toLex_lt_toLex.2 hx) x rfl
  clear IH0
  by_cases h0 : ht e = 0
  · obtain ⟨e', h1, h2⟩ := num_total (C := C) e h0
    exact ⟨e', h1, by rw [h2.ht]; omega, fun _ h => by omega⟩
  have low : ∀ x : Expr K, ht x < ht e → ∃ x', lim C x = some x' ∧ ht x' ≤ ht x := fun x hx => by
    obtain ⟨x', h1, h2⟩ := IH x (.inl hx)
    exact ⟨x', h1, h2.1⟩
  cases e with
  | con c => exact ⟨_, lim_con c, .refl _⟩
  | var x => exact ⟨_, lim_var x, .refl _⟩
  | model x => exact ⟨_, lim_model x, .refl _⟩
  | blog op a b => exact ⟨_, lim_blog op a b, .refl _⟩
  | ulog a => exact ⟨_, lim_ulog a, .refl _⟩
  | add vs =>
    obtain ⟨e', h1, h2⟩ := add_total (by omega) mkAdd_con IH
    exact ⟨e', lim_add h1, h2⟩
  | prod vs =>
    obtain ⟨e', h1, h2⟩ := prod_total (C := C) (by omega) IH
    exact ⟨e', lim_prod h1, h2⟩
  | user f as =>
    obtain ⟨as', h1, h2⟩ := mapO_total (f := lim C) (P := fun x => ht x ≤ htL as) (l := as) (by
      intro a ha
      have := le_htL ha
      obtain ⟨x', h1, h2⟩ := low a (by rw [ht]; omega)
      exact ⟨x', h1, by omega⟩)
    refine ⟨_, lim_user h1, ?_, fun _ _ => ?_⟩
    · rw [ht, ht]
      exact Nat.succ_le_succ (htL_le.2 h2)
    · simp [mm, mw, mp, Expr.isPow, Expr.isProd]
  | exp a =>
    obtain ⟨a', h1, h2⟩ := low a (by rw [ht]; omega)
    rcases lim_exp h1 with h | ⟨v, rfl, h⟩ | h
    · exact ⟨_, h, .light (by rw [ht_conI]; omega)⟩
    · exact ⟨_, h, .light (by simp only [ht]; omega)⟩
    · refine ⟨_, h, by simp only [ht]; omega, fun _ _ => ?_⟩
      simp [mm, mw, mp, Expr.isPow, Expr.isProd]
  | log a =>
    obtain ⟨a', h1, h2⟩ := IH a (.inl (by rw [ht]; omega))
    rcases lim_log h1 with h | ⟨v, rfl, h⟩ | ⟨b, e, rfl, h⟩ | h
    · exact ⟨_, h, .light (by rw [ht_conI]; omega)⟩
    · exact ⟨_, h, .light (by simp only [ht]; omega)⟩
    · refine ⟨_, h, ?_⟩
      have hle := ht_mul (C := C) e (.log b)
      have he0 : ht (.log (.pow b e)) = max (ht b) (ht e + 1) + 1 := by simp only [ht]
      have hl0 : ht (.log b) = ht b + 1 := by simp only [ht]
      refine ⟨by omega, fun he _ => ?_⟩
      have hb : ht b ≥ ht e + 1 := by omega
      have m0 : mm (.log (.pow b e)) = 2 * (mm b + 1) := by
        have hpe : ht (.pow b e) = max (ht b) (ht e + 1) := by simp only [ht]
        rw [mm, mm, if_neg (by omega), if_neg (by omega)]
      have m1 : mm (.log b) = 2 * mm b := by
        simp only [mm]
        rw [if_neg (by omega)]
      have hB : BM (ht b + 1) (2 * mm b + 1 + 1) (mul C e (.log b)) := by
        refine mul_light (by omega) ⟨by omega, fun _ => ?_⟩
        rw [mw_other rfl, m1]
      have := hB.2 (by omega)
      have h3 := mw_le_mm (mul C e (.log b))
      have h4 := mp_le_mw (mul C e (.log b))
      have h5 := mw_other (v := .log (.pow b e)) rfl
      have h6 := mp_other (v := .log (.pow b e)) rfl
      omega
    · refine ⟨_, h, by have := h2.1; simp only [ht]; omega, fun he _ => ?_⟩
      simp only [ht] at he
      have key : mm (.log a') ≤ mm (.log a) := by
        simp only [mm]
        split
        · omega
        · rw [if_neg (by omega)]
          have := (h2.2 (by omega) (by omega)).1
          omega
      refine ⟨key, ?_, ?_⟩
      · simpa [mw, Expr.isPow] using key
      · simpa [mp, mw, Expr.isProd, Expr.isPow] using key
  | pow b e =>
    have hp : ht (.pow b e) = max (ht b) (ht e + 1) := by simp only [ht]
    have hmw := mw_pow b e
    have hmp := mp_other (v := .pow b e) rfl
    have hmm : ht b = ht (.pow b e) → mm (.pow b e) = mm b + 1 := by
      intro h
      simp only [mm]
      rw [if_neg (by omega)]
    have hm1 : 1 ≤ mm (.pow b e) := by
      simp only [mm]
      split <;> omega
    obtain ⟨b', hb1, hb2⟩ := IH b (by
      rcases (by omega : ht b < ht (.pow b e) ∨ ht b = ht (.pow b e)) with h | h
      · exact .inl h
      · exact .inr ⟨h, by rw [hmm h]; omega⟩)
    obtain ⟨e', he1, he2⟩ := low e (by omega)
    have hb3 := hb2.1
    -- a power with a base that is not higher
    have out : ∀ y x : Expr K, ht y ≤ ht b → ht x < ht (.pow b e) → (ht y = ht (.pow b e) → mm y ≤ mm b) →
        NotHigher (.pow b e) (.pow y x) := by
      intro y x h1 h2 h3
      have h4 : ht (.pow y x) = max (ht y) (ht x + 1) := by simp only [ht]
      refine ⟨by omega, fun h _ => ?_⟩
      have h5 : mm (.pow y x) ≤ mm (.pow b e) := by
        rw [mm]
        split
        · exact hm1
        · have := h3 (by omega)
          have := hmm (by omega)
          omega
      have := mw_pow y x
      have := mp_other (v := .pow y x) rfl
      omega
    rcases lim_pow hb1 he1 (fun y z hyz => by
        subst hyz
        have h1 : ht (.pow y z) = max (ht y) (ht z + 1) := by simp only [ht]
        have h2 := ht_mul (C := C) z e'
        obtain ⟨x', hx, -⟩ := low (mul C z e') (by omega)
        exact ⟨x', hx⟩) with ⟨c, h⟩ | h | ⟨y, z, x, rfl, hx, h⟩ | h
    · exact ⟨_, h, .light (by simp only [ht]; omega)⟩
    · refine ⟨_, h, by omega, fun he _ => ?_⟩
      have h3 := mw_le_mm b
      have h4 := mp_le_mw b
      have := hmm he
      omega
    · have h1 : ht (.pow y z) = max (ht y) (ht z + 1) := by simp only [ht]
      have h2 := ht_mul (C := C) z e'
      obtain ⟨x', hx', hle⟩ := low (mul C z e') (by omega)
      rw [hx] at hx'
      cases hx'
      refine ⟨_, h, out y x (by omega) (by omega) fun hy => ?_⟩
      have h3 := (hb2.2 (by omega) (by omega)).1
      have h4 : mm (.pow y z) = mm y + 1 := by
        simp only [mm]
        rw [if_neg (by omega)]
      omega
    · refine ⟨_, h, out b' e' hb3 (by omega) fun hy => ?_⟩
      exact (hb2.2 (by omega) (by omega)).1

/-- **C02**, termination: `Simplify` returns for every expression, whatever the arithmetic of the
numbers and their texts. -/
theorem simp_returns (C : Cfg K) (e : Expr K) : ∃ e' N, ∀ n, N ≤ n → simp C n e = some e' := by
  obtain ⟨e', h, -⟩ := lim_total (C := C) e
  obtain ⟨N, hN⟩ := Filter.eventually_atTop.1 (lim_iff.1 h)
  exact ⟨e', N, fun n hn => hN n hn⟩

/-- **C02** for one call of `Simplify`, with termination (partial: the value is kept where the
expression is good, and the numbers computed are assumed to print faithfully). -/
theorem simplify_returns_value_partial (hC : C.Exact) {T : Tables} {S : K → Prop} {read : Str → K}
    (hF : C.Faithful S read) (hS : C.Closed S) {e : Expr K} (he : WF T S e) :
    ∃ e', (∃ N, ∀ n, N ≤ n → simp C n e = some e') ∧ WF T S e' ∧
      ∀ ρ, G C ρ e → eval C ρ e' = eval C ρ e ∧ G C ρ e' := by
  obtain ⟨e', N, h⟩ := simp_returns C e
  exact ⟨e', ⟨N, h⟩, simp_WF hF hS N e e' he (h N le_rfl),
    fun ρ hg => simp_eval_partial hC hF hS he hg (h N le_rfl)⟩

/-- Sums, products and exponentials: one call of `Simplify` returns an expression of the same value
in every environment. -/
theorem simplify_poly_returns_value_partial (hC : C.Exact) {T : Tables} {S : K → Prop} {read : Str → K}
    (hF : C.Faithful S read) (hS : C.Closed S) {e : Expr K} (he : WF T S e) (hp : Poly e) :
    ∃ e', (∃ N, ∀ n, N ≤ n → simp C n e = some e') ∧ ∀ ρ, eval C ρ e' = eval C ρ e := by
  obtain ⟨e', h1, -, h2⟩ := simplify_returns_value_partial hC hF hS he
  exact ⟨e', h1, fun ρ => (h2 ρ hp.good).1⟩

/-- A case that combines powers and like terms, with nested functions: it returns. -/
example (C : Cfg K) : ∃ e' N, ∀ n, N ≤ n →
    simp C n (.prod [.pow (.var "x".toList) (.var "y".toList), .var "x".toList,
      .add [.var "x".toList, .log (.pow (.var "x".toList) (.var "y".toList)), .var "x".toList]]) = some e' :=
  simp_returns C _

end Verif.Sym
