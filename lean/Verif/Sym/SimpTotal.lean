import Verif.Sym.SimpMeasure

/-!
# Simplification returns (C02)
-/

namespace Verif.Sym

variable {K : Type} {C : Cfg K}

/-- The result is not higher than the argument. -/
def NotHigher (e e' : Expr K) : Prop :=
  ht e' ≤ ht e ∧ (ht e' = ht e → 1 ≤ ht e → mm e' ≤ mm e ∧ mw e' ≤ mw e ∧ mp e' ≤ mp e)

theorem NotHigher.refl (e : Expr K) : NotHigher e e := ⟨le_rfl, fun _ _ => ⟨le_rfl, le_rfl, le_rfl⟩⟩

theorem NotHigher.light {e e' : Expr K} (h : ht e' < ht e) : NotHigher e e' := ⟨h.le, fun e => by omega⟩

theorem NotHigher.bw {e e' : Expr K} (g : NotHigher e e') {h m : Nat} (hh : 1 ≤ h) (b : BW h m e) : BW h m e' := by
  refine ⟨le_trans g.1 b.1, fun he => ?_⟩
  have he2 : ht e = h := le_antisymm b.1 (by rw [← he]; exact g.1)
  exact le_trans (g.2 (by omega) (by omega)).2.1 (b.2 he2)

theorem NotHigher.bp {e e' : Expr K} (g : NotHigher e e') {h m : Nat} (hh : 1 ≤ h) (b : BP h m e) : BP h m e' := by
  refine ⟨le_trans g.1 b.1, fun he => ?_⟩
  have he2 : ht e = h := le_antisymm b.1 (by rw [← he]; exact g.1)
  exact le_trans (g.2 (by omega) (by omega)).2.2 (b.2 he2)

/-- `f` returns on every element of a list: so does `mapO`. -/
theorem mapO_total {f : Expr K → Option (Expr K)} {P : Expr K → Prop} {l : List (Expr K)}
    (h : ∀ a ∈ l, ∃ b, f a = some b ∧ P b) : ∃ l', mapO f l = some l' ∧ ∀ b ∈ l', P b := by
  obtain ⟨l', h1, h2⟩ := mapO_exists (P := fun _ b => P b) h
  refine ⟨l', h1, fun b hb => ?_⟩
  clear h1 h
  induction h2 with
  | nil => cases hb
  | cons h _ ih =>
    rcases List.mem_cons.1 hb with rfl | hb
    · exact h
    · exact ih hb

/-- The loop `EquationObject.cc:684-689` ends. -/
theorem reduce_total {f : Expr K → Option (Expr K)} {P : List (Expr K) → Prop}
    (hp : ∀ l, P l → ∃ t, prodVec C f l = some t ∧ P t) : ∀ (k : Nat) {l : List (Expr K)}, P l →
    l.length < k → ∃ t, reduce C f k l = some t ∧ P t
  | 0, _, _, h => absurd h (by omega)
  | k + 1, l, hl, h => by
    obtain ⟨t, h1, h2⟩ := hp l hl
    by_cases hlt : t.length < l.length
    · obtain ⟨t', h3, h4⟩ := reduce_total hp k h2 (by omega)
      exact ⟨t', by simp only [reduce, h1, if_pos hlt, h3], h4⟩
    · exact ⟨t, by simp only [reduce, h1, if_neg hlt], h2⟩

/-- A product whose steps return. -/
theorem prodSimp_total {f : Expr K → Option (Expr K)} {P0 P : List (Expr K) → Prop}
    {vs : List (Expr K)} (h0 : ∃ t, mapO f vs = some t ∧ P0 t)
    (hp0 : ∀ l, P0 l → ∃ t, prodVec C f l = some t ∧ P t)
    (hp : ∀ l, P l → ∃ t, prodVec C f l = some t ∧ P t)
    (hs : ∀ l, P l → 1 < l.length → P (C.srt (l.map (asPow C))))
    (ht : ∀ l, P l → P (l.flatMap (thirdItem C))) :
    ∃ e', prodSimp C f vs = some e' ∧ (e' = conI C 0 ∨ (∃ v, vs = [v] ∧ P0 [e']) ∨
      ∃ t, P t ∧ e' = single C t) := by
  unfold prodSimp
  obtain ⟨t0, e0, p0⟩ := h0
  split
  · exact ⟨_, rfl, .inl rfl⟩
  · split
    · rename_i v
      simp only [mapO] at e0
      split at e0
      · rename_i b bs hb hbs
        cases hbs
        cases e0
        exact ⟨b, hb, .inr (.inl ⟨_, rfl, p0⟩)⟩
      · cases e0
    · obtain ⟨tv, e1, p1⟩ := hp0 t0 p0
      have hout : ∃ out, (if 1 < tv.length then
          (prodVec C f (C.srt (tv.map (asPow C)))).map fun t => shorter C (single C tv) (single C t)
          else some (single C tv)) = some out ∧ ∃ t, P t ∧ out = single C t := by
        split
        · rename_i hlt
          obtain ⟨t2, e2, p2⟩ := hp _ (hs tv p1 hlt)
          rw [e2, Option.map_some]
          refine ⟨_, rfl, ?_⟩
          rcases shorter_cases C (single C tv) (single C t2) with h | h <;> rw [h]
          · exact ⟨tv, p1, rfl⟩
          · exact ⟨t2, p2, rfl⟩
        · exact ⟨_, rfl, tv, p1, rfl⟩
      obtain ⟨out, e2, p2⟩ := hout
      obtain ⟨t3, e3, p3⟩ := reduce_total hp ((tv.flatMap (thirdItem C)).length + 1) (ht tv p1) (by omega)
      simp only [e0, e1, e2, e3, Option.map_some]
      refine ⟨_, rfl, .inr (.inr ?_)⟩
      rcases shorter_cases C out (single C t3) with h | h <;> rw [h]
      · exact p2
      · exact ⟨t3, p3, rfl⟩

/-! ### Products -/

section
variable {F : Expr K → Option (Expr K)} {h m : Nat} (hh : 1 ≤ h) (hm : 1 ≤ m)

include hm in
theorem BW.powItem {l : List (Expr K × Expr K)} (hl : ∀ x ∈ l, BW h m (.pow x.1 x.2))
    {p : Expr K × List (Expr K)} (hp : p ∈ groupBase C l) : BW h m (powItem C p) := by
  obtain ⟨qs, h1, -⟩ := groupBase_spec C l
  have hg : ∃ q, BaseGroup C l p q := by
    generalize hL : groupBase C l = L at h1 hp
    clear hL
    induction h1 with
    | nil => cases hp
    | cons h _ ih =>
      rcases List.mem_cons.1 hp with rfl | hp
      · exact ⟨_, h⟩
      · exact ih hp
  obtain ⟨q, hq⟩ := hg
  obtain ⟨b, es⟩ := p
  obtain ⟨e0, he0⟩ := hq.fst
  have hb := (BW_pow hm).1 (hl _ (hq.sub _ he0))
  have hes : ∀ e ∈ es, ht e < h := by
    intro e he
    have hs := hq.snd
    dsimp only at hs
    rw [hs] at he
    obtain ⟨x, hx, rfl⟩ := List.mem_map.1 he
    exact ((BW_pow hm).1 (hl _ (hq.sub x hx))).2.1
  unfold Verif.Sym.powItem
  split
  · rename_i b' e heq
    obtain ⟨rfl, rfl⟩ := Prod.mk.inj heq
    exact (BW_pow hm).2 ⟨hb.1, hes e (by simp), hb.2.2⟩
  · rename_i heq
    obtain ⟨rfl, rfl⟩ := Prod.mk.inj heq
    refine (BW_pow hm).2 ⟨hb.1, ?_, hb.2.2⟩
    rw [ht_mkAdd]
    have : htL es ≤ h - 1 := htL_le.2 fun e he => by have := hes e he; omega
    have := hb.2.1
    omega

include hh hm in
theorem BW.combineProd {g : Expr K} {t : List (Expr K)} (hg : BW h m g) (ht : ∀ v ∈ t, BW h m v) :
    ∀ w ∈ (combineProd C g t).factors, BW h m w := by
  unfold Verif.Sym.combineProd
  split
  · simp only [Expr.factors, List.mem_singleton, forall_eq]
    exact .light (by rw [Verif.Sym.ht]; omega)
  · rename_i vs
    simp only [mkProd, Expr.factors, mem_srt]
    intro w hw
    rcases List.mem_append.1 hw with hw | hw
    · exact hg.factors w hw
    · obtain ⟨u, hu, hw⟩ := List.mem_flatMap.1 hw
      exact (ht u hu).factors w hw
  · rename_i a
    simp only [Expr.factors, List.mem_singleton, forall_eq]
    have key : ∀ x ∈ a :: t.flatMap expArg, Verif.Sym.ht x < h := by
      intro x hx
      rcases List.mem_cons.1 hx with rfl | hx
      · have := hg.1; simp only [Verif.Sym.ht] at this; omega
      · obtain ⟨u, hu, hx⟩ := List.mem_flatMap.1 hx
        unfold expArg at hx
        split at hx
        · rw [List.mem_singleton.1 hx]
          have := (ht _ hu).1; simp only [Verif.Sym.ht] at this; omega
        · cases hx
    refine ⟨?_, fun _ => ?_⟩
    · rw [Verif.Sym.ht, ht_mkAdd]
      have : htL (a :: t.flatMap expArg) ≤ h - 1 := htL_le.2 fun x hx => by have := key x hx; omega
      omega
    · simpa [mw, mm, Expr.isPow] using hm
  · rename_i b e
    have hl : ∀ x ∈ t.flatMap powPair ++ [(b, e)], BW h m (.pow x.1 x.2) := by
      intro x hx
      rcases List.mem_append.1 hx with hx | hx
      · obtain ⟨u, hu, hx⟩ := List.mem_flatMap.1 hx
        unfold powPair at hx
        split at hx
        · rw [List.mem_singleton.1 hx]; exact ht _ hu
        · cases hx
      · rw [List.mem_singleton.1 hx]; exact hg
    have hw : ∀ w ∈ (groupBase C (t.flatMap powPair ++ [(b, e)])).map (Verif.Sym.powItem C), BW h m w := by
      intro w hw
      obtain ⟨p, hp, rfl⟩ := List.mem_map.1 hw
      exact BW.powItem hm hl hp
    revert hw
    generalize (groupBase C (t.flatMap powPair ++ [(b, e)])).map (Verif.Sym.powItem C) = l
    intro hw
    unfold single
    split
    · exact (hw _ (by simp)).factors
    · simpa only [mkProd, Expr.factors, mem_srt] using hw
  · simp only [mkProd, Expr.factors, mem_srt]
    intro w hw
    rcases List.mem_append.1 hw with hw | hw
    · exact ht w hw
    · rw [List.mem_singleton.1 hw]; exact hg

include hh hm in
theorem BW.asPow {v : Expr K} (hv : BW h m v) : BW h m (asPow C v) := by
  unfold Verif.Sym.asPow
  split
  · exact hv
  · rename_i hne
    refine (BW_pow hm).2 ⟨hv.1, by rw [ht_conI]; omega, fun e => ?_⟩
    have h2 := hv.2 e
    rwa [mw_other (by cases v <;> first | rfl | exact absurd rfl (hne _ _))] at h2

include hh hm in
theorem BW.toPow {v : Expr K} (hv : BW h m v) : BW h m (toPow C v) := by
  unfold Verif.Sym.toPow
  split
  · exact hv.asPow hh hm (C := C)
  · exact hv

include hh hm in
theorem prodVec_total (IH : ∀ x, BM h m x → ∃ x', F x = some x' ∧ NotHigher x x') {l : List (Expr K)}
    (hl : ∀ v ∈ l, BW h m v) : ∃ t, prodVec C F l = some t ∧ ∀ v ∈ t, BW h m v := by
  have hg : ∀ w ∈ grouped C l, BW h m w := by
    have hm' : ∀ v ∈ l.map (toPow C), BW h m v := by
      intro v hv
      obtain ⟨w, hw, rfl⟩ := List.mem_map.1 hv
      exact (hl w hw).toPow hh hm
    intro w hw
    obtain ⟨u, hu, hw⟩ := List.mem_flatMap.1 hw
    obtain ⟨p, hp, rfl⟩ := List.mem_map.1 hu
    obtain ⟨h1, h2⟩ := groupTy_mem _ p hp
    split at hw
    · exact (hm' _ h1).factors w hw
    · exact BW.combineProd hh hm (hm' _ h1) (fun v hv => hm' _ (h2 v hv).1) w hw
  obtain ⟨t, e1, e2⟩ := mapO_total (f := F) (P := BW h m)
    (l := (grouped C l).filter fun v => !isOne C v) (by
      intro a ha
      have hb := hg a (List.mem_filter.1 ha).1
      obtain ⟨x, hx, g⟩ := IH a hb.bm
      exact ⟨x, hx, g.bw hh hb⟩)
  rw [prodVec_eq, e1, Option.map_some]
  refine ⟨_, rfl, ?_⟩
  split
  · simp only [List.mem_singleton, forall_eq]
    exact .light (by rw [ht_conI]; omega)
  · exact e2

include hh hm in
theorem BW.thirdItem {v : Expr K} (hv : BW h m v) : ∀ w ∈ thirdItem C v, BW h m w := by
  unfold Verif.Sym.thirdItem
  split
  · rename_i b e
    obtain ⟨h1, h2, h3⟩ := (BW_pow hm).1 hv
    have hb : BW h m b := ⟨h1, fun e => le_trans (mw_le_mm b) (h3 e)⟩
    split
    · simpa using hb
    · intro w hw
      rcases List.mem_append.1 hw with hw | hw
      · exact hb.factors w hw
      · rw [List.mem_singleton.1 hw]
        exact (BW_pow hm).2 ⟨h1, lt_of_le_of_lt (ht_minus_one e) h2, h3⟩
  · simpa using hv.clone

/-- Products return, if all smaller expressions do. -/
theorem prod_total {vs : List (Expr K)} (hh : 1 ≤ ht (.prod vs))
    (IH : ∀ x, (ht x < ht (.prod vs) ∨ (ht x = ht (.prod vs) ∧ mm x < mm (.prod vs))) →
      ∃ x', F x = some x' ∧ NotHigher x x') :
    ∃ e', prodSimp C F vs = some e' ∧ NotHigher (.prod vs) e' := by
  obtain ⟨h, hdef⟩ : ∃ h, h = ht (.prod vs) := ⟨_, rfl⟩
  obtain ⟨m, mdef⟩ : ∃ m, mm (.prod vs) = m + 1 := ⟨mwL vs (htL vs), by rw [mm]⟩
  rw [← hdef, mdef] at IH
  rw [← hdef] at hh
  have hv : ∀ v ∈ vs, BW h m v := BM_prod.1 ⟨hdef.ge, fun _ => mdef.le⟩
  have hm : 1 ≤ m := by
    have h1 := htL_attained (vs := vs) (by rw [hdef, ht] at hh; exact hh)
    obtain ⟨v, hvm, he⟩ := h1
    have h2 := (hv v hvm).2 (by rw [he, hdef, ht])
    have h3 : 1 ≤ mw v := by
      unfold mw
      cases v <;> simp [Expr.isPow, mm]
      split <;> omega
    omega
  have IH' : ∀ x, BM h m x → ∃ x', F x = some x' ∧ NotHigher x x' := by
    intro x hx
    apply IH
    rcases hx.1.lt_or_eq with h1 | h1
    · exact .inl h1
    · exact .inr ⟨h1, by have := hx.2 h1; omega⟩
  obtain ⟨e', h1, h2⟩ := prodSimp_total (C := C) (f := F) (P0 := fun l => ∀ v ∈ l, BW h m v)
    (P := fun l => ∀ v ∈ l, BW h m v) (vs := vs)
    (mapO_total fun a ha => by
      obtain ⟨x, hx, g⟩ := IH' a (hv a ha).bm
      exact ⟨x, hx, g.bw hh (hv a ha)⟩)
    (fun l hl => prodVec_total hh hm IH' hl) (fun l hl => prodVec_total hh hm IH' hl)
    (fun l hl _ v hv => by
      obtain ⟨w, hw, rfl⟩ := List.mem_map.1 (mem_srt.1 hv)
      exact (hl w hw).asPow hh hm)
    (fun l hl v hv => by
      obtain ⟨w, hw, hv⟩ := List.mem_flatMap.1 hv
      exact (hl w hw).thirdItem hh hm v hv)
  refine ⟨e', h1, ?_⟩
  have hone : ∀ v, BW h m v → NotHigher (.prod vs) v := by
    intro v hv
    refine ⟨hdef ▸ hv.1, fun e _ => ?_⟩
    have := hv.2 (by rw [e, hdef])
    have h3 := mm_le_mw v
    have h4 := mp_le_mw v
    have h5 := mw_other (v := .prod vs) rfl
    rw [mp_prod, h5, mdef]
    omega
  rcases h2 with rfl | ⟨v, -, hp⟩ | ⟨t, hp, rfl⟩
  · exact .light (by rw [ht_conI]; omega)
  · exact hone _ (hp _ (by simp))
  · unfold single
    split
    · exact hone _ (hp _ (by simp))
    · have hb : BM h (m + 1) (mkProd C t) := BM_prod.2 fun v hv => hp v (mem_srt.1 hv)
      refine ⟨hdef ▸ hb.1, fun e _ => ?_⟩
      have := hb.2 (by rw [e, hdef])
      have h5 := mw_other (v := .prod vs) rfl
      have h6 := mw_other (v := .prod (C.srt t)) rfl
      rw [mp_prod, h5, mdef, mkProd, mp_prod, h6]
      rw [mkProd] at this
      omega

end

/-! ### Sums -/

section
variable {F : Expr K → Option (Expr K)} {h m : Nat} (hh : 1 ≤ h)

theorem BP_prod {h m : Nat} {vs : List (Expr K)} : BP h m (.prod vs) ↔ BM h m (.prod vs) := by
  unfold BP BM; rw [mp_prod]

include hh in
theorem BP.combineAdd {g : Expr K} {t : List (Expr K)} (hg : BP h m g) (ht : ∀ v ∈ t, BP h m v) :
    ∀ w ∈ (combineAdd C g t).terms, BP h m w := by
  unfold Verif.Sym.combineAdd
  split
  · simp only [Expr.terms, List.mem_singleton, forall_eq]
    exact .light (by rw [Verif.Sym.ht]; omega)
  · simp only [mkAdd, Expr.terms, mem_srt]
    intro w hw
    rcases List.mem_append.1 hw with hw | hw
    · exact hg.terms w hw
    · obtain ⟨u, hu, hw⟩ := List.mem_flatMap.1 hw
      exact (ht u hu).terms w hw
  · rename_i vs
    simp only [mkAdd, Expr.terms, mem_srt]
    intro w hw
    rcases List.mem_append.1 hw with hw | hw
    · exact ht w hw
    · rw [List.mem_singleton.1 hw, mkProd, BP_prod]
      rw [BP_prod] at hg
      unfold BM at hg ⊢
      simp only [Verif.Sym.ht, mm] at hg ⊢
      rwa [htL_perm (C.srt_perm vs), mwL_perm (C.srt_perm vs)]
  · simp only [mkAdd, Expr.terms, mem_srt]
    intro w hw
    rcases List.mem_append.1 hw with hw | hw
    · exact ht w hw
    · rw [List.mem_singleton.1 hw]; exact hg

/-- The factors of a product that counts as a term. -/
theorem BP.prod_mem {vs : List (Expr K)} (hv : BP h m (.prod vs)) (hm : 1 ≤ m) :
    ∀ v ∈ vs, BW h (m - 1) v := by
  obtain ⟨k, rfl⟩ : ∃ k, m = k + 1 := ⟨m - 1, by omega⟩
  exact BM_prod.1 (BP_prod.1 hv)

include hh in
theorem BP.unscaled (hm : 1 ≤ m) {v : Expr K} (hv : BP h m v) : BP h m (unscaled C v) := by
  have h0 : ∀ z, BP h m (conI C z) := fun z => .light (by rw [ht_conI]; omega)
  unfold Verif.Sym.unscaled
  split
  · exact h0 1
  · rename_i vs
    have hb : ∀ v ∈ nonconsts vs, BW h (m - 1) v := fun v h => hv.prod_mem hm v (nonconsts_sub _ v h)
    split
    · exact h0 1
    · rename_i w he
      exact (hb w (by rw [he]; simp)).bp.mono (by omega)
    · obtain ⟨k, rfl⟩ : ∃ k, m = k + 1 := ⟨m - 1, by omega⟩
      rw [mkProd, BP_prod]
      exact BM_prod.2 fun v hv => hb v (mem_srt.1 hv)
  · exact hv

include hh in
theorem BP.scaled (hm : 1 ≤ m) {v : Expr K} (hv : BP h m v) (c : K) : BP h m (mul C (.con c) v) := by
  have h0 : ∀ z, BP h m (conI C z) := fun z => .light (by rw [ht_conI]; omega)
  have hc : ∀ m, BW h m (.con c : Expr K) := fun m => .light (by rw [ht]; omega)
  obtain ⟨k, rfl⟩ : ∃ k, m = k + 1 := ⟨m - 1, by omega⟩
  unfold mul
  split
  · exact h0 0
  · split
    · exact hv
    · split
      · exact .light (by rw [ht]; omega)
      · split
        · exact absurd ‹Expr.con c = Expr.prod _› (by simp)
        · exact absurd ‹Expr.con c = Expr.prod _› (by simp)
        · rename_i ys _
          rw [mkProd, BP_prod]
          refine BM_prod.2 fun w hw => ?_
          rcases List.mem_cons.1 (mem_srt.1 hw) with rfl | hw
          · exact hc k
          · exact hv.prod_mem (by omega) w hw
        · rw [BP_prod]
          refine BM_prod.2 fun w hw => ?_
          simp only [List.mem_cons, List.not_mem_nil, or_false] at hw
          rcases hw with rfl | rfl
          · exact hc k
          · refine ⟨hv.1, fun e => ?_⟩
            have := hv.2 e
            rw [mp_other (by cases w <;> first | rfl | exact (‹∀ ys, Expr.prod _ = Expr.prod ys → False› _ rfl).elim)] at this
            omega

/-- All elements of a list of constants. -/
theorem scale_con (C : Cfg K) (v : Expr K) : ∃ c, scale C v = .con c := by
  unfold scale
  split
  · exact ⟨_, rfl⟩
  · exact ⟨_, rfl⟩
  · exact ⟨_, rfl⟩

/-- The collection of like terms returns. -/
theorem like_total {P : Expr K → Prop}
    (hsum : ∀ l : List (Expr K), AllCon l → l ≠ [] → ∃ c, F (mkAdd C l) = some (.con c))
    (hu : ∀ v, P v → P (unscaled C v))
    (hs : ∀ v c, P v → ∃ x, F (mul C (.con c) (unscaled C v)) = some x ∧ P x) (l : List (Expr K))
    (hl : ∀ v ∈ l, P v) : ∃ t, like C F l = some t ∧ ∀ v ∈ t, P v := by
  induction l using filter_ind (p := fun v u => str C (unscaled C v) != str C (unscaled C u)) with
  | h0 => exact ⟨[], by rw [like], by simp⟩
  | h1 v r ih =>
    obtain ⟨t, h1, h2⟩ := ih fun u hu => hl u (by simp [(List.mem_filter.1 hu).1])
    obtain ⟨c, hc⟩ := hsum (scale C v :: (r.filter fun u =>
        str C (unscaled C v) == str C (unscaled C u)).map (scale C)) (by
      intro w hw
      rcases List.mem_cons.1 hw with rfl | hw
      · exact scale_con C v
      · obtain ⟨u, -, rfl⟩ := List.mem_map.1 hw
        exact scale_con C u) (by simp)
    rw [like]
    simp only [hc, h1]
    by_cases ho : isOne C (.con c) = true
    · simp only [if_pos ho]
      exact ⟨_, rfl, by
        intro w hw
        rcases List.mem_cons.1 hw with rfl | hw
        · exact hu v (hl v (by simp))
        · exact h2 w hw⟩
    · obtain ⟨x, hx, hp⟩ := hs v c (hl v (by simp))
      simp only [if_neg ho, hx]
      exact ⟨_, rfl, by
        intro w hw
        rcases List.mem_cons.1 hw with rfl | hw
        · exact hp
        · exact h2 w hw⟩

/-- Sums return, if all smaller expressions do. -/
theorem add_total {vs : List (Expr K)} (hh : 1 ≤ ht (.add vs))
    (hsum : ∀ l : List (Expr K), AllCon l → l ≠ [] → ∃ c, F (mkAdd C l) = some (.con c))
    (IH : ∀ x, (ht x < ht (.add vs) ∨ (ht x = ht (.add vs) ∧ mm x < mm (.add vs))) →
      ∃ x', F x = some x' ∧ NotHigher x x') :
    ∃ e', addSimp C F vs = some e' ∧ NotHigher (.add vs) e' := by
  obtain ⟨h, hdef⟩ : ∃ h, h = ht (.add vs) := ⟨_, rfl⟩
  obtain ⟨m, mdef⟩ : ∃ m, mm (.add vs) = m + 1 := ⟨mpL vs (htL vs), by rw [mm]⟩
  rw [← hdef, mdef] at IH
  rw [← hdef] at hh
  have hv : ∀ v ∈ vs, BP h m v := BM_add.1 ⟨hdef.ge, fun _ => mdef.le⟩
  have hm : 1 ≤ m := by
    have h1 := htL_attained (vs := vs) (by rw [hdef, ht] at hh; exact hh)
    obtain ⟨v, hvm, he⟩ := h1
    have h2 := (hv v hvm).2 (by rw [he, hdef, ht])
    have h3 : 1 ≤ mp v := by
      unfold mp mw
      cases v <;> simp [Expr.isPow, Expr.isProd, mm]
    omega
  have IH' : ∀ x, BP h m x → ∃ x', F x = some x' ∧ NotHigher x x' := by
    intro x hx
    apply IH
    rcases hx.1.lt_or_eq with h1 | h1
    · exact .inl h1
    · exact .inr ⟨h1, by have := hx.bm.2 h1; omega⟩
  have step : ∀ x, BP h m x → ∃ x', F x = some x' ∧ BP h m x' := by
    intro x hx
    obtain ⟨x', h1, g⟩ := IH' x hx
    exact ⟨x', h1, g.bp hh hx⟩
  have hone : ∀ v, BP h m v → NotHigher (.add vs) v := by
    intro v hv
    refine ⟨hdef ▸ hv.1, fun e _ => ?_⟩
    have h2 := hv.2 (by rw [e, hdef])
    have h3 := mm_le_mp v
    have h4 := mw_le_mm v
    have h5 := mw_other (v := .add vs) rfl
    have h6 := mp_other (v := .add vs) rfl
    rw [h6, h5, mdef]
    omega
  obtain ⟨t0, e0, p0⟩ := mapO_total (f := F) (P := BP h m) (l := vs) fun a ha => step a (hv a ha)
  obtain ⟨t3, e3, p3⟩ := mapO_total (f := F) (P := BP h m)
    (l := ((groupTy t0).map fun p => if p.2.isEmpty then p.1 else combineAdd C p.1 p.2).flatMap Expr.terms)
    (by
      intro a ha
      refine step a ?_
      obtain ⟨u, hu, ha⟩ := List.mem_flatMap.1 ha
      obtain ⟨p, hp, rfl⟩ := List.mem_map.1 hu
      obtain ⟨h1, h2⟩ := groupTy_mem _ p hp
      split at ha
      · exact (p0 _ h1).terms a ha
      · exact BP.combineAdd hh (p0 _ h1) (fun v hv => p0 _ (h2 v hv).1) a ha)
  obtain ⟨l, e4, p4⟩ := like_total (P := BP h m) hsum (fun v hv => hv.unscaled hh hm)
    (fun v c hv => step _ ((hv.unscaled hh hm).scaled hh hm c))
    (t3.filter fun v => !isZero C v) (fun v hv => p3 v (List.mem_filter.1 hv).1)
  unfold addSimp
  split
  · rename_i v
    obtain ⟨x, hx, hb⟩ := step v (hv v (by simp))
    exact ⟨x, hx, hone x hb⟩
  · simp only [e0, e3, e4, Option.map_some]
    refine ⟨_, rfl, ?_⟩
    split
    · exact .light (by rw [ht_conI]; omega)
    · exact hone _ (p4 _ (by simp))
    · have hb : BM h (m + 1) (mkAdd C l) := BM_add.2 fun v hv => p4 v (mem_srt.1 hv)
      refine ⟨hdef ▸ hb.1, fun e _ => ?_⟩
      have := hb.2 (by rw [e, hdef])
      have h5 := mw_other (v := .add vs) rfl
      have h6 := mp_other (v := .add vs) rfl
      have h7 := mw_other (v := .add (C.srt l)) rfl
      have h8 := mp_other (v := .add (C.srt l)) rfl
      rw [h6, h5, mdef, mkAdd, h8, h7]
      rw [mkAdd] at this
      omega

end

end Verif.Sym
