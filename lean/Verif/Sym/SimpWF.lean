import Verif.Sym.PosText

/-!
# Simplification: lists, well-formedness, constants
-/

namespace Verif.Sym

variable {K : Type}

/-! ### Lists -/

theorem mapO_mem {α β : Type} {f : α → Option β} {l : List α} {l' : List β} (h : mapO f l = some l') :
    ∀ b ∈ l', ∃ a ∈ l, f a = some b := by
  have := mapO_forall₂ h
  clear h
  induction this with
  | nil => simp
  | cons hab _ ih =>
    intro b hb
    rcases List.mem_cons.1 hb with rfl | hb
    · exact ⟨_, by simp, hab⟩
    · obtain ⟨a, ha, h⟩ := ih b hb
      exact ⟨a, by simp [ha], h⟩

theorem mapO_length {α β : Type} {f : α → Option β} {l : List α} {l' : List β}
    (h : mapO f l = some l') : l'.length = l.length := (mapO_forall₂ h).length_eq.symm

theorem mapO_map {α β γ : Type} {f : α → Option β} {g : α → γ} {g' : β → γ} {l : List α} {l' : List β}
    (h : mapO f l = some l') (hf : ∀ a ∈ l, ∀ b, f a = some b → g' b = g a) : l'.map g' = l.map g := by
  have := mapO_forall₂ h
  clear h
  induction this with
  | nil => rfl
  | cons hab _ ih =>
    rw [List.map_cons, List.map_cons, hf _ (by simp) _ hab, ih fun a ha => hf a (by simp [ha])]

/-- Splitting a list by a test does not lose anything. -/
theorem filter_split {α : Type} (p : α → Bool) : ∀ l : List α,
    (l.filter p ++ l.filter fun a => !p a).Perm l := List.filter_append_perm p

/-- Induction along a loop that takes the first element and drops some of the others. -/
theorem filter_ind {α : Type} {Q : List α → Prop} (p : α → α → Bool) (h0 : Q [])
    (h1 : ∀ a r, Q (r.filter (p a)) → Q (a :: r)) : ∀ l, Q l
  | [] => h0
  | a :: r => h1 a r (filter_ind p h0 h1 (r.filter (p a)))
termination_by l => l.length
decreasing_by
  simp only [List.length_cons]
  exact Nat.lt_succ_of_le (List.length_filter_le _ _)

theorem groupTy_ne {l : List (Expr K)} (h : l ≠ []) : groupTy l ≠ [] := by
  cases l with
  | nil => exact absurd rfl h
  | cons v vs => rw [groupTy]; simp

theorem groupTy_mem (l : List (Expr K)) : ∀ p ∈ groupTy l, p.1 ∈ l ∧
    ∀ w ∈ p.2, w ∈ l ∧ w.ty = p.1.ty := by
  induction l using groupTy.induct with
  | case1 => simp [groupTy]
  | case2 v vs ih =>
    intro p hp
    rw [groupTy] at hp
    rcases List.mem_cons.1 hp with rfl | hp
    · refine ⟨by simp, fun w hw => ?_⟩
      have := List.mem_filter.1 hw
      exact ⟨by simp [this.1], by simpa using this.2⟩
    · obtain ⟨h1, h2⟩ := ih p (by simpa using hp)
      have hs : ∀ w, w ∈ vs.filter (fun w => w.ty != v.ty) → w ∈ v :: vs := fun w hw =>
        List.mem_cons_of_mem _ (List.mem_filter.1 hw).1
      simp only [List.unattach_filter, List.unattach_attach] at h1 h2
      exact ⟨hs _ (by simpa using h1), fun w hw => ⟨hs _ (by simpa using (h2 w hw).1), (h2 w hw).2⟩⟩

theorem groupTy_perm (l : List (Expr K)) : ((groupTy l).flatMap fun p => p.1 :: p.2).Perm l := by
  induction l using groupTy.induct with
  | case1 => simp [groupTy]
  | case2 v vs ih =>
    rw [groupTy, List.flatMap_cons, List.cons_append]
    refine List.Perm.cons v ?_
    refine List.Perm.trans (List.Perm.append_left _ (by simpa using ih)) ?_
    exact filter_split (fun w : Expr K => w.ty == v.ty) vs

/-- A group of powers with the same base: the pairs it was made of. -/
structure BaseGroup (C : Cfg K) (l : List (Expr K × Expr K)) (p : Expr K × List (Expr K))
    (q : List (Expr K × Expr K)) : Prop where
  ne : q ≠ []
  sub : ∀ x ∈ q, x ∈ l
  snd : p.2 = q.map Prod.snd
  fst : ∃ e, (p.1, e) ∈ q
  str : ∀ x ∈ q, str C x.1 = str C p.1

theorem groupBase_spec (C : Cfg K) (l : List (Expr K × Expr K)) : ∃ qs : List (List (Expr K × Expr K)),
    List.Forall₂ (BaseGroup C l) (groupBase C l) qs ∧ qs.flatten.Perm l := by
  induction l using groupBase.induct (C := C) with
  | case1 => exact ⟨[], by simp [groupBase], by simp⟩
  | case2 b e r ih =>
    simp only [List.unattach_filter, List.unattach_attach] at ih
    obtain ⟨qs, h1, h2⟩ := ih
    refine ⟨((b, e) :: r.filter fun p => Verif.Sym.str C p.1 == Verif.Sym.str C b) :: qs, ?_, ?_⟩
    · rw [groupBase]
      refine .cons ⟨by simp, ?_, by simp, ⟨e, by simp⟩, ?_⟩ ?_
      · intro x hx
        rcases List.mem_cons.1 hx with rfl | hx
        · simp
        · exact List.mem_cons_of_mem _ (List.mem_filter.1 hx).1
      · intro x hx
        rcases List.mem_cons.1 hx with rfl | hx
        · rfl
        · simpa using (List.mem_filter.1 hx).2
      · refine List.Forall₂.imp (fun p q h => ?_) (by simpa using h1)
        refine ⟨h.ne, fun x hx => ?_, h.snd, h.fst, h.str⟩
        have := h.sub x hx
        simp only [bne_iff_ne, ne_eq, List.mem_filter] at this
        exact List.mem_cons_of_mem _ this.1
    · rw [List.flatten_cons, List.cons_append]
      refine List.Perm.cons _ ?_
      refine List.Perm.trans (List.Perm.append_left _ (by simpa using h2)) ?_
      exact filter_split (fun p : Expr K × Expr K => Verif.Sym.str C p.1 == Verif.Sym.str C b) r

theorem groupBase_ne {C : Cfg K} {l : List (Expr K × Expr K)} (h : l ≠ []) : groupBase C l ≠ [] := by
  match l, h with
  | (b, e) :: r, _ => rw [groupBase]; simp

/-! ### Well-formedness -/

/-- The set of printable numbers is closed under the arithmetic of `Simplify`. -/
structure Cfg.Closed (C : Cfg K) (S : K → Prop) : Prop where
  add : ∀ a b, S a → S b → S (C.add a b)
  mul : ∀ a b, S a → S b → S (C.mul a b)
  pow : ∀ a b, S a → S b → S (C.pow a b)

section
variable {C : Cfg K} {T : Tables} {S : K → Prop} {read : Str → K} (hF : C.Faithful S read)
  (hS : C.Closed S)

theorem WF.one (hF : C.Faithful S read) : WF T S (conI C 1) := .con (hF.ofInt 1 (by simp))
theorem WF.zero (hF : C.Faithful S read) : WF T S (conI C 0) := .con (hF.ofInt 0 (by simp))

theorem WF.con_inv {c : K} (h : WF T S (.con c)) : S c := by cases h with | con h => exact h
theorem WF.pow_inv {b e : Expr K} (h : WF T S (.pow b e)) : WF T S b ∧ WF T S e := by
  cases h with | pow h1 h2 => exact ⟨h1, h2⟩
theorem WF.exp_inv {a : Expr K} (h : WF T S (.exp a)) : WF T S a := by cases h with | exp h => exact h
theorem WF.log_inv {a : Expr K} (h : WF T S (.log a)) : WF T S a := by cases h with | log h => exact h

theorem WF.factors {v : Expr K} (h : WF T S v) : ∀ w ∈ v.factors, WF T S w := by
  intro w hw
  unfold Expr.factors at hw
  split at hw
  · exact h.factors_mem w hw
  · rw [List.mem_singleton.1 hw]; exact h

theorem WF.factors_ne {v : Expr K} (h : WF T S v) : v.factors ≠ [] := by
  unfold Expr.factors
  split
  · have := h.two; intro h0; rw [h0] at this; simp at this
  · simp

theorem WF.terms {v : Expr K} (h : WF T S v) : ∀ w ∈ v.terms, WF T S w := by
  intro w hw
  unfold Expr.terms at hw
  split at hw
  · exact h.terms_mem w hw
  · rw [List.mem_singleton.1 hw]; exact h

theorem WF.terms_ne {v : Expr K} (h : WF T S v) : v.terms ≠ [] := by
  unfold Expr.terms
  split
  · cases h with | add h _ => exact h
  · simp

theorem consts_WF {t : List (Expr K)} (h : ∀ v ∈ t, WF T S v) : ∀ c ∈ consts t, S c :=
  fun c hc => (h _ (consts_sub t c hc)).con_inv

theorem foldl_S {f : K → K → K} (hf : ∀ a b, S a → S b → S (f a b)) : ∀ {cs : List K} {c : K}, S c →
    (∀ d ∈ cs, S d) → S (cs.foldl f c)
  | [], _, h, _ => h
  | d :: cs, c, h, hd => foldl_S (cs := cs) hf (hf c d h (hd d (by simp))) fun x hx => hd x (by simp [hx])

theorem WF.single {l : List (Expr K)} (hne : l ≠ []) (h : ∀ v ∈ l, WF T S v) :
    WF T S (single C l) := by
  unfold Verif.Sym.single
  split
  · exact h _ (by simp)
  · rename_i h1
    refine .mkProd ?_ h
    match l, hne with
    | [v], _ => exact absurd rfl (h1 v)
    | _ :: _ :: _, _ => simp

theorem WF.powItem {b : Expr K} {es : List (Expr K)} (hne : es ≠ []) (hb : WF T S b)
    (he : ∀ v ∈ es, WF T S v) : WF T S (powItem C (b, es)) := by
  unfold Verif.Sym.powItem
  split
  · rename_i h
    cases h
    exact .pow hb (he _ (by simp))
  · rename_i h
    cases h
    exact .pow hb (.mkAdd hne he)

theorem powPair_WF {v : Expr K} (h : WF T S v) : ∀ p ∈ powPair v, WF T S p.1 ∧ WF T S p.2 := by
  intro p hp
  unfold powPair at hp
  split at hp
  · rw [List.mem_singleton.1 hp]; exact h.pow_inv
  · cases hp

include hS in
theorem WF.combineProd {h : Expr K} {t : List (Expr K)} (hne : t ≠ []) (hh : WF T S h)
    (ht : ∀ v ∈ t, WF T S v) : WF T S (combineProd C h t) := by
  unfold Verif.Sym.combineProd
  split
  · exact .con (foldl_S hS.mul hh.con_inv (consts_WF ht))
  · refine .mkProd ?_ ?_
    · have := hh.two; simp only [List.length_append]; omega
    · intro v hv
      rcases List.mem_append.1 hv with hv | hv
      · exact hh.factors_mem v hv
      · obtain ⟨w, hw, hv⟩ := List.mem_flatMap.1 hv
        exact (ht w hw).factors v hv
  · refine .exp (.mkAdd (by simp) ?_)
    intro v hv
    rcases List.mem_cons.1 hv with rfl | hv
    · exact hh.exp_inv
    · obtain ⟨w, hw, hv⟩ := List.mem_flatMap.1 hv
      unfold expArg at hv
      split at hv
      · rw [List.mem_singleton.1 hv]; exact (ht _ hw).exp_inv
      · cases hv
  · rename_i b e
    refine WF.single (by simpa using groupBase_ne (by simp)) ?_
    intro v hv
    obtain ⟨p, hp, rfl⟩ := List.mem_map.1 hv
    obtain ⟨qs, h1, hperm⟩ := groupBase_spec C (t.flatMap powPair ++ [(b, e)])
    clear hperm
    have hg : ∃ q, BaseGroup C (t.flatMap powPair ++ [(b, e)]) p q := by
      generalize t.flatMap powPair ++ [(b, e)] = l at hp h1 ⊢
      generalize hL : groupBase C l = L at h1 hp
      clear hL hv
      induction h1 with
      | nil => cases hp
      | cons h _ ih =>
        rcases List.mem_cons.1 hp with rfl | hp
        · exact ⟨_, h⟩
        · exact ih hp
    obtain ⟨q, hq⟩ := hg
    have hw : ∀ x ∈ q, WF T S x.1 ∧ WF T S x.2 := by
      intro x hx
      rcases List.mem_append.1 (hq.sub x hx) with h | h
      · obtain ⟨w, hw, hx⟩ := List.mem_flatMap.1 h
        exact powPair_WF (ht w hw) x hx
      · rw [List.mem_singleton.1 h]; exact hh.pow_inv
    obtain ⟨b', es⟩ := p
    have hs := hq.snd
    dsimp only at hs
    subst hs
    obtain ⟨e', he'⟩ := hq.fst
    refine WF.powItem (by simpa using hq.ne) (hw _ he').1 ?_
    intro v hv
    obtain ⟨x, hx, rfl⟩ := List.mem_map.1 hv
    exact (hw x hx).2
  · refine .mkProd ?_ ?_
    · have := List.length_pos_iff.2 hne; simp only [List.length_append, List.length_singleton]; omega
    · intro v hv
      rcases List.mem_append.1 hv with hv | hv
      · exact ht v hv
      · rw [List.mem_singleton.1 hv]; exact hh

include hF hS in
theorem WF.combineAdd {h : Expr K} {t : List (Expr K)} (hh : WF T S h)
    (ht : ∀ v ∈ t, WF T S v) : WF T S (combineAdd C h t) := by
  unfold Verif.Sym.combineAdd
  split
  · exact .con (foldl_S hS.add (hS.add _ _ (hF.ofInt 0 (by simp)) hh.con_inv) (consts_WF ht))
  · rename_i vs
    refine .mkAdd ?_ ?_
    · cases hh with | add h _ => simp [h]
    · intro v hv
      rcases List.mem_append.1 hv with hv | hv
      · exact hh.terms_mem v hv
      · obtain ⟨w, hw, hv⟩ := List.mem_flatMap.1 hv
        exact (ht w hw).terms v hv
  · refine .mkAdd (by simp) ?_
    intro v hv
    rcases List.mem_append.1 hv with hv | hv
    · exact ht v hv
    · rw [List.mem_singleton.1 hv]; exact .mkProd hh.two hh.factors_mem
  · refine .mkAdd (by simp) ?_
    intro v hv
    rcases List.mem_append.1 hv with hv | hv
    · exact ht v hv
    · rw [List.mem_singleton.1 hv]; exact hh

include hF in
theorem WF.toPow {v : Expr K} (h : WF T S v) : WF T S (toPow C v) := by
  unfold Verif.Sym.toPow
  split
  · exact .pow h (.one hF)
  · exact h

include hF in
theorem WF.asPow {v : Expr K} (h : WF T S v) : WF T S (asPow C v) := by
  unfold Verif.Sym.asPow
  split
  · exact h
  · exact .pow h (.one hF)

include hF in
theorem WF.scale (hS : C.Closed S) {v : Expr K} (h : WF T S v) : WF T S (scale C v) := by
  unfold Verif.Sym.scale
  split
  · exact h
  · rename_i vs
    refine .con ?_
    have hc := consts_WF h.factors_mem
    revert hc
    generalize consts vs = cs
    intro hc
    unfold foldConsts
    split
    · exact hF.ofInt 1 (by simp)
    · split
      · exact hF.ofInt 0 (by simp)
      · exact foldl_S hS.mul (hc _ (by simp)) fun d hd => hc d (by simp [hd])
  · exact .one hF

/-- What is assumed of the calls of `Simplify`. -/
def KeepsWF (T : Tables) (S : K → Prop) (f : Expr K → Option (Expr K)) : Prop :=
  ∀ e e', WF T S e → f e = some e' → WF T S e'

theorem mapO_WF {f : Expr K → Option (Expr K)} (hf : KeepsWF T S f) {l l' : List (Expr K)}
    (h : mapO f l = some l') (hl : ∀ v ∈ l, WF T S v) : ∀ v ∈ l', WF T S v := by
  intro v hv
  obtain ⟨a, ha, hav⟩ := mapO_mem h v hv
  exact hf a v (hl a ha) hav

/-- The grouped objects of `ProductVecSimplify`. -/
def grouped (C : Cfg K) (l : List (Expr K)) : List (Expr K) :=
  ((groupTy (l.map (toPow C))).map fun p => if p.2.isEmpty then p.1 else combineProd C p.1 p.2).flatMap
    Expr.factors

theorem prodVec_eq (C : Cfg K) (f : Expr K → Option (Expr K)) (l : List (Expr K)) : prodVec C f l =
    (mapO f ((grouped C l).filter fun v => !isOne C v)).map fun t =>
      if t.isEmpty && (grouped C l).any (isOne C) then [conI C 1] else t := rfl

include hF hS in
theorem grouped_WF {l : List (Expr K)} (hl : ∀ v ∈ l, WF T S v) :
    (∀ v ∈ grouped C l, WF T S v) ∧ (l ≠ [] → grouped C l ≠ []) := by
  have hm : ∀ v ∈ l.map (toPow C), WF T S v := by
    intro v hv
    obtain ⟨w, hw, rfl⟩ := List.mem_map.1 hv
    exact (hl w hw).toPow hF
  have hc : ∀ p ∈ groupTy (l.map (toPow C)),
      WF T S (if p.2.isEmpty then p.1 else combineProd C p.1 p.2) := by
    intro p hp
    obtain ⟨h1, h2⟩ := groupTy_mem _ p hp
    split
    · exact hm _ h1
    · rename_i hne
      exact WF.combineProd hS (by simpa using hne) (hm _ h1) fun v hv => hm _ (h2 v hv).1
  constructor
  · intro v hv
    obtain ⟨w, hw, hv⟩ := List.mem_flatMap.1 hv
    obtain ⟨p, hp, rfl⟩ := List.mem_map.1 hw
    exact (hc p hp).factors v hv
  · intro hne h0
    have hg : groupTy (l.map (toPow C)) ≠ [] := groupTy_ne (by simpa using hne)
    unfold grouped at h0
    match hgt : groupTy (l.map (toPow C)), hg with
    | p :: ps, _ =>
      rw [hgt, List.map_cons, List.flatMap_cons, List.append_eq_nil_iff] at h0
      exact (hc p (by rw [hgt]; simp)).factors_ne h0.1

include hF hS in
theorem prodVec_WF {f : Expr K → Option (Expr K)} (hf : KeepsWF T S f) {l t : List (Expr K)}
    (hl : ∀ v ∈ l, WF T S v) (hne : l ≠ []) (h : prodVec C f l = some t) :
    (∀ v ∈ t, WF T S v) ∧ t ≠ [] := by
  rw [prodVec_eq, Option.map_eq_some_iff] at h
  obtain ⟨t', h1, rfl⟩ := h
  obtain ⟨g1, g2⟩ := grouped_WF hF hS hl
  have g2 := g2 hne
  have ht' := mapO_WF hf h1 fun v hv => g1 v (List.mem_filter.1 hv).1
  split
  · refine ⟨?_, by simp⟩
    intro v hv
    rw [List.mem_singleton.1 hv]; exact .one hF
  · rename_i hc
    refine ⟨ht', ?_⟩
    rintro rfl
    apply hc
    have hlen := mapO_length h1
    rw [List.length_nil, eq_comm, List.length_eq_zero_iff] at hlen
    simp only [List.isEmpty_nil, Bool.true_and, List.any_eq_true]
    match hgr : grouped C l, g2 with
    | v :: vs, _ =>
      refine ⟨v, by simp, ?_⟩
      by_contra hv
      have : v ∈ (grouped C l).filter fun v => !isOne C v := by
        rw [List.mem_filter, hgr]
        exact ⟨by simp, by simpa using hv⟩
      rw [hlen] at this
      cases this

include hF in
theorem thirdItem_WF {v : Expr K} (h : WF T S v) :
    (∀ w ∈ thirdItem C v, WF T S w) ∧ thirdItem C v ≠ [] := by
  unfold thirdItem
  split
  · obtain ⟨hb, he⟩ := h.pow_inv
    split
    · exact ⟨by simpa using hb, by simp⟩
    · refine ⟨fun w hw => ?_, by simp⟩
      rcases List.mem_append.1 hw with hw | hw
      · exact hb.factors w hw
      · rw [List.mem_singleton.1 hw]
        exact .pow hb (.minus hF he (.one hF))
  · exact ⟨by simpa using h.clone, by simp⟩

include hF hS in
theorem reduce_WF {f : Expr K → Option (Expr K)} (hf : KeepsWF T S f) : ∀ (k : Nat)
    {l t : List (Expr K)}, (∀ v ∈ l, WF T S v) → l ≠ [] → reduce C f k l = some t →
    (∀ v ∈ t, WF T S v) ∧ t ≠ []
  | 0, _, _, _, _, h => by simp [reduce] at h
  | k + 1, l, t, hl, hne, h => by
    simp only [reduce] at h
    split at h
    · rename_i t' ht'
      have h' := prodVec_WF hF hS hf hl hne ht'
      split at h
      · exact reduce_WF hf k h'.1 h'.2 h
      · cases h; exact h'
    · cases h

theorem shorter_cases (C : Cfg K) (a b : Expr K) : shorter C a b = a ∨ shorter C a b = b := by
  unfold shorter
  split
  · exact .inr rfl
  · exact .inl rfl

/-- `prodSimp` for more than one factor, step by step. -/
theorem prodSimp_cases {f : Expr K → Option (Expr K)} {vs : List (Expr K)} {e' : Expr K}
    (h : prodSimp C f vs = some e') :
    (vs.any (isZero C) = true ∧ e' = conI C 0) ∨ (∃ v, vs = [v] ∧ f v = some e') ∨
    ∃ t0 tv, mapO f vs = some t0 ∧ prodVec C f t0 = some tv ∧
      (e' = single C tv ∨ (1 < tv.length ∧ ∃ t, prodVec C f (C.srt (tv.map (asPow C))) = some t ∧ e' = single C t) ∨
        ∃ k t, reduce C f k (tv.flatMap (thirdItem C)) = some t ∧ e' = single C t) := by
  unfold prodSimp at h
  split at h
  · rename_i hz; cases h; exact .inl ⟨hz, rfl⟩
  · split at h
    · exact .inr (.inl ⟨_, rfl, h⟩)
    · split at h
      · cases h
      · rename_i t0 h0
        split at h
        · cases h
        · rename_i tv hv
          split at h
          · cases h
          · rename_i out hout
            rw [Option.map_eq_some_iff] at h
            obtain ⟨t, ht, rfl⟩ := h
            refine .inr (.inr ⟨t0, tv, h0, hv, ?_⟩)
            rcases shorter_cases C out (single C t) with h | h
            · rw [h]
              split at hout
              · rw [Option.map_eq_some_iff] at hout
                obtain ⟨t2, ht2, rfl⟩ := hout
                rcases shorter_cases C (single C tv) (single C t2) with h | h
                · rw [h]; exact .inl rfl
                · rw [h]; exact .inr (.inl ⟨‹_›, t2, ht2, rfl⟩)
              · cases hout; exact .inl rfl
            · rw [h]; exact .inr (.inr ⟨_, t, ht, rfl⟩)

include hF hS in
theorem prodSimp_WF {f : Expr K → Option (Expr K)} (hf : KeepsWF T S f) {vs : List (Expr K)}
    (hv : ∀ v ∈ vs, WF T S v) (hne : vs ≠ []) {e' : Expr K} (h : prodSimp C f vs = some e') :
    WF T S e' := by
  rcases prodSimp_cases h with ⟨_, rfl⟩ | ⟨v, rfl, h'⟩ | ⟨t0, tv, h0, h1, h⟩
  · exact .zero hF
  · exact hf v _ (hv v (by simp)) h'
  · have w0 := mapO_WF hf h0 hv
    have n0 : t0 ≠ [] := by
      intro h'; have := mapO_length h0; rw [h'] at this
      exact hne (List.length_eq_zero_iff.1 this.symm)
    obtain ⟨wv, nv⟩ := prodVec_WF hF hS hf w0 n0 h1
    rcases h with rfl | ⟨_, t, ht, rfl⟩ | ⟨k, t, ht, rfl⟩
    · exact .single nv wv
    · have hp := C.srt_perm (tv.map (asPow C))
      have := prodVec_WF hF hS hf (l := C.srt (tv.map (asPow C))) (fun v hv => by
        obtain ⟨w, hw, rfl⟩ := List.mem_map.1 (hp.mem_iff.1 hv)
        exact (wv w hw).asPow hF) (fun h0 => nv (by
          rw [h0] at hp
          simpa using hp.symm.eq_nil)) ht
      exact .single this.2 this.1
    · have := reduce_WF hF hS hf k (l := tv.flatMap (thirdItem C)) (fun v hv => by
        obtain ⟨w, hw, hv⟩ := List.mem_flatMap.1 hv
        exact (thirdItem_WF hF (wv w hw)).1 v hv) (fun h0 => by
          match tv, nv, wv, h0 with
          | w :: ws, _, wv, h0 =>
            rw [List.flatMap_cons, List.append_eq_nil_iff] at h0
            exact (thirdItem_WF hF (wv w (by simp))).2 h0.1) ht
      exact .single this.2 this.1

include hF hS in
theorem like_WF {f : Expr K → Option (Expr K)} (hf : KeepsWF T S f) (l : List (Expr K)) :
    ∀ {t : List (Expr K)}, (∀ v ∈ l, WF T S v) → like C f l = some t →
    (∀ v ∈ t, WF T S v) ∧ (l ≠ [] → t ≠ []) := by
  induction l using filter_ind (p := fun v u => str C (unscaled C v) != str C (unscaled C u)) with
  | h0 => intro t _ h; rw [like] at h; cases h; simp
  | h1 v r ih =>
    intro t hl h
    rw [like] at h
    split at h
    · cases h
    · rename_i fact hfact
      have wf : WF T S fact := by
        refine hf _ _ (.mkAdd (by simp) ?_) hfact
        intro w hw
        rcases List.mem_cons.1 hw with rfl | hw
        · exact (hl v (by simp)).scale hF hS
        · obtain ⟨u, hu, rfl⟩ := List.mem_map.1 hw
          exact (hl u (by simp [(List.mem_filter.1 hu).1])).scale hF hS
      split at h
      · rename_i x vs hx hvs
        cases h
        refine ⟨?_, by simp⟩
        intro w hw
        rcases List.mem_cons.1 hw with rfl | hw
        · have wu := (hl v (by simp)).unscaled hF
          split at hx
          · cases hx; exact wu
          · exact hf _ _ (.mul hF wf wu) hx
        · exact (ih (fun u hu => hl u (by simp [(List.mem_filter.1 hu).1])) hvs).1 w hw
      · cases h

/-- `addSimp` for more than one term, step by step. -/
theorem addSimp_cases {f : Expr K → Option (Expr K)} {vs : List (Expr K)} {e' : Expr K}
    (h : addSimp C f vs = some e') : (∃ v, vs = [v] ∧ f v = some e') ∨
    ∃ t0 t3 l, mapO f vs = some t0 ∧
      mapO f (((groupTy t0).map fun p => if p.2.isEmpty then p.1 else combineAdd C p.1 p.2).flatMap
        Expr.terms) = some t3 ∧
      like C f (t3.filter fun v => !isZero C v) = some l ∧
      ((l = [] ∧ e' = conI C 0) ∨ l = [e'] ∨ (2 ≤ l.length ∧ e' = mkAdd C l)) := by
  unfold addSimp at h
  split at h
  · exact .inl ⟨_, rfl, h⟩
  · split at h
    · cases h
    · rename_i t0 h0
      dsimp only at h
      split at h
      · cases h
      · rename_i t3 h3
        rw [Option.map_eq_some_iff] at h
        obtain ⟨l, hl, h⟩ := h
        refine .inr ⟨t0, t3, l, h0, h3, hl, ?_⟩
        split at h
        · exact .inl ⟨rfl, h.symm⟩
        · exact .inr (.inl (by rw [h]))
        · rename_i h1 h2
          refine .inr (.inr ⟨?_, h.symm⟩)
          match l, h1, h2 with
          | [], h1, _ => exact absurd rfl h1
          | [v], _, h2 => exact absurd rfl (h2 v)
          | _ :: _ :: _, _, _ => simp

include hF hS in
theorem addSimp_WF {f : Expr K → Option (Expr K)} (hf : KeepsWF T S f) {vs : List (Expr K)}
    (hv : ∀ v ∈ vs, WF T S v) {e' : Expr K} (h : addSimp C f vs = some e') : WF T S e' := by
  rcases addSimp_cases h with ⟨v, rfl, h'⟩ | ⟨t0, t3, l, h0, h3, hl, h⟩
  · exact hf v _ (hv v (by simp)) h'
  · have w0 := mapO_WF hf h0 hv
    have w3 := mapO_WF hf h3 (by
      intro v hv
      obtain ⟨w, hw, hv⟩ := List.mem_flatMap.1 hv
      obtain ⟨p, hp, rfl⟩ := List.mem_map.1 hw
      obtain ⟨h1, h2⟩ := groupTy_mem _ p hp
      refine WF.terms ?_ v hv
      split
      · exact w0 _ h1
      · exact WF.combineAdd hF hS (w0 _ h1) fun v hv => w0 _ (h2 v hv).1)
    obtain ⟨wl, _⟩ := like_WF hF hS hf _ (fun v hv => w3 v (List.mem_filter.1 hv).1) hl
    rcases h with ⟨_, rfl⟩ | rfl | ⟨hn, rfl⟩
    · exact .zero hF
    · exact wl _ (by simp)
    · exact .mkAdd (by rintro rfl; simp at hn) wl

include hF hS in
/-- Simplification keeps expressions well-formed. -/
theorem simp_WF : ∀ (n : Nat), KeepsWF T S (simp C n)
  | 0 => by intro e e' _ h; simp [Verif.Sym.simp] at h
  | n + 1 => by
    intro e e' hw h
    have ih := simp_WF n
    simp only [Verif.Sym.simp] at h
    split at h
    · exact addSimp_WF hF hS ih hw.terms_mem h
    · refine prodSimp_WF hF hS ih hw.factors_mem ?_ h
      have := hw.two
      rintro rfl; simp at this
    · split at h
      · cases h; exact .one hF
      · split at h
        · cases h; exact hw.exp_inv.log_inv
        · rw [Option.map_eq_some_iff] at h
          obtain ⟨a', ha, rfl⟩ := h
          exact .exp (ih _ _ hw.exp_inv ha)
    · split at h
      · cases h; exact .zero hF
      · split at h
        · cases h; exact hw.log_inv.exp_inv
        · cases h
          have := hw.log_inv.pow_inv
          exact .mul hF this.2 (.log this.1)
        · rw [Option.map_eq_some_iff] at h
          obtain ⟨a', ha, rfl⟩ := h
          exact .log (ih _ _ hw.log_inv ha)
    · rename_i b e
      obtain ⟨hb, he⟩ := hw.pow_inv
      split at h
      · rename_i b' e'' hb' he'
        have wb := ih _ _ hb hb'
        have we := ih _ _ he he'
        split at h
        · cases h; exact .one hF
        · split at h
          · cases h; exact hb
          · split at h
            · cases h; exact .one hF
            · split at h
              · cases h; exact .zero hF
              · split at h
                · cases h; exact .con (hS.pow _ _ wb.con_inv we.con_inv)
                · rw [Option.map_eq_some_iff] at h
                  obtain ⟨a', ha, rfl⟩ := h
                  exact .pow wb.pow_inv.1 (ih _ _ (.mul hF wb.pow_inv.2 we) ha)
                · cases h; exact .pow wb we
      · cases h
    · rw [Option.map_eq_some_iff] at h
      obtain ⟨as', ha, rfl⟩ := h
      cases hw with
      | user h1 h2 h3 h4 h5 hv =>
        have hl := mapO_length ha
        refine .user h1 h2 h3 (by rw [h4, hl]) ?_ (mapO_WF ih ha hv)
        rintro rfl
        rw [List.length_nil, eq_comm, List.length_eq_zero_iff] at hl
        exact h5 hl
    · cases h; exact hw

end

end Verif.Sym
