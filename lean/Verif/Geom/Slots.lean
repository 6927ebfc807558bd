import Verif.Geom.Connect

/-!
# The slots of an element
-/

namespace Verif.Geom

/-- What is in slot `j` of element `t`. -/
def slot (tab : List (List (Option Nat))) (t j : Nat) : Option Nat := (tab.getD t []).getD j none

/-- The shape of a table of slots. -/
def Shape (N k : Nat) (tab : List (List (Option Nat))) : Prop := tab.length = N ∧ ∀ l ∈ tab, l.length = k

theorem shape_init (N k : Nat) : Shape N k (List.replicate N (List.replicate k none)) := by
  refine ⟨by simp, ?_⟩
  intro l hl
  rw [List.eq_of_mem_replicate hl]; simp

theorem slot_init (N k t j : Nat) : slot (List.replicate N (List.replicate k none)) t j = none := by
  unfold slot
  by_cases ht : t < N
  · simp [List.getD_eq_getElem?_getD, List.getElem?_replicate, ht]
    split <;> rfl
  · simp [List.getD_eq_getElem?_getD, List.getElem?_replicate, ht]

variable (els : List Elem) (k : Nat)

theorem putSlot_shape {s : Elem} {i : Nat} {tab : List (List (Option Nat))} {t N : Nat} (h : Shape N k tab) :
    Shape N k (putSlot els s i tab t) := by
  unfold putSlot
  split
  · refine ⟨by simpa using h.1, ?_⟩
    intro l hl
    rw [List.mem_iff_getElem?] at hl
    obtain ⟨p, hp⟩ := hl
    rw [List.getElem?_modify] at hp
    cases hq : tab[p]? with
    | none => simp [hq] at hp
    | some l' =>
      have := h.2 l' (List.mem_of_getElem? hq)
      rw [hq] at hp
      by_cases e : t = p
      · subst e; simp at hp; subst hp; simpa using this
      · simp [e] at hp; subst hp; exact this
  · exact h

theorem putSlot_slot {s : Elem} {i : Nat} {tab : List (List (Option Nat))} {t t' j : Nat} (h : Shape els.length k tab)
    (hk : ∀ e ∈ els, e.length = k) :
    slot (putSlot els s i tab t) t' j =
      if t = t' ∧ (els.getD t []).findIdx? (· ∉ s) = some j then some i else slot tab t' j := by
  unfold putSlot
  cases hf : (els.getD t []).findIdx? (· ∉ s) with
  | none => simp
  | some j' =>
    by_cases ht : t = t'
    · subst ht
      have hlt : t < els.length := by
        by_contra hc
        rw [List.getD_eq_getElem?_getD, List.getElem?_eq_none (by omega)] at hf
        simp at hf
      have hjk : j' < k := by
        have := List.findIdx?_eq_some_iff_findIdx_eq.1 hf
        rw [← hk (els.getD t []) (by rw [List.getD_eq_getElem?_getD, List.getElem?_eq_getElem hlt]; exact List.getElem_mem _)]
        exact this.1
      have htl : t < tab.length := by rw [h.1]; exact hlt
      have hr : tab[t].length = k := h.2 _ (List.getElem_mem _)
      simp only [slot, List.getD_eq_getElem?_getD, List.getElem?_modify_eq, List.getElem?_eq_getElem htl,
        Option.map_eq_map, Option.map_some, Option.getD_some, true_and, Option.some.injEq]
      by_cases hj : j' = j
      · subst hj
        rw [List.getElem?_set_self (by rw [hr]; exact hjk)]
        simp
      · rw [List.getElem?_set_ne hj, if_neg hj]
    · simp only [slot, List.getD_eq_getElem?_getD, List.getElem?_modify_ne _ _ ht, ht, false_and, if_false]

/-- Element `p` belongs into slot `j` of element `t`. -/
def Belongs (p : (Elem × List Nat) × Nat) (t j : Nat) : Prop :=
  t ∈ p.1.2 ∧ (els.getD t []).findIdx? (· ∉ p.1.1) = some j

theorem inner_spec {s : Elem} {i : Nat} (hk : ∀ e ∈ els, e.length = k) (ts : List Nat) :
    ∀ (tab : List (List (Option Nat))), Shape els.length k tab →
    Shape els.length k (ts.foldl (putSlot els s i) tab) ∧
    ∀ t j, (Belongs els ((s, ts), i) t j → slot (ts.foldl (putSlot els s i) tab) t j = some i) ∧
      (¬ Belongs els ((s, ts), i) t j → slot (ts.foldl (putSlot els s i) tab) t j = slot tab t j) := by
  induction ts with
  | nil => intro tab h; exact ⟨h, fun t j => ⟨fun hb => by simp [Belongs] at hb, fun _ => rfl⟩⟩
  | cons t0 ts ih =>
    intro tab h
    have h0 := putSlot_shape els k (s := s) (i := i) (t := t0) h
    obtain ⟨h1, h2⟩ := ih _ h0
    refine ⟨h1, fun t j => ?_⟩
    have h3 := putSlot_slot els k (s := s) (i := i) (t := t0) (t' := t) (j := j) h hk
    obtain ⟨h4, h5⟩ := h2 t j
    rw [List.foldl_cons]
    constructor
    · rintro ⟨hm, hf⟩
      by_cases hm' : t ∈ ts
      · exact h4 ⟨hm', hf⟩
      · have : t0 = t := by
          rcases List.mem_cons.1 hm with e | e
          · exact e.symm
          · exact absurd e hm'
        subst this
        rw [h5 (fun hb => hm' hb.1), h3, if_pos ⟨rfl, hf⟩]
    · intro hb
      rw [h5 (fun hb' => hb ⟨List.mem_cons_of_mem _ hb'.1, hb'.2⟩), h3, if_neg]
      rintro ⟨rfl, hf⟩
      exact hb ⟨List.mem_cons_self, hf⟩

theorem outer_spec (hk : ∀ e ∈ els, e.length = k) (L : List ((Elem × List Nat) × Nat)) :
    ∀ (tab : List (List (Option Nat))), Shape els.length k tab →
    Shape els.length k (L.foldl (fun tab p => p.1.2.foldl (putSlot els p.1.1 p.2) tab) tab) ∧
    ∀ t j, ((∀ p ∈ L, ¬ Belongs els p t j) →
        slot (L.foldl (fun tab p => p.1.2.foldl (putSlot els p.1.1 p.2) tab) tab) t j = slot tab t j) ∧
      ∀ i, (∃ p ∈ L, Belongs els p t j) → (∀ p ∈ L, Belongs els p t j → p.2 = i) →
        slot (L.foldl (fun tab p => p.1.2.foldl (putSlot els p.1.1 p.2) tab) tab) t j = some i := by
  induction L with
  | nil => intro tab h; exact ⟨h, fun t j => ⟨fun _ => rfl, fun i ⟨p, hp, _⟩ _ => by simp at hp⟩⟩
  | cons p L ih =>
    intro tab h
    obtain ⟨h1, h2⟩ := inner_spec els k (s := p.1.1) (i := p.2) hk p.1.2 tab h
    obtain ⟨h3, h4⟩ := ih _ h1
    refine ⟨h3, fun t j => ?_⟩
    obtain ⟨h5, h6⟩ := h4 t j
    obtain ⟨h7, h8⟩ := h2 t j
    rw [List.foldl_cons]
    refine ⟨fun hb => ?_, fun i he hu => ?_⟩
    · rw [h5 fun q hq => hb q (List.mem_cons_of_mem _ hq)]
      exact h8 (hb p List.mem_cons_self)
    · by_cases hL : ∃ q ∈ L, Belongs els q t j
      · exact h6 i hL fun q hq => hu q (List.mem_cons_of_mem _ hq)
      · have hL' : ∀ q ∈ L, ¬ Belongs els q t j := fun q hq hb => hL ⟨q, hq, hb⟩
        rw [h5 hL']
        obtain ⟨q, hq, hb⟩ := he
        rcases List.mem_cons.1 hq with rfl | hq
        · rw [h7 hb, hu q List.mem_cons_self hb]
        · exact absurd hb (hL' q hq)

/-- An element is given by increasing nodes of the region. -/
def IsElem (n m : Nat) (e : Elem) : Prop := e.length = m ∧ e.Pairwise (· < ·) ∧ ∀ v ∈ e, v < n

/-- A strictly increasing list that is part of another one with one node more is that list without
one node, and that node is the first one that is missing. -/
theorem missing_one {s e : Elem} (hs : s.Pairwise (· < ·)) (he : e.Pairwise (· < ·))
    (hl : e.length = s.length + 1) (j : Nat) :
    ((∀ v ∈ s, v ∈ e) ∧ e.findIdx? (· ∉ s) = some j) ↔ (j < e.length ∧ s = e.eraseIdx j) := by
  have hsn : s.Nodup := hs.imp fun h => ne_of_lt h
  have hen : e.Nodup := he.imp fun h => ne_of_lt h
  constructor
  · rintro ⟨hsub, hf⟩
    obtain ⟨hj, h1, h2⟩ := List.findIdx?_eq_some_iff_getElem.1 hf
    simp only [decide_not, Bool.not_eq_eq_eq_not, Bool.not_true, decide_eq_false_iff_not] at h1
    refine ⟨hj, ?_⟩
    have hsub' : s ⊆ e.eraseIdx j := by
      intro v hv
      obtain ⟨p, hp⟩ := List.mem_iff_getElem?.1 (hsub v hv)
      rw [List.mem_eraseIdx_iff_getElem?]
      refine ⟨p, ?_, hp⟩
      rintro rfl
      rw [List.getElem?_eq_getElem hj] at hp
      cases hp
      exact h1 hv
    have hp : s.Perm (e.eraseIdx j) :=
      (List.subperm_of_subset hsn hsub').perm_of_length_le (by rw [List.length_eraseIdx_of_lt hj]; omega)
    exact hp.eq_of_pairwise (fun a b _ _ h1 h2 => absurd h2 (by omega)) hs (he.sublist (List.eraseIdx_sublist _ _))
  · rintro ⟨hj, rfl⟩
    refine ⟨fun v hv => List.mem_of_mem_eraseIdx hv, ?_⟩
    rw [List.findIdx?_eq_some_iff_getElem]
    refine ⟨hj, ?_, ?_⟩
    · simp only [decide_not, Bool.not_eq_eq_eq_not, Bool.not_true, decide_eq_false_iff_not]
      rw [List.mem_eraseIdx_iff_getElem?]
      rintro ⟨p, hp, hpe⟩
      obtain ⟨hpl, hpe⟩ := List.getElem?_eq_some_iff.1 hpe
      exact hp ((List.Nodup.getElem_inj_iff hen).1 hpe)
    · intro p hp
      simp only [decide_not, Bool.not_eq_eq_eq_not, Bool.not_true, decide_eq_false_iff_not, not_not]
      rw [List.mem_eraseIdx_iff_getElem?]
      exact ⟨p, by omega, List.getElem?_eq_getElem _⟩

/-- **The slots of an element**: in slot `j` is the part of the element that does not contain its node `j`;
the slot is empty exactly when the region has no such part. -/
theorem fillSlots_spec {n m : Nat} {subs : List Elem} (hm : m ≠ 0) (hels : ∀ e ∈ els, IsElem n (m + 1) e)
    (hsubs : ∀ s ∈ subs, IsElem n m s) (hnd : subs.Nodup) {t : Nat} {e : Elem} (ht : els[t]? = some e) {j : Nat}
    (hj : j < m + 1) (i : Nat) :
    slot (fillSlots (m + 1) els subs (partOf n els subs)) t j = some i ↔ subs[i]? = some (e.eraseIdx j) := by
  have hk : ∀ e ∈ els, e.length = m + 1 := fun e he => (hels e he).1
  have hed : ∀ e ∈ els, e.Nodup := fun e he => (hels e he).2.1.imp fun h => ne_of_lt h
  have he := hels e (List.mem_of_getElem? ht)
  obtain ⟨-, h2⟩ := outer_spec els (m + 1) hk ((subs.zip (partOf n els subs)).zipIdx) _ (shape_init els.length (m + 1))
  obtain ⟨h3, h4⟩ := h2 t j
  have hget : els.getD t [] = e := by rw [List.getD_eq_getElem?_getD, ht]; rfl
  have key : ∀ p ∈ (subs.zip (partOf n els subs)).zipIdx, Belongs els p t j ↔ subs[p.2]? = some (e.eraseIdx j) := by
    intro p hp
    obtain ⟨⟨s, ts⟩, i⟩ := p
    rw [List.mk_mem_zipIdx_iff_getElem?] at hp
    have hp' := hp
    rw [List.getElem?_zip_eq_some] at hp'
    obtain ⟨hs, hts⟩ := hp'
    simp only at hs hts
    have hS := hsubs s (List.mem_of_getElem? hs)
    have hts' : ts = common (nodeTo n els) s := by
      rw [partOf, List.getElem?_map, hs] at hts
      simpa using hts.symm
    have hne : s ≠ [] := by
      intro h0; rw [h0] at hS; exact hm hS.1.symm
    obtain ⟨-, hc⟩ := common_spec hed hne hS.2.2
    have := missing_one hS.2.1 he.2.1 (by rw [he.1, hS.1]) j
    show (t ∈ ts ∧ (els.getD t []).findIdx? (· ∉ s) = some j) ↔ _
    rw [hts', hc, hget, hs]
    constructor
    · rintro ⟨⟨e', he', hv⟩, hf⟩
      rw [ht] at he'; cases he'
      rw [(this.1 ⟨hv, hf⟩).2]
    · intro hse
      have hse := Option.some.inj hse
      obtain ⟨hv, hf⟩ := this.2 ⟨by rw [he.1]; exact hj, hse⟩
      exact ⟨⟨e, ht, hv⟩, hf⟩
  have hmem : ∀ i, subs[i]? = some (e.eraseIdx j) → ∃ p ∈ (subs.zip (partOf n els subs)).zipIdx, p.2 = i ∧ Belongs els p t j := by
    intro i hi
    have : (subs.zip (partOf n els subs))[i]? = some (e.eraseIdx j, common (nodeTo n els) (e.eraseIdx j)) := by
      rw [List.getElem?_zip_eq_some]
      refine ⟨hi, ?_⟩
      rw [partOf, List.getElem?_map, hi]
      rfl
    refine ⟨((e.eraseIdx j, common (nodeTo n els) (e.eraseIdx j)), i), ?_, rfl, ?_⟩
    · rw [List.mk_mem_zipIdx_iff_getElem?]; exact this
    · exact (key _ (by rw [List.mk_mem_zipIdx_iff_getElem?]; exact this)).2 hi
  have huniq : ∀ i i' : Nat, subs[i]? = some (e.eraseIdx j) → subs[i']? = some (e.eraseIdx j) → i' = i := by
    intro i i' h h'
    obtain ⟨hl, h⟩ := List.getElem?_eq_some_iff.1 h
    obtain ⟨hl', h'⟩ := List.getElem?_eq_some_iff.1 h'
    exact (List.Nodup.getElem_inj_iff hnd).1 (h'.trans h.symm)
  have hsome : ∀ i, subs[i]? = some (e.eraseIdx j) →
      slot (fillSlots (m + 1) els subs (partOf n els subs)) t j = some i := by
    intro i hi
    obtain ⟨p, hp, hpi, hb⟩ := hmem i hi
    refine h4 i ⟨p, hp, hb⟩ fun q hq hb' => ?_
    exact huniq i q.2 hi ((key q hq).1 hb')
  constructor
  · intro h
    by_cases hex : ∃ i' : Nat, subs[i']? = some (e.eraseIdx j)
    · obtain ⟨i', hi'⟩ := hex
      have := hsome i' hi'
      rw [h] at this
      cases this
      exact hi'
    · have := h3 fun p hp hb => hex ⟨p.2, (key p hp).1 hb⟩
      rw [slot_init] at this
      have h' : slot (fillSlots (m + 1) els subs (partOf n els subs)) t j = none := this
      rw [h'] at h
      cases h
  · exact hsome i

theorem fillSlots_none {n m : Nat} {subs : List Elem} (hm : m ≠ 0) (hels : ∀ e ∈ els, IsElem n (m + 1) e)
    (hsubs : ∀ s ∈ subs, IsElem n m s) (hnd : subs.Nodup) {t : Nat} {e : Elem} (ht : els[t]? = some e) {j : Nat}
    (hj : j < m + 1) :
    slot (fillSlots (m + 1) els subs (partOf n els subs)) t j = none ↔ e.eraseIdx j ∉ subs := by
  rw [← not_iff_not, ← ne_eq, Option.ne_none_iff_exists', not_not, List.mem_iff_getElem?]
  exact exists_congr fun i => fillSlots_spec els hm hels hsubs hnd ht hj i

theorem fillSlots_shape {n m : Nat} {subs : List Elem} (hels : ∀ e ∈ els, IsElem n (m + 1) e) :
    Shape els.length (m + 1) (fillSlots (m + 1) els subs (partOf n els subs)) :=
  (outer_spec els (m + 1) (fun e he => (hels e he).1) _ _ (shape_init els.length (m + 1))).1

end Verif.Geom
