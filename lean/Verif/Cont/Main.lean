import Verif.Cont.Model
/-!
# C101: models at a contact
-/
namespace Verif.Cont

open Classical

variable {α : Type}

/-! ### Indexes -/

theorem sorted_sort (l : List Nat) : (l.mergeSort (· ≤ ·)).Pairwise (· ≤ ·) := by
  have h := List.pairwise_mergeSort (le := fun a b : Nat => decide (a ≤ b))
    (by intro a b c h1 h2; simp only [decide_eq_true_eq] at *; omega)
    (by intro a b; simp only [Bool.or_eq_true, decide_eq_true_eq]; omega) l
  exact h.imp fun h => by simpa using h

/-- The indexes of a node model are the nodes of the contact, each once. -/
theorem node_indexes (contact : List Nat) :
    (∀ i, i ∈ nodeIndexes contact ↔ i ∈ contact) ∧ (nodeIndexes contact).Pairwise (· ≤ ·) ∧
    ((nodeIndexes contact).Nodup ↔ contact.Nodup) :=
  ⟨fun _ => (List.mergeSort_perm _ _).mem_iff, sorted_sort _, (List.mergeSort_perm _ _).nodup_iff⟩

/-- The indexes of an edge model are the edges with a node on the contact. -/
theorem edge_indexes (nte : Nat → List Nat) (contact : List Nat) :
    (∀ e, e ∈ edgeIndexes nte contact ↔ ∃ v ∈ contact, e ∈ nte v) ∧ (edgeIndexes nte contact).Pairwise (· ≤ ·) := by
  refine ⟨fun e => ?_, sorted_sort _⟩
  rw [edgeIndexes, (List.mergeSort_perm _ _).mem_iff, List.mem_flatMap]

/-- An edge is there once for each node of the contact that has it. -/
theorem edge_count (nte : Nat → List Nat) (hn : ∀ v, (nte v).Nodup) (contact : List Nat) (e : Nat) :
    (edgeIndexes nte contact).count e = contact.countP (fun v => decide (e ∈ nte v)) := by
  rw [edgeIndexes, (List.mergeSort_perm _ _).count_eq]
  induction contact with
  | nil => rfl
  | cons v l ih =>
    rw [List.flatMap_cons, List.count_append, ih, List.countP_cons]
    by_cases h : e ∈ nte v
    · rw [(List.nodup_iff_count_eq_one.1 (hn v)) e h]
      simp [h, Nat.add_comm]
    · rw [List.count_eq_zero_of_not_mem h]
      simp [h]

/-! ### The loop -/

/-- The function is called at `i`: it is an index, or there is an index before it that is there twice. -/
def Called (ix : List Nat) (i : Nat) : Prop := i ∈ ix ∨ ∃ d < i, 2 ≤ ix.count d

/-- The points at which it is called, of the `n` points. -/
noncomputable def calls (ix : List Nat) (n : Nat) : List Nat := (List.range n).filter fun i => decide (Called ix i)

theorem loop_all (zero : α) (g : Nat → α × String) : ∀ (m a j : Nat) (rem : List Nat), j < a →
    ((∀ i ∈ List.range' a m, (g i).2 = "") → loop zero g (j :: rem) (List.range' a m) =
      ((List.range' a m).map (fun i => (g i).1), List.range' a m, "")) ∧
    ((∃ i ∈ List.range' a m, (g i).2 ≠ "") → (loop zero g (j :: rem) (List.range' a m)).2.2 ≠ "") ∧
    (loop zero g (j :: rem) (List.range' a m)).2.1 <+: List.range' a m := by
  intro m
  induction m with
  | zero =>
    intro a j rem _
    refine ⟨fun _ => rfl, fun ⟨i, hi, _⟩ => by simp at hi, List.prefix_rfl⟩
  | succ m ih =>
    intro a j rem h
    obtain ⟨h1, h2, h3⟩ := ih (a + 1) j rem (by omega)
    rw [List.range'_succ]
    simp only [loop, show ¬ a < j by omega, if_false, show ¬ a = j by omega]
    by_cases he : (g a).2 = ""
    · simp only [he, ne_eq, not_true_eq_false, if_false]
      refine ⟨fun hall => ?_, fun ⟨i, hi, hne⟩ => ?_, ?_⟩
      · rw [h1 fun i hi => hall i (List.mem_cons_of_mem _ hi)]
        rfl
      · rcases List.mem_cons.1 hi with e | hi
        · subst e; exact absurd he hne
        · exact h2 ⟨i, hi, hne⟩
      · exact (List.cons_prefix_cons).2 ⟨rfl, h3⟩
    · simp only [ne_eq, he, not_false_eq_true, if_true]
      refine ⟨fun hall => absurd (hall a (by simp)) he, fun _ => trivial, ?_⟩
      exact (List.cons_prefix_cons).2 ⟨rfl, List.nil_prefix⟩

theorem loop_spec (zero : α) (g : Nat → α × String) : ∀ (m a : Nat) (rem : List Nat), rem.Pairwise (· ≤ ·) →
    (∀ j ∈ rem, a ≤ j) →
    ((∀ i ∈ (List.range' a m).filter (fun i => decide (Called rem i)), (g i).2 = "") →
      loop zero g rem (List.range' a m) =
      ((List.range' a m).map (fun i => if Called rem i then (g i).1 else zero),
        (List.range' a m).filter (fun i => decide (Called rem i)), "")) ∧
    ((∃ i ∈ (List.range' a m).filter (fun i => decide (Called rem i)), (g i).2 ≠ "") →
      (loop zero g rem (List.range' a m)).2.2 ≠ "") ∧
    (loop zero g rem (List.range' a m)).2.1 <+: (List.range' a m).filter (fun i => decide (Called rem i)) := by
  intro m
  induction m with
  | zero =>
    intro a rem _ _
    have e : loop zero g rem (List.range' a 0) = ([], [], "") := by cases rem <;> rfl
    rw [e]
    exact ⟨fun _ => rfl, fun ⟨i, hi, _⟩ => by simp at hi, List.nil_prefix⟩
  | succ m ih =>
    intro a rem hs hge
    match rem, hs, hge with
    | [], _, _ =>
      have hn : ∀ i, ¬ Called [] i := by
        rintro i (h | ⟨d, _, h⟩)
        · simp at h
        · simp at h
      have e : loop zero g [] (List.range' a (m + 1)) = (List.replicate (m + 1) zero, [], "") := by
        rw [List.range'_succ]
        simp [loop]
      rw [e]
      have hf : (List.range' a (m + 1)).filter (fun i => decide (Called [] i)) = [] := by
        rw [List.filter_eq_nil_iff]
        intro i _
        simp [hn i]
      rw [hf]
      refine ⟨fun _ => ?_, fun ⟨i, hi, _⟩ => by simp at hi, List.nil_prefix⟩
      have : (List.range' a (m + 1)).map (fun i => if Called [] i then (g i).1 else zero) =
          (List.range' a (m + 1)).map (fun _ => zero) := List.map_congr_left fun i _ => if_neg (hn i)
      rw [this, List.map_const', List.length_range']
    | j :: rem, hs, hge =>
      have hj : a ≤ j := hge j (by simp)
      have hs' := (List.pairwise_cons.1 hs)
      rw [List.range'_succ]
      by_cases hlt : a < j
      · -- not yet there
        obtain ⟨h1, h2, h3⟩ := ih (a + 1) (j :: rem) hs (fun x hx => by
          rcases List.mem_cons.1 hx with e | hx
          · omega
          · have := hs'.1 x hx; omega)
        have hna : ¬ Called (j :: rem) a := by
          rintro (h | ⟨d, hd, h⟩)
          · rcases List.mem_cons.1 h with e | h
            · omega
            · have := hs'.1 a h; omega
          · have : d ∈ j :: rem := List.count_pos_iff.1 (by omega)
            have := hge d this
            omega
        simp only [loop, hlt, if_true]
        rw [List.filter_cons_of_neg (by simpa using hna)]
        refine ⟨fun hall => ?_, h2, h3⟩
        rw [h1 hall, List.map_cons, if_neg hna]
      · have ea : a = j := by omega
        subst ea
        have hca : Called (a :: rem) a := .inl (by simp)
        simp only [loop, hlt, if_false, if_true]
        rw [List.filter_cons_of_pos (by simpa using hca)]
        by_cases he : (g a).2 = ""
        · simp only [he, ne_eq, not_true_eq_false, if_false]
          -- what is left of the indexes
          have rest : ((∀ i ∈ (List.range' (a + 1) m).filter (fun i => decide (Called (a :: rem) i)), (g i).2 = "") →
              loop zero g rem (List.range' (a + 1) m) =
              ((List.range' (a + 1) m).map (fun i => if Called (a :: rem) i then (g i).1 else zero),
                (List.range' (a + 1) m).filter (fun i => decide (Called (a :: rem) i)), "")) ∧
              ((∃ i ∈ (List.range' (a + 1) m).filter (fun i => decide (Called (a :: rem) i)), (g i).2 ≠ "") →
                (loop zero g rem (List.range' (a + 1) m)).2.2 ≠ "") ∧
              (loop zero g rem (List.range' (a + 1) m)).2.1 <+:
                (List.range' (a + 1) m).filter (fun i => decide (Called (a :: rem) i)) := by
            by_cases hd : a ∈ rem
            · -- it is there twice
              have hall : ∀ i ∈ List.range' (a + 1) m, Called (a :: rem) i := by
                intro i hi
                have := List.mem_range'_1.1 hi
                refine .inr ⟨a, by omega, ?_⟩
                rw [List.count_cons_self]
                have := List.count_pos_iff.2 hd
                omega
              have hf : (List.range' (a + 1) m).filter (fun i => decide (Called (a :: rem) i)) = List.range' (a + 1) m := by
                rw [List.filter_eq_self]
                intro i hi
                simpa using hall i hi
              have hm : (List.range' (a + 1) m).map (fun i => if Called (a :: rem) i then (g i).1 else zero) =
                  (List.range' (a + 1) m).map (fun i => (g i).1) :=
                List.map_congr_left fun i hi => if_pos (hall i hi)
              rw [hf, hm]
              match rem, hs', hd with
              | r :: rem', hs', hd =>
                have hr : r = a := by
                  have h1 := hs'.1 r (by simp)
                  rcases List.mem_cons.1 hd with e | hd
                  · exact e.symm
                  · have := (List.pairwise_cons.1 hs'.2).1 a hd
                    omega
                subst hr
                exact loop_all zero g m (r + 1) r rem' (by omega)
            · have hge' : ∀ x ∈ rem, a + 1 ≤ x := by
                intro x hx
                have := hs'.1 x hx
                have : x ≠ a := fun e => hd (e ▸ hx)
                omega
              have hC : ∀ i ∈ List.range' (a + 1) m, (Called (a :: rem) i ↔ Called rem i) := by
                intro i hi
                have := List.mem_range'_1.1 hi
                constructor
                · rintro (h | ⟨d, hdi, h⟩)
                  · rcases List.mem_cons.1 h with e | h
                    · omega
                    · exact .inl h
                  · by_cases e : d = a
                    · subst e
                      rw [List.count_cons_self, List.count_eq_zero_of_not_mem hd] at h
                      omega
                    · rw [List.count_cons_of_ne (fun h => e h.symm)] at h
                      exact .inr ⟨d, hdi, h⟩
                · rintro (h | ⟨d, hdi, h⟩)
                  · exact .inl (List.mem_cons_of_mem _ h)
                  · refine .inr ⟨d, hdi, le_trans h ?_⟩
                    exact (List.sublist_cons_self a rem).count_le d
              have hf : (List.range' (a + 1) m).filter (fun i => decide (Called (a :: rem) i)) =
                  (List.range' (a + 1) m).filter (fun i => decide (Called rem i)) :=
                List.filter_congr fun i hi => by simp only [hC i hi]
              have hm : (List.range' (a + 1) m).map (fun i => if Called (a :: rem) i then (g i).1 else zero) =
                  (List.range' (a + 1) m).map (fun i => if Called rem i then (g i).1 else zero) :=
                List.map_congr_left fun i hi => by simp only [hC i hi]
              rw [hf, hm]
              exact ih (a + 1) rem hs'.2 hge'
          obtain ⟨h1, h2, h3⟩ := rest
          refine ⟨fun hall => ?_, fun ⟨i, hi, hne⟩ => ?_, (List.cons_prefix_cons).2 ⟨rfl, h3⟩⟩
          · rw [h1 fun i hi => hall i (List.mem_cons_of_mem _ hi), List.map_cons, if_pos hca]
          · rcases List.mem_cons.1 hi with e | hi
            · subst e; exact absurd he hne
            · exact h2 ⟨i, hi, hne⟩
        · simp only [ne_eq, he, not_false_eq_true, if_true]
          refine ⟨fun hall => absurd (hall a (by simp)) he, fun _ => trivial, ?_⟩
          exact (List.cons_prefix_cons).2 ⟨rfl, List.nil_prefix⟩

theorem store_spec (zero : α) (n : Nat) (v : List α) : ∀ (ix : List Nat) (a : List α), a.length = n →
    (ix.foldl (fun a i => a.set i (v.getD i zero)) a).length = n ∧
    ∀ i < n, (ix.foldl (fun a i => a.set i (v.getD i zero)) a)[i]? = if i ∈ ix then some (v.getD i zero) else a[i]? := by
  intro ix
  induction ix with
  | nil => exact fun a ha => ⟨ha, fun i _ => by simp⟩
  | cons j ix ih =>
    intro a ha
    obtain ⟨l, h⟩ := ih (a.set j (v.getD j zero)) (by rw [List.length_set, ha])
    refine ⟨l, fun i hi => ?_⟩
    rw [List.foldl_cons, h i hi]
    by_cases hm : i ∈ ix
    · rw [if_pos hm, if_pos (List.mem_cons_of_mem _ hm)]
    · rw [if_neg hm, List.getElem?_set]
      by_cases e : j = i
      · subst e
        rw [if_pos rfl, if_pos (by omega), if_pos (by simp)]
      · rw [if_neg e, if_neg]
        intro h
        rcases List.mem_cons.1 h with h | h
        · exact e h.symm
        · exact hm h

/-! ### What a model at a contact has -/

/-- It is computed exactly if the function gives no error at the points at which it is called; the calls are made in order and
stop at the first error. The values are those of the function on the contact and zero elsewhere. -/
theorem contact_values (zero : α) (n : Nat) {ix : List Nat} (hs : ix.Pairwise (· ≤ ·)) (g : Nat → α × String) :
    ((∃ v, (compute zero n ix g).1 = .inl v) ↔ ∀ i ∈ calls ix n, (g i).2 = "") ∧
    (∀ v, (compute zero n ix g).1 = .inl v → (compute zero n ix g).2 = calls ix n ∧ v.length = n ∧
      ∀ i < n, v[i]? = some (if i ∈ ix then (g i).1 else zero)) ∧
    (compute zero n ix g).2 <+: calls ix n := by
  obtain ⟨h1, h2, h3⟩ := loop_spec zero g n 0 ix hs (fun _ _ => Nat.zero_le _)
  rw [← List.range_eq_range'] at h1 h2 h3
  have done : (∃ v, (compute zero n ix g).1 = .inl v) ↔ ∀ i ∈ calls ix n, (g i).2 = "" := by
    constructor
    · rintro ⟨v, hv⟩
      by_contra hc
      have hne := h2 (by
        obtain ⟨i, hi⟩ := not_forall.1 hc
        obtain ⟨hi1, hi2⟩ := Classical.not_imp.1 hi
        exact ⟨i, hi1, hi2⟩)
      simp [compute, hne] at hv
    · intro hall
      refine ⟨store zero n ix ((List.range n).map (fun i => if Called ix i then (g i).1 else zero)), ?_⟩
      simp only [compute, h1 hall, if_true]
  refine ⟨done, fun v hv => ?_, h3⟩
  have hall := done.1 ⟨v, hv⟩
  have e := h1 hall
  simp only [compute, e, if_true, Sum.inl.injEq] at hv ⊢
  subst hv
  obtain ⟨l, hg⟩ := store_spec zero n ((List.range n).map (fun i => if Called ix i then (g i).1 else zero)) ix
    (List.replicate n zero) (by simp)
  refine ⟨rfl, l, fun i hi => ?_⟩
  have := hg i hi
  rw [store, this]
  by_cases hm : i ∈ ix
  · rw [if_pos hm, if_pos hm]
    have hc : Called ix i := .inl hm
    rw [List.getD_eq_getElem?_getD, List.getElem?_map, List.getElem?_range hi]
    simp [hc]
  · rw [if_neg hm, if_neg hm, List.getElem?_replicate, if_pos hi]

/-- If each index is there once the function is called on the contact only. -/
theorem once (n : Nat) {ix : List Nat} (hd : ix.Nodup) (i : Nat) : i ∈ calls ix n ↔ i < n ∧ i ∈ ix := by
  rw [calls, List.mem_filter, List.mem_range, decide_eq_true_iff]
  unfold Called
  constructor
  · rintro ⟨h, h' | ⟨d, _, h2⟩⟩
    · exact ⟨h, h'⟩
    · have := List.nodup_iff_count_le_one.1 hd d
      omega
  · rintro ⟨h, h'⟩
    exact ⟨h, .inl h'⟩

/-- A node model is computed from the nodes of the contact alone. -/
theorem node_model (zero : α) (n : Nat) {contact : List Nat} (hd : contact.Nodup) (g : Nat → α × String)
    (hg : ∀ i ∈ contact, (g i).2 = "") :
    ∃ v, (compute zero n (nodeIndexes contact) g).1 = .inl v ∧
      ∀ i < n, v[i]? = some (if i ∈ contact then (g i).1 else zero) := by
  obtain ⟨h1, h2, h3⟩ := node_indexes contact
  obtain ⟨c1, c2, -⟩ := contact_values zero n h2 g
  obtain ⟨v, hv⟩ := c1.2 fun i hi => hg i ((h1 i).1 ((once n (h3.2 hd) i).1 hi).2)
  refine ⟨v, hv, fun i hi => ?_⟩
  rw [(c2 v hv).2.2 i hi]
  simp only [h1 i]

/-- An edge model has the values of the function on the edges of the contact and zero elsewhere, if it is computed. -/
theorem edge_model (zero : α) (n : Nat) (nte : Nat → List Nat) (contact : List Nat) (g : Nat → α × String) {v : List α}
    (hv : (compute zero n (edgeIndexes nte contact) g).1 = .inl v) :
    ∀ i < n, v[i]? = some (if ∃ w ∈ contact, i ∈ nte w then (g i).1 else zero) := by
  obtain ⟨h1, h2⟩ := edge_indexes nte contact
  obtain ⟨-, c2, -⟩ := contact_values zero n h2 g
  intro i hi
  rw [(c2 v hv).2.2 i hi]
  simp only [h1 i]

/-- If an edge lies on the contact (both its nodes are of it) the function is called on every edge after it, also on those
that are not of the contact: an error on one of them is an error of the model. -/
theorem edge_everywhere (zero : α) {n : Nat} {nte : Nat → List Nat} (hn : ∀ v, (nte v).Nodup) {contact : List Nat} {u w e i : Nat}
    (hu : [u, w].Sublist contact) (hue : e ∈ nte u) (hwe : e ∈ nte w) (hei : e < i) (hi : i < n) (g : Nat → α × String)
    (hg : (g i).2 ≠ "") : ∃ s, (compute zero n (edgeIndexes nte contact) g).1 = .inr s := by
  obtain ⟨-, h2⟩ := edge_indexes nte contact
  obtain ⟨c1, -, -⟩ := contact_values zero n h2 g
  have hc : Called (edgeIndexes nte contact) i := by
    refine .inr ⟨e, hei, ?_⟩
    rw [edge_count nte hn]
    have := hu.countP_le (p := fun v => decide (e ∈ nte v))
    simpa [hue, hwe] using this
  have hmem : i ∈ calls (edgeIndexes nte contact) n := by
    simp only [calls, List.mem_filter, List.mem_range, decide_eq_true_eq]
    exact ⟨hi, hc⟩
  cases h : (compute zero n (edgeIndexes nte contact) g).1 with
  | inl v => exact absurd (c1.1 ⟨v, h⟩ i hmem) hg
  | inr s => exact ⟨s, rfl⟩

end Verif.Cont
