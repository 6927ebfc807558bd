import Mathlib.Data.List.Lex
import Mathlib.Data.Char
import Mathlib.Data.List.Sort

/-!
# Ordered maps and ordered sets

`std::map` is iterated in the order of its keys, and `std::sort` followed by `std::unique` lists the
distinct elements in increasing order. Both are modelled by sorted lists.
-/

namespace Verif.MeshIO

/-- `std::map<K, V>` as the list of its entries. -/
abbrev SMap (κ : Type) (β : Type) := List (κ × β)

section
variable {κ : Type} [LinearOrder κ] {β : Type}

/-- The keys are strictly increasing: the invariant of `std::map`. -/
def SMap.Sorted (m : SMap κ β) : Prop := m.Pairwise fun a b => a.1 < b.1

/-- `m[k] = v` -/
def SMap.put (m : SMap κ β) (k : κ) (v : β) : SMap κ β :=
  match m with
  | [] => [(k, v)]
  | (k', v') :: m => if k < k' then (k, v) :: (k', v') :: m else if k = k' then (k, v) :: m
    else (k', v') :: SMap.put m k v

/-- `m.find(k)` -/
def SMap.get (m : SMap κ β) (k : κ) : Option β := (m.find? fun e => e.1 = k).map Prod.snd

/-- `m.count(k) != 0` -/
def SMap.has (m : SMap κ β) (k : κ) : Bool := m.any fun e => e.1 = k

/-- Change the value of a key that is present. -/
def SMap.mod (m : SMap κ β) (k : κ) (f : β → β) : SMap κ β := m.map fun e => if e.1 = k then (e.1, f e.2) else e

/-- Inserting a key above all keys appends it. -/
theorem SMap.put_last {m : SMap κ β} {k : κ} {v : β} (h : ∀ e ∈ m, e.1 < k) :
    SMap.put m k v = m ++ [(k, v)] := by
  induction m with
  | nil => rfl
  | cons e m ih =>
    obtain ⟨k', v'⟩ := e
    have hk : k' < k := h (k', v') (by simp)
    rw [SMap.put, if_neg (not_lt_of_gt hk), if_neg (ne_of_gt hk), ih fun e he => h e (by simp [he])]
    rfl

theorem SMap.has_false_of_lt {m : SMap κ β} {k : κ} (h : ∀ e ∈ m, e.1 < k) : SMap.has m k = false := by
  rw [SMap.has, List.any_eq_false]
  intro e he
  simp [ne_of_lt (h e he)]

theorem SMap.sorted_append_lt {a b : SMap κ β} {e : κ × β} (h : SMap.Sorted (a ++ e :: b)) :
    ∀ x ∈ a, x.1 < e.1 := by
  intro x hx
  exact (List.pairwise_append.mp h).2.2 x hx e (by simp)

theorem SMap.get_of_mem {m : SMap κ β} (h : SMap.Sorted m) {e : κ × β} (he : e ∈ m) :
    SMap.get m e.1 = some e.2 := by
  unfold SMap.get
  induction m with
  | nil => simp at he
  | cons d m ih =>
    obtain ⟨h1, h2⟩ := List.pairwise_cons.mp h
    rcases List.mem_cons.mp he with rfl | he'
    · simp
    · have : d.1 ≠ e.1 := ne_of_lt (h1 e he')
      rw [List.find?_cons_of_neg (by simpa using this)]
      exact ih h2 he'

theorem SMap.has_iff {m : SMap κ β} {k : κ} : SMap.has m k = true ↔ ∃ v, (k, v) ∈ m := by
  rw [SMap.has, List.any_eq_true]
  constructor
  · rintro ⟨⟨k', v⟩, h1, h2⟩
    have : k' = k := by simpa using h2
    exact ⟨v, this ▸ h1⟩
  · rintro ⟨v, h⟩
    exact ⟨_, h, by simp⟩

/-- The result of a put can be read. -/
theorem SMap.get_put (m : SMap κ β) (k : κ) (v : β) (k' : κ) :
    SMap.get (SMap.put m k v) k' = if k' = k then some v else SMap.get m k' := by
  induction m with
  | nil =>
    by_cases h : k' = k
    · subst h; simp [SMap.put, SMap.get]
    · have : ¬ k = k' := fun e => h e.symm
      simp [SMap.put, SMap.get, h, this]
  | cons e m ih =>
    obtain ⟨a, w⟩ := e
    rw [SMap.put]
    by_cases h : k' = k
    · subst h
      rw [if_pos rfl] at ih ⊢
      split
      · simp [SMap.get]
      · split
        · simp [SMap.get]
        · rename_i h1 h2
          have h3 : ¬ a = k' := fun e => h2 e.symm
          unfold SMap.get at ih ⊢
          rw [List.find?_cons_of_neg (by simpa using h3)]
          exact ih
    · have hk : ¬ k = k' := fun e => h e.symm
      rw [if_neg h] at ih ⊢
      split
      · simp [SMap.get, hk]
      · split
        · rename_i h1 h2
          subst h2
          simp [SMap.get, hk]
        · unfold SMap.get at ih ⊢
          by_cases h3 : a = k'
          · subst h3; simp
          · rw [List.find?_cons_of_neg (by simpa using h3), List.find?_cons_of_neg (by simpa using h3)]
            exact ih

theorem SMap.mem_put {m : SMap κ β} {k : κ} {v : β} {e : κ × β} (h : e ∈ SMap.put m k v) :
    e = (k, v) ∨ e ∈ m := by
  induction m with
  | nil => left; simpa [SMap.put] using h
  | cons d m ih =>
    obtain ⟨a, w⟩ := d
    rw [SMap.put] at h
    split at h
    · rcases List.mem_cons.mp h with h | h
      · exact .inl h
      · exact .inr h
    · split at h
      · rcases List.mem_cons.mp h with h | h
        · exact .inl h
        · exact .inr (List.mem_cons_of_mem _ h)
      · rcases List.mem_cons.mp h with h | h
        · exact .inr (by simp [h])
        · rcases ih h with h | h
          · exact .inl h
          · exact .inr (List.mem_cons_of_mem _ h)

/-- The invariant is kept. -/
theorem SMap.put_sorted {m : SMap κ β} (h : SMap.Sorted m) (k : κ) (v : β) : SMap.Sorted (SMap.put m k v) := by
  induction m with
  | nil => simp [SMap.put, SMap.Sorted]
  | cons e m ih =>
    obtain ⟨a, w⟩ := e
    obtain ⟨h1, h2⟩ := List.pairwise_cons.mp h
    rw [SMap.put]
    split
    · rename_i hk
      refine List.pairwise_cons.mpr ⟨fun e he => ?_, h⟩
      rcases List.mem_cons.mp he with rfl | he
      · exact hk
      · exact lt_trans hk (h1 e he)
    · split
      · rename_i hk
        subst hk
        exact List.pairwise_cons.mpr ⟨h1, h2⟩
      · rename_i hk hk'
        refine List.pairwise_cons.mpr ⟨fun e he => ?_, ih h2⟩
        rcases SMap.mem_put he with rfl | he
        · exact lt_of_le_of_ne (not_lt.mp hk) fun e => hk' e.symm
        · exact h1 e he

/-- Rebuilding a sorted map by insertions gives it back. -/
theorem SMap.foldl_put (m : SMap κ β) (h : SMap.Sorted m) :
    m.foldl (fun a e => SMap.put a e.1 e.2) [] = m := by
  suffices ∀ (b a : SMap κ β), SMap.Sorted (a ++ b) →
      b.foldl (fun a e => SMap.put a e.1 e.2) a = a ++ b by
    simpa using this m [] (by simpa using h)
  intro b
  induction b with
  | nil => intro a _; simp
  | cons e b ih =>
    intro a hab
    rw [List.foldl_cons, SMap.put_last (SMap.sorted_append_lt hab)]
    have : a ++ [(e.1, e.2)] ++ b = a ++ e :: b := by simp
    rw [ih _ (by rw [this]; exact hab), this]

theorem SMap.get_cons (k : κ) (v : β) (m : SMap κ β) (x : κ) :
    SMap.get ((k, v) :: m) x = if k = x then some v else SMap.get m x := by
  unfold SMap.get
  by_cases h : k = x
  · simp [h]
  · rw [List.find?_cons_of_neg (by simpa using h), if_neg h]

theorem SMap.get_none_iff {m : SMap κ β} {x : κ} : SMap.get m x = none ↔ SMap.has m x = false := by
  unfold SMap.get SMap.has
  simp

theorem SMap.get_isSome {m : SMap κ β} {x : κ} : (SMap.get m x).isSome = SMap.has m x := by
  cases h : SMap.has m x with
  | false => rw [SMap.get_none_iff.2 h]; rfl
  | true =>
    cases h' : SMap.get m x with
    | none => rw [SMap.get_none_iff.1 h'] at h; simp at h
    | some _ => rfl

theorem SMap.get_none_of_lt {m : SMap κ β} {x : κ} (h : ∀ e ∈ m, x < e.1) : SMap.get m x = none := by
  rw [SMap.get_none_iff, SMap.has, List.any_eq_false]
  intro e he
  simp [ne_of_gt (h e he)]

/-- Two maps with the same entries are equal. -/
theorem SMap.ext {a b : SMap κ β} (ha : SMap.Sorted a) (hb : SMap.Sorted b)
    (h : ∀ x, SMap.get a x = SMap.get b x) : a = b := by
  induction a generalizing b with
  | nil =>
    cases b with
    | nil => rfl
    | cons e b => have := h e.1; rw [SMap.get_cons, if_pos rfl] at this; simp [SMap.get] at this
  | cons e a ih =>
    obtain ⟨k, v⟩ := e
    cases b with
    | nil => have := h k; rw [SMap.get_cons, if_pos rfl] at this; simp [SMap.get] at this
    | cons e' b =>
      obtain ⟨k', v'⟩ := e'
      obtain ⟨ha1, ha2⟩ := List.pairwise_cons.mp ha
      obtain ⟨hb1, hb2⟩ := List.pairwise_cons.mp hb
      have hk : k = k' := by
        rcases lt_trichotomy k k' with hlt | he | hlt
        · have := h k
          rw [SMap.get_cons, if_pos rfl, SMap.get_none_of_lt] at this
          · simp at this
          · intro e he
            rcases List.mem_cons.mp he with rfl | he
            · exact hlt
            · exact lt_trans hlt (hb1 e he)
        · exact he
        · have := h k'
          rw [SMap.get_cons k' v', if_pos rfl, SMap.get_none_of_lt] at this
          · simp at this
          · intro e he
            rcases List.mem_cons.mp he with rfl | he
            · exact hlt
            · exact lt_trans hlt (ha1 e he)
      subst hk
      have hv : v = v' := by
        have := h k
        simpa [SMap.get_cons] using this
      subst hv
      have : a = b := ih ha2 hb2 fun x => by
        by_cases hx : k = x
        · subst hx
          rw [SMap.get_none_of_lt ha1, SMap.get_none_of_lt hb1]
        · have := h x
          rwa [SMap.get_cons, SMap.get_cons, if_neg hx, if_neg hx] at this
      rw [this]

/-- Changing values keeps the keys. -/
theorem SMap.get_map {γ : Type} (f : κ → β → γ) (m : SMap κ β) (x : κ) :
    SMap.get (m.map fun e => (e.1, f e.1 e.2)) x = (SMap.get m x).map (f x) := by
  induction m with
  | nil => rfl
  | cons e m ih =>
    obtain ⟨k, v⟩ := e
    rw [List.map_cons, SMap.get_cons, SMap.get_cons, ih]
    by_cases h : k = x
    · subst h; simp
    · rw [if_neg h, if_neg h]

theorem SMap.sorted_map {γ : Type} (f : κ → β → γ) {m : SMap κ β} (h : SMap.Sorted m) :
    SMap.Sorted (m.map fun e => (e.1, f e.1 e.2)) := by
  unfold SMap.Sorted
  rw [List.pairwise_map]
  exact h

theorem SMap.has_put (m : SMap κ β) (k : κ) (v : β) (x : κ) :
    SMap.has (SMap.put m k v) x = (decide (x = k) || SMap.has m x) := by
  rw [← SMap.get_isSome, ← SMap.get_isSome, SMap.get_put]
  by_cases h : x = k <;> simp [h]

theorem SMap.mem_of_get {m : SMap κ β} {k : κ} {v : β} (h : SMap.get m k = some v) : (k, v) ∈ m := by
  induction m with
  | nil => simp [SMap.get] at h
  | cons e m ih =>
    obtain ⟨a, w⟩ := e
    rw [SMap.get_cons] at h
    split at h
    · rename_i e; subst e; simp at h; subst h; simp
    · exact List.mem_cons_of_mem _ (ih h)

theorem SMap.keys_nodup {m : SMap κ β} (h : SMap.Sorted m) : (m.map Prod.fst).Nodup := by
  rw [List.nodup_iff_pairwise_ne, List.pairwise_map]
  exact h.imp fun h => ne_of_lt h

/-- Changing the value that was put last. -/
theorem SMap.mod_put {m : SMap κ β} (hm : SMap.Sorted m) (k : κ) (v : β) (f : β → β) :
    SMap.mod (SMap.put m k v) k f = SMap.put m k (f v) := by
  have e : SMap.mod (SMap.put m k v) k f =
      (SMap.put m k v).map fun e => (e.1, (fun a b => if a = k then f b else b) e.1 e.2) := by
    unfold SMap.mod
    congr 1
    funext e
    by_cases h : e.1 = k <;> simp [h]
  rw [e]
  refine SMap.ext (SMap.sorted_map (fun a b => if a = k then f b else b) (SMap.put_sorted hm k v))
    (SMap.put_sorted hm k _) fun x => ?_
  rw [SMap.get_map (fun a b => if a = k then f b else b), SMap.get_put, SMap.get_put]
  by_cases h : x = k <;> simp [h]

/-- Changing the value of an entry. -/
theorem SMap.mod_mid {a b : SMap κ β} {k : κ} {v : β} (h : SMap.Sorted (a ++ (k, v) :: b)) (f : β → β) :
    SMap.mod (a ++ (k, v) :: b) k f = a ++ (k, f v) :: b := by
  obtain ⟨h1, h2, h3⟩ := List.pairwise_append.mp h
  obtain ⟨h4, h5⟩ := List.pairwise_cons.mp h2
  have ea : (a.map fun e => if e.1 = k then (e.1, f e.2) else e) = a := by
    conv_rhs => rw [← List.map_id a]
    refine List.map_congr_left fun e he => ?_
    rw [if_neg (ne_of_lt (h3 e he (k, v) (by simp)))]; rfl
  have eb : (b.map fun e => if e.1 = k then (e.1, f e.2) else e) = b := by
    conv_rhs => rw [← List.map_id b]
    refine List.map_congr_left fun e he => ?_
    rw [if_neg (ne_of_gt (h4 e he))]; rfl
  unfold SMap.mod
  rw [List.map_append, List.map_cons, ea, eb, if_pos rfl]

theorem SMap.get_foldl_const (l : List κ) (v : β) (m : SMap κ β) (x : κ) :
    SMap.get (l.foldl (fun m n => SMap.put m n v) m) x = if x ∈ l then some v else SMap.get m x := by
  induction l generalizing m with
  | nil => simp
  | cons a l ih =>
    rw [List.foldl_cons, ih, SMap.get_put]
    by_cases h1 : x ∈ l <;> by_cases h2 : x = a <;> simp [h1, h2]

theorem SMap.sorted_foldl_const (l : List κ) (v : β) {m : SMap κ β} (h : SMap.Sorted m) :
    SMap.Sorted (l.foldl (fun m n => SMap.put m n v) m) := by
  induction l generalizing m with
  | nil => exact h
  | cons a l ih => exact ih (SMap.put_sorted h a v)

/-- `std::sort` followed by `std::unique`: insertion into a strictly increasing list. -/
def insertU (x : κ) : List κ → List κ
  | [] => [x]
  | y :: l => if x < y then x :: y :: l else if x = y then y :: l else y :: insertU x l

/-- `std::sort` followed by `std::unique`. -/
def sortUniq (l : List κ) : List κ := l.foldr insertU []

theorem mem_insertU {x y : κ} {l : List κ} : y ∈ insertU x l ↔ y = x ∨ y ∈ l := by
  induction l with
  | nil => simp [insertU]
  | cons z l ih =>
    rw [insertU]
    split
    · simp
    · split
      · rename_i h; subst h; simp
      · simp only [List.mem_cons, ih]; tauto

theorem mem_sortUniq {y : κ} {l : List κ} : y ∈ sortUniq l ↔ y ∈ l := by
  induction l with
  | nil => simp [sortUniq]
  | cons z l ih =>
    have : sortUniq (z :: l) = insertU z (sortUniq l) := rfl
    rw [this, mem_insertU, ih]; simp

theorem insertU_sorted {x : κ} {l : List κ} (h : l.Pairwise (· < ·)) : (insertU x l).Pairwise (· < ·) := by
  induction l with
  | nil => simp [insertU]
  | cons z l ih =>
    obtain ⟨h1, h2⟩ := List.pairwise_cons.mp h
    rw [insertU]
    split
    · rename_i hx
      refine List.pairwise_cons.mpr ⟨fun e he => ?_, h⟩
      rcases List.mem_cons.mp he with rfl | he
      · exact hx
      · exact lt_trans hx (h1 e he)
    · split
      · exact h
      · rename_i hx hx'
        refine List.pairwise_cons.mpr ⟨fun e he => ?_, ih h2⟩
        rcases mem_insertU.mp he with rfl | he
        · exact lt_of_le_of_ne (not_lt.mp hx) fun e => hx' e.symm
        · exact h1 e he

/-- The result is strictly increasing ... -/
theorem sortUniq_sorted (l : List κ) : (sortUniq l).Pairwise (· < ·) := by
  induction l with
  | nil => simp [sortUniq]
  | cons z l ih => exact insertU_sorted ih

/-- ... and a strictly increasing list is unchanged. -/
theorem sortUniq_of_sorted {l : List κ} (h : l.Pairwise (· < ·)) : sortUniq l = l := by
  induction l with
  | nil => rfl
  | cons z l ih =>
    obtain ⟨h1, h2⟩ := List.pairwise_cons.mp h
    have : sortUniq (z :: l) = insertU z (sortUniq l) := rfl
    rw [this, ih h2]
    cases l with
    | nil => rfl
    | cons y l => rw [insertU, if_pos (h1 y (by simp))]

end

end Verif.MeshIO
