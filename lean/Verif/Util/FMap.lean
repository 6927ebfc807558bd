/-
A finite map as an association list, standing for `std::map`.  Each key occurs at most once in every map built with these
operations (`WF`).  The order of the list is arbitrary; nothing proved about a model may depend on it, unless the model
says that it sorts.
-/
namespace Verif
abbrev FMap (K V : Type) := List (K × V)

namespace FMap
variable {K V : Type} [DecidableEq K]

/-- `std::map::find` -/
def get (m : FMap K V) (k : K) : Option V :=
  match m with
  | [] => none
  | (k', v) :: m => if k' = k then some v else get m k

/-- `m.count(k)` -/
def has (m : FMap K V) (k : K) : Bool := (m.get k).isSome

/-- `m.erase(k)` -/
def erase (m : FMap K V) (k : K) : FMap K V :=
  match m with
  | [] => []
  | (k', v) :: m => if k' = k then erase m k else (k', v) :: erase m k

/-- `m[k] = v` -/
def set (m : FMap K V) (k : K) (v : V) : FMap K V :=
  match m with
  | [] => [(k, v)]
  | (k', v') :: m => if k' = k then (k', v) :: erase m k else (k', v') :: set m k v

def keys (m : FMap K V) : List K := m.map Prod.fst

def WF (m : FMap K V) : Prop := m.keys.Nodup

@[simp] theorem get_nil (k : K) : FMap.get ([] : FMap K V) k = none := rfl

theorem get_erase (m : FMap K V) (k k' : K) : (m.erase k).get k' = if k' = k then none else m.get k' := by
  induction m with
  | nil => simp [erase]
  | cons p m ih =>
    obtain ⟨a, b⟩ := p
    simp only [erase]
    split
    · rename_i h
      rw [ih]; subst h
      simp only [get]
      split
      · rfl
      · rename_i h2; rw [if_neg (fun h => h2 h.symm)]
    · rename_i h
      simp only [get]
      by_cases h2 : a = k'
      · rw [if_pos h2, if_pos h2, if_neg (by rintro rfl; exact h h2)]
      · rw [if_neg h2, if_neg h2, ih]

theorem get_set (m : FMap K V) (k k' : K) (v : V) : (m.set k v).get k' = if k' = k then some v else m.get k' := by
  induction m with
  | nil =>
    simp only [set, get]
    by_cases h : k' = k
    · rw [if_pos h.symm, if_pos h]
    · rw [if_neg (fun h2 => h h2.symm), if_neg h]
  | cons p m ih =>
    obtain ⟨a, b⟩ := p
    simp only [set]
    by_cases h : a = k
    · rw [if_pos h]
      subst h
      simp only [get]
      by_cases h2 : k' = a
      · rw [if_pos h2.symm, if_pos h2]
      · rw [if_neg (fun h => h2 h.symm), if_neg h2, get_erase, if_neg h2, if_neg (fun h => h2 h.symm)]
    · rw [if_neg h]
      simp only [get]
      by_cases h2 : a = k'
      · rw [if_pos h2, if_pos h2, if_neg (by rintro rfl; exact h h2)]
      · rw [if_neg h2, if_neg h2, ih]

theorem mem_keys (m : FMap K V) (k : K) : k ∈ m.keys ↔ (m.get k).isSome := by
  induction m with
  | nil => simp [keys]
  | cons p m ih =>
    obtain ⟨a, b⟩ := p
    simp only [keys, List.map_cons, List.mem_cons] at ih ⊢
    simp only [get]
    by_cases h : a = k
    · rw [if_pos h]; simp [h]
    · rw [if_neg h, ← ih]
      constructor
      · rintro (h2 | h2)
        · exact absurd h2.symm h
        · exact h2
      · exact .inr

theorem has_iff (m : FMap K V) (k : K) : m.has k = true ↔ k ∈ m.keys := by
  rw [mem_keys]; rfl

theorem keys_erase (m : FMap K V) (k : K) : (m.erase k).keys = m.keys.filter (fun x => x ≠ k) := by
  induction m with
  | nil => rfl
  | cons p m ih =>
    obtain ⟨a, b⟩ := p
    simp only [erase]
    by_cases h : a = k
    · rw [if_pos h, ih]; simp [keys, h]
    · rw [if_neg h]
      simp only [keys, List.map_cons] at ih ⊢
      rw [List.filter_cons_of_pos (by simpa using h), ih]

theorem keys_set (m : FMap K V) (k : K) (v : V) (hm : m.WF) :
    (m.set k v).keys = if k ∈ m.keys then m.keys else m.keys ++ [k] := by
  induction m with
  | nil => simp [set, keys]
  | cons p m ih =>
    obtain ⟨a, b⟩ := p
    have hm' : a ∉ FMap.keys m ∧ FMap.WF m := by simpa [WF, keys] using hm
    simp only [set]
    by_cases h : a = k
    · subst h
      rw [if_pos rfl]
      have : FMap.keys (FMap.erase m a) = FMap.keys m := by
        rw [keys_erase]; apply List.filter_eq_self.mpr
        intro x hx
        have : x ≠ a := by rintro rfl; exact hm'.1 hx
        simpa using this
      simp only [keys, List.map_cons] at this ⊢
      rw [this]; simp
    · rw [if_neg h]
      have ih' := ih hm'.2
      have hk : k ≠ a := fun e => h e.symm
      by_cases hmem : k ∈ FMap.keys m
      · rw [if_pos hmem] at ih'
        rw [if_pos (by simp only [keys, List.map_cons, List.mem_cons]; exact .inr hmem)]
        simp only [keys, List.map_cons] at ih' ⊢
        rw [ih']
      · rw [if_neg hmem] at ih'
        rw [if_neg (by simp only [keys, List.map_cons, List.mem_cons, not_or]; exact ⟨hk, hmem⟩)]
        simp only [keys, List.map_cons] at ih' ⊢
        rw [ih']; rfl

omit [DecidableEq K] in
theorem WF.nil : FMap.WF ([] : FMap K V) := List.nodup_nil

theorem WF.erase {m : FMap K V} (h : m.WF) (k : K) : (m.erase k).WF := by
  unfold WF; rw [keys_erase]; exact h.filter _

theorem WF.set {m : FMap K V} (h : m.WF) (k : K) (v : V) : (m.set k v).WF := by
  unfold WF; rw [keys_set m k v h]
  split
  · exact h
  · rename_i hk
    apply List.nodup_append.mpr
    refine ⟨h, by simp, ?_⟩
    intro a ha b hb
    simp only [List.mem_singleton] at hb
    subst hb
    rintro rfl; exact hk ha

end FMap
end Verif
