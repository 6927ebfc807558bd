import Verif.Tec.Main
import Mathlib.Data.List.Nodup

/-!
# Which models are in a Tecplot file, and when it cannot be written
-/

namespace Verif.Tec
open Verif.Vtk (Text isWs runM showNat readNat EDisp)

variable {D : Type}

/-! ### Specification -/

/-- How the first of these models with this name is displayed. -/
def firstOf {β γ : Type} (l : List (Text × β × γ)) (n : Text) : Option β := (l.find? fun m => m.1 = n).map (·.2.1)

/-- All node models of a device, region by region. -/
def Dev.allNode (d : Dev D) : List (Text × Bool × List D) := d.regs.flatMap (·.2.nodeModels)

def Dev.allEdge (d : Dev D) : List (Text × EDisp × List D × List (D × D × D)) := d.regs.flatMap (·.2.edgeModels)

/-- What should be in the file: the coordinates; the models that the user asked for, as they are displayed in the first
region that has them. -/
def Shown (inc : Text → Bool) (d : Dev D) : Var → Prop
  | .coord n => ∃ k < d.dim, n = [['x', 'y', 'z'].getD k 'z']
  | .node n => n ∉ [['x'], ['y'], ['z']] ∧ inc n = true ∧ firstOf d.allNode n = some true
  | .edge n => inc n = true ∧ firstOf d.allEdge n = some .scalar
  | .vec n k => k < d.dim ∧ inc n = true ∧ firstOf d.allEdge n = some .vector
  | .elem n => inc n = true ∧ ∃ r ∈ d.regs, ∃ m ∈ r.2.elemModels, m.1 = n ∧ m.2.1 = true

/-! ### Sets -/

theorem mem_ins {n m : Text} {l : List Text} : m ∈ ins n l ↔ m = n ∨ m ∈ l := by
  induction l with
  | nil => simp [ins]
  | cons a l ih =>
    rw [ins]
    split
    · rename_i h
      subst h
      simp
    · split
      · simp
      · rw [List.mem_cons, ih, List.mem_cons]
        tauto

theorem lexLt_trans : ∀ {a b c : Text}, lexLt a b = true → lexLt b c = true → lexLt a c = true
  | _, [], _, h, _ => by simp [lexLt] at h
  | _, _ :: _, [], _, h => by simp [lexLt] at h
  | [], _ :: _, _ :: _, _, _ => rfl
  | a :: as, b :: bs, c :: cs, h1, h2 => by
    rw [lexLt] at h1 h2 ⊢
    by_cases hab : a < b
    · by_cases hbc : b < c
      · rw [if_pos (Char.lt_trans hab hbc)]
      · rw [if_neg hbc] at h2
        by_cases hcb : c < b
        · rw [if_pos hcb] at h2; simp at h2
        · have : b = c := Char.le_antisymm (Char.not_lt.1 hcb) (Char.not_lt.1 hbc)
          rw [← this, if_pos hab]
    · rw [if_neg hab] at h1
      by_cases hba : b < a
      · rw [if_pos hba] at h1; simp at h1
      · have hab' : a = b := Char.le_antisymm (Char.not_lt.1 hba) (Char.not_lt.1 hab)
        rw [if_neg hba] at h1
        subst hab'
        by_cases hbc : a < c
        · rw [if_pos hbc]
        · rw [if_neg hbc] at h2 ⊢
          by_cases hcb : c < a
          · rw [if_pos hcb] at h2; simp at h2
          · rw [if_neg hcb] at h2 ⊢
            exact lexLt_trans h1 h2

theorem lexLt_irrefl (a : Text) : lexLt a a = false := by
  induction a with
  | nil => rfl
  | cons a as ih => rw [lexLt, if_neg (Char.lt_irrefl a), if_neg (Char.lt_irrefl a), ih]

theorem lexLt_total : ∀ {a b : Text}, a ≠ b → lexLt a b = false → lexLt b a = true
  | [], [], h, _ => absurd rfl h
  | _ :: _, [], _, _ => rfl
  | [], _ :: _, _, h => by simp [lexLt] at h
  | a :: as, b :: bs, hne, h => by
    rw [lexLt] at h ⊢
    by_cases hab : a < b
    · rw [if_pos hab] at h; simp at h
    · rw [if_neg hab] at h
      by_cases hba : b < a
      · rw [if_pos hba]
      · rw [if_neg hba] at h
        rw [if_neg hba, if_neg hab]
        have : a = b := Char.le_antisymm (Char.not_lt.1 hba) (Char.not_lt.1 hab)
        subst this
        exact lexLt_total (fun h => hne (by rw [h])) h

abbrev Sorted (l : List Text) : Prop := l.Pairwise fun a b => lexLt a b = true

theorem sorted_ins {n : Text} {l : List Text} (h : Sorted l) : Sorted (ins n l) := by
  induction l with
  | nil => simp [ins, Sorted]
  | cons a l ih =>
    obtain ⟨h1, h2⟩ := List.pairwise_cons.1 h
    rw [ins]
    split
    · exact h
    · rename_i hne
      split
      · rename_i hlt
        refine List.pairwise_cons.2 ⟨fun b hb => ?_, h⟩
        rcases List.mem_cons.1 hb with rfl | hb
        · exact hlt
        · exact lexLt_trans hlt (h1 b hb)
      · rename_i hlt
        refine List.pairwise_cons.2 ⟨fun b hb => ?_, ih h2⟩
        rcases mem_ins.1 hb with rfl | hb
        · exact lexLt_total (fun h => hne h.symm) (by simpa using hlt)
        · exact h1 b hb

theorem sorted_nodup {l : List Text} (h : Sorted l) : l.Nodup :=
  List.Pairwise.imp (fun {a b} hab he => by rw [he, lexLt_irrefl] at hab; simp at hab) h

/-! ### What the sets are after some models -/

theorem firstOf_snoc {β γ : Type} (l : List (Text × β × γ)) (m : Text × β × γ) (n : Text) :
    firstOf (l ++ [m]) n = match firstOf l n with
      | some b => some b
      | none => if m.1 = n then some m.2.1 else none := by
  unfold firstOf
  rw [List.find?_append]
  cases l.find? fun m => decide (m.1 = n) with
  | some x => rfl
  | none =>
    simp only [Option.none_or, Option.map_none]
    by_cases h : m.1 = n <;> simp [h]

/-- The sets are those of these node models, edge models and models on elements. -/
structure Inv (inc : Text → Bool) (s : Sets) (N : List (Text × Bool × List D)) (E : List (Text × EDisp × List D × List (D × D × D)))
    (T : List (Text × Bool × List D)) : Prop where
  nodeSc : ∀ n, n ∈ s.nodeSc ↔ n ∉ [['x'], ['y'], ['z']] ∧ inc n = true ∧ firstOf N n = some true
  nodeNo : ∀ n, n ∈ s.nodeNo ↔ n ∉ [['x'], ['y'], ['z']] ∧ inc n = true ∧ firstOf N n = some false
  edgeNo : ∀ n, n ∈ s.edgeNo ↔ inc n = true ∧ firstOf E n = some .nodisplay
  edgeSc : ∀ n, n ∈ s.edgeSc ↔ inc n = true ∧ firstOf E n = some .scalar
  edgeVec : ∀ n, n ∈ s.edgeVec ↔ inc n = true ∧ firstOf E n = some .vector
  elem : ∀ n, n ∈ s.elem ↔ inc n = true ∧ ∃ m ∈ T, m.1 = n ∧ m.2.1 = true
  sorted : Sorted s.nodeSc ∧ Sorted s.edgeSc ∧ Sorted s.edgeVec ∧ Sorted s.elem

theorem inv_node {inc : Text → Bool} {s : Sets} {N : List (Text × Bool × List D)} {E T} (h : Inv inc s N E T) (m : Text × Bool × List D) :
    Inv inc (addNode inc s m) (N ++ [m]) E T := by
  have hx : (m.1 = ['x'] ∨ m.1 = ['y'] ∨ m.1 = ['z']) ↔ m.1 ∈ [['x'], ['y'], ['z']] := by simp
  have hsc := h.nodeSc m.1
  have hno := h.nodeNo m.1
  have other : ∀ n, n ≠ m.1 → firstOf (N ++ [m]) n = firstOf N n := by
    intro n hn
    rw [firstOf_snoc]
    cases firstOf N n with
    | some b => rfl
    | none => simp only; rw [if_neg (Ne.symm hn)]
  have old : firstOf N m.1 ≠ none → firstOf (N ++ [m]) m.1 = firstOf N m.1 := by
    intro hn
    rw [firstOf_snoc]
    cases hf : firstOf N m.1 with
    | some b => rfl
    | none => exact absurd hf hn
  have new : firstOf N m.1 = none → firstOf (N ++ [m]) m.1 = some m.2.1 := by
    intro hn
    rw [firstOf_snoc, hn]
    simp
  -- nothing changes
  have same : (m.1 ∈ [['x'], ['y'], ['z']] ∨ inc m.1 = false ∨ firstOf N m.1 ≠ none) → Inv inc s (N ++ [m]) E T := by
    intro hs
    refine ⟨fun n => ?_, fun n => ?_, h.edgeNo, h.edgeSc, h.edgeVec, h.elem, h.sorted⟩
    · rw [h.nodeSc n]
      by_cases hn : n = m.1
      · subst hn
        rcases hs with hs | hs | hs
        · simp only [hs, not_true, false_and]
        · simp [hs]
        · rw [old hs]
      · rw [other n hn]
    · rw [h.nodeNo n]
      by_cases hn : n = m.1
      · subst hn
        rcases hs with hs | hs | hs
        · simp only [hs, not_true, false_and]
        · simp [hs]
        · rw [old hs]
      · rw [other n hn]
  unfold addNode
  by_cases h1 : m.1 ∈ [['x'], ['y'], ['z']]
  · rw [if_pos (hx.2 h1)]
    exact same (Or.inl h1)
  rw [if_neg (fun hh => h1 (hx.1 hh))]
  by_cases h2 : inc m.1 = true
  swap
  · rw [if_pos h2]
    exact same (Or.inr (Or.inl (by simpa using h2)))
  rw [if_neg (by simpa using h2)]
  have hsc' : m.1 ∈ s.nodeSc ↔ firstOf N m.1 = some true := by rw [hsc]; exact ⟨fun hh => hh.2.2, fun hh => ⟨h1, h2, hh⟩⟩
  have hno' : m.1 ∈ s.nodeNo ↔ firstOf N m.1 = some false := by rw [hno]; exact ⟨fun hh => hh.2.2, fun hh => ⟨h1, h2, hh⟩⟩
  by_cases h3 : m.2.1 = false
  · rw [if_pos h3]
    by_cases h4 : m.1 ∈ s.nodeSc
    · rw [if_pos h4]
      exact same (Or.inr (Or.inr (by rw [hsc'.1 h4]; simp)))
    · rw [if_neg h4]
      have h5 : firstOf (N ++ [m]) m.1 = some false := by
        cases hf : firstOf N m.1 with
        | none => rw [new hf, h3]
        | some b =>
          rw [old (by rw [hf]; simp), hf]
          cases b with
          | true => exact absurd (hsc'.2 hf) h4
          | false => rfl
      refine ⟨fun n => ?_, fun n => ?_, h.edgeNo, h.edgeSc, h.edgeVec, h.elem, h.sorted⟩
      · rw [h.nodeSc n]
        by_cases hn : n = m.1
        · subst hn
          rw [h5]
          constructor
          · rintro ⟨-, -, hh⟩; exact absurd (hsc'.2 hh) h4
          · rintro ⟨-, -, hh⟩; simp at hh
        · rw [other n hn]
      · rw [mem_ins, h.nodeNo n]
        by_cases hn : n = m.1
        · subst hn
          rw [h5]
          simp only [true_or, true_iff]
          exact ⟨h1, h2, trivial⟩
        · rw [other n hn]
          simp [hn]
  · rw [if_neg h3]
    by_cases h4 : m.1 ∈ s.nodeNo
    · rw [if_pos h4]
      exact same (Or.inr (Or.inr (by rw [hno'.1 h4]; simp)))
    · rw [if_neg h4]
      have h5 : firstOf (N ++ [m]) m.1 = some true := by
        cases hf : firstOf N m.1 with
        | none => rw [new hf]; simpa using h3
        | some b =>
          rw [old (by rw [hf]; simp), hf]
          cases b with
          | false => exact absurd (hno'.2 hf) h4
          | true => rfl
      refine ⟨fun n => ?_, fun n => ?_, h.edgeNo, h.edgeSc, h.edgeVec, h.elem, ⟨sorted_ins h.sorted.1, h.sorted.2⟩⟩
      · rw [mem_ins, h.nodeSc n]
        by_cases hn : n = m.1
        · subst hn
          rw [h5]
          simp only [true_or, true_iff]
          exact ⟨h1, h2, trivial⟩
        · rw [other n hn]
          simp [hn]
      · rw [h.nodeNo n]
        by_cases hn : n = m.1
        · subst hn
          rw [h5]
          constructor
          · rintro ⟨-, -, hh⟩; exact absurd (hno'.2 hh) h4
          · rintro ⟨-, -, hh⟩; simp at hh
        · rw [other n hn]

theorem inv_edge {inc : Text → Bool} {s : Sets} {N T} {E : List (Text × EDisp × List D × List (D × D × D))} (h : Inv inc s N E T)
    (m : Text × EDisp × List D × List (D × D × D)) : Inv inc (addEdge inc s m) N (E ++ [m]) T := by
  have other : ∀ n, n ≠ m.1 → firstOf (E ++ [m]) n = firstOf E n := by
    intro n hn
    rw [firstOf_snoc]
    cases firstOf E n with
    | some b => rfl
    | none => simp only; rw [if_neg (Ne.symm hn)]
  have old : firstOf E m.1 ≠ none → firstOf (E ++ [m]) m.1 = firstOf E m.1 := by
    intro hn
    rw [firstOf_snoc]
    cases hf : firstOf E m.1 with
    | some b => rfl
    | none => exact absurd hf hn
  have new : firstOf E m.1 = none → firstOf (E ++ [m]) m.1 = some m.2.1 := by
    intro hn
    rw [firstOf_snoc, hn]
    simp
  have same : (inc m.1 = false ∨ firstOf E m.1 ≠ none) → Inv inc s N (E ++ [m]) T := by
    intro hs
    have key : ∀ n b, (inc n = true ∧ firstOf E n = some b) ↔ (inc n = true ∧ firstOf (E ++ [m]) n = some b) := by
      intro n b
      by_cases hn : n = m.1
      · subst hn
        rcases hs with hs | hs
        · simp [hs]
        · rw [old hs]
      · rw [other n hn]
    exact ⟨h.nodeSc, h.nodeNo, fun n => (h.edgeNo n).trans (key n _), fun n => (h.edgeSc n).trans (key n _), fun n => (h.edgeVec n).trans (key n _), h.elem, h.sorted⟩
  unfold addEdge
  by_cases h2 : inc m.1 = true
  swap
  · rw [if_pos h2]
    exact same (Or.inl (by simpa using h2))
  rw [if_neg (by simpa using h2)]
  have mem : ∀ (l : List Text) (b : EDisp), (∀ n, n ∈ l ↔ inc n = true ∧ firstOf E n = some b) → (m.1 ∈ l ↔ firstOf E m.1 = some b) := by
    intro l b hl
    rw [hl]
    exact ⟨fun hh => hh.2, fun hh => ⟨h2, hh⟩⟩
  have hN := mem _ _ h.edgeNo
  have hS := mem _ _ h.edgeSc
  have hV := mem _ _ h.edgeVec
  have keep : ∀ (l : List Text) (b : EDisp), (∀ n, n ∈ l ↔ inc n = true ∧ firstOf E n = some b) → b ≠ m.2.1 → firstOf (E ++ [m]) m.1 = some m.2.1 → m.1 ∉ l →
      ∀ n, n ∈ l ↔ inc n = true ∧ firstOf (E ++ [m]) n = some b := by
    intro l b hl hb h5 hm n
    by_cases hn : n = m.1
    · subst hn
      rw [h5]
      constructor
      · intro hh; exact absurd hh hm
      · rintro ⟨-, hh⟩; exact absurd (Option.some.inj hh).symm hb
    · rw [hl, other n hn]
  have add : ∀ (l : List Text), (∀ n, n ∈ l ↔ inc n = true ∧ firstOf E n = some m.2.1) → firstOf (E ++ [m]) m.1 = some m.2.1 →
      ∀ n, n ∈ ins m.1 l ↔ inc n = true ∧ firstOf (E ++ [m]) n = some m.2.1 := by
    intro l hl h5 n
    rw [mem_ins, hl]
    by_cases hn : n = m.1
    · subst hn
      simp [h5, h2]
    · rw [other n hn]
      simp [hn]
  have five : ∀ b c, b ≠ m.2.1 → c ≠ m.2.1 → b ≠ c → firstOf E m.1 ≠ some b → firstOf E m.1 ≠ some c → firstOf (E ++ [m]) m.1 = some m.2.1 := by
    intro b c hb hc hbc h1 h3
    cases hf : firstOf E m.1 with
    | none => exact new hf
    | some x =>
      rw [old (by rw [hf]; simp), hf]
      rw [hf] at h1 h3
      have : x ≠ b := fun e => h1 (by rw [e])
      have : x ≠ c := fun e => h3 (by rw [e])
      have key : ∀ x b c d : EDisp, x ≠ b → x ≠ c → b ≠ c → b ≠ d → c ≠ d → some x = some d := by
        intro x b c d
        cases x <;> cases b <;> cases c <;> cases d <;> simp
      exact key x b c _ ‹_› ‹_› hbc hb hc
  cases hm : m.2.1 with
  | nodisplay =>
    simp only
    by_cases h3 : m.1 ∈ s.edgeVec
    · rw [if_pos h3]; exact same (Or.inr (by rw [hV.1 h3]; simp))
    rw [if_neg h3]
    by_cases h4 : m.1 ∈ s.edgeSc
    · rw [if_pos h4]; exact same (Or.inr (by rw [hS.1 h4]; simp))
    rw [if_neg h4]
    have h5 := five .vector .scalar (by rw [hm]; simp) (by rw [hm]; simp) (by simp) (fun hh => h3 (hV.2 hh)) (fun hh => h4 (hS.2 hh))
    refine ⟨h.nodeSc, h.nodeNo, ?_, keep _ _ h.edgeSc (by rw [hm]; simp) h5 h4, keep _ _ h.edgeVec (by rw [hm]; simp) h5 h3, h.elem, h.sorted⟩
    have := add s.edgeNo (by rw [hm]; exact h.edgeNo) h5
    rw [hm] at this
    exact this
  | scalar =>
    simp only
    by_cases h3 : m.1 ∈ s.edgeVec
    · rw [if_pos h3]; exact same (Or.inr (by rw [hV.1 h3]; simp))
    rw [if_neg h3]
    by_cases h4 : m.1 ∈ s.edgeNo
    · rw [if_pos h4]; exact same (Or.inr (by rw [hN.1 h4]; simp))
    rw [if_neg h4]
    have h5 := five .vector .nodisplay (by rw [hm]; simp) (by rw [hm]; simp) (by simp) (fun hh => h3 (hV.2 hh)) (fun hh => h4 (hN.2 hh))
    refine ⟨h.nodeSc, h.nodeNo, keep _ _ h.edgeNo (by rw [hm]; simp) h5 h4, ?_, keep _ _ h.edgeVec (by rw [hm]; simp) h5 h3, h.elem,
      h.sorted.1, sorted_ins h.sorted.2.1, h.sorted.2.2⟩
    have := add s.edgeSc (by rw [hm]; exact h.edgeSc) h5
    rw [hm] at this
    exact this
  | vector =>
    simp only
    by_cases h3 : m.1 ∈ s.edgeSc
    · rw [if_pos h3]; exact same (Or.inr (by rw [hS.1 h3]; simp))
    rw [if_neg h3]
    by_cases h4 : m.1 ∈ s.edgeNo
    · rw [if_pos h4]; exact same (Or.inr (by rw [hN.1 h4]; simp))
    rw [if_neg h4]
    have h5 := five .scalar .nodisplay (by rw [hm]; simp) (by rw [hm]; simp) (by simp) (fun hh => h3 (hS.2 hh)) (fun hh => h4 (hN.2 hh))
    refine ⟨h.nodeSc, h.nodeNo, keep _ _ h.edgeNo (by rw [hm]; simp) h5 h4, keep _ _ h.edgeSc (by rw [hm]; simp) h5 h3, ?_, h.elem,
      h.sorted.1, h.sorted.2.1, sorted_ins h.sorted.2.2.1, h.sorted.2.2.2⟩
    have := add s.edgeVec (by rw [hm]; exact h.edgeVec) h5
    rw [hm] at this
    exact this

theorem inv_elem {inc : Text → Bool} {s : Sets} {N E} {T : List (Text × Bool × List D)} (h : Inv inc s N E T) (m : Text × Bool × List D) :
    Inv inc (addElem inc s m) N E (T ++ [m]) := by
  have hl : ∀ n, (∃ a ∈ T ++ [m], a.1 = n ∧ a.2.1 = true) ↔ (∃ a ∈ T, a.1 = n ∧ a.2.1 = true) ∨ (m.1 = n ∧ m.2.1 = true) := by
    intro n
    constructor
    · rintro ⟨a, ha, h1, h2⟩
      rcases List.mem_append.1 ha with ha | ha
      · exact Or.inl ⟨a, ha, h1, h2⟩
      · rw [List.mem_singleton] at ha
        subst ha
        exact Or.inr ⟨h1, h2⟩
    · rintro (⟨a, ha, h1⟩ | h1)
      · exact ⟨a, by simp [ha], h1⟩
      · exact ⟨m, by simp, h1⟩
  unfold addElem
  by_cases h2 : inc m.1 = true
  swap
  · rw [if_pos h2]
    refine ⟨h.nodeSc, h.nodeNo, h.edgeNo, h.edgeSc, h.edgeVec, fun n => ?_, h.sorted⟩
    rw [h.elem, hl]
    constructor
    · rintro ⟨a, b⟩; exact ⟨a, Or.inl b⟩
    · rintro ⟨a, b | b⟩
      · exact ⟨a, b⟩
      · rw [b.1] at h2; exact absurd a h2
  rw [if_neg (by simpa using h2)]
  by_cases h3 : m.2.1 = true
  · rw [if_pos h3]
    refine ⟨h.nodeSc, h.nodeNo, h.edgeNo, h.edgeSc, h.edgeVec, fun n => ?_, h.sorted.1, h.sorted.2.1, h.sorted.2.2.1, sorted_ins h.sorted.2.2.2⟩
    rw [mem_ins, h.elem, hl]
    constructor
    · rintro (rfl | ⟨a, b⟩)
      · exact ⟨h2, Or.inr ⟨rfl, h3⟩⟩
      · exact ⟨a, Or.inl b⟩
    · rintro ⟨a, b | b⟩
      · exact Or.inr ⟨a, b⟩
      · exact Or.inl b.1.symm
  · rw [if_neg h3]
    refine ⟨h.nodeSc, h.nodeNo, h.edgeNo, h.edgeSc, h.edgeVec, fun n => ?_, h.sorted⟩
    rw [h.elem, hl]
    constructor
    · rintro ⟨a, b⟩; exact ⟨a, Or.inl b⟩
    · rintro ⟨a, b | b⟩
      · exact ⟨a, b⟩
      · exact absurd b.2 h3

theorem inv_nodes {inc : Text → Bool} {E T} (l : List (Text × Bool × List D)) : ∀ {s : Sets} {N}, Inv inc s N E T → Inv inc (l.foldl (addNode inc) s) (N ++ l) E T := by
  induction l with
  | nil => intro s N h; rw [List.append_nil]; exact h
  | cons m l ih => intro s N h; have := ih (inv_node h m); rwa [List.append_assoc] at this

theorem inv_edges {inc : Text → Bool} {N T} (l : List (Text × EDisp × List D × List (D × D × D))) : ∀ {s : Sets} {E}, Inv inc s N E T → Inv inc (l.foldl (addEdge inc) s) N (E ++ l) T := by
  induction l with
  | nil => intro s N h; rw [List.append_nil]; exact h
  | cons m l ih => intro s N h; have := ih (inv_edge h m); rwa [List.append_assoc] at this

theorem inv_elems {inc : Text → Bool} {N E} (l : List (Text × Bool × List D)) : ∀ {s : Sets} {T}, Inv inc s N E T → Inv inc (l.foldl (addElem inc) s) N E (T ++ l) := by
  induction l with
  | nil => intro s N h; rw [List.append_nil]; exact h
  | cons m l ih => intro s N h; have := ih (inv_elem h m); rwa [List.append_assoc] at this

theorem inv_regs {inc : Text → Bool} (rs : List (Text × Reg D)) : ∀ {s : Sets} {N E T}, Inv inc s N E T →
    Inv inc (rs.foldl (addReg inc) s) (N ++ rs.flatMap (·.2.nodeModels)) (E ++ rs.flatMap (·.2.edgeModels)) (T ++ rs.flatMap (·.2.elemModels)) := by
  induction rs with
  | nil => intro s N E T h; simpa using h
  | cons r rs ih =>
    intro s N E T h
    have := ih (inv_elems r.2.elemModels (inv_edges r.2.edgeModels (inv_nodes r.2.nodeModels h)))
    simpa [addReg] using this

/-- The sets of names after all regions. -/
theorem collect_inv (inc : Text → Bool) (d : Dev D) : Inv inc (collect inc d) d.allNode d.allEdge (d.regs.flatMap (·.2.elemModels)) := by
  have h0 : Inv (D := D) inc {} [] [] [] := by
    refine ⟨?_, ?_, ?_, ?_, ?_, ?_, ?_⟩ <;> simp [firstOf, Sorted]
  exact inv_regs d.regs h0

/-! ### The variables of the file -/

theorem coords_mem {dim : ℕ} (hd : dim = 1 ∨ dim = 2 ∨ dim = 3) (n : Text) : n ∈ coords dim ↔ ∃ k < dim, n = [['x', 'y', 'z'].getD k 'z'] := by
  have h : coords dim = (List.range dim).map fun k => [['x', 'y', 'z'].getD k 'z'] := by rcases hd with rfl | rfl | rfl <;> rfl
  rw [h, List.mem_map]
  simp only [List.mem_range]
  constructor
  · rintro ⟨k, hk, rfl⟩; exact ⟨k, hk, rfl⟩
  · rintro ⟨k, hk, rfl⟩; exact ⟨k, hk, rfl⟩

/-- **The variables are those that should be shown**, each once. -/
theorem vars_shown (inc : Text → Bool) {d : Dev D} (hd : d.dim = 1 ∨ d.dim = 2 ∨ d.dim = 3) :
    (vars d.dim (collect inc d)).Nodup ∧ ∀ v, v ∈ vars d.dim (collect inc d) ↔ Shown inc d v := by
  have hi := collect_inv inc d
  generalize collect inc d = s at hi
  constructor
  · unfold vars
    have hmap : ∀ (l : List Text) (f : Text → Var), Function.Injective f → l.Nodup → (l.map f).Nodup := fun l f hf hl => List.Nodup.map hf hl
    have hc : (coords d.dim).Nodup := by rcases hd with h | h | h <;> rw [h] <;> decide
    have i1 : Function.Injective Var.coord := fun a b h => Var.coord.inj h
    have i2 : Function.Injective Var.node := fun a b h => Var.node.inj h
    have i3 : Function.Injective Var.edge := fun a b h => Var.edge.inj h
    have i5 : Function.Injective Var.elem := fun a b h => Var.elem.inj h
    have hvec : (s.edgeVec.flatMap fun n => (List.range d.dim).map (Var.vec n)).Nodup := by
      rw [List.nodup_flatMap]
      refine ⟨fun n _ => List.Nodup.map (fun a b h => (Var.vec.inj h).2) List.nodup_range, ?_⟩
      refine List.Pairwise.imp ?_ (sorted_nodup hi.sorted.2.2.1)
      intro a b hab v hv1 hv2
      obtain ⟨k, -, rfl⟩ := List.mem_map.1 hv1
      obtain ⟨j, -, hj⟩ := List.mem_map.1 hv2
      exact hab (Var.vec.inj hj).1.symm
    simp only [List.nodup_append, hmap _ _ i1 hc, hmap _ _ i2 (sorted_nodup hi.sorted.1), hmap _ _ i3 (sorted_nodup hi.sorted.2.1), hvec,
      hmap _ _ i5 (sorted_nodup hi.sorted.2.2.2), true_and]
    simp only [List.mem_append, List.mem_map, List.mem_flatMap]
    refine ⟨⟨⟨?_, ?_⟩, ?_⟩, ?_⟩
    · rintro _ ⟨n, -, k, -, rfl⟩ _ ⟨m, -, rfl⟩; simp
    · rintro _ ⟨n, -, rfl⟩ _ (⟨m, -, k, -, rfl⟩ | ⟨m, -, rfl⟩) <;> simp
    · rintro _ ⟨n, -, rfl⟩ _ (⟨m, -, rfl⟩ | ⟨m, -, k, -, rfl⟩ | ⟨m, -, rfl⟩) <;> simp
    · rintro _ ⟨n, -, rfl⟩ _ (⟨m, -, rfl⟩ | ⟨m, -, rfl⟩ | ⟨m, -, k, -, rfl⟩ | ⟨m, -, rfl⟩) <;> simp
  · intro v
    unfold vars
    simp only [List.mem_append, List.mem_map, List.mem_flatMap, List.mem_range]
    cases v with
    | coord n => simp only [Var.coord.injEq, exists_eq_right, reduceCtorEq, and_false, exists_const, or_false, exists_false]; exact coords_mem hd n
    | node n =>
      simp only [Var.node.injEq, exists_eq_right, reduceCtorEq, and_false, or_false, exists_false, false_or]
      exact hi.nodeSc n
    | edge n =>
      simp only [Var.edge.injEq, exists_eq_right, reduceCtorEq, and_false, or_false, exists_false, false_or]
      exact hi.edgeSc n
    | vec n k =>
      simp only [Var.vec.injEq, reduceCtorEq, and_false, or_false, exists_false, false_or]
      show _ ↔ k < d.dim ∧ inc n = true ∧ firstOf d.allEdge n = some .vector
      rw [← hi.edgeVec n]
      constructor
      · rintro ⟨a, ha, j, hj, rfl, rfl⟩; exact ⟨hj, ha⟩
      · rintro ⟨hk, hn⟩; exact ⟨n, hn, k, hk, rfl, rfl⟩
    | elem n =>
      simp only [Var.elem.injEq, exists_eq_right, reduceCtorEq, and_false, or_false, exists_false, false_or]
      rw [hi.elem n]
      show _ ↔ inc n = true ∧ ∃ r ∈ d.regs, ∃ m ∈ r.2.elemModels, m.1 = n ∧ m.2.1 = true
      simp only [List.mem_flatMap]
      constructor
      · rintro ⟨h1, m, ⟨r, hr, hm⟩, h2⟩; exact ⟨h1, r, hr, m, hm, h2⟩
      · rintro ⟨h1, r, hr, m, hm, h2⟩; exact ⟨h1, m, ⟨r, hr, hm⟩, h2⟩

/-! ### The file -/

/-- What is assumed of a device: dimension, sizes, names that can be quoted, and that a vector is a vector in every region
that has it. -/
structure Plain (inc : Text → Bool) (dname : Text) (d : Dev D) : Prop where
  dim : d.dim = 1 ∨ d.dim = 2 ∨ d.dim = 3
  sized : Sized d
  names : ∀ r ∈ d.regs, (∀ m ∈ r.2.nodeModels, NameOK m.1 ∧ m.1.length < 29980) ∧ (∀ m ∈ r.2.edgeModels, NameOK m.1 ∧ m.1.length < 29980) ∧
    ∀ m ∈ r.2.elemModels, NameOK m.1 ∧ m.1.length < 29980
  title : '"' ∉ dname
  regions : ∀ r ∈ d.regs, '"' ∉ r.1 ∧ 0 < r.2.nodes
  vectors : ∀ n, inc n = true → firstOf d.allEdge n = some .vector → ∀ r ∈ d.regs, ∀ m ∈ r.2.edgeModels, m.1 = n → m.2.1 = .vector

theorem firstOf_mem {β γ : Type} {l : List (Text × β × γ)} {n : Text} {b : β} (h : firstOf l n = some b) : ∃ m ∈ l, m.1 = n ∧ m.2.1 = b := by
  unfold firstOf at h
  obtain ⟨m, h1, h2⟩ := Option.map_eq_some_iff.1 h
  exact ⟨m, List.mem_of_find?_eq_some h1, by simpa using List.find?_some h1, h2⟩

/-- **The file is written and read as the device**: its variables are exactly those to be shown, each once, and every region is a
zone with its values and elements. -/
theorem file_read {fmt : D → Text} (hf : FmtOK fmt) (zero : D) {inc : Text → Bool} {dname : Text} {d : Dev D} (h : Plain inc dname d) :
    ∃ vs : List Var, vs.Nodup ∧ (∀ v, v ∈ vs ↔ Shown inc d v) ∧
      ∃ x, writeTec fmt zero inc dname d = some x ∧ readTec x = some (meant fmt zero dname d vs) := by
  obtain ⟨h1, h2⟩ := vars_shown inc h.dim
  refine ⟨_, h1, h2, ?_⟩
  have hi := collect_inv inc d
  refine tec_read hf zero h.sized h.dim ⟨?_, ?_, ?_, ?_⟩ ?_ h.title (fun r hr => (h.regions r hr).1) ?_
  · intro n hn
    obtain ⟨m, hm, rfl, -⟩ := firstOf_mem ((hi.nodeSc n).1 hn).2.2
    obtain ⟨r, hr, hm⟩ := List.mem_flatMap.1 hm
    exact (h.names r hr).1 m hm
  · intro n hn
    obtain ⟨m, hm, rfl, -⟩ := firstOf_mem ((hi.edgeSc n).1 hn).2
    obtain ⟨r, hr, hm⟩ := List.mem_flatMap.1 hm
    exact (h.names r hr).2.1 m hm
  · intro n hn
    obtain ⟨m, hm, rfl, -⟩ := firstOf_mem ((hi.edgeVec n).1 hn).2
    obtain ⟨r, hr, hm⟩ := List.mem_flatMap.1 hm
    exact (h.names r hr).2.1 m hm
  · intro n hn
    obtain ⟨-, m, hm, rfl, -⟩ := (hi.elem n).1 hn
    obtain ⟨r, hr, hm⟩ := List.mem_flatMap.1 hm
    exact (h.names r hr).2.2 m hm
  · intro h1
    refine List.eq_nil_iff_forall_not_mem.2 fun n hn => ?_
    obtain ⟨-, m, hm, rfl, -⟩ := (hi.elem n).1 hn
    obtain ⟨r, hr, hm⟩ := List.mem_flatMap.1 hm
    rw [h.sized.one h1 r hr] at hm
    simp at hm
  · intro r hr n hn m hm
    have hmem := lookup_mem hm
    refine ⟨h.vectors n ((hi.edgeVec n).1 hn).1 ((hi.edgeVec n).1 hn).2 r hr _ hmem rfl, fun he => ?_⟩
    have := (h.sized.edge r hr _ hmem).2
    rw [he] at this
    have h0 := (h.regions r hr).2
    simp at this
    omega

/-! ### When it is not written -/

theorem writeAll_none {f : Text → Option Text} {ns : List Text} {n : Text} (hn : n ∈ ns) (h : f n = none) : writeAll f ns = none := by
  induction ns with
  | nil => simp at hn
  | cons a ns ih =>
    rw [writeAll]
    rcases List.mem_cons.1 hn with rfl | hn
    · rw [h]; rfl
    · rw [ih hn]
      cases f a <;> rfl

theorem writeZones_none {fmt : D → Text} {zero : D} {dim : ℕ} {s : Sets} {rs : List (Text × Reg D)} {r : Text × Reg D} (hr : r ∈ rs)
    (h : writeZone fmt zero dim s r = none) : writeZones fmt zero dim s rs = none := by
  induction rs with
  | nil => simp at hr
  | cons a rs ih =>
    rw [writeZones]
    rcases List.mem_cons.1 hr with rfl | hr
    · rw [h]; rfl
    · rw [ih hr]
      cases writeZone fmt zero dim s a <;> rfl

/-- **A model that is a vector in the first region and not in another stops the program** (`TecplotWriter.cc:276`). -/
theorem conflict_stops (fmt : D → Text) (zero : D) {inc : Text → Bool} (dname : Text) {d : Dev D} {n : Text} (hn : inc n = true)
    (hv : firstOf d.allEdge n = some .vector) {r : Text × Reg D} (hr : r ∈ d.regs) {m : EDisp × List D × List (D × D × D)}
    (hm : r.2.edgeModels.lookup n = some m) (hne : m.1 ≠ .vector) : writeTec fmt zero inc dname d = none := by
  have hz : writeZones fmt zero d.dim (collect inc d) d.regs = none := by
    refine writeZones_none hr ?_
    have : writeAll (writeEdgeBlockVector fmt zero d.dim r.2) (collect inc d).edgeVec = none := by
      refine writeAll_none (((collect_inv inc d).edgeVec n).2 ⟨hn, hv⟩) ?_
      unfold writeEdgeBlockVector vecTexts
      rw [hm]
      simp only
      rw [if_neg fun hh => hne hh.1]
    unfold writeZone
    rw [this]
    cases writeAll (writeNodeBlock fmt zero r.2) (coords d.dim) <;> cases writeAll (writeNodeBlock fmt zero r.2) (collect inc d).nodeSc <;>
      cases writeAll (writeEdgeBlockScalar fmt zero r.2) (collect inc d).edgeSc <;> rfl
  unfold writeTec
  dsimp only
  rw [hz]
  cases h1 : varLine d.dim (collect inc d) with
  | none => rfl
  | some v =>
    show ((breakLine v).bind fun v => none) = none
    cases breakLine v <;> rfl

/-- **A model that is displayed is not in the file** when it is not displayed in an earlier region. -/
theorem displayed_lost {inc : Text → Bool} {d : Dev D} (hd : d.dim = 1 ∨ d.dim = 2 ∨ d.dim = 3) {n : Text} (h : firstOf d.allNode n = some false) :
    .node n ∉ vars d.dim (collect inc d) := by
  rw [(vars_shown inc hd).2]
  rintro ⟨-, -, h1⟩
  rw [h] at h1
  simp at h1

theorem breakFrom_hangs {s : Text} {p start : ℕ} (hp : s[p]? = some ' ') (hst : start = p + 1)
    (hn : ∀ q : ℕ, p < q → q ≤ p + 30000 → s[q]? ≠ some ' ') (hl : p + 30000 < s.length) (k : ℕ) : breakFrom s k start = none := by
  have hr : rfind s ' ' (start + 29999) = some p := by
    cases hf : rfind s ' ' (start + 29999) with
    | none => exact absurd hp (rfind_none hf p (by omega))
    | some q =>
      obtain ⟨h1, h2, h3⟩ := rfind_some hf
      by_contra hne
      rcases Nat.lt_trichotomy p q with h | h | h
      · exact hn q h (by omega) h1
      · exact hne (by rw [h])
      · exact h3 p h (by omega) hp
  induction k with
  | zero => rfl
  | succ k ih =>
    rw [breakFrom]
    dsimp only
    rw [if_neg (by omega), hr]
    dsimp only
    rw [if_neg (by omega), ← hst, ih]
    rfl

theorem breakFrom_hangs' {s : Text} {p start : ℕ} (hp : s[p]? = some ' ') (h0 : p < start + 30000)
    (hn : ∀ q : ℕ, p < q → q ≤ p + 30000 → s[q]? ≠ some ' ') (hl : p + 30000 < s.length) (h1 : start ≤ p) (k : ℕ) : breakFrom s k start = none := by
  have h := breakFrom_hangs hp rfl hn hl
  cases k with
  | zero => rfl
  | succ k =>
    have hr : rfind s ' ' (start + 29999) = some p := by
      cases hf : rfind s ' ' (start + 29999) with
      | none => exact absurd hp (rfind_none hf p (by omega))
      | some q =>
        obtain ⟨h1, h2, h3⟩ := rfind_some hf
        by_contra hne
        rcases Nat.lt_trichotomy p q with h | h | h
        · exact hn q h (by omega) h1
        · exact hne (by rw [h])
        · exact h3 p h (by omega) hp
    rw [breakFrom]
    dsimp only
    rw [if_neg (by omega), hr]
    dsimp only
    rw [if_neg (by omega), h]
    rfl

/-- **A word of 30000 characters makes the program write for ever** (`TecplotWriter.cc:54-66`): it finds the same blank again. -/
theorem long_word_hangs {s : Text} {p : ℕ} (hp : s[p]? = some ' ') (h0 : p < 30000) (hn : ∀ q : ℕ, p < q → q ≤ p + 30000 → s[q]? ≠ some ' ')
    (hl : p + 30000 < s.length) : breakLine s = none := by
  unfold breakLine
  rw [if_neg (by rintro rfl; exact absurd hl (Nat.not_lt_zero _)), if_neg (by omega)]
  exact breakFrom_hangs' hp (by omega) hn hl (Nat.zero_le _) _

/-- Lines are not longer than 30000 characters, when no word is. -/
theorem lines_short {s out : Text} (hs : Has ' ' 30000 s) (h : breakLine s = some out) : Has '\n' 30000 out := by
  obtain ⟨o, h1, -, h2⟩ := breakLine_ok hs
  rw [h] at h1
  rw [Option.some.inj h1]
  exact h2

end Verif.Tec
