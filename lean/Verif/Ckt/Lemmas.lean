import Verif.Ckt.Spec

/-! Helpers for C94: what the commands of `Circuit` do to the elements and to the lock. -/
namespace Verif.Ckt
open Verif
open Verif.Circuit

set_option linter.unusedSectionVars false
variable {K V : Type} [DecidableEq K]

/-- what every command but `circuit_element` and `delete_circuit` keeps -/
def Keep (E : FMap String (Circuit.Elem String)) (s : St String K V) : Prop := s.elems = E ∧ (s.locked = true → s.sols ≠ [])

theorem keep_andThen {E} {r : St String K V × Bool} {f : St String K V → St String K V × Bool} (h : Keep E r.1)
    (hf : ∀ s, Keep E s → Keep E (f s).1) : Keep E (andThen r f).1 := by
  unfold andThen
  split
  · exact h
  · exact hf _ h

theorem keep_addNode {E} {s : St String K V} (h : Keep E s) (n ty ut) : Keep E (addNode s n ty ut).1 := by
  unfold addNode
  split
  · exact h
  split
  · exact h
  · exact h

theorem keep_ensure {E} {s : St String K V} (h : Keep E s) (n) : Keep E (ensureGround s n).1 := by
  unfold ensureGround
  split
  · exact h
  · exact keep_addNode h _ _ _

theorem keep_addGround {E} {s : St String K V} (h : Keep E s) : Keep E (addGround names s).1 :=
  keep_andThen (keep_ensure h _) fun _ h => keep_ensure h _

theorem keep_createNode {E} {s : St String K V} (h : Keep E s) (n ut) : Keep E (createNode names s n ut).1 :=
  keep_andThen (keep_addGround h) fun s h => by
    split
    · exact h
    · exact keep_addNode h _ _ _

theorem keep_addCircuitNodeCmd {E} {s : St String K V} (h : Keep E s) (n ut) : Keep E (addCircuitNodeCmd names s n ut).1 :=
  keep_andThen (keep_addGround h) fun s h => by
    split
    · exact h
    · exact keep_createNode h _ _

theorem keep_alias {E} {s : St String K V} (h : Keep E s) (n al) : Keep E (aliasCmd names s n al).1 :=
  keep_andThen (keep_addGround h) fun s h => by
    split
    · exact h
    split
    · exact h
    unfold addAlias
    split
    · exact h
    split
    · exact h
    · exact h

theorem set_ne_nil {A B : Type} [DecidableEq A] (m : FMap A B) (k : A) (v : B) : m.set k v ≠ [] := by
  cases m with
  | nil => simp [FMap.set]
  | cons p m =>
    obtain ⟨a, b⟩ := p
    unfold FMap.set
    split <;> simp

theorem keep_setVal {E} {s : St String K V} (h : Keep E s) (k n x) : Keep E (setValueCmd names s k n x).1 :=
  keep_andThen (keep_addGround h) fun s h => by
    split
    · unfold setValue
      split
      · exact h
      split
      · exact h
      split
      · exact h
      split
      · exact ⟨h.1, fun _ => set_ne_nil _ _ _⟩
      · exact h
    · exact h

theorem keep_setNodeNumbers {E} {s : St String K V} (h : Keep E s) (start) : Keep E (setNodeNumbers s start).1 := h

theorem keep_initialize [Zero V] {E} {s : St String K V} (h : Keep E s) (k) : Keep E (initializeSolution s k).1 := by
  unfold initializeSolution
  split
  · exact h
  unfold createSolution
  split
  · exact ⟨h.1, fun _ => set_ne_nil _ _ _⟩
  · exact ⟨h.1, fun _ => set_ne_nil _ _ _⟩

theorem keep_write {E} {s : St String K V} (h : Keep E s) (k) (f : Nat → V) : Keep E (writeSolution s k f).1 := by
  unfold writeSolution
  split
  · exact ⟨h.1, fun _ => set_ne_nil _ _ _⟩
  · exact h

theorem keep_fold {A : Type} {E} (f : A → St String K V → St String K V × Bool) (hf : ∀ a s, Keep E s → Keep E (f a s).1) (l : List A) :
    ∀ r : St String K V × Bool, Keep E r.1 → Keep E (l.foldl (fun r a => andThen r (f a)) r).1 := by
  induction l with
  | nil => intro r h; exact h
  | cons a l ih => intro r h; exact ih _ (keep_andThen h (hf a))

theorem keep_solve [Zero V] {E} {s : St String K V} (h : Keep E s) (start) (ks : List (K × (Nat → V))) : Keep E (solveCmd s start ks).1 := by
  unfold solveCmd
  split
  · exact h
  refine keep_andThen (keep_setNodeNumbers h _) fun s h => ?_
  refine keep_andThen ?_ fun s h => ?_
  · exact keep_fold (fun (k : K × (Nat → V)) st => initializeSolution st k.1) (fun k s h => keep_initialize h k.1) ks (s, false) h
  · exact keep_fold (fun (k : K × (Nat → V)) st => writeSolution st k.1 k.2) (fun k s h => keep_write h k.1 k.2) ks (s, false) h

/-! ### circuit_element -/

/-- no solution yet -/
def Open (E : FMap String (Circuit.Elem String)) (s : St String K V) : Prop := s.locked = false ∧ s.elems = E

theorem open_andThen {E} {r : St String K V × Bool} {f : St String K V → St String K V × Bool} (h : Open E r.1 ∧ r.2 = false)
    (hf : ∀ s, Open E s → Open E (f s).1 ∧ (f s).2 = false) : Open E (andThen r f).1 ∧ (andThen r f).2 = false := by
  unfold andThen
  rw [if_neg (by rw [h.2]; simp)]
  exact hf _ h.1

theorem open_addNode {E} {s : St String K V} (h : Open E s) (n ty ut) : Open E (addNode s n ty ut).1 ∧ (addNode s n ty ut).2 = false := by
  unfold addNode
  rw [if_neg (by rw [h.1]; simp)]
  split
  · exact ⟨h, rfl⟩
  · exact ⟨h, rfl⟩

theorem open_createNode {E} {s : St String K V} (h : Open E s) (n ut) : Open E (createNode names s n ut).1 ∧ (createNode names s n ut).2 = false := by
  have eg : ∀ m (s : St String K V), Open E s → Open E (ensureGround s m).1 ∧ (ensureGround s m).2 = false := by
    intro m s h
    unfold ensureGround
    split
    · exact ⟨h, rfl⟩
    · exact open_addNode h _ _ _
  refine open_andThen (open_andThen (eg _ _ h) fun s h => eg _ _ h) fun s h => ?_
  split
  · exact ⟨h, rfl⟩
  · exact open_addNode h _ _ _

theorem open_then {E} {Q : St String K V × Bool → Prop} {r : St String K V × Bool} {f : St String K V → St String K V × Bool}
    (h : Open E r.1 ∧ r.2 = false) (hf : ∀ s, Open E s → Q (f s)) : Q (andThen r f) := by
  unfold andThen
  rw [if_neg (by rw [h.2]; simp)]
  exact hf _ h.1

/-- without a solution a new name of a known kind is accepted -/
theorem element_new {s : St String K V} (h : s.locked = false) {e : String} {k} (hk : kindOf e = some k) (he : s.elems.get e = none) (n1 n2) :
    (Circuit.elementCmd names s e n1 n2).2 = false ∧
    (Circuit.elementCmd names s e n1 n2).1.elems = s.elems.set e ⟨k, n1, n2, (branchNode names k e).map Prod.fst⟩ ∧
    (Circuit.elementCmd names s e n1 n2).1.locked = false := by
  have h0 : Open s.elems s := ⟨h, rfl⟩
  generalize hE : s.elems = E at h0 he
  have hk' : names.kind e = some k := hk
  unfold Circuit.elementCmd
  rw [hk']
  let Q : St String K V × Bool → Prop := fun r => r.2 = false ∧ r.1.elems = E.set e ⟨k, n1, n2, (branchNode names k e).map Prod.fst⟩ ∧
    r.1.locked = false
  refine open_then (Q := Q) (open_createNode h0 n1 .default) fun s h => ?_
  refine open_then (Q := Q) (open_createNode h n2 .default) fun s h => ?_
  unfold construct
  refine open_then (Q := Q) (open_addNode h _ _ _) fun s h => ?_
  refine open_then (Q := Q) (open_addNode h _ _ _) fun s h => ?_
  refine open_then (Q := Q) (E := E) ?_ fun s h => ?_
  · split
    · exact open_addNode h _ _ _
    · exact ⟨h, rfl⟩
  · rw [if_neg (by rw [h.2]; simp [FMap.has, he])]
    refine ⟨rfl, ?_, h.1⟩
    show s.elems.set _ _ = _
    rw [h.2]

theorem locked_addNode {s : St String K V} (h : s.locked = true) (n ty ut) : addNode s n ty ut = (s, true) := by
  unfold addNode
  rw [if_pos h]

theorem locked_andThen {r : St String K V × Bool} {f : St String K V → St String K V × Bool} (h : r.1.locked = true)
    (hf : ∀ s : St String K V, s.locked = true → (f s).1.locked = true) : (andThen r f).1.locked = true := by
  unfold andThen
  split
  · exact h
  · exact hf _ h

theorem locked_createNode {s : St String K V} (h : s.locked = true) (n ut) : (createNode names s n ut).1.locked = true := by
  have eg : ∀ m (s : St String K V), s.locked = true → (ensureGround s m).1.locked = true := by
    intro m s h
    unfold ensureGround
    split
    · exact h
    · rw [locked_addNode h]; exact h
  refine locked_andThen (locked_andThen (eg _ _ h) fun s h => eg _ _ h) fun s h => ?_
  split
  · exact h
  · rw [locked_addNode h]; exact h

theorem refuse {E} {P : St String K V → Prop} {r : St String K V × Bool} {f : St String K V → St String K V × Bool} (h : Keep E r.1) (hp : P r.1)
    (hf : ∀ s, Keep E s → P s → (f s).2 = true ∧ Keep E (f s).1) : (andThen r f).2 = true ∧ Keep E (andThen r f).1 := by
  unfold andThen
  split
  · rename_i hr; exact ⟨hr, h⟩
  · exact hf _ h hp

/-- the other cases are refused -/
theorem element_not {E} {s : St String K V} (h : Keep E s) (e n1 n2 : String)
    (hw : s.locked = true ∨ kindOf e = none ∨ s.elems.has e = true) :
    (Circuit.elementCmd names s e n1 n2).2 = true ∧ Keep E (Circuit.elementCmd names s e n1 n2).1 := by
  rcases hw with hw | hw | hw
  · refine refuse (P := fun s => s.locked = true) (keep_createNode h _ _) (locked_createNode hw _ _) fun s h hw => ?_
    refine refuse (P := fun s => s.locked = true) (keep_createNode h _ _) (locked_createNode hw _ _) fun s h hw => ?_
    split
    · exact ⟨rfl, h⟩
    · unfold construct
      rw [locked_addNode hw]
      exact ⟨rfl, h⟩
  · refine refuse (P := fun _ => True) (keep_createNode h _ _) trivial fun s h _ => ?_
    refine refuse (P := fun _ => True) (keep_createNode h _ _) trivial fun s h _ => ?_
    have : names.kind e = none := hw
    rw [this]
    exact ⟨rfl, h⟩
  · have hh : FMap.has E e = true := by rw [← h.1]; exact hw
    refine refuse (P := fun _ => True) (keep_createNode h _ _) trivial fun s h _ => ?_
    refine refuse (P := fun _ => True) (keep_createNode h _ _) trivial fun s h _ => ?_
    split
    · exact ⟨rfl, h⟩
    · unfold construct
      refine refuse (P := fun _ => True) (keep_addNode h _ _ _) trivial fun s h _ => ?_
      refine refuse (P := fun _ => True) (keep_addNode h _ _ _) trivial fun s h _ => ?_
      refine refuse (P := fun _ => True) ?_ trivial fun s h _ => ?_
      · split
        · exact keep_addNode h _ _ _
        · exact h
      · rw [if_pos (by rw [h.1]; exact hh)]
        exact ⟨rfl, h⟩

end Verif.Ckt
