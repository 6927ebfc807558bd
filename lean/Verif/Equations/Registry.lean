import Verif.Util.FMap
/-
Model of a region's equation tables.
Code: `/repo/src/Geometry/Region.cc:1125-1258` (AddEquation, DeleteEquation, GetEquationIndex, GetEquationNameFromVariable),
`/repo/src/commands/EquationCommands.cc:128-138` (equation), `223-248` (delete_equation).

Simplifications: an equation object is its name and variable; the commands always build a new equation object, so the
branch "will not replace equation with itself" (`oeq == eq`, comparison of pointers) is never taken.
-/
namespace Verif.Equations
open Verif
variable {E X : Type} [DecidableEq E] [DecidableEq X]

/-- Region.hh: `equationPointerMap` (the variable of the stored equation), `equationIndexMap`, `variableEquationMap`,
`numequations`. -/
structure Reg (E X : Type) where
  ptr : FMap E X
  idx : FMap E Nat
  var : FMap X E
  num : Nat

def Reg.empty : Reg E X := ⟨[], [], [], 0⟩

/-- Region.cc:1126-1188.  `none`: the FATAL error thrown when the variable is in use. -/
def addEquation (r : Reg E X) (nm : E) (v : X) : Option (Reg E X) :=
  match r.ptr.get nm with
  | some ov =>
    let r := if ov ≠ v then { r with var := (r.var.erase v).set v nm } else r
    some { r with ptr := r.ptr.set nm v }
  | none =>
    if r.var.has v then none
    else
      let a := r.ptr.length
      let ptr := r.ptr.set nm v
      some { ptr := ptr, idx := r.idx.set nm a, var := r.var.set v nm, num := ptr.length }

/-- Region.cc:1207-1214 -/
def shift (a : Nat) (m : FMap E Nat) : FMap E Nat := m.map (fun p => (p.1, if p.2 > a then p.2 - 1 else p.2))

/-- Region.cc:1191-1216, called with the stored equation of that name (EquationCommands.cc:223-248).  `none`: error, the
equation does not exist or an assertion fails. -/
def deleteEquation (r : Reg E X) (nm : E) : Option (Reg E X) :=
  match r.ptr.get nm with
  | none => none
  | some v =>
    match r.idx.get nm with
    | none => none
    | some a =>
      if r.var.has v then
        let ptr := r.ptr.erase nm
        some { ptr := ptr, idx := shift a (r.idx.erase nm), var := r.var.erase v, num := ptr.length }
      else none

inductive Op (E X : Type) where
  | add (nm : E) (v : X)
  | del (nm : E)

def step (r : Reg E X) : Op E X → Reg E X
  | .add nm v => (addEquation r nm v).getD r
  | .del nm => (deleteEquation r nm).getD r

def run (r : Reg E X) (ops : List (Op E X)) : Reg E X := ops.foldl step r

/-- Region.cc:1228-1238 -/
def equationIndex (r : Reg E X) (nm : E) : Option Nat := r.idx.get nm
/-- Region.cc:1240-1249 -/
def equationOfVariable (r : Reg E X) (v : X) : Option E := r.var.get v

/-! ### lemmas -/

theorem get_shift (a : Nat) (m : FMap E Nat) (k : E) :
    (shift a m).get k = (m.get k).map (fun i => if i > a then i - 1 else i) := by
  induction m with
  | nil => rfl
  | cons p m ih =>
    obtain ⟨x, y⟩ := p
    simp only [shift, List.map_cons, FMap.get] at ih ⊢
    by_cases h : x = k
    · rw [if_pos h, if_pos h]; rfl
    · rw [if_neg h, if_neg h]; exact ih

theorem length_eq_of_keys {V W : Type} (m : FMap E V) (m' : FMap E W) (h : m.keys = m'.keys) : m.length = m'.length := by
  have := congrArg List.length h
  simpa [FMap.keys] using this

/-- The invariant of the index table. -/
structure Inv (r : Reg E X) : Prop where
  wfp : r.ptr.WF
  wfi : r.idx.WF
  num : r.num = r.ptr.length
  dom : ∀ e, (r.idx.get e).isSome = (r.ptr.get e).isSome
  bound : ∀ e i, r.idx.get e = some i → i < r.num
  inj : ∀ e e' i, r.idx.get e = some i → r.idx.get e' = some i → e = e'

theorem length_set_new {V : Type} (m : FMap E V) (k : E) (v : V) (hm : m.WF) (h : m.get k = none) :
    (m.set k v).length = m.length + 1 := by
  have hk := FMap.keys_set m k v hm
  rw [if_neg (by rw [FMap.mem_keys, h]; simp)] at hk
  have := congrArg List.length hk
  simpa [FMap.keys] using this

theorem length_set_old {V : Type} (m : FMap E V) (k : E) (v : V) (hm : m.WF) (h : m.get k ≠ none) :
    (m.set k v).length = m.length := by
  have hk := FMap.keys_set m k v hm
  rw [if_pos (by rw [FMap.mem_keys, Option.isSome_iff_ne_none]; exact h)] at hk
  have := congrArg List.length hk
  simpa [FMap.keys] using this

theorem length_erase {V : Type} (m : FMap E V) (k : E) (hm : m.WF) (h : m.get k ≠ none) :
    (m.erase k).length + 1 = m.length := by
  induction m with
  | nil => exact absurd rfl h
  | cons p m ih =>
    obtain ⟨a, b⟩ := p
    have hm' : a ∉ FMap.keys m ∧ FMap.WF m := by simpa [FMap.WF, FMap.keys] using hm
    simp only [FMap.erase]
    by_cases hk : a = k
    · rw [if_pos hk]
      subst hk
      have : FMap.keys (FMap.erase m a) = FMap.keys m := by
        rw [FMap.keys_erase]; apply List.filter_eq_self.mpr
        intro x hx
        have : x ≠ a := by rintro rfl; exact hm'.1 hx
        simpa using this
      have := length_eq_of_keys _ _ this
      simp only [List.length_cons]; omega
    · rw [if_neg hk]
      simp only [FMap.get, if_neg hk] at h
      have := ih hm'.2 h
      simp only [List.length_cons]; omega

theorem inv_empty : Inv (Reg.empty : Reg E X) :=
  ⟨List.nodup_nil, List.nodup_nil, rfl, fun _ => rfl, fun _ _ h => (by cases h), fun _ _ _ h => (by cases h)⟩

theorem inv_add (r r' : Reg E X) (nm : E) (v : X) (hi : Inv r) (h : addEquation r nm v = some r') : Inv r' := by
  unfold addEquation at h
  cases hp : r.ptr.get nm with
  | some ov =>
    rw [hp] at h
    simp only [Option.some.injEq] at h
    have hptr : r'.ptr = r.ptr.set nm v ∧ r'.idx = r.idx ∧ r'.num = r.num := by
      subst h; split <;> exact ⟨rfl, rfl, rfl⟩
    obtain ⟨e1, e2, e3⟩ := hptr
    refine ⟨by rw [e1]; exact hi.wfp.set _ _, by rw [e2]; exact hi.wfi, ?_, ?_, by rw [e2, e3]; exact hi.bound,
      by rw [e2]; exact hi.inj⟩
    · rw [e1, e3, length_set_old _ _ _ hi.wfp (by rw [hp]; simp)]; exact hi.num
    · intro e; rw [e1, e2, FMap.get_set]
      by_cases he : e = nm
      · subst he; rw [if_pos rfl, hi.dom, hp]; rfl
      · rw [if_neg he]; exact hi.dom e
  | none =>
    rw [hp] at h
    simp only at h
    split at h
    · cases h
    · simp only [Option.some.injEq] at h
      have hlen := length_set_new r.ptr nm v hi.wfp hp
      have hidx : r.idx.get nm = none := by
        have := hi.dom nm; rw [hp] at this; simpa using this
      subst h
      refine ⟨hi.wfp.set _ _, hi.wfi.set _ _, rfl, ?_, ?_, ?_⟩
      · intro e
        simp only [FMap.get_set]
        by_cases he : e = nm
        · rw [if_pos he, if_pos he]; rfl
        · rw [if_neg he, if_neg he]; exact hi.dom e
      · intro e i hei
        simp only [FMap.get_set] at hei
        simp only [hlen]
        by_cases he : e = nm
        · rw [if_pos he] at hei; cases hei; omega
        · rw [if_neg he] at hei
          have := hi.bound e i hei
          rw [hi.num] at this; omega
      · intro e e' i he he'
        simp only [FMap.get_set] at he he'
        by_cases h1 : e = nm
        · by_cases h2 : e' = nm
          · rw [h1, h2]
          · rw [if_pos h1] at he; rw [if_neg h2] at he'
            cases he
            have := hi.bound e' _ he'
            rw [hi.num] at this; omega
        · by_cases h2 : e' = nm
          · rw [if_neg h1] at he; rw [if_pos h2] at he'
            cases he'
            have := hi.bound e _ he
            rw [hi.num] at this; omega
          · rw [if_neg h1] at he; rw [if_neg h2] at he'
            exact hi.inj e e' i he he'

theorem delete_spec (r r' : Reg E X) (nm : E) (h : deleteEquation r nm = some r') :
    ∃ v a, r.ptr.get nm = some v ∧ r.idx.get nm = some a ∧ r.var.has v = true ∧ r'.ptr = r.ptr.erase nm ∧
      r'.var = r.var.erase v ∧ r'.num = (r.ptr.erase nm).length ∧ r'.idx = shift a (r.idx.erase nm) ∧
      ∀ e, r'.idx.get e = if e = nm then none else (r.idx.get e).map (fun i => if i > a then i - 1 else i) := by
  unfold deleteEquation at h
  cases hp : r.ptr.get nm with
  | none => rw [hp] at h; cases h
  | some v =>
    rw [hp] at h
    cases ha : r.idx.get nm with
    | none => rw [ha] at h; cases h
    | some a =>
      rw [ha] at h
      simp only at h
      split at h
      · rename_i hv
        simp only [Option.some.injEq] at h
        subst h
        refine ⟨v, a, rfl, rfl, hv, rfl, rfl, rfl, rfl, ?_⟩
        intro e
        simp only [get_shift, FMap.get_erase]
        by_cases he : e = nm
        · rw [if_pos he, if_pos he]; rfl
        · rw [if_neg he, if_neg he]
      · cases h

theorem inv_delete (r r' : Reg E X) (nm : E) (hi : Inv r) (h : deleteEquation r nm = some r') : Inv r' := by
  obtain ⟨v, a, h1, h2, _, h3, _, h5, h6, h7⟩ := delete_spec r r' nm h
  have hlen := length_erase r.ptr nm hi.wfp (by rw [h1]; simp)
  have hab := hi.bound nm a h2
  refine ⟨by rw [h3]; exact hi.wfp.erase _, ?_, by rw [h5, h3], ?_, ?_, ?_⟩
  · rw [h6]
    have : (shift a (r.idx.erase nm)).keys = (r.idx.erase nm).keys := by
      simp [shift, FMap.keys, Function.comp_def]
    unfold FMap.WF
    rw [this]
    exact hi.wfi.erase nm
  · intro e
    rw [h7, h3, FMap.get_erase]
    by_cases he : e = nm
    · rw [if_pos he, if_pos he]; rfl
    · rw [if_neg he, if_neg he, Option.isSome_map]; exact hi.dom e
  · intro e i hei
    rw [h7] at hei
    split at hei
    · cases hei
    · rename_i he
      cases hx : r.idx.get e with
      | none => rw [hx] at hei; cases hei
      | some j =>
        rw [hx] at hei
        simp only [Option.map_some, Option.some.injEq] at hei
        have hj := hi.bound e j hx
        have hja : j ≠ a := by rintro rfl; exact he (hi.inj e nm j hx h2)
        rw [hi.num] at hj hab
        rw [h5]
        split at hei <;> omega
  · intro e e' i he he'
    rw [h7] at he he'
    split at he
    · cases he
    · rename_i hne
      split at he'
      · cases he'
      · rename_i hne'
        cases hx : r.idx.get e with
        | none => rw [hx] at he; cases he
        | some j =>
          cases hx' : r.idx.get e' with
          | none => rw [hx'] at he'; cases he'
          | some j' =>
            rw [hx] at he; rw [hx'] at he'
            simp only [Option.map_some, Option.some.injEq] at he he'
            have hja : j ≠ a := by rintro rfl; exact hne (hi.inj e nm j hx h2)
            have hja' : j' ≠ a := by rintro rfl; exact hne' (hi.inj e' nm j' hx' h2)
            have : j = j' := by
              split at he <;> split at he' <;> omega
            subst this
            exact hi.inj e e' j hx hx'

theorem inv_run (ops : List (Op E X)) : Inv (run (Reg.empty : Reg E X) ops) := by
  have key : ∀ (ops : List (Op E X)) r, Inv r → Inv (run r ops) := by
    intro ops
    induction ops with
    | nil => intro r h; exact h
    | cons o ops ih =>
      intro r h
      apply ih
      cases o with
      | add nm v =>
        simp only [step]
        cases ha : addEquation r nm v with
        | none => exact h
        | some r' => exact inv_add r r' nm v h ha
      | del nm =>
        simp only [step]
        cases ha : deleteEquation r nm with
        | none => exact h
        | some r' => exact inv_delete r r' nm h ha
  exact key ops _ inv_empty

/-- C18 (first half): after any history of equation and delete_equation commands (refused ones included), every equation
has an index, distinct equations have distinct indices, and the indices in use are exactly 0, ..., n-1 where n is the number
of equations. -/
theorem indices_are_permutation (ops : List (Op E X)) :
    let r := run (Reg.empty : Reg E X) ops
    r.num = r.ptr.length ∧
    (∀ e, r.ptr.get e ≠ none ↔ ∃ i, equationIndex r e = some i) ∧
    (∀ e e' i, equationIndex r e = some i → equationIndex r e' = some i → e = e') ∧
    (∀ i, i < r.num ↔ ∃ e, equationIndex r e = some i) := by
  intro r
  have hi : Inv r := inv_run ops
  refine ⟨hi.num, ?_, hi.inj, ?_⟩
  · intro e
    rw [← Option.isSome_iff_ne_none, ← hi.dom e, Option.isSome_iff_exists]; rfl
  · intro i
    constructor
    · intro hlt
      -- pigeonhole: n distinct values below n
      have hvals : ∀ e ∈ r.idx.keys, ∃ j, r.idx.get e = some j := by
        intro e he; rw [FMap.mem_keys] at he; exact Option.isSome_iff_exists.mp he
      let f : E → Nat := fun e => (r.idx.get e).getD 0
      have hnod : (r.idx.keys.map f).Nodup := by
        have : ∀ l : List E, l.Nodup → (∀ e ∈ l, e ∈ r.idx.keys) → (l.map f).Nodup := by
          intro l
          induction l with
          | nil => intro _ _; simp
          | cons x l ih =>
            intro hn hm
            simp only [List.nodup_cons, List.map_cons, List.mem_map, not_exists, not_and] at hn ⊢
            refine ⟨?_, ih hn.2 (fun e he => hm e (by simp [he]))⟩
            intro y hy hxy
            obtain ⟨j, hj⟩ := hvals x (hm x (by simp))
            obtain ⟨j', hj'⟩ := hvals y (hm y (by simp [hy]))
            have : j = j' := by simp only [f, hj, hj', Option.getD_some] at hxy; exact hxy.symm
            subst this
            have := hi.inj x y j hj hj'
            subst this
            exact hn.1 hy
        exact this _ hi.wfi (fun e he => he)
      have hsub : ∀ j ∈ r.idx.keys.map f, j ∈ List.range r.num := by
        intro j hj
        obtain ⟨e, he, rfl⟩ := List.mem_map.mp hj
        obtain ⟨k, hk⟩ := hvals e he
        have := hi.bound e k hk
        simp only [f, hk, Option.getD_some, List.mem_range]; exact this
      have hlen : (r.idx.keys.map f).length = r.num := by
        have h1 : r.idx.keys.length = r.ptr.keys.length := by
          apply Nat.le_antisymm
          · apply List.Nodup.length_le_of_subset hi.wfi
            intro e he; rw [FMap.mem_keys] at he ⊢; rw [← hi.dom]; exact he
          · apply List.Nodup.length_le_of_subset hi.wfp
            intro e he; rw [FMap.mem_keys] at he ⊢; rw [hi.dom]; exact he
        rw [List.length_map, h1, hi.num]; simp [FMap.keys]
      have hmem : i ∈ r.idx.keys.map f := by
        apply Classical.byContradiction
        intro hn
        have hnod2 : (i :: r.idx.keys.map f).Nodup := List.nodup_cons.mpr ⟨hn, hnod⟩
        have := List.Nodup.length_le_of_subset hnod2 (l₂ := List.range r.num) (by
          intro j hj
          rcases List.mem_cons.mp hj with rfl | hj
          · exact List.mem_range.mpr hlt
          · exact hsub j hj)
        rw [List.length_cons, hlen, List.length_range] at this
        omega
      obtain ⟨e, he, hfe⟩ := List.mem_map.mp hmem
      obtain ⟨k, hk⟩ := hvals e he
      refine ⟨e, ?_⟩
      simp only [f, hk, Option.getD_some] at hfe
      rw [← hfe]; exact hk
    · rintro ⟨e, he⟩; exact hi.bound e i he

/-- C18: deleting an equation keeps the order of the others. -/
theorem delete_keeps_order (ops : List (Op E X)) (nm : E) (r' : Reg E X)
    (h : deleteEquation (run (Reg.empty : Reg E X) ops) nm = some r') (e e' : E) (i i' j j' : Nat)
    (h1 : equationIndex (run (Reg.empty : Reg E X) ops) e = some i)
    (h2 : equationIndex (run (Reg.empty : Reg E X) ops) e' = some i')
    (h3 : equationIndex r' e = some j) (h4 : equationIndex r' e' = some j') : i < i' ↔ j < j' := by
  have hi := inv_run (X := X) ops
  obtain ⟨v, a, g1, g2, _, _, _, _, _, g7⟩ := delete_spec _ r' nm h
  unfold equationIndex at *
  rw [g7] at h3 h4
  split at h3
  · cases h3
  · rename_i hne
    split at h4
    · cases h4
    · rename_i hne'
      rw [h1] at h3; rw [h2] at h4
      simp only [Option.map_some, Option.some.injEq] at h3 h4
      have hia : i ≠ a := by rintro rfl; exact hne (hi.inj e nm i h1 g2)
      have hia' : i' ≠ a := by rintro rfl; exact hne' (hi.inj e' nm i' h2 g2)
      split at h3 <;> split at h4 <;> omega

/-- C18: a new equation is put at the end and the others keep their indices. -/
theorem add_appends (ops : List (Op E X)) (nm : E) (v : X) (r' : Reg E X)
    (hnew : (run (Reg.empty : Reg E X) ops).ptr.get nm = none)
    (h : addEquation (run (Reg.empty : Reg E X) ops) nm v = some r') :
    equationIndex r' nm = some (run (Reg.empty : Reg E X) ops).num ∧
    ∀ e, e ≠ nm → equationIndex r' e = equationIndex (run (Reg.empty : Reg E X) ops) e := by
  have hi := inv_run (X := X) ops
  unfold addEquation at h
  rw [hnew] at h
  simp only at h
  split at h
  · cases h
  · simp only [Option.some.injEq] at h
    subst h
    unfold equationIndex
    refine ⟨?_, ?_⟩
    · simp only [FMap.get_set]; rw [if_pos trivial, hi.num]
    · intro e he; simp only [FMap.get_set]; rw [if_neg he]

/-! ### the variable table -/

/-- a history in which an existing equation is never given a different variable -/
def KeepsVariables : Reg E X → List (Op E X) → Prop
  | _, [] => True
  | r, .add nm v :: ops => (∀ ov, r.ptr.get nm = some ov → ov = v) ∧ KeepsVariables (step r (.add nm v)) ops
  | r, .del nm :: ops => KeepsVariables (step r (.del nm)) ops

/-- C18 (second half, partial): if no equation is re-created with a different variable, the variable table relates a
variable to an equation exactly when that equation exists and has that variable; in particular no two equations share a
variable.  Without the hypothesis this is false: `variable_table_counterexample`. -/
theorem variable_table_partial (ops : List (Op E X)) (hk : KeepsVariables (Reg.empty : Reg E X) ops) (v : X) (e : E) :
    equationOfVariable (run (Reg.empty : Reg E X) ops) v = some e ↔
      (run (Reg.empty : Reg E X) ops).ptr.get e = some v := by
  have key : ∀ (ops : List (Op E X)) r, KeepsVariables r ops → (∀ v e, r.var.get v = some e ↔ r.ptr.get e = some v) →
      ∀ v e, (run r ops).var.get v = some e ↔ (run r ops).ptr.get e = some v := by
    intro ops
    induction ops with
    | nil => intro r _ h; exact h
    | cons o ops ih =>
      intro r hk h
      cases o with
      | add nm v =>
        refine ih _ hk.2 ?_
        simp only [step]
        cases hp : r.ptr.get nm with
        | some ov =>
          have := hk.1 ov hp
          subst this
          simp only [addEquation, hp, Option.getD_some, ne_eq, not_true_eq_false, if_false]
          intro v e
          rw [FMap.get_set, h]
          by_cases he : e = nm
          · rw [if_pos he, he, hp]
          · rw [if_neg he]
        | none =>
          simp only [addEquation, hp]
          by_cases hv : r.var.has v = true
          · rw [if_pos hv]; exact h
          · rw [if_neg hv]
            simp only [Option.getD_some]
            have hvn : r.var.get v = none := by simpa [FMap.has] using hv
            intro v' e
            rw [FMap.get_set, FMap.get_set]
            by_cases hv' : v' = v
            · rw [if_pos hv']
              by_cases he : e = nm
              · rw [if_pos he, he, hv']; simp
              · rw [if_neg he]
                constructor
                · intro x; cases x; exact absurd rfl he
                · intro x
                  rw [← h, hv', hvn] at x; cases x
            · rw [if_neg hv']
              by_cases he : e = nm
              · rw [if_pos he]
                constructor
                · intro x; rw [h, he, hp] at x; cases x
                · intro x; cases x; exact absurd rfl hv'
              · rw [if_neg he]; exact h v' e
      | del nm =>
        refine ih _ hk ?_
        simp only [step]
        cases hd : deleteEquation r nm with
        | none => exact h
        | some r' =>
          obtain ⟨v, a, h1, _, _, h3, h4, _⟩ := delete_spec r r' nm hd
          simp only [Option.getD_some]
          intro v' e
          rw [h3, h4, FMap.get_erase, FMap.get_erase]
          have hvn := (h v nm).mpr h1
          by_cases hv' : v' = v
          · rw [if_pos hv']
            by_cases he : e = nm
            · rw [if_pos he]; simp
            · rw [if_neg he]
              constructor
              · intro x; cases x
              · intro x; rw [← h, hv', hvn] at x; cases x; exact absurd rfl he
          · rw [if_neg hv']
            by_cases he : e = nm
            · rw [if_pos he]
              constructor
              · intro x; rw [h, he, h1] at x; cases x; exact absurd rfl hv'
              · intro x; cases x
            · rw [if_neg he]; exact h v' e
  exact key ops _ hk (by intro v e; simp [Reg.empty]) v e

/-- C18: creating an equation for a variable that another equation solves for is refused. -/
theorem variable_in_use_refused (ops : List (Op E X)) (hk : KeepsVariables (Reg.empty : Reg E X) ops) (nm e : E) (v : X)
    (hnew : (run (Reg.empty : Reg E X) ops).ptr.get nm = none)
    (huse : (run (Reg.empty : Reg E X) ops).ptr.get e = some v) :
    addEquation (run (Reg.empty : Reg E X) ops) nm v = none := by
  have h1 := (variable_table_partial ops hk v e).mpr huse
  unfold addEquation
  rw [hnew]
  simp only
  rw [if_pos (by unfold FMap.has; unfold equationOfVariable at h1; rw [h1]; rfl)]

/-- C18: after a command creates equation `nm` for a variable it did not have before, the variable belongs to `nm`
(for every history). -/
theorem variable_entered (ops : List (Op E X)) (nm : E) (v : X) (r' : Reg E X)
    (hold : (run (Reg.empty : Reg E X) ops).ptr.get nm ≠ some v)
    (h : addEquation (run (Reg.empty : Reg E X) ops) nm v = some r') :
    equationOfVariable r' v = some nm ∧ r'.ptr.get nm = some v := by
  unfold addEquation at h
  cases hp : (run (Reg.empty : Reg E X) ops).ptr.get nm with
  | some ov =>
    rw [hp] at h hold
    have hne : ov ≠ v := fun e => hold (by rw [e])
    simp only [Option.some.injEq, if_pos hne] at h
    subst h
    refine ⟨?_, ?_⟩
    · simp only [equationOfVariable]; rw [FMap.get_set, if_pos rfl]
    · simp only; rw [FMap.get_set, if_pos rfl]
  | none =>
    rw [hp] at h
    simp only at h
    split at h
    · cases h
    · simp only [Option.some.injEq] at h
      subst h
      refine ⟨?_, ?_⟩
      · simp only [equationOfVariable]; rw [FMap.get_set, if_pos rfl]
      · simp only; rw [FMap.get_set, if_pos rfl]

/-- Disagreement with the full claim (Region.cc:1152 erases the entry of the NEW variable): after re-creating equation 1 with
variable 20 instead of 10, the table still says that variable 10 belongs to equation 1, and variable 20, which
equation 2 solves for, is now attributed to equation 1; equation 3 can then not use variable 10, and after deleting
equation 2 the deletion of equation 1 fails. -/
theorem variable_table_counterexample :
    let r := run (Reg.empty : Reg Nat Nat) [.add 1 10, .add 2 20, .add 1 20]
    equationOfVariable r 10 = some 1 ∧ r.ptr.get 1 = some 20 ∧ r.ptr.get 2 = some 20 ∧ equationOfVariable r 20 = some 1 ∧
    addEquation r 3 10 = none ∧ deleteEquation (step r (.del 2)) 1 = none := by decide

/-! concrete cases -/
def sampleOps : List (Op Nat Nat) := [.add 5 50, .add 3 30, .add 4 40, .add 3 30, .del 3, .add 6 60, .add 7 40, .del 9]
example : (run (Reg.empty : Reg Nat Nat) sampleOps).idx = [(5, 0), (4, 1), (6, 2)] := by decide
example : KeepsVariables (Reg.empty : Reg Nat Nat) sampleOps := by
  simp [KeepsVariables, sampleOps, Reg.empty, step, addEquation, deleteEquation, FMap.get, FMap.set, FMap.erase, FMap.has, shift]
example : ∃ r', deleteEquation (run (Reg.empty : Reg Nat Nat) sampleOps) 5 = some r' := ⟨_, rfl⟩
example : (run (Reg.empty : Reg Nat Nat) sampleOps).ptr.get 8 = none := rfl

end Verif.Equations
