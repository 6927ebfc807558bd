import Verif.Geom.Volume

/-!
# Contact nodes and the distance to an interface

`src/GeomModels/AtContactNode.cc` (`AtContactNode`), `src/GeomModels/InterfaceNormal.cc` (the models
`<interface>_distance`, `<interface>_normal_x`, ... of `interface_normal_model`).
-/

namespace Verif.Geom

open Finset

/-! ### Model -/

/-- A contact: the region it belongs to and its nodes (`Contact.hh`). -/
structure ContactInfo where
  region : String
  nodes : List Nat

/-- `AtContactNode::calcNodeScalarValues` (`AtContactNode.cc:28-55`) -/
noncomputable def atContactNode (contacts : List ContactInfo) (rname : String) : Nat → ℝ :=
  contacts.foldl (fun nv c =>
    if c.region ≠ rname then nv
    else c.nodes.foldl (fun (nv : Nat → ℝ) v => Function.update nv v (nv v + 1)) nv) fun _ => 0

/-- The step of the inner loop for one edge (`InterfaceNormal.cc:140-163`): the square of the smallest
distance so far, and the normal. `c` is the center of the edge, `p` the position of the node and `n` its
normal. -/
noncomputable def nearer (c : V3) (s : ℝ × V3) (pn : V3 × V3) : ℝ × V3 :=
  let t := V3.sub pn.1 c
  open Classical in
  if V3.dot t t < s.1 then (V3.dot t t, if V3.dot t pn.2 < 0 then V3.neg pn.2 else pn.2) else s

/-- `InterfaceNormal::calcEdgeScalarValues` (`InterfaceNormal.cc:62-198`) for edge `i`: distance and normal. The
loops over nodes and edges are exchanged: the entries of different edges do not depend on each other. `big` is
the largest number of the type. -/
noncomputable def interfaceNormal (big : ℝ) (m : Mesh) (pos nrm : Nat → V3) (cnl : List Nat) (i : Nat) : ℝ × V3 :=
  let s := (cnl.map fun v => (pos v, nrm v)).foldl (nearer (edgeCenter m pos i)) (big, ⟨0, 0, 0⟩)
  (Real.sqrt s.1, s.2)

/-! ### Theorems -/

/-- The region's contacts that have the node. -/
def contactsAt (contacts : List ContactInfo) (rname : String) (v : Nat) : Nat :=
  (contacts.filter fun c => c.region = rname ∧ v ∈ c.nodes).length

theorem bump_fold (l : List Nat) (nv : Nat → ℝ) (v : Nat) :
    l.foldl (fun (nv : Nat → ℝ) v => Function.update nv v (nv v + 1)) nv v = nv v + (l.count v : ℝ) := by
  induction l generalizing nv with
  | nil => simp
  | cons a l ih =>
    rw [List.foldl_cons, ih, List.count_cons]
    by_cases h : v = a
    · subst h; simp; ring
    · rw [Function.update_of_ne h]
      simp [show (a == v) = false from by simpa using fun e => h e.symm]

/-- **`AtContactNode`** is the number of the contacts of the region that have the node. -/
theorem atContactNode_spec {contacts : List ContactInfo} (hnd : ∀ c ∈ contacts, c.nodes.Nodup) (rname : String) (v : Nat) :
    atContactNode contacts rname v = contactsAt contacts rname v := by
  suffices key : ∀ (cs : List ContactInfo) (nv : Nat → ℝ), (∀ c ∈ cs, c.nodes.Nodup) →
      cs.foldl (fun nv c => if c.region ≠ rname then nv
        else c.nodes.foldl (fun (nv : Nat → ℝ) v => Function.update nv v (nv v + 1)) nv) nv v =
      nv v + (contactsAt cs rname v : ℝ) by
    have := key contacts (fun _ => 0) hnd
    rw [zero_add] at this
    exact this
  intro cs
  induction cs with
  | nil => intro nv _; simp [contactsAt]
  | cons c cs ih =>
    intro nv h
    rw [List.foldl_cons, ih _ fun c hc => h c (List.mem_cons_of_mem _ hc)]
    have hc := h c List.mem_cons_self
    simp only [contactsAt, List.filter_cons]
    by_cases hr : c.region = rname
    · rw [if_neg (not_not.2 hr), bump_fold]
      by_cases hv : v ∈ c.nodes
      · rw [List.count_eq_one_of_mem hc hv]
        simp [hr, hv]; ring
      · rw [List.count_eq_zero_of_not_mem hv]
        simp [hv]
    · rw [if_pos hr]; simp [hr]

/-- A node is at a contact exactly when the value is not zero. -/
theorem atContactNode_pos {contacts : List ContactInfo} (hnd : ∀ c ∈ contacts, c.nodes.Nodup) (rname : String) (v : Nat) :
    atContactNode contacts rname v ≠ 0 ↔ ∃ c ∈ contacts, c.region = rname ∧ v ∈ c.nodes := by
  rw [atContactNode_spec hnd, Nat.cast_ne_zero, contactsAt, ← Nat.pos_iff_ne_zero, List.length_pos_iff_exists_mem]
  simp [and_assoc]

theorem nearer_fold (c : V3) (L : List (V3 × V3)) (s : ℝ × V3) :
    ((L.foldl (nearer c) s) = s ∧ ∀ p ∈ L, s.1 ≤ dist2 p.1 c) ∨
    ∃ p ∈ L, (L.foldl (nearer c) s).1 = dist2 p.1 c ∧ dist2 p.1 c < s.1 ∧ (∀ q ∈ L, dist2 p.1 c ≤ dist2 q.1 c) ∧
      ((L.foldl (nearer c) s).2 = p.2 ∨ (L.foldl (nearer c) s).2 = V3.neg p.2) ∧
      0 ≤ V3.dot (V3.sub p.1 c) (L.foldl (nearer c) s).2 := by
  have hd : ∀ p : V3, V3.dot (V3.sub p c) (V3.sub p c) = dist2 p c := by
    intro p; simp only [V3.dot, V3.sub, dist2]; ring
  induction L generalizing s with
  | nil => exact Or.inl ⟨rfl, by simp⟩
  | cons p L ih =>
    rw [List.foldl_cons]
    by_cases hlt : dist2 p.1 c < s.1
    · have e1 : nearer c s p = (dist2 p.1 c, open Classical in if V3.dot (V3.sub p.1 c) p.2 < 0 then V3.neg p.2 else p.2) := by
        simp only [nearer, hd, if_pos hlt]
      rcases ih (nearer c s p) with ⟨h1, h2⟩ | ⟨q, hq, h1, h2, h3, h4, h5⟩
      · right
        refine ⟨p, List.mem_cons_self, ?_, hlt, ?_, ?_, ?_⟩
        · rw [h1, e1]
        · rw [e1] at h2
          intro q hq
          rcases List.mem_cons.1 hq with rfl | hq
          · exact le_refl _
          · exact h2 q hq
        · rw [h1, e1]
          dsimp only
          split
          · exact Or.inr rfl
          · exact Or.inl rfl
        · rw [h1, e1]
          dsimp only
          split
          · rename_i hneg
            have : V3.dot (V3.sub p.1 c) (V3.neg p.2) = - V3.dot (V3.sub p.1 c) p.2 := by
              simp only [V3.dot, V3.neg]; ring
            rw [this]; linarith
          · rename_i hneg
            exact not_lt.1 hneg
      · right
        rw [e1] at h2
        refine ⟨q, List.mem_cons_of_mem _ hq, h1, lt_trans h2 hlt, ?_, h4, h5⟩
        intro r hr
        rcases List.mem_cons.1 hr with rfl | hr
        · exact le_of_lt h2
        · exact h3 r hr
    · have e1 : nearer c s p = s := by simp only [nearer, hd, if_neg hlt]
      rw [e1]
      rcases ih s with ⟨h1, h2⟩ | ⟨q, hq, h1, h2, h3, h4, h5⟩
      · left
        refine ⟨h1, fun q hq => ?_⟩
        rcases List.mem_cons.1 hq with rfl | hq
        · exact not_lt.1 hlt
        · exact h2 q hq
      · right
        refine ⟨q, List.mem_cons_of_mem _ hq, h1, h2, ?_, h4, h5⟩
        intro r hr
        rcases List.mem_cons.1 hr with rfl | hr
        · exact le_of_lt (lt_of_lt_of_le h2 (not_lt.1 hlt))
        · exact h3 r hr

/-- **Distance to an interface**: for every edge the distance of its center to the nearest node of the
interface; the normal is the surface normal of a nearest node, with the sign that makes it point from the edge
to the node. -/
theorem interfaceNormal_spec {big : ℝ} {m : Mesh} {pos nrm : Nat → V3} {cnl : List Nat} {i : Nat} (hne : cnl ≠ [])
    (hbig : ∀ v ∈ cnl, dist2 (pos v) (edgeCenter m pos i) < big) :
    ∃ v ∈ cnl, (interfaceNormal big m pos nrm cnl i).1 = Real.sqrt (dist2 (pos v) (edgeCenter m pos i)) ∧
      (∀ w ∈ cnl, Real.sqrt (dist2 (pos v) (edgeCenter m pos i)) ≤ Real.sqrt (dist2 (pos w) (edgeCenter m pos i))) ∧
      ((interfaceNormal big m pos nrm cnl i).2 = nrm v ∨ (interfaceNormal big m pos nrm cnl i).2 = V3.neg (nrm v)) ∧
      0 ≤ V3.dot (V3.sub (pos v) (edgeCenter m pos i)) (interfaceNormal big m pos nrm cnl i).2 := by
  rcases nearer_fold (edgeCenter m pos i) (cnl.map fun v => (pos v, nrm v)) (big, ⟨0, 0, 0⟩) with
    ⟨-, h2⟩ | ⟨p, hp, h1, h2, h3, h4, h5⟩
  · obtain ⟨v, hv⟩ := List.exists_mem_of_ne_nil _ hne
    have := h2 (pos v, nrm v) (List.mem_map.2 ⟨v, hv, rfl⟩)
    exact absurd (hbig v hv) (not_lt.2 this)
  · obtain ⟨v, hv, rfl⟩ := List.mem_map.1 hp
    refine ⟨v, hv, ?_, ?_, h4, h5⟩
    · rw [interfaceNormal, h1]
    · intro w hw
      exact Real.sqrt_le_sqrt (h3 (pos w, nrm w) (List.mem_map.2 ⟨w, hw, rfl⟩))

/-- An interface without nodes: the distance is the square root of the largest number, the normal nothing. -/
theorem interfaceNormal_nil (big : ℝ) (m : Mesh) (pos nrm : Nat → V3) (i : Nat) :
    interfaceNormal big m pos nrm [] i = (Real.sqrt big, ⟨0, 0, 0⟩) := rfl

/-! ### Examples -/

example : atContactNode [⟨"r", [0, 1]⟩, ⟨"s", [0]⟩, ⟨"r", [1, 2]⟩] "r" 1 = 2 := by
  rw [atContactNode_spec (by decide)]
  norm_num [contactsAt]

end Verif.Geom
