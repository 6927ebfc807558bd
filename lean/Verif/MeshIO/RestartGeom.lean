import Verif.MeshIO.RestartParse
import Mathlib.Data.List.Sublists

/-!
# The geometry that is loaded from a restart file

Only the elements of the dimension of the device are written. The loader finds the others: the edges of
the triangles, the triangles of the tetrahedra, the nodes of contacts.
-/

namespace Verif.MeshIO

variable {α : Type}

/-! ### What a consistent mesh is -/

/-- `m`-element faces of the elements `big`, each once. -/
def FacesOf (m : Nat) (big small : List (List Nat)) : Prop :=
  small.Pairwise (· < ·) ∧ ∀ e, e ∈ small ↔ ∃ t ∈ big, e.Sublist t ∧ e.length = m

/-- A region whose lower elements are the faces of its elements of highest dimension. -/
structure TopoOK (env : Env α) (nc dim : Nat) (r : Reg α) : Prop where
  hdim : r.dim = dim
  nodes : r.nodes ≠ [] ∧ r.nodes.length ≤ nc ∧ ∀ i ∈ r.nodes, i < nc
  edges : r.edges ≠ [] ∧ r.edges.Pairwise (· < ·) ∧ ∀ e ∈ r.edges, IsElem 2 r.nodes.length e
  tris : r.tris.Pairwise (· < ·) ∧ ∀ e ∈ r.tris, IsElem 3 r.nodes.length e
  tets : r.tets.Pairwise (· < ·) ∧ ∀ e ∈ r.tets, IsElem 4 r.nodes.length e
  top : (dim = 1 ∧ r.tris = [] ∧ r.tets = []) ∨
    (dim = 2 ∧ r.tris ≠ [] ∧ r.tets = [] ∧ FacesOf 2 r.tris r.edges) ∨
    (dim = 3 ∧ r.tets ≠ [] ∧ FacesOf 3 r.tets r.tris ∧ FacesOf 2 r.tris r.edges)
  topo : env.topoOK r.dim r.nodes.length r.edges r.tris r.tets = true

/-- A part of the boundary of a region: elements of the region, with all their faces and nodes. -/
def SkinOK (dim : Nat) (r : Reg α) (nodes : List Nat) (edges tris : List (List Nat)) : Prop :=
  (dim = 1 ∧ edges = [] ∧ tris = [] ∧ ∀ i ∈ nodes, i < r.nodes.length) ∨
  (dim = 2 ∧ tris = [] ∧ (∀ e ∈ edges, e ∈ r.edges) ∧ nodes.Pairwise (· < ·) ∧ ∀ i, i ∈ nodes ↔ ∃ e ∈ edges, i ∈ e) ∨
  (dim = 3 ∧ (∀ t ∈ tris, t ∈ r.tris) ∧ FacesOf 2 tris edges ∧ nodes.Pairwise (· < ·) ∧ ∀ i, i ∈ nodes ↔ ∃ e ∈ edges, i ∈ e)

/-- A contact on a region of the device. -/
def ConOK (d : Dev α) (c : Con) : Prop :=
  ∃ r, d.regions.get c.region = some r ∧ SkinOK d.dim r c.nodes c.edges c.tris

/-- An interface between regions of the device: pairs of nodes, or of elements. When elements were given,
the nodes of the two sides correspond in the order of their indices. -/
def IfcOK (d : Dev α) (provided : Bool) (i : Ifc) : Prop :=
  ∃ r0 r1, d.regions.get i.region0 = some r0 ∧ d.regions.get i.region1 = some r1 ∧
    if d.dim = 1 ∨ provided = false then
      i.nodes0.length = i.nodes1.length ∧ (∀ j ∈ i.nodes0, j < r0.nodes.length) ∧ (∀ j ∈ i.nodes1, j < r1.nodes.length) ∧
      i.edges0 = [] ∧ i.edges1 = [] ∧ i.tris0 = [] ∧ i.tris1 = []
    else SkinOK d.dim r0 i.nodes0 i.edges0 i.tris0 ∧ SkinOK d.dim r1 i.nodes1 i.edges1 i.tris1 ∧
      (d.dim = 2 → i.edges0.length = i.edges1.length) ∧ (d.dim = 3 → i.tris0.length = i.tris1.length)

/-! ### Faces -/

/-- The edges of a triangle. -/
def triEdges : List Nat → List (List Nat)
  | [a, b, c] => [mkElem [a, b], mkElem [a, c], mkElem [b, c]]
  | _ => []

/-- The triangles of a tetrahedron. -/
def tetTris : List Nat → List (List Nat)
  | [a, b, c, d] => [mkElem [a, b, c], mkElem [a, b, d], mkElem [a, c, d], mkElem [b, c, d]]
  | _ => []

/-- The triangles, edges and nodes after the decomposition. -/
def decTris (r : MReg α) : List (List Nat) :=
  if !r.tets.isEmpty && r.tris.isEmpty then sortUniq (r.tets.flatMap tetTris) else r.tris
def decEdges (r : MReg α) : List (List Nat) :=
  if !(decTris r).isEmpty && r.edges.isEmpty then sortUniq ((decTris r).flatMap triEdges) else r.edges
def decNodes (r : MReg α) : List Nat :=
  if !(decEdges r).isEmpty && r.nodes.isEmpty then sortUniq (decEdges r).flatten else r.nodes

theorem decompose_eq (r : MReg α) :
    r.decompose = { r with tris := decTris r, edges := decEdges r, nodes := decNodes r } := by
  have h1 : (fun t : List Nat => match t with
        | [a, b, c, d] => [mkElem [a, b, c], mkElem [a, b, d], mkElem [a, c, d], mkElem [b, c, d]]
        | _ => []) = tetTris := by
    funext t
    unfold tetTris
    rfl
  have h2 : (fun t : List Nat => match t with
        | [a, b, c] => [mkElem [a, b], mkElem [a, c], mkElem [b, c]]
        | _ => []) = triEdges := by
    funext t
    unfold triEdges
    rfl
  unfold MReg.decompose decNodes decEdges decTris
  rw [← h1, ← h2]
  rfl

theorem sorted_ext : ∀ {a b : List (List Nat)}, a.Pairwise (· < ·) → b.Pairwise (· < ·) → (∀ x, x ∈ a ↔ x ∈ b) → a = b := by
  intro a b ha hb h
  have hp : a.Perm b := (List.perm_ext_iff_of_nodup (ha.imp ne_of_lt) (hb.imp ne_of_lt)).2 h
  exact hp.eq_of_pairwise (fun x y _ _ h1 h2 => absurd h2 (lt_asymm h1)) ha hb

theorem sorted_ext_nat : ∀ {a b : List Nat}, a.Pairwise (· < ·) → b.Pairwise (· < ·) → (∀ x, x ∈ a ↔ x ∈ b) → a = b := by
  intro a b ha hb h
  have hp : a.Perm b := (List.perm_ext_iff_of_nodup (ha.imp ne_of_lt) (hb.imp ne_of_lt)).2 h
  exact hp.eq_of_pairwise (fun x y _ _ h1 h2 => absurd h2 (lt_asymm h1)) ha hb

theorem faces3 {a b c : Nat} (h : [a, b, c].Pairwise (· < ·)) (e : List Nat) :
    e ∈ [mkElem [a, b], mkElem [a, c], mkElem [b, c]] ↔ e.Sublist [a, b, c] ∧ e.length = 2 := by
  have h' := h
  simp only [List.pairwise_cons, List.mem_cons, List.not_mem_nil, or_false, forall_eq_or_imp, forall_eq] at h'
  rw [mkElem_of_lt (l := [a, b]) (by simp; omega), mkElem_of_lt (l := [a, c]) (by simp; omega),
    mkElem_of_lt (l := [b, c]) (by simp; omega), ← List.mem_sublistsLen]
  simp [List.sublistsLen, List.sublistsLenAux]
  tauto

theorem faces4 {a b c d : Nat} (h : [a, b, c, d].Pairwise (· < ·)) (e : List Nat) :
    e ∈ [mkElem [a, b, c], mkElem [a, b, d], mkElem [a, c, d], mkElem [b, c, d]] ↔
      e.Sublist [a, b, c, d] ∧ e.length = 3 := by
  have h' := h
  simp only [List.pairwise_cons, List.mem_cons, List.not_mem_nil, or_false, forall_eq_or_imp, forall_eq] at h'
  rw [mkElem_of_lt (l := [a, b, c]) (by simp; omega), mkElem_of_lt (l := [a, b, d]) (by simp; omega),
    mkElem_of_lt (l := [a, c, d]) (by simp; omega), mkElem_of_lt (l := [b, c, d]) (by simp; omega), ← List.mem_sublistsLen]
  simp [List.sublistsLen, List.sublistsLenAux]
  tauto

theorem edgesOf_eq {tris edges : List (List Nat)} (ht : ∀ t ∈ tris, t.length = 3 ∧ t.Pairwise (· < ·))
    (h : FacesOf 2 tris edges) :
    sortUniq (tris.flatMap triEdges) = edges := by
  refine sorted_ext (sortUniq_sorted _) h.1 fun e => ?_
  rw [mem_sortUniq, List.mem_flatMap, h.2]
  refine exists_congr fun t => and_congr_right fun hm => ?_
  obtain ⟨h1, h2⟩ := ht t hm
  match t, h1, h2 with
  | [a, b, c], _, h2 => exact faces3 h2 e

theorem trisOf_eq {tets tris : List (List Nat)} (ht : ∀ t ∈ tets, t.length = 4 ∧ t.Pairwise (· < ·))
    (h : FacesOf 3 tets tris) :
    sortUniq (tets.flatMap tetTris) = tris := by
  refine sorted_ext (sortUniq_sorted _) h.1 fun e => ?_
  rw [mem_sortUniq, List.mem_flatMap, h.2]
  refine exists_congr fun t => and_congr_right fun hm => ?_
  obtain ⟨h1, h2⟩ := ht t hm
  match t, h1, h2 with
  | [a, b, c, d], _, h2 => exact faces4 h2 e

theorem facesOf_nil {m : Nat} {small : List (List Nat)} (h : FacesOf m [] small) : small = [] := by
  rw [List.eq_nil_iff_forall_not_mem]
  intro e he
  obtain ⟨t, ht, -⟩ := (h.2 e).1 he
  simp at ht

theorem facesOf_ne {m : Nat} {big small : List (List Nat)} (h : FacesOf m big small) (hb : ∀ t ∈ big, m ≤ t.length)
    (hn : big ≠ []) : small ≠ [] := by
  obtain ⟨t, ht⟩ := List.exists_mem_of_ne_nil _ hn
  exact List.ne_nil_of_mem ((h.2 (t.take m)).2 ⟨t, ht, List.take_sublist _ _, by simp [hb t ht]⟩)

/-! ### Elements of a region are found -/

theorem findElem_mem {l : List (List Nat)} {m : Nat} (hl : ∀ e ∈ l, e.length = m ∧ e.Pairwise (· < ·)) {e : List Nat}
    (he : e ∈ l) : findElem l e = some e := by
  unfold findElem
  have hex : ∃ y, l.find? (fun x => e.all (· ∈ x)) = some y := by
    rw [← Option.isSome_iff_exists, List.find?_isSome]
    exact ⟨e, he, by simp⟩
  obtain ⟨y, hy⟩ := hex
  rw [hy]
  have h1 := List.find?_some hy
  have h2 := List.mem_of_find?_eq_some hy
  simp only [List.all_eq_true, decide_eq_true_eq] at h1
  have hsub : e.Subperm y := List.subperm_of_subset ((hl e he).2.imp ne_of_lt) h1
  have hp : e.Perm y := hsub.perm_of_length_le (by rw [(hl e he).1, (hl y h2).1])
  rw [hp.eq_of_pairwise (fun x y _ _ h1 h2 => absurd h2 (lt_asymm h1)) (hl e he).2 (hl y h2).2]

theorem getElems_mem {n m : Nat} {l es : List (List Nat)} (hl : ∀ e ∈ l, IsElem m n e) (h : ∀ e ∈ es, e ∈ l) :
    getElems n l es = es := by
  unfold getElems
  induction es with
  | nil => rfl
  | cons e es ih =>
    have he := h e (by simp)
    have h1 : (e.all fun x => decide (x < n)) = true := by simpa using (hl e he).2.2
    rw [List.filterMap_cons, h1, if_pos rfl, findElem_mem (fun e he => ⟨(hl e he).1, (hl e he).2.1⟩) he]
    simp only
    rw [ih fun x hx => h x (by simp [hx])]

/-- The elements of a contact or of a side of an interface, as they are read. -/
def skinElems (dim : Nat) (nodes : List Nat) (edges tris : List (List Nat)) : MReg α :=
  { material := []
    nodes := if dim = 1 then nodes else []
    edges := if dim = 2 then edges else []
    tris := if dim = 3 then tris else [] }

theorem nodesOf_eq {nodes : List Nat} {edges : List (List Nat)} (h : nodes.Pairwise (· < ·))
    (h' : ∀ i, i ∈ nodes ↔ ∃ e ∈ edges, i ∈ e) : sortUniq edges.flatten = nodes := by
  refine sorted_ext_nat (sortUniq_sorted _) h fun i => ?_
  rw [mem_sortUniq, List.mem_flatten, h']

section
variable {env : Env α} {nc dim : Nat} {r : Reg α}

theorem skin_decompose (h : TopoOK env nc dim r) {nodes : List Nat} {edges tris : List (List Nat)}
    (hs : SkinOK dim r nodes edges tris) :
    ((skinElems dim nodes edges tris : MReg α).decompose.nodes = nodes ∧
      (skinElems dim nodes edges tris : MReg α).decompose.edges = edges ∧
      (skinElems dim nodes edges tris : MReg α).decompose.tris = tris) ∧
    (∀ e ∈ edges, e ∈ r.edges) ∧ (∀ t ∈ tris, t ∈ r.tris) ∧ ∀ i ∈ nodes, i < r.nodes.length := by
  rw [decompose_eq]
  rcases hs with ⟨rfl, rfl, rfl, h1⟩ | ⟨rfl, rfl, h1, h2, h3⟩ | ⟨rfl, h1, h2, h3, h4⟩
  · exact ⟨⟨by simp [skinElems, decNodes, decEdges, decTris], by simp [skinElems, decEdges, decTris], by simp [skinElems, decTris]⟩,
      by simp, by simp, h1⟩
  · have e1 : decTris (skinElems 2 nodes edges [] : MReg α) = [] := by simp [skinElems, decTris]
    have e2 : decEdges (skinElems 2 nodes edges [] : MReg α) = edges := by simp [decEdges, e1]; simp [skinElems]
    have e3 : decNodes (skinElems 2 nodes edges [] : MReg α) = nodes := by
      have e4 : (skinElems 2 nodes edges [] : MReg α).nodes = [] := by simp [skinElems]
      unfold decNodes
      rw [e2, e4]
      by_cases he : edges = []
      · subst he
        have : nodes = [] := by
          rw [List.eq_nil_iff_forall_not_mem]; intro i hi; obtain ⟨e, he, -⟩ := (h3 i).1 hi; simp at he
        simp [this]
      · rw [if_pos (by simp [he]), nodesOf_eq h2 h3]
    refine ⟨⟨e3, e2, e1⟩, h1, by simp, ?_⟩
    intro i hi
    obtain ⟨e, he, hie⟩ := (h3 i).1 hi
    exact (h.edges.2.2 e (h1 e he)).2.2 i hie
  · have hsub : ∀ e ∈ edges, e ∈ r.edges := by
      intro e he
      obtain ⟨t, ht, h5⟩ := (h2.2 e).1 he
      rcases h.top with ⟨h6, -⟩ | ⟨h6, -⟩ | ⟨-, -, -, h6⟩
      · omega
      · omega
      · exact (h6.2 e).2 ⟨t, h1 t ht, h5⟩
    have ht3 : ∀ t ∈ tris, t.length = 3 ∧ t.Pairwise (· < ·) := fun t ht =>
      ⟨(h.tris.2 t (h1 t ht)).1, (h.tris.2 t (h1 t ht)).2.1⟩
    have hnil : tris = [] → edges = [] := by rintro rfl; exact facesOf_nil h2
    have e1 : decTris (skinElems 3 nodes edges tris : MReg α) = tris := by simp [skinElems, decTris]
    have e2 : decEdges (skinElems 3 nodes edges tris : MReg α) = edges := by
      have e4 : (skinElems 3 nodes edges tris : MReg α).edges = [] := by simp [skinElems]
      unfold decEdges
      rw [e1, e4]
      by_cases ht : tris = []
      · rw [hnil ht]; simp [ht]
      · rw [if_pos (by simp [ht]), edgesOf_eq ht3 h2]
    have e3 : decNodes (skinElems 3 nodes edges tris : MReg α) = nodes := by
      have e4 : (skinElems 3 nodes edges tris : MReg α).nodes = [] := by simp [skinElems]
      unfold decNodes
      rw [e2, e4]
      by_cases he : edges = []
      · subst he
        have : nodes = [] := by
          rw [List.eq_nil_iff_forall_not_mem]; intro i hi; obtain ⟨e, he, -⟩ := (h4 i).1 hi; simp at he
        simp [this]
      · rw [if_pos (by simp [he]), nodesOf_eq h3 h4]
    refine ⟨⟨e3, e2, e1⟩, hsub, h1, ?_⟩
    intro i hi
    obtain ⟨e, he, hie⟩ := (h4 i).1 hi
    exact (h.edges.2.2 e (hsub e he)).2.2 i hie

end

end Verif.MeshIO
