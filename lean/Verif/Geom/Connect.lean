import Mathlib.Data.List.Sort
import Mathlib.Data.List.Basic
import Mathlib.Data.List.Nodup

/-!
# Connectivity of a region

The tables of a region that are made when its mesh is finalized (`src/Geometry/Region.cc:300-770`): which
edges, triangles and tetrahedra belong to a node, which triangles and tetrahedra to an edge, and which edges
and triangles to a triangle or tetrahedron, in which position.

Pointers are replaced by positions in the lists of the region. An element is the list of the positions of
its nodes.
-/

namespace Verif.Geom

/-- The nodes of an edge, triangle or tetrahedron. -/
abbrev Elem := List Nat

/-- A region: number of nodes, dimension, elements (`Region.hh`). -/
structure Mesh where
  n : Nat
  dim : Nat
  edges : List Elem
  tris : List Elem := []
  tets : List Elem := []

/-! ### Model -/

/-- `push_back` of the element number `i` to the list of each of its nodes. -/
def pushElem (tab : List (List Nat)) (e : Elem) (i : Nat) : List (List Nat) :=
  e.foldl (fun tab v => tab.modify v (· ++ [i])) tab

/-- `CreateNodeToEdgeList`, `CreateNodeToTriangleList`, `CreateNodeToTetrahedronList`
(`Region.cc:365-428`): the elements of each node, sorted by their number. -/
def nodeTo (n : Nat) (els : List Elem) : List (List Nat) :=
  (els.zipIdx.foldl (fun tab p => pushElem tab p.1 p.2) (List.replicate n [])).map fun l => l.mergeSort (· ≤ ·)

/-- `std::set_intersection` -/
def setInter : List Nat → List Nat → List Nat
  | [], _ => []
  | _ :: _, [] => []
  | a :: as, b :: bs =>
    if a < b then setInter as (b :: bs)
    else if b < a then setInter (a :: as) bs
    else a :: setInter as bs
termination_by a b => a.length + b.length

/-- The elements that contain all the given nodes: `CreateEdgeToTriangleList`,
`CreateEdgeToTetrahedronList`, `CreateTriangleToTetrahedronList`, `FindEdge`, `FindTriangle`
(`Region.cc:433-503`, `610-652`, `1615-1668`): successive intersections of the lists of the nodes. -/
def common (tab : List (List Nat)) : Elem → List Nat
  | [] => []
  | v :: vs => vs.foldl (fun acc w => setInter acc (tab.getD w [])) (tab.getD v [])

/-- The elements that each of the elements `subs` is part of. -/
def partOf (n : Nat) (els subs : List Elem) : List (List Nat) := subs.map (common (nodeTo n els))

/-- One step of `fillSlots`: element `s` number `i` is part of element `t`; it is entered in the slot of the
first node of `t` that does not belong to it. -/
def putSlot (els : List Elem) (s : Elem) (i : Nat) (tab : List (List (Option Nat))) (t : Nat) :
    List (List (Option Nat)) :=
  match (els.getD t []).findIdx? (· ∉ s) with
  | some j => tab.modify t (fun l => l.set j (some i))
  | none => tab

/-- `CreateTriangleToEdgeList` (`k = 3`, `Region.cc:511-541`) and `CreateTetrahedronToTriangleList`
(`k = 4`, `654-692`): for each element one slot for each of its nodes. -/
def fillSlots (k : Nat) (els subs : List Elem) (inc : List (List Nat)) : List (List (Option Nat)) :=
  (subs.zip inc).zipIdx.foldl (fun tab p => p.1.2.foldl (putSlot els p.1.1 p.2) tab)
    (List.replicate els.length (List.replicate k none))

/-- `EdgeData` (`EdgeData.hh`): an edge of a tetrahedron, the two slots of its triangles, and the nodes of
the triangles that are not on the edge. -/
structure EdgeData where
  edge : Nat
  idx : List Nat
  opp : List (Option Nat)
deriving DecidableEq, Repr

/-- `findNodeOppositeOfTriangleEdge` (`Region.cc:73-91`) -/
def opposite (e t : Elem) : Option Nat := t.find? (· ∉ e)

/-- The data of edge number `i` in tetrahedron `t` (`Region.cc:571-593`). -/
def edgeData (m : Mesh) (tte ttt : List (List (Option Nat))) (i t : Nat) : EdgeData :=
  let js := (List.range 4).filter fun j =>
    match (ttt.getD t []).getD j none with
    | some f => (tte.getD f []).contains (some i)
    | none => false
  { edge := i, idx := js
    opp := js.map fun j => match (ttt.getD t []).getD j none with
      | some f => opposite (m.edges.getD i []) (m.tris.getD f [])
      | none => none }

/-- `CreateTetrahedronToEdgeDataList` (`Region.cc:547-608`): the edges of each tetrahedron in the order of
their numbers. -/
def tetToEdgeData (m : Mesh) (tte ttt : List (List (Option Nat))) (inc : List (List Nat)) : List (List EdgeData) :=
  inc.zipIdx.foldl (fun tab p => p.1.foldl (fun tab t => tab.modify t (· ++ [edgeData m tte ttt p.2 t])) tab)
    (List.replicate m.tets.length [])

/-- The tables of a region. -/
structure Tables where
  nodeEdge : List (List Nat)
  nodeTri : List (List Nat)
  nodeTet : List (List Nat)
  edgeTri : List (List Nat)
  edgeTet : List (List Nat)
  triTet : List (List Nat)
  triEdge : List (List (Option Nat))
  tetTri : List (List (Option Nat))
  tetEdge : List (List EdgeData)

/-- All tables. -/
def tables (m : Mesh) : Tables where
  nodeEdge := nodeTo m.n m.edges
  nodeTri := nodeTo m.n m.tris
  nodeTet := nodeTo m.n m.tets
  edgeTri := partOf m.n m.tris m.edges
  edgeTet := partOf m.n m.tets m.edges
  triTet := partOf m.n m.tets m.tris
  triEdge := fillSlots 3 m.tris m.edges (partOf m.n m.tris m.edges)
  tetTri := fillSlots 4 m.tets m.tris (partOf m.n m.tets m.tris)
  tetEdge := tetToEdgeData m (fillSlots 3 m.tris m.edges (partOf m.n m.tris m.edges))
    (fillSlots 4 m.tets m.tris (partOf m.n m.tets m.tris)) (partOf m.n m.tets m.edges)

/-- `Region::FinalizeMesh` (`Region.cc:734-770`): the tables, or `none` when one of the assertions fails:
in two dimensions every edge has one or two triangles (`Region.cc:461-464`), in three dimensions every
triangle one or two tetrahedra (`645`) and every edge of a tetrahedron two triangles (`592`). -/
def finalizeMesh (m : Mesh) : Option Tables :=
  let T := tables m
  let ok1 := m.tris.isEmpty || m.dim ≠ 2 || T.edgeTri.all (fun l => l.length = 1 || l.length = 2)
  let ok2 := m.tets.isEmpty || (T.triTet.all (fun l => l.length = 1 || l.length = 2) &&
    T.tetEdge.all (fun l => l.all fun d => d.idx.length = 2))
  if ok1 && ok2 then some T else none

/-! ### The lists of the nodes -/

theorem pushElem_length (tab : List (List Nat)) (e : Elem) (i : Nat) : (pushElem tab e i).length = tab.length := by
  induction e generalizing tab with
  | nil => rfl
  | cons v e ih => simp only [pushElem, List.foldl_cons]; exact (ih _).trans (by simp)

theorem pushElem_get (tab : List (List Nat)) (e : Elem) (i v : Nat) (hv : v < tab.length) :
    (pushElem tab e i).getD v [] = tab.getD v [] ++ List.replicate (e.count v) i := by
  induction e generalizing tab with
  | nil => simp [pushElem]
  | cons w e ih =>
    have : pushElem tab (w :: e) i = pushElem (tab.modify w (· ++ [i])) e i := rfl
    rw [this, ih _ (by simpa using hv)]
    by_cases h : w = v
    · subst h
      simp only [List.getD_eq_getElem?_getD, List.getElem?_modify_eq, List.getElem?_eq_getElem hv]
      simp [List.replicate_succ]
    · simp only [List.getD_eq_getElem?_getD, List.getElem?_modify_ne _ _ h]
      rw [List.count_cons_of_ne h]

/-- The elements that contain a node, in order, from number `k` on. -/
def having (v : Nat) (els : List Elem) (k : Nat) : List Nat :=
  (els.zipIdx k).flatMap fun p => List.replicate (p.1.count v) p.2

theorem foldl_push_length (els : List Elem) : ∀ (k : Nat) (tab : List (List Nat)),
    ((els.zipIdx k).foldl (fun tab p => pushElem tab p.1 p.2) tab).length = tab.length := by
  induction els with
  | nil => intros; rfl
  | cons e els ih => intro k tab; rw [List.zipIdx_cons, List.foldl_cons, ih, pushElem_length]

theorem foldl_push_get (v : Nat) (els : List Elem) : ∀ (k : Nat) (tab : List (List Nat)), v < tab.length →
    ((els.zipIdx k).foldl (fun tab p => pushElem tab p.1 p.2) tab).getD v [] = tab.getD v [] ++ having v els k := by
  induction els with
  | nil => intros; simp [having]
  | cons e els ih =>
    intro k tab hv
    rw [List.zipIdx_cons, List.foldl_cons, ih _ _ (by rw [pushElem_length]; exact hv), pushElem_get _ _ _ _ hv]
    simp [having, List.zipIdx_cons]

theorem having_nodup {v : Nat} {els : List Elem} (h : ∀ e ∈ els, e.Nodup) (k : Nat) :
    (having v els k).Pairwise (· < ·) ∧ (∀ i, i ∈ having v els k ↔ ∃ e, els[i - k]? = some e ∧ v ∈ e ∧ k ≤ i) := by
  induction els generalizing k with
  | nil => simp [having]
  | cons e els ih =>
    have hc : having v (e :: els) k = List.replicate (e.count v) k ++ having v els (k + 1) := by
      simp [having, List.zipIdx_cons]
    obtain ⟨h1, h2⟩ := ih (fun e he => h e (by simp [he])) (k + 1)
    have hle : ∀ i ∈ having v els (k + 1), k < i := by
      intro i hi; obtain ⟨_, _, _, h⟩ := (h2 i).1 hi; omega
    have hcount : e.count v = if v ∈ e then 1 else 0 := by
      split
      · exact List.count_eq_one_of_mem (h e (by simp)) ‹_›
      · exact List.count_eq_zero_of_not_mem ‹_›
    rw [hc, hcount]
    refine ⟨?_, ?_⟩
    · split
      · simpa using ⟨hle, h1⟩
      · simpa using h1
    · intro i
      have : ∀ i, i ∈ having v els (k + 1) ↔ ∃ e', (e :: els)[i - k]? = some e' ∧ v ∈ e' ∧ k < i := by
        intro i
        rw [h2]
        constructor
        · rintro ⟨e', he, hv, hk⟩
          refine ⟨e', ?_, hv, by omega⟩
          have : i - k = (i - (k + 1)) + 1 := by omega
          rw [this, List.getElem?_cons_succ, he]
        · rintro ⟨e', he, hv, hk⟩
          have : i - k = (i - (k + 1)) + 1 := by omega
          rw [this, List.getElem?_cons_succ] at he
          exact ⟨e', he, hv, by omega⟩
      rw [List.mem_append, this]
      constructor
      · rintro (hi | ⟨e', he, hv, hk⟩)
        · split at hi
          · rename_i hv
            simp at hi
            subst hi
            exact ⟨e, by simp, hv, le_refl _⟩
          · simp at hi
        · exact ⟨e', he, hv, by omega⟩
      · rintro ⟨e', he, hv, hk⟩
        by_cases hik : i = k
        · subst hik
          simp at he
          subst he
          left; simp [hv]
        · exact .inr ⟨e', he, hv, by omega⟩

theorem nodeTo_length (n : Nat) (els : List Elem) : (nodeTo n els).length = n := by
  simp [nodeTo, foldl_push_length]

/-- The list of a node: strictly increasing, exactly the elements that contain the node. -/
theorem nodeTo_spec {n : Nat} {els : List Elem} (h : ∀ e ∈ els, e.Nodup) {v : Nat} (hv : v < n) :
    ((nodeTo n els).getD v []).Pairwise (· < ·) ∧
    ∀ i, i ∈ (nodeTo n els).getD v [] ↔ ∃ e, els[i]? = some e ∧ v ∈ e := by
  have h0 := foldl_push_get v els 0 (List.replicate n []) (by simpa using hv)
  have hl := foldl_push_length els 0 (List.replicate n [])
  obtain ⟨h1, h2⟩ := having_nodup h (v := v) 0
  have h3 : (nodeTo n els).getD v [] = (having v els 0).mergeSort (· ≤ ·) := by
    have hr : (List.replicate n ([] : List Nat)).getD v [] = [] := by
      simp [List.getD_eq_getElem?_getD, hv]
    rw [hr, List.nil_append] at h0
    rw [← h0]
    simp only [nodeTo, List.getD_eq_getElem?_getD, List.getElem?_map]
    rw [List.getElem?_eq_getElem (by rw [hl]; simpa using hv)]
    rfl
  have h4 : (having v els 0).mergeSort (· ≤ ·) = having v els 0 :=
    List.mergeSort_of_pairwise (h1.imp fun hab => by simpa using le_of_lt hab)
  rw [h3, h4]
  refine ⟨h1, fun i => ?_⟩
  rw [h2]
  simp

/-! ### Intersections -/

theorem setInter_spec : ∀ (a b : List Nat), a.Pairwise (· < ·) → b.Pairwise (· < ·) →
    (setInter a b).Pairwise (· < ·) ∧ ∀ i, i ∈ setInter a b ↔ i ∈ a ∧ i ∈ b := by
  intro a b
  induction a, b using setInter.induct with
  | case1 b => intro _ _; simp [setInter]
  | case2 a as => intro _ _; simp [setInter]
  | case3 a as b bs hab ih =>
    intro ha hb
    obtain ⟨h1, h2⟩ := ih (List.pairwise_cons.1 ha).2 hb
    rw [setInter, if_pos hab]
    refine ⟨h1, fun i => ?_⟩
    rw [h2]
    have : a ∉ b :: bs := by
      intro hm
      rcases List.mem_cons.1 hm with rfl | hm
      · exact lt_irrefl _ hab
      · exact absurd ((List.pairwise_cons.1 hb).1 _ hm) (by omega)
    constructor
    · rintro ⟨p, q⟩; exact ⟨by simp [p], q⟩
    · rintro ⟨p, q⟩
      rcases List.mem_cons.1 p with rfl | p
      · exact absurd q this
      · exact ⟨p, q⟩
  | case4 a as b bs hab hba ih =>
    intro ha hb
    obtain ⟨h1, h2⟩ := ih ha (List.pairwise_cons.1 hb).2
    rw [setInter, if_neg hab, if_pos hba]
    refine ⟨h1, fun i => ?_⟩
    rw [h2]
    have : b ∉ a :: as := by
      intro hm
      rcases List.mem_cons.1 hm with rfl | hm
      · exact lt_irrefl _ hba
      · exact absurd ((List.pairwise_cons.1 ha).1 _ hm) (by omega)
    constructor
    · rintro ⟨p, q⟩; exact ⟨p, by simp [q]⟩
    · rintro ⟨p, q⟩
      rcases List.mem_cons.1 q with rfl | q
      · exact absurd p this
      · exact ⟨p, q⟩
  | case5 a as b bs hab hba ih =>
    intro ha hb
    have e : a = b := by omega
    subst e
    obtain ⟨h1, h2⟩ := ih (List.pairwise_cons.1 ha).2 (List.pairwise_cons.1 hb).2
    rw [setInter, if_neg hab, if_neg hba]
    refine ⟨List.pairwise_cons.2 ⟨fun i hi => (List.pairwise_cons.1 ha).1 i ((h2 i).1 hi).1, h1⟩, fun i => ?_⟩
    rw [List.mem_cons, h2]
    constructor
    · rintro (rfl | ⟨p, q⟩)
      · simp
      · simp [p, q]
    · rintro ⟨p, q⟩
      rcases List.mem_cons.1 p with rfl | p
      · exact .inl rfl
      · rcases List.mem_cons.1 q with rfl | q
        · exact .inl rfl
        · exact .inr ⟨p, q⟩

/-- The elements found for a list of nodes are exactly those that contain all of them, in order. -/
theorem common_spec {n : Nat} {els : List Elem} (h : ∀ e ∈ els, e.Nodup) {s : Elem} (hs : s ≠ [])
    (hn : ∀ v ∈ s, v < n) :
    (common (nodeTo n els) s).Pairwise (· < ·) ∧
    ∀ i, i ∈ common (nodeTo n els) s ↔ ∃ e, els[i]? = some e ∧ ∀ v ∈ s, v ∈ e := by
  obtain ⟨v, vs, rfl⟩ := List.exists_cons_of_ne_nil hs
  have key : ∀ (vs : List Nat) (acc : List Nat) (P : Elem → Prop), (∀ v ∈ vs, v < n) →
      acc.Pairwise (· < ·) → (∀ i, i ∈ acc ↔ ∃ e, els[i]? = some e ∧ P e) →
      (vs.foldl (fun acc w => setInter acc ((nodeTo n els).getD w [])) acc).Pairwise (· < ·) ∧
      ∀ i, i ∈ vs.foldl (fun acc w => setInter acc ((nodeTo n els).getD w [])) acc ↔
        ∃ e, els[i]? = some e ∧ P e ∧ ∀ v ∈ vs, v ∈ e := by
    intro vs
    induction vs with
    | nil => intro acc P _ h1 h2; simpa using ⟨h1, h2⟩
    | cons w vs ih =>
      intro acc P hn h1 h2
      obtain ⟨h3, h4⟩ := nodeTo_spec h (hn w (by simp))
      obtain ⟨h5, h6⟩ := setInter_spec _ _ h1 h3
      obtain ⟨h7, h8⟩ := ih (setInter acc ((nodeTo n els).getD w [])) (fun e => P e ∧ w ∈ e)
        (fun v hv => hn v (by simp [hv])) h5 (by
          intro i
          rw [h6, h2, h4]
          constructor
          · rintro ⟨⟨e, he, hp⟩, ⟨e', he', hw⟩⟩
            rw [he] at he'; cases he'
            exact ⟨e, he, hp, hw⟩
          · rintro ⟨e, he, hp, hw⟩
            exact ⟨⟨e, he, hp⟩, ⟨e, he, hw⟩⟩)
      refine ⟨h7, fun i => ?_⟩
      rw [List.foldl_cons, h8]
      constructor
      · rintro ⟨e, he, ⟨hp, hw⟩, hv⟩
        exact ⟨e, he, hp, by simpa using ⟨hw, hv⟩⟩
      · rintro ⟨e, he, hp, hv⟩
        simp only [List.mem_cons, forall_eq_or_imp] at hv
        exact ⟨e, he, ⟨hp, hv.1⟩, hv.2⟩
  obtain ⟨h1, h2⟩ := nodeTo_spec h (hn v (by simp))
  obtain ⟨h3, h4⟩ := key vs _ (fun e => v ∈ e) (fun w hw => hn w (by simp [hw])) h1 h2
  refine ⟨h3, fun i => ?_⟩
  show i ∈ vs.foldl _ _ ↔ _
  rw [h4]
  simp

end Verif.Geom
