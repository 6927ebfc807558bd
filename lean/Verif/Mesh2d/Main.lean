import Verif.Mesh2d.Places

/-!
# C66: what `finalize_mesh` makes of a two-dimensional mesh
-/

namespace Verif.Mesh2d
open Classical Verif.MeshIO
open Verif.Mesh (Res)

/-! ### Specification -/

/-- The node `k` of the region `n` is at the point `p`. -/
def NodeAt (L : Loader ℝ) (n : Text) (k : Nat) (p : ℝ × ℝ) : Prop :=
  ∃ r i, L.regions.get n = some r ∧ r.nodes[k]? = some i ∧ L.coords[i]? = some (p.1, p.2, 0)

/-- The region `n` has a node at the point `p`. -/
def HasNode (L : Loader ℝ) (n : Text) (p : ℝ × ℝ) : Prop := ∃ k, NodeAt L n k p

/-- Two regions meet at the point `p`. -/
def Shared (L : Loader ℝ) (p : ℝ × ℝ) : Prop := ∃ n n', n ≠ n' ∧ HasNode L n p ∧ HasNode L n' p

/-- The half cell with these corners belongs to the region `n`. -/
def TriOf (m : Mesh2) (xs ys : List ℝ) (n : Text) (p q r : ℝ × ℝ) : Prop :=
  HalfCell xs ys p q r ∧ ∃ d, Owns m.regions n d ((p.1 + q.1 + r.1) / 3) ((p.2 + q.2 + r.2) / 3)

/-- The first contact that contains the point and whose region has a node there. -/
def ConTakes (L : Loader ℝ) (cs : List (Text × ConDef)) (n : Text) (p : ℝ × ℝ) : Prop :=
  ∃ pre post c, cs = pre ++ (n, c) :: post ∧ insideBoxes c.boxes p.1 p.2 ∧ HasNode L c.region p ∧
    ∀ e ∈ pre, ¬ (insideBoxes e.2.boxes p.1 p.2 ∧ HasNode L e.2.region p)

/-- The first interface that contains the point and whose regions both have a node there. -/
def IfcTakes (L : Loader ℝ) (cs : List (Text × IfcDef)) (n : Text) (p : ℝ × ℝ) : Prop :=
  ∃ pre post c, cs = pre ++ (n, c) :: post ∧ insideBoxes c.boxes p.1 p.2 ∧ HasNode L c.region0 p ∧ HasNode L c.region1 p ∧
    ∀ e ∈ pre, ¬ (insideBoxes e.2.boxes p.1 p.2 ∧ HasNode L e.2.region0 p ∧ HasNode L e.2.region1 p)

/-- The contact `n` is asked about the point: the point is in it and no contact before it takes the point. -/
def ConAsked (L : Loader ℝ) (cs : List (Text × ConDef)) (n : Text) (p : ℝ × ℝ) : Prop :=
  ∃ pre post c, cs = pre ++ (n, c) :: post ∧ insideBoxes c.boxes p.1 p.2 ∧
    ∀ e ∈ pre, ¬ (insideBoxes e.2.boxes p.1 p.2 ∧ HasNode L e.2.region p)

/-- The interface `n` is asked about the point: the point is in it and no interface before it takes the point. -/
def IfcAsked (L : Loader ℝ) (cs : List (Text × IfcDef)) (n : Text) (p : ℝ × ℝ) : Prop :=
  ∃ pre post c, cs = pre ++ (n, c) :: post ∧ insideBoxes c.boxes p.1 p.2 ∧
    ∀ e ∈ pre, ¬ (insideBoxes e.2.boxes p.1 p.2 ∧ HasNode L e.2.region0 p ∧ HasNode L e.2.region1 p)

/-- A region of the mesh. -/
structure RegOK2 (m : Mesh2) (xs ys : List ℝ) (L : Loader ℝ) (n : Text) (r : MReg ℝ) : Prop where
  /-- the material is that of the description -/
  material : ∃ d, (n, d) ∈ m.regions ∧ r.material = d.material
  /-- no point has two nodes -/
  nodes_nodup : r.nodes.Nodup
  nodes_coord : ∀ i ∈ r.nodes, i < L.coords.length
  /-- the triangles are half cells that belong to the region -/
  tri_only : ∀ e ∈ r.tris, ∃ p q s a b c, TriOf m xs ys n p q s ∧ NodeAt L n a p ∧ NodeAt L n b q ∧ NodeAt L n c s ∧
    e = mkElem [a, b, c]
  /-- the edges are the sides of the triangles -/
  edges : ∀ e, e ∈ r.edges ↔ e.length = 2 ∧ ∃ t ∈ r.tris, e.Sublist t
  /-- the nodes are the corners of the triangles -/
  nodes : ∀ k, k < r.nodes.length ↔ ∃ t ∈ r.tris, k ∈ t
  /-- nothing else -/
  rest : r.tets = [] ∧ r.sols = [] ∧ r.eqns = []

/-- A contact of the mesh. -/
structure ConOK2 (m : Mesh2) (L : Loader ℝ) (n : Text) (o : MCon ℝ) : Prop where
  region : ∃ c, (n, c) ∈ m.contacts ∧ o.region = c.region ∧ o.material = c.material
  nodup : o.elems.nodes.Nodup
  node_only : ∀ k ∈ o.elems.nodes, ∃ p, NodeAt L o.region k p ∧ Shared L p ∧ ConTakes L m.contacts n p
  rest : o.elems.edges = [] ∧ o.elems.tris = [] ∧ o.elems.tets = [] ∧ o.eqns = []

/-- An interface of the mesh. -/
structure IfcOK2 (m : Mesh2) (L : Loader ℝ) (n : Text) (o : MIfc ℝ) : Prop where
  regions : ∃ c, (n, c) ∈ m.ifaces ∧ o.region0 = c.region0 ∧ o.region1 = c.region1
  nodup : o.pairs.Nodup
  /-- the nodes of a pair are at the same point -/
  pair_only : ∀ k ∈ o.pairs, ∃ p, NodeAt L o.region0 k.1 p ∧ NodeAt L o.region1 k.2 p ∧ Shared L p ∧
    (∀ n', ¬ ConTakes L m.contacts n' p) ∧ IfcTakes L m.ifaces n p
  rest : o.elems0 = { material := [] } ∧ o.elems1 = { material := [] } ∧ o.sols = [] ∧ o.eqns = []

/-- The mesh that a description means. -/
structure MeshOK2 (m : Mesh2) (xs ys : List ℝ) (L : Loader ℝ) : Prop where
  /-- the points are the crossings of the lines, each once -/
  coords : ∀ p, p ∈ L.coords ↔ p.1 ∈ xs ∧ p.2.1 ∈ ys ∧ p.2.2 = 0
  coords_nodup : L.coords.Nodup
  regions_sorted : SMap.Sorted L.regions
  contacts_sorted : SMap.Sorted L.contacts
  ifaces_sorted : SMap.Sorted L.ifaces
  region : ∀ n r, L.regions.get n = some r → RegOK2 m xs ys L n r
  /-- every half cell is a triangle of its region -/
  tri_made : ∀ n p q s, TriOf m xs ys n p q s → ∃ r a b c, L.regions.get n = some r ∧ mkElem [a, b, c] ∈ r.tris ∧
    NodeAt L n a p ∧ NodeAt L n b q ∧ NodeAt L n c s
  /-- no region without triangles -/
  region_tri : ∀ n r, L.regions.get n = some r → r.tris ≠ []
  contact : ∀ n o, L.contacts.get n = some o → ConOK2 m L n o
  /-- every node that a contact takes is in it -/
  con_made : ∀ n p, Shared L p → ConTakes L m.contacts n p → ∃ o k, L.contacts.get n = some o ∧ k ∈ o.elems.nodes ∧
    NodeAt L o.region k p
  /-- a contact is in the mesh if it was asked about a point where regions meet, even if it has no node -/
  con_iff : ∀ n, (∃ o, L.contacts.get n = some o) ↔ ∃ p, Shared L p ∧ ConAsked L m.contacts n p
  iface : ∀ n o, L.ifaces.get n = some o → IfcOK2 m L n o
  /-- every pair that an interface takes is in it -/
  ifc_made : ∀ n p, Shared L p → (∀ n', ¬ ConTakes L m.contacts n' p) → IfcTakes L m.ifaces n p →
    ∃ o k0 k1, L.ifaces.get n = some o ∧ (k0, k1) ∈ o.pairs ∧ NodeAt L o.region0 k0 p ∧ NodeAt L o.region1 k1 p
  ifc_iff : ∀ n, (∃ o, L.ifaces.get n = some o) ↔
    ∃ p, Shared L p ∧ (∀ n', ¬ ConTakes L m.contacts n' p) ∧ IfcAsked L m.ifaces n p

/-! ### Elements -/

theorem mkElem_perm (l : List Nat) : (mkElem l).Perm l := List.mergeSort_perm _ _

theorem mkElem_sorted (l : List Nat) : (mkElem l).Pairwise (· ≤ ·) := by
  have := List.pairwise_mergeSort (le := fun a b : Nat => decide (a ≤ b))
      (fun a b c h1 h2 => by simp only [decide_eq_true_eq] at *; exact le_trans h1 h2)
      (fun a b => by simp only [Bool.or_eq_true, decide_eq_true_eq]; exact le_total _ _) l
  exact this.imp fun h => by simpa using h

theorem eq_mkElem {e l : List Nat} (h : e.Pairwise (· ≤ ·)) (hp : e.Perm l) : e = mkElem l :=
  List.Perm.eq_of_pairwise (fun _ _ _ _ h1 h2 => Nat.le_antisymm h1 h2) h (mkElem_sorted l) (hp.trans (mkElem_perm l).symm)

theorem mkElem_sub {l l' : List Nat} (h : l.Subperm l') : (mkElem l).Sublist (mkElem l') := by
  have h' : (mkElem l).Subperm (mkElem l') :=
    ((mkElem_perm l).subperm).trans (h.trans ((mkElem_perm l').symm.subperm))
  obtain ⟨m, hm, hs⟩ := h'
  have : m = mkElem l := List.Perm.eq_of_pairwise (fun _ _ _ _ h1 h2 => Nat.le_antisymm h1 h2)
    ((mkElem_sorted l').sublist hs) (mkElem_sorted l) hm
  rw [← this]; exact hs

theorem side_iff {e : List Nat} {a b c : Nat} :
    (e = mkElem [a, b] ∨ e = mkElem [b, c] ∨ e = mkElem [c, a]) ↔ e.length = 2 ∧ e.Sublist (mkElem [a, b, c]) := by
  constructor
  · rintro (rfl | rfl | rfl)
    · exact ⟨by rw [(mkElem_perm _).length_eq]; rfl, mkElem_sub (List.Sublist.subperm (by simp))⟩
    · exact ⟨by rw [(mkElem_perm _).length_eq]; rfl, mkElem_sub (List.Sublist.subperm (by simp))⟩
    · refine ⟨by rw [(mkElem_perm _).length_eq]; rfl, mkElem_sub ?_⟩
      exact (List.Perm.swap a c []).subperm.trans (List.Sublist.subperm (by simp))
  · rintro ⟨hl, hs⟩
    have hsort : e.Pairwise (· ≤ ·) := (mkElem_sorted _).sublist hs
    obtain ⟨l, hp, hsub⟩ := hs.subperm.trans (mkElem_perm [a, b, c]).subperm
    have hl' : l.length = 2 := by rw [hp.length_eq]; exact hl
    have : l = [a, b] ∨ l = [b, c] ∨ l = [a, c] := by
      match l, hl' with
      | [x, y], _ =>
        have h3 := List.mem_sublists.2 hsub
        simp [List.sublists, List.foldr] at h3
        simp only [List.cons.injEq, and_true]
        tauto
    rcases this with rfl | rfl | rfl
    · exact .inl (eq_mkElem hsort hp.symm)
    · exact .inr (.inl (eq_mkElem hsort hp.symm))
    · exact .inr (.inr (eq_mkElem hsort (hp.symm.trans (List.Perm.swap _ _ _))))

/-! ### The mesh before the checks -/

theorem at_eq {coords : List (ℝ × ℝ × ℝ)} {i : Nat} {p : ℝ × ℝ × ℝ} (h : coords[i]? = some p) : at_ coords i = p := by
  unfold at_; rw [List.getD_eq_getElem?_getD, h]; rfl

theorem own_some {coords : List (ℝ × ℝ × ℝ)} {regions : List (Text × RegDef)} {i0 i1 i2 : Nat} {p q r : ℝ × ℝ}
    (h0 : coords[i0]? = some (p.1, p.2, 0)) (h1 : coords[i1]? = some (q.1, q.2, 0)) (h2 : coords[i2]? = some (r.1, r.2, 0))
    {n : Text} : (∃ d, own coords regions [i0, i1, i2] = some (n, d)) ↔
      ∃ d, Owns regions n d ((p.1 + q.1 + r.1) / 3) ((p.2 + q.2 + r.2) / 3) := by
  unfold own
  dsimp only
  rw [at_eq h0, at_eq h1, at_eq h2]
  simp only [findRegion_some]
  rfl

theorem own_shape {coords : List (ℝ × ℝ × ℝ)} {regions : List (Text × RegDef)} {t : List Nat} {e : Text × RegDef}
    (h : own coords regions t = some e) : ∃ i0 i1 i2, t = [i0, i1, i2] := by
  unfold own at h
  split at h
  · exact ⟨_, _, _, rfl⟩
  · simp at h

theorem foldl_appCon (l : List Nat) (o : MCon ℝ) : l.foldl (fun o k => appCon k o) o =
    { o with elems := { o.elems with nodes := o.elems.nodes ++ l } } := by
  induction l generalizing o with
  | nil => simp
  | cons k l ih => rw [List.foldl_cons, ih]; simp [appCon]

theorem foldl_appIfc (l : List (Nat × Nat)) (o : MIfc ℝ) : l.foldl (fun o k => appIfc k o) o =
    { o with pairs := o.pairs ++ l } := by
  induction l generalizing o with
  | nil => simp
  | cons k l ih => rw [List.foldl_cons, ih]; simp [appIfc]

theorem filter_two {names : List Text} (hn : names.Nodup) {P : Text → Prop} [DecidablePred P] :
    (names.filter fun x => decide (P x)).length > 1 ↔ ∃ a b, a ≠ b ∧ a ∈ names ∧ b ∈ names ∧ P a ∧ P b := by
  have hnd := hn.filter fun x => decide (P x)
  constructor
  · intro h
    match e : names.filter (fun x => decide (P x)), h with
    | a :: b :: l, _ =>
      have ha : a ∈ names.filter (fun x => decide (P x)) := by rw [e]; simp
      have hb : b ∈ names.filter (fun x => decide (P x)) := by rw [e]; simp
      rw [e] at hnd
      simp only [List.nodup_cons, List.mem_cons, not_or] at hnd
      simp only [List.mem_filter, decide_eq_true_eq] at ha hb
      exact ⟨a, b, hnd.1.1, ha.1, hb.1, ha.2, hb.2⟩
  · rintro ⟨a, b, hne, ha, hb, pa, pb⟩
    have ha : a ∈ names.filter (fun x => decide (P x)) := by simp [ha, pa]
    have hb : b ∈ names.filter (fun x => decide (P x)) := by simp [hb, pb]
    match e : names.filter (fun x => decide (P x)) with
    | [] => rw [e] at ha; simp at ha
    | [x] =>
      rw [e] at ha hb
      simp only [List.mem_singleton] at ha hb
      exact absurd (ha.trans hb.symm) hne
    | _ :: _ :: _ => simp

theorem pairwise_filterMap_nodup {κ : Type} {f : Nat → Option κ} {is : List Nat} (hn : is.Nodup)
    (hi : ∀ i ∈ is, ∀ j ∈ is, ∀ k, f i = some k → f j = some k → i = j) : (is.filterMap f).Nodup := by
  induction is with
  | nil => simp
  | cons i is ih =>
    rw [List.nodup_cons] at hn
    rw [List.filterMap_cons]
    have ih' := ih hn.2 fun a ha b hb => hi a (List.mem_cons_of_mem _ ha) b (List.mem_cons_of_mem _ hb)
    cases e : f i with
    | none => exact ih'
    | some k =>
      dsimp only
      rw [List.nodup_cons]
      refine ⟨?_, ih'⟩
      intro hm
      obtain ⟨j, hj, hk⟩ := List.mem_filterMap.1 hm
      have := hi i (by simp) j (List.mem_cons_of_mem _ hj) k e hk
      subst this
      exact hn.1 hj

/-- What the commands guarantee about a description: every name is described once. -/
structure Described (m : Mesh2) : Prop where
  regions : (m.regions.map Prod.fst).Nodup
  contacts : (m.contacts.map Prod.fst).Nodup
  ifaces : (m.ifaces.map Prod.fst).Nodup

/-- The mesh that is handed to the checks. -/
theorem build_spec {m : Mesh2} (hm : Described m) {xs ys : List ℝ} (hx : xs.Pairwise (· < ·)) (hy : ys.Pairwise (· < ·))
    (name : Text) : MeshOK2 m xs ys (build name m xs ys) ∧ (build name m xs ys).name = name := by
  have hinv := addTris_inv (name := name) (coords := gridCoords xs ys) hm.regions (gridTris xs.length ys.length) [] _
    (fun t ht => by
      obtain ⟨i0, i1, i2, h, _⟩ := gridTris_shape ht
      exact ⟨i0, i1, i2, h⟩) (initial_inv name (gridCoords xs ys) m.regions _)
  rw [List.nil_append] at hinv
  unfold build
  dsimp only
  rw [places_eq]
  generalize (gridTris xs.length ys.length).foldl (addTri (gridCoords xs ys) m.regions) (initial name (gridCoords xs ys)) = s at *
  obtain ⟨e1, e2, e3, e4⟩ := hinv.same
  obtain ⟨c1, c2, c3⟩ := gfold_spec (act := fun i => s.cnt i > 1) (ins := fun i c => insAt (gridCoords xs ys) i c.boxes)
    (pick := conPick (fun r => r ∈ m.regions.map Prod.fst) s.cn) (new := newCon) (app := appCon) hm.contacts
    (List.range (gridCoords xs ys).length)
  obtain ⟨f1, f2, f3⟩ := gfold_spec (act := ifcAct (gridCoords xs ys) m s) (ins := fun i c => insAt (gridCoords xs ys) i c.boxes)
    (pick := ifcPick (fun r => r ∈ m.regions.map Prod.fst) s.cn) (new := newIfc) (app := appIfc) hm.ifaces
    (List.range (gridCoords xs ys).length)
  rw [e2, e3]
  generalize List.foldl (gstep (fun i => s.cnt i > 1) (fun i (c : ConDef) => insAt (gridCoords xs ys) i c.boxes)
    (conPick (fun r => r ∈ m.regions.map Prod.fst) s.cn) newCon appCon m.contacts) [] (List.range (gridCoords xs ys).length) = MC at *
  generalize List.foldl (gstep (ifcAct (gridCoords xs ys) m s) (fun i (c : IfcDef) => insAt (gridCoords xs ys) i c.boxes)
    (ifcPick (fun r => r ∈ m.regions.map Prod.fst) s.cn) newIfc appIfc m.ifaces) [] (List.range (gridCoords xs ys).length) = MI at *
  generalize hL : ({ s.L with contacts := MC, ifaces := MI } : Loader ℝ) = L
  have Lr : L.regions = s.L.regions := by rw [← hL]
  have Lc : L.coords = gridCoords xs ys := by rw [← hL]; exact e1
  have Lcon : L.contacts = MC := by rw [← hL]
  have Lif : L.ifaces = MI := by rw [← hL]
  -- nodes, by index
  have nodeAt : ∀ {n k p}, NodeAt L n k p ↔ ∃ i, s.cn n i = some k ∧ (gridCoords xs ys)[i]? = some (p.1, p.2, 0) := by
    intro n k p
    unfold NodeAt
    rw [Lr, Lc]
    constructor
    · rintro ⟨r, i, hr, hk, hc⟩
      refine ⟨i, (hinv.ninv.cn n i k).2 ?_, hc⟩
      rw [nodesOf, hr]; exact hk
    · rintro ⟨i, hk, hc⟩
      have hk := (hinv.ninv.cn n i k).1 hk
      rw [nodesOf] at hk
      cases hr : s.L.regions.get n with
      | none => rw [hr] at hk; simp at hk
      | some r => rw [hr] at hk; exact ⟨r, i, rfl, hk, hc⟩
  have hasNode : ∀ {n i p}, (gridCoords xs ys)[i]? = some (p.1, p.2, 0) → (HasNode L n p ↔ i ∈ nodesOf s n) := by
    intro n i p hi
    unfold HasNode
    constructor
    · rintro ⟨k, hk⟩
      obtain ⟨j, hj, hc⟩ := nodeAt.1 hk
      have := gridCoords_inj hx hy hi hc
      subst this
      exact List.mem_of_getElem? ((hinv.ninv.cn n i k).1 hj)
    · intro h
      obtain ⟨k, hk⟩ := List.mem_iff_getElem?.1 h
      exact ⟨k, nodeAt.2 ⟨i, (hinv.ninv.cn n i k).2 hk, hi⟩⟩
  have cnNode : ∀ {n i p k}, (gridCoords xs ys)[i]? = some (p.1, p.2, 0) → (NodeAt L n k p ↔ s.cn n i = some k) := by
    intro n i p k hi
    rw [nodeAt]
    constructor
    · rintro ⟨j, hj, hc⟩
      have := gridCoords_inj hx hy hi hc
      subst this
      exact hj
    · intro h; exact ⟨i, h, hi⟩
  have inNames : ∀ {n i}, i ∈ nodesOf s n → n ∈ m.regions.map Prod.fst := by
    intro n i h
    obtain ⟨t, ht, ⟨d, hd⟩, _⟩ := (hinv.node n i).1 h
    obtain ⟨i0, i1, i2, rfl⟩ := own_shape hd
    exact List.mem_map.2 ⟨(n, d), findRegion_mem hd, rfl⟩
  have shared : ∀ {i p}, (gridCoords xs ys)[i]? = some (p.1, p.2, 0) → (Shared L p ↔ s.cnt i > 1) := by
    intro i p hi
    rw [hinv.ninv.cnt i, filter_two hm.regions]
    unfold Shared
    constructor
    · rintro ⟨n, n', hne, h1, h2⟩
      rw [hasNode hi] at h1 h2
      exact ⟨n, n', hne, inNames h1, inNames h2, h1, h2⟩
    · rintro ⟨n, n', hne, _, _, h1, h2⟩
      exact ⟨n, n', hne, (hasNode hi).2 h1, (hasNode hi).2 h2⟩
  have conP : ∀ {i : Nat} {p : ℝ × ℝ} (c : ConDef) (k : Nat), (gridCoords xs ys)[i]? = some (p.1, p.2, 0) →
      (conPick (fun r => r ∈ m.regions.map Prod.fst) s.cn i c = some k ↔ NodeAt L c.region k p) := by
    intro i p c k hi
    rw [cnNode hi]
    unfold conPick
    constructor
    · intro h
      split at h
      · exact h
      · simp at h
    · intro h
      rw [if_pos (inNames (List.mem_of_getElem? ((hinv.ninv.cn _ _ _).1 h)))]; exact h
  have ifcP : ∀ {i : Nat} {p : ℝ × ℝ} (c : IfcDef) (k : Nat × Nat), (gridCoords xs ys)[i]? = some (p.1, p.2, 0) →
      (ifcPick (fun r => r ∈ m.regions.map Prod.fst) s.cn i c = some k ↔ NodeAt L c.region0 k.1 p ∧ NodeAt L c.region1 k.2 p) := by
    intro i p c k hi
    rw [cnNode hi, cnNode hi]
    unfold ifcPick
    constructor
    · intro h
      split at h
      · rename_i k0 k1 he
        simp only [Option.some.injEq] at h
        subst h
        split at he
        · simp only [Prod.mk.injEq] at he; exact he
        · simp at he
      · simp at h
    · rintro ⟨h1, h2⟩
      rw [if_pos ⟨inNames (List.mem_of_getElem? ((hinv.ninv.cn _ _ _).1 h1)),
        inNames (List.mem_of_getElem? ((hinv.ninv.cn _ _ _).1 h2))⟩, h1, h2]
  have conNone : ∀ {i : Nat} {p : ℝ × ℝ} (cs : List (Text × ConDef)), (gridCoords xs ys)[i]? = some (p.1, p.2, 0) →
      (gpick (fun c : ConDef => insAt (gridCoords xs ys) i c.boxes) (conPick (fun r => r ∈ m.regions.map Prod.fst) s.cn i) cs = none ↔
      ∀ e ∈ cs, ¬ (insideBoxes e.2.boxes p.1 p.2 ∧ HasNode L e.2.region p)) := by
    intro i p cs hi
    rw [gpick_none]
    refine forall₂_congr fun e _ => ?_
    unfold insAt
    rw [at_eq hi, not_and]
    refine imp_congr_right fun _ => ?_
    rw [Option.eq_none_iff_forall_ne_some]
    unfold HasNode
    simp only [conP e.2 _ hi, not_exists, ne_eq]
  have ifcNone : ∀ {i : Nat} {p : ℝ × ℝ} (cs : List (Text × IfcDef)), (gridCoords xs ys)[i]? = some (p.1, p.2, 0) →
      (gpick (fun c : IfcDef => insAt (gridCoords xs ys) i c.boxes) (ifcPick (fun r => r ∈ m.regions.map Prod.fst) s.cn i) cs = none ↔
      ∀ e ∈ cs, ¬ (insideBoxes e.2.boxes p.1 p.2 ∧ HasNode L e.2.region0 p ∧ HasNode L e.2.region1 p)) := by
    intro i p cs hi
    rw [gpick_none]
    refine forall₂_congr fun e _ => ?_
    unfold insAt
    rw [at_eq hi, not_and]
    refine imp_congr_right fun _ => ?_
    rw [Option.eq_none_iff_forall_ne_some]
    unfold HasNode
    simp only [ifcP e.2 _ hi, ne_eq]
    constructor
    · rintro h ⟨⟨k0, h0⟩, ⟨k1, h1⟩⟩; exact h (k0, k1) ⟨h0, h1⟩
    · rintro h ⟨k0, k1⟩ ⟨h0, h1⟩; exact h ⟨⟨k0, h0⟩, ⟨k1, h1⟩⟩
  have conTakes : ∀ {i : Nat} {p : ℝ × ℝ} (n : Text), (gridCoords xs ys)[i]? = some (p.1, p.2, 0) →
      ((∃ k, gpick (fun c : ConDef => insAt (gridCoords xs ys) i c.boxes)
        (conPick (fun r => r ∈ m.regions.map Prod.fst) s.cn i) m.contacts = some (n, k)) ↔ ConTakes L m.contacts n p) := by
    intro i p n hi
    simp only [gpick_some]
    unfold ConTakes
    constructor
    · rintro ⟨k, pre, post, d, he, h1, h2, h3⟩
      refine ⟨pre, post, d, he, ?_, ⟨k, (conP d k hi).1 h2⟩, (conNone pre hi).1 h3⟩
      unfold insAt at h1; rw [at_eq hi] at h1; exact h1
    · rintro ⟨pre, post, d, he, h1, ⟨k, h2⟩, h3⟩
      refine ⟨k, pre, post, d, he, ?_, (conP d k hi).2 h2, (conNone pre hi).2 h3⟩
      unfold insAt; rw [at_eq hi]; exact h1
  have noCon : ∀ {i : Nat} {p : ℝ × ℝ}, (gridCoords xs ys)[i]? = some (p.1, p.2, 0) →
      (gpick (fun c : ConDef => insAt (gridCoords xs ys) i c.boxes)
        (conPick (fun r => r ∈ m.regions.map Prod.fst) s.cn i) m.contacts = none ↔ ∀ n', ¬ ConTakes L m.contacts n' p) := by
    intro i p hi
    rw [Option.eq_none_iff_forall_ne_some]
    constructor
    · intro h n' hn'
      obtain ⟨k, hk⟩ := (conTakes n' hi).2 hn'
      exact h _ hk
    · rintro h ⟨n', k⟩ hk
      exact h n' ((conTakes n' hi).1 ⟨k, hk⟩)
  have ifcTakes : ∀ {i : Nat} {p : ℝ × ℝ} (n : Text), (gridCoords xs ys)[i]? = some (p.1, p.2, 0) →
      ((∃ k, gpick (fun c : IfcDef => insAt (gridCoords xs ys) i c.boxes)
        (ifcPick (fun r => r ∈ m.regions.map Prod.fst) s.cn i) m.ifaces = some (n, k)) ↔ IfcTakes L m.ifaces n p) := by
    intro i p n hi
    simp only [gpick_some]
    unfold IfcTakes
    constructor
    · rintro ⟨k, pre, post, d, he, h1, h2, h3⟩
      have := (ifcP d k hi).1 h2
      refine ⟨pre, post, d, he, ?_, ⟨k.1, this.1⟩, ⟨k.2, this.2⟩, (ifcNone pre hi).1 h3⟩
      unfold insAt at h1; rw [at_eq hi] at h1; exact h1
    · rintro ⟨pre, post, d, he, h1, ⟨k0, h2⟩, ⟨k1, h2'⟩, h3⟩
      refine ⟨(k0, k1), pre, post, d, he, ?_, (ifcP d (k0, k1) hi).2 ⟨h2, h2'⟩, (ifcNone pre hi).2 h3⟩
      unfold insAt; rw [at_eq hi]; exact h1
  -- points with nodes are coordinates
  have pointOf : ∀ {n k p}, NodeAt L n k p → ∃ i, i < (gridCoords xs ys).length ∧ (gridCoords xs ys)[i]? = some (p.1, p.2, 0) := by
    intro n k p h
    obtain ⟨i, _, hc⟩ := nodeAt.1 h
    exact ⟨i, (List.getElem?_eq_some_iff.1 hc).1, hc⟩
  have coordOf : ∀ {i}, i < (gridCoords xs ys).length → ∃ p : ℝ × ℝ, (gridCoords xs ys)[i]? = some (p.1, p.2, 0) := by
    intro i hi
    obtain ⟨_, _, x, y, _, _, _, hp⟩ := gridCoords_index (List.getElem?_eq_getElem hi)
    exact ⟨(x, y), by rw [List.getElem?_eq_getElem hi, hp]⟩
  have triPts : ∀ {i0 i1 i2 : Nat} {n : Text}, [i0, i1, i2] ∈ gridTris xs.length ys.length →
      (∃ d, own (gridCoords xs ys) m.regions [i0, i1, i2] = some (n, d)) →
      ∃ p q r : ℝ × ℝ, (gridCoords xs ys)[i0]? = some (p.1, p.2, 0) ∧ (gridCoords xs ys)[i1]? = some (q.1, q.2, 0) ∧
        (gridCoords xs ys)[i2]? = some (r.1, r.2, 0) ∧ TriOf m xs ys n p q r := by
    intro i0 i1 i2 n ht ho
    obtain ⟨j0, j1, j2, he, h1, h2, h3⟩ := gridTris_shape ht
    simp only [List.cons.injEq, and_true] at he
    obtain ⟨rfl, rfl, rfl⟩ := he
    rw [← gridCoords_length] at h3
    obtain ⟨p, hp⟩ := coordOf (i := i0) (by omega)
    obtain ⟨q, hq⟩ := coordOf (i := i1) (by omega)
    obtain ⟨r, hr⟩ := coordOf (i := i2) (by omega)
    exact ⟨p, q, r, hp, hq, hr, gridTris_halfCell.2 ⟨i0, i1, i2, ht, hp, hq, hr⟩, (own_some hp hq hr).1 ho⟩
  refine ⟨⟨?_, ?_, ?_, ?_, ?_, ?_, ?_, ?_, ?_, ?_, ?_, ?_, ?_, ?_⟩, ?_⟩
  · intro p; rw [Lc]; exact mem_gridCoords
  · rw [Lc, List.nodup_iff_injective_getElem]
    intro a b hab
    apply Fin.ext
    exact gridCoords_inj hx hy (p := (gridCoords xs ys)[a.1]) (List.getElem?_eq_getElem a.2) (by
      rw [List.getElem?_eq_getElem b.2]; exact congrArg some hab.symm)
  · rw [Lr]; exact hinv.sorted
  · rw [Lcon]; exact c1
  · rw [Lif]; exact f1
  · intro n r hr
    have hr' := hr
    rw [Lr] at hr'
    have hreg := hinv.reg n r hr'
    have hno : nodesOf s n = r.nodes := by simp [nodesOf, hr']
    have nodeIx : ∀ {a i p}, r.nodes[a]? = some i → (gridCoords xs ys)[i]? = some (p.1, p.2, 0) → NodeAt L n a p := by
      intro a i p h1 h2
      exact ⟨r, i, hr, h1, by rw [Lc]; exact h2⟩
    refine ⟨hreg.material, ?_, ?_, ?_, ?_, ?_, hreg.rest⟩
    · rw [← hno]; exact hinv.ninv.nodup n
    · intro i hi
      rw [← hno, hinv.node] at hi
      obtain ⟨t, ht, _, hit⟩ := hi
      obtain ⟨j0, j1, j2, rfl, h1, h2, h3⟩ := gridTris_shape ht
      rw [Lc, gridCoords_length]
      simp only [List.mem_cons, List.not_mem_nil, or_false] at hit
      omega
    · intro e he
      obtain ⟨a, b, c, ⟨i0, i1, i2, ht, ho, g0, g1, g2⟩, rfl⟩ := (hreg.tris e).1 he
      obtain ⟨p, q, r', hp, hq, hr'', htri⟩ := triPts ht ho
      exact ⟨p, q, r', a, b, c, htri, nodeIx g0 hp, nodeIx g1 hq, nodeIx g2 hr'', rfl⟩
    · intro e
      rw [hreg.edges]
      constructor
      · rintro ⟨a, b, c, hc, hs⟩
        obtain ⟨h1, h2⟩ := side_iff.1 hs
        exact ⟨h1, _, (hreg.tris _).2 ⟨a, b, c, hc, rfl⟩, h2⟩
      · rintro ⟨h1, t, ht, h2⟩
        obtain ⟨a, b, c, hc, rfl⟩ := (hreg.tris t).1 ht
        exact ⟨a, b, c, hc, side_iff.2 ⟨h1, h2⟩⟩
    · intro k
      constructor
      · intro hk
        have hm' : r.nodes[k] ∈ nodesOf s n := by rw [hno]; exact List.getElem_mem hk
        obtain ⟨t, ht, ho, hit⟩ := (hinv.node n _).1 hm'
        obtain ⟨j0, j1, j2, rfl, _⟩ := gridTris_shape ht
        have mem : ∀ j ∈ [j0, j1, j2], j ∈ r.nodes := by
          intro j hj
          rw [← hno]
          exact (hinv.node n j).2 ⟨_, ht, ho, hj⟩
        obtain ⟨a, ha⟩ := List.mem_iff_getElem?.1 (mem j0 (by simp))
        obtain ⟨b, hb⟩ := List.mem_iff_getElem?.1 (mem j1 (by simp))
        obtain ⟨c, hc⟩ := List.mem_iff_getElem?.1 (mem j2 (by simp))
        refine ⟨mkElem [a, b, c], (hreg.tris _).2 ⟨a, b, c, ⟨j0, j1, j2, ht, ho, ha, hb, hc⟩, rfl⟩, ?_⟩
        rw [(mkElem_perm _).mem_iff]
        have uniq : ∀ {x i}, r.nodes[x]? = some i → r.nodes[k] = i → k = x := by
          intro x i h1 h2
          obtain ⟨hx1, hx2⟩ := List.getElem?_eq_some_iff.1 h1
          have hnd : r.nodes.Nodup := by rw [← hno]; exact hinv.ninv.nodup n
          exact (List.Nodup.getElem_inj_iff hnd).1 (h2.trans hx2.symm)
        simp only [List.mem_cons, List.not_mem_nil, or_false] at hit ⊢
        rcases hit with h | h | h
        · exact .inl (uniq ha h)
        · exact .inr (.inl (uniq hb h))
        · exact .inr (.inr (uniq hc h))
      · rintro ⟨t, ht, hk⟩
        obtain ⟨a, b, c, ⟨i0, i1, i2, _, _, g0, g1, g2⟩, rfl⟩ := (hreg.tris t).1 ht
        rw [(mkElem_perm _).mem_iff] at hk
        simp only [List.mem_cons, List.not_mem_nil, or_false] at hk
        rcases hk with rfl | rfl | rfl
        · exact (List.getElem?_eq_some_iff.1 g0).1
        · exact (List.getElem?_eq_some_iff.1 g1).1
        · exact (List.getElem?_eq_some_iff.1 g2).1
  · rintro n p q r ⟨hh, ho⟩
    obtain ⟨i0, i1, i2, ht, hp, hq, hr⟩ := gridTris_halfCell.1 hh
    have ho' := (own_some hp hq hr).2 ho
    obtain ⟨d, hd⟩ := ho'
    obtain ⟨reg, hreg⟩ := (hinv.has n).2 ⟨_, ht, d, hd⟩
    have hno : nodesOf s n = reg.nodes := by simp [nodesOf, hreg]
    have mem : ∀ j ∈ [i0, i1, i2], j ∈ reg.nodes := by
      intro j hj
      rw [← hno]
      exact (hinv.node n j).2 ⟨_, ht, ⟨d, hd⟩, hj⟩
    obtain ⟨a, ha⟩ := List.mem_iff_getElem?.1 (mem i0 (by simp))
    obtain ⟨b, hb⟩ := List.mem_iff_getElem?.1 (mem i1 (by simp))
    obtain ⟨c, hc⟩ := List.mem_iff_getElem?.1 (mem i2 (by simp))
    rw [← Lr] at hreg
    exact ⟨reg, a, b, c, hreg, ((hinv.reg n reg (by rw [← Lr]; exact hreg)).tris _).2
      ⟨a, b, c, ⟨i0, i1, i2, ht, ⟨d, hd⟩, ha, hb, hc⟩, rfl⟩,
      ⟨reg, i0, hreg, ha, by rw [Lc]; exact hp⟩, ⟨reg, i1, hreg, hb, by rw [Lc]; exact hq⟩,
      ⟨reg, i2, hreg, hc, by rw [Lc]; exact hr⟩⟩
  · intro n r hr h0
    rw [Lr] at hr
    obtain ⟨t, ht, d, hd⟩ := (hinv.has n).1 ⟨r, hr⟩
    obtain ⟨i0, i1, i2, rfl, _⟩ := gridTris_shape ht
    have hno : nodesOf s n = r.nodes := by simp [nodesOf, hr]
    have mem : ∀ j ∈ [i0, i1, i2], j ∈ r.nodes := by
      intro j hj
      rw [← hno]
      exact (hinv.node n j).2 ⟨_, ht, ⟨d, hd⟩, hj⟩
    obtain ⟨a, ha⟩ := List.mem_iff_getElem?.1 (mem i0 (by simp))
    obtain ⟨b, hb⟩ := List.mem_iff_getElem?.1 (mem i1 (by simp))
    obtain ⟨c, hc⟩ := List.mem_iff_getElem?.1 (mem i2 (by simp))
    have := ((hinv.reg n r hr).tris _).2 ⟨a, b, c, ⟨i0, i1, i2, ht, ⟨d, hd⟩, ha, hb, hc⟩, rfl⟩
    rw [h0] at this
    simp at this
  · intro n o ho
    rw [Lcon] at ho
    have hn : n ∈ m.contacts.map Prod.fst := by
      by_contra hc
      rw [c3 n hc] at ho
      simp at ho
    obtain ⟨⟨n', c⟩, hc, rfl⟩ := List.mem_map.1 hn
    dsimp only at ho ⊢
    rw [c2 n' c hc] at ho
    split at ho
    · simp only [Option.some.injEq] at ho
      rw [foldl_appCon] at ho
      subst ho
      refine ⟨⟨c, hc, rfl, rfl⟩, ?_, ?_, rfl, rfl, rfl, rfl⟩
      · change (List.filterMap _ _).Nodup
        refine pairwise_filterMap_nodup List.nodup_range ?_
        intro i _ j _ k hi hj
        obtain ⟨_, hi⟩ := gives_some.1 hi
        obtain ⟨_, hj⟩ := gives_some.1 hj
        obtain ⟨pre, post, d, he, _, hp, _⟩ := gpick_some.1 hi
        obtain ⟨pre', post', d', he', _, hp', _⟩ := gpick_some.1 hj
        have h1 : (n', d) ∈ m.contacts := by rw [he]; simp
        have h2 : (n', d') ∈ m.contacts := by rw [he']; simp
        have hdd : d = d' := by
          have := List.inj_on_of_nodup_map hm.contacts h1 h2 rfl
          simpa using this
        subst hdd
        unfold conPick at hp hp'
        split at hp
        · rename_i hk
          rw [if_pos hk] at hp'
          have q1 := (hinv.ninv.cn _ _ _).1 hp
          have q2 := (hinv.ninv.cn _ _ _).1 hp'
          rw [q1] at q2
          simpa using q2
        · simp at hp
      · intro k hk
        change k ∈ List.filterMap _ _ at hk
        obtain ⟨i, hi, hg⟩ := List.mem_filterMap.1 hk
        obtain ⟨ha, hq⟩ := gives_some.1 hg
        obtain ⟨p, hp⟩ := coordOf (List.mem_range.1 hi)
        refine ⟨p, ?_, (shared hp).2 ha, (conTakes n' hp).1 ⟨k, hq⟩⟩
        obtain ⟨pre, post, d, he, _, hpk, _⟩ := gpick_some.1 hq
        have h1 : (n', d) ∈ m.contacts := by rw [he]; simp
        have hdd : d = c := by
          have := List.inj_on_of_nodup_map hm.contacts h1 hc rfl
          simpa using this
        subst hdd
        exact (conP d k hp).1 hpk
    · simp at ho
  · intro n p hsh htk
    obtain ⟨n1, _, _, ⟨k1, hk1⟩, _⟩ := id hsh
    obtain ⟨i, hi, hp⟩ := pointOf hk1
    obtain ⟨k, hk⟩ := (conTakes n hp).2 htk
    have ha := (shared hp).1 hsh
    obtain ⟨pre, post, d, he, h1, h2, h3⟩ := gpick_some.1 hk
    have hmem : (n, d) ∈ m.contacts := by rw [he]; simp
    have hget := c2 n d hmem
    rw [if_pos ⟨i, List.mem_range.2 hi, ha, pre, post, he, h1, h3⟩, foldl_appCon] at hget
    rw [Lcon]
    refine ⟨_, k, hget, ?_, (conP d k hp).1 h2⟩
    change k ∈ List.filterMap _ _
    exact List.mem_filterMap.2 ⟨i, List.mem_range.2 hi, gives_some.2 ⟨ha, hk⟩⟩
  · intro n
    rw [Lcon]
    constructor
    · rintro ⟨o, ho⟩
      have hn : n ∈ m.contacts.map Prod.fst := by
        by_contra hc
        rw [c3 n hc] at ho
        simp at ho
      obtain ⟨⟨n', c⟩, hc, rfl⟩ := List.mem_map.1 hn
      dsimp only at ho ⊢
      rw [c2 n' c hc] at ho
      split at ho
      · rename_i hex
        obtain ⟨i, hi, ha, pre, post, he, h1, h3⟩ := hex
        obtain ⟨p, hp⟩ := coordOf (List.mem_range.1 hi)
        refine ⟨p, (shared hp).2 ha, pre, post, c, he, ?_, (conNone pre hp).1 h3⟩
        unfold insAt at h1; rw [at_eq hp] at h1; exact h1
      · simp at ho
    · rintro ⟨p, hsh, pre, post, c, he, h1, h3⟩
      obtain ⟨n1, _, _, ⟨k1, hk1⟩, _⟩ := id hsh
      obtain ⟨i, hi, hp⟩ := pointOf hk1
      have hget := c2 n c (by rw [he]; simp)
      rw [if_pos ⟨i, List.mem_range.2 hi, (shared hp).1 hsh, pre, post, he, by unfold insAt; rw [at_eq hp]; exact h1,
        (conNone pre hp).2 h3⟩] at hget
      exact ⟨_, hget⟩
  · intro n o ho
    rw [Lif] at ho
    have hn : n ∈ m.ifaces.map Prod.fst := by
      by_contra hc
      rw [f3 n hc] at ho
      simp at ho
    obtain ⟨⟨n', c⟩, hc, rfl⟩ := List.mem_map.1 hn
    dsimp only at ho ⊢
    rw [f2 n' c hc] at ho
    split at ho
    · simp only [Option.some.injEq] at ho
      rw [foldl_appIfc] at ho
      subst ho
      refine ⟨⟨c, hc, rfl, rfl⟩, ?_, ?_, rfl, rfl, rfl, rfl⟩
      · change (List.filterMap _ _).Nodup
        refine pairwise_filterMap_nodup List.nodup_range ?_
        intro i hi0 j hj0 k hi hj
        obtain ⟨_, hi⟩ := gives_some.1 hi
        obtain ⟨_, hj⟩ := gives_some.1 hj
        obtain ⟨pre, post, d, he, _, hp, _⟩ := gpick_some.1 hi
        obtain ⟨pre', post', d', he', _, hp', _⟩ := gpick_some.1 hj
        have h1 : (n', d) ∈ m.ifaces := by rw [he]; simp
        have h2 : (n', d') ∈ m.ifaces := by rw [he']; simp
        have hdd : d = d' := by
          have := List.inj_on_of_nodup_map hm.ifaces h1 h2 rfl
          simpa using this
        subst hdd
        obtain ⟨p, hpp⟩ := coordOf (List.mem_range.1 hi0)
        obtain ⟨p', hpp'⟩ := coordOf (List.mem_range.1 hj0)
        have q1 := (hinv.ninv.cn _ _ _).1 ((cnNode hpp).1 ((ifcP d k hpp).1 hp).1)
        have q2 := (hinv.ninv.cn _ _ _).1 ((cnNode hpp').1 ((ifcP d k hpp').1 hp').1)
        rw [q1] at q2
        simpa using q2
      · intro k hk
        change k ∈ List.filterMap _ _ at hk
        obtain ⟨i, hi, hg⟩ := List.mem_filterMap.1 hk
        obtain ⟨ha, hq⟩ := gives_some.1 hg
        obtain ⟨p, hp⟩ := coordOf (List.mem_range.1 hi)
        obtain ⟨pre, post, d, he, _, hpk, _⟩ := gpick_some.1 hq
        have h1 : (n', d) ∈ m.ifaces := by rw [he]; simp
        have hdd : d = c := by
          have := List.inj_on_of_nodup_map hm.ifaces h1 hc rfl
          simpa using this
        subst hdd
        have := (ifcP d k hp).1 hpk
        exact ⟨p, this.1, this.2, (shared hp).2 ha.1, (noCon hp).1 ha.2, (ifcTakes n' hp).1 ⟨k, hq⟩⟩
    · simp at ho
  · intro n p hsh hnc htk
    obtain ⟨n1, _, _, ⟨k1, hk1⟩, _⟩ := id hsh
    obtain ⟨i, hi, hp⟩ := pointOf hk1
    obtain ⟨k, hk⟩ := (ifcTakes n hp).2 htk
    have ha : ifcAct (gridCoords xs ys) m s i := ⟨(shared hp).1 hsh, (noCon hp).2 hnc⟩
    obtain ⟨pre, post, d, he, h1, h2, h3⟩ := gpick_some.1 hk
    have hmem : (n, d) ∈ m.ifaces := by rw [he]; simp
    have hget := f2 n d hmem
    rw [if_pos ⟨i, List.mem_range.2 hi, ha, pre, post, he, h1, h3⟩, foldl_appIfc] at hget
    rw [Lif]
    have := (ifcP d k hp).1 h2
    refine ⟨_, k.1, k.2, hget, ?_, this.1, this.2⟩
    change (k.1, k.2) ∈ List.filterMap _ _
    exact List.mem_filterMap.2 ⟨i, List.mem_range.2 hi, gives_some.2 ⟨ha, hk⟩⟩
  · intro n
    rw [Lif]
    constructor
    · rintro ⟨o, ho⟩
      have hn : n ∈ m.ifaces.map Prod.fst := by
        by_contra hc
        rw [f3 n hc] at ho
        simp at ho
      obtain ⟨⟨n', c⟩, hc, rfl⟩ := List.mem_map.1 hn
      dsimp only at ho ⊢
      rw [f2 n' c hc] at ho
      split at ho
      · rename_i hex
        obtain ⟨i, hi, ha, pre, post, he, h1, h3⟩ := hex
        obtain ⟨p, hp⟩ := coordOf (List.mem_range.1 hi)
        refine ⟨p, (shared hp).2 ha.1, (noCon hp).1 ha.2, pre, post, c, he, ?_, (ifcNone pre hp).1 h3⟩
        unfold insAt at h1; rw [at_eq hp] at h1; exact h1
      · simp at ho
    · rintro ⟨p, hsh, hnc, pre, post, c, he, h1, h3⟩
      obtain ⟨n1, _, _, ⟨k1, hk1⟩, _⟩ := id hsh
      obtain ⟨i, hi, hp⟩ := pointOf hk1
      have hget := f2 n c (by rw [he]; simp)
      rw [if_pos ⟨i, List.mem_range.2 hi, ⟨(shared hp).1 hsh, (noCon hp).2 hnc⟩, pre, post, he, by unfold insAt; rw [at_eq hp]; exact h1,
        (ifcNone pre hp).2 h3⟩] at hget
      exact ⟨_, hget⟩
  · rw [← hL]; exact e4

end Verif.Mesh2d
