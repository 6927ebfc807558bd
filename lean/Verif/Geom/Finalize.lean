import Verif.Geom.Topo

/-!
# Connectivity: when a mesh is accepted, and searching elements by nodes
-/

namespace Verif.Geom

/-! ### Model -/

/-- `FindEdge`, `FindTriangle`, `FindTetrahedron` (`Region.cc:1615-1705`): the first element that contains all
given nodes. -/
def findElem (n : Nat) (els : List Elem) (s : Elem) : Option Nat := (common (nodeTo n els) s).head?

/-- `GetEdgeIndexOnTriangle` (`Region.cc:1463-1483`): the slot of an edge in a triangle; `none` is
`size_t(-1)`. -/
def edgeIndexOnTriangle (T : Tables) (t i : Nat) : Option Nat := (T.triEdge.getD t []).findIdx? (· == some i)

/-- `GetEdgeIndexOnTetrahedron` (`Region.cc:1485-1506`) -/
def edgeIndexOnTetrahedron (T : Tables) (t i : Nat) : Option Nat := (T.tetEdge.getD t []).findIdx? (·.edge == i)

/-! ### Specification -/

/-- How many of the elements contain all nodes of `s`. -/
def containing (els : List Elem) (s : Elem) : Nat := (els.filter fun e => s.all fun v => e.contains v).length

/-! ### Theorems -/

theorem filter_zipIdx_spec (els : List Elem) (P : Elem → Bool) (k : Nat) :
    (((els.zipIdx k).filter fun p => P p.1).map (·.2)).Pairwise (· < ·) ∧
    ∀ i, i ∈ ((els.zipIdx k).filter fun p => P p.1).map (·.2) ↔ k ≤ i ∧ ∃ e, els[i - k]? = some e ∧ P e = true := by
  induction els generalizing k with
  | nil => simp
  | cons e els ih =>
    obtain ⟨h1, h2⟩ := ih (k + 1)
    have h3 : ∀ i ∈ ((els.zipIdx (k + 1)).filter fun p => P p.1).map (·.2), k < i := by
      intro i hi; have := ((h2 i).1 hi).1; omega
    have h4 : ∀ i, (k + 1 ≤ i ∧ ∃ e', els[i - (k + 1)]? = some e' ∧ P e' = true) ↔
        (k < i ∧ ∃ e', (e :: els)[i - k]? = some e' ∧ P e' = true) := by
      intro i
      constructor
      · rintro ⟨hk, e', he', hp⟩
        refine ⟨hk, e', ?_, hp⟩
        have : i - k = (i - (k + 1)) + 1 := by omega
        rw [this, List.getElem?_cons_succ, he']
      · rintro ⟨hk, e', he', hp⟩
        refine ⟨hk, e', ?_, hp⟩
        have : i - k = (i - (k + 1)) + 1 := by omega
        rwa [this, List.getElem?_cons_succ] at he'
    rw [List.zipIdx_cons]
    by_cases hp : P e = true
    · rw [List.filter_cons_of_pos (by simpa using hp), List.map_cons]
      refine ⟨List.pairwise_cons.2 ⟨h3, h1⟩, fun i => ?_⟩
      rw [List.mem_cons, h2, h4]
      constructor
      · rintro (rfl | ⟨hk, h⟩)
        · exact ⟨le_refl _, e, by simp, hp⟩
        · exact ⟨by omega, h⟩
      · rintro ⟨hk, h⟩
        by_cases hik : i = k
        · exact .inl hik
        · exact .inr ⟨by omega, h⟩
    · rw [List.filter_cons_of_neg (by simpa using hp)]
      refine ⟨h1, fun i => ?_⟩
      rw [h2, h4]
      constructor
      · rintro ⟨hk, h⟩; exact ⟨by omega, h⟩
      · rintro ⟨hk, e', he', hp'⟩
        by_cases hik : i = k
        · subst hik
          simp at he'
          subst he'
          exact absurd hp' hp
        · exact ⟨by omega, e', he', hp'⟩

/-- An increasing list of the numbers of the elements with a property has as many entries as there are such
elements. -/
theorem length_of_indices {els : List Elem} {l : List Nat} {P : Elem → Bool} (h1 : l.Pairwise (· < ·))
    (h2 : ∀ i, i ∈ l ↔ ∃ e, els[i]? = some e ∧ P e = true) : l.length = (els.filter P).length := by
  obtain ⟨h3, h4⟩ := filter_zipIdx_spec els P 0
  have hp : l.Perm (((els.zipIdx 0).filter fun p => P p.1).map (·.2)) := by
    rw [List.perm_ext_iff_of_nodup (h1.imp fun h => ne_of_lt h) (h3.imp fun h => ne_of_lt h)]
    intro i
    rw [h2, h4]
    simp
  rw [hp.length_eq, List.length_map]
  have : els.filter P = ((els.zipIdx 0).filter fun p => P p.1).map (·.1) := by
    conv_lhs => rw [← List.zipIdx_map_fst 0 els]
    rw [List.filter_map]
    rfl
  rw [this, List.length_map]

theorem partOf_length {n k j : Nat} {els subs : List Elem} (hels : ∀ e ∈ els, IsElem n k e)
    (hsubs : ∀ e ∈ subs, IsElem n (j + 1) e) {i : Nat} {s : Elem} (hi : subs[i]? = some s) :
    ((partOf n els subs).getD i []).length = containing els s := by
  obtain ⟨h1, h2⟩ := partOf_spec hels hsubs hi
  refine length_of_indices h1 fun t => (h2 t).trans ?_
  simp [List.all_eq_true]

theorem partOf_all {n k j : Nat} {els subs : List Elem} (hels : ∀ e ∈ els, IsElem n k e)
    (hsubs : ∀ e ∈ subs, IsElem n (j + 1) e) :
    (partOf n els subs).all (fun l => decide (l.length = 1) || decide (l.length = 2)) = true ↔
      ∀ s ∈ subs, containing els s = 1 ∨ containing els s = 2 := by
  rw [List.all_eq_true]
  have hrow : ∀ i s, subs[i]? = some s → (partOf n els subs)[i]? = some ((partOf n els subs).getD i []) := by
    intro i s hi
    have : i < (partOf n els subs).length := by
      simp only [partOf, List.length_map]; exact (List.getElem?_eq_some_iff.1 hi).1
    rw [List.getD_eq_getElem?_getD, List.getElem?_eq_getElem this]; rfl
  constructor
  · intro h s hs
    obtain ⟨i, hi⟩ := List.mem_iff_getElem?.1 hs
    have := h _ (List.mem_of_getElem? (hrow i s hi))
    rw [partOf_length hels hsubs hi] at this
    simpa using this
  · intro h l hl
    obtain ⟨i, hi⟩ := List.mem_iff_getElem?.1 hl
    have hlt : i < subs.length := by
      have := (List.getElem?_eq_some_iff.1 hi).1
      simpa [partOf] using this
    have hs := List.getElem?_eq_getElem hlt
    have := hrow i _ hs
    rw [hi] at this
    have e : l = (partOf n els subs).getD i [] := Option.some.inj this
    rw [e, partOf_length hels hsubs hs]
    simpa using h _ (List.mem_of_getElem? hs)

theorem tetEdge_len (m : Mesh) : (tables m).tetEdge.length = m.tets.length := by
  have : ∀ (L : List (List Nat × Nat)) (tab : List (List EdgeData)) (x : Nat → Nat → EdgeData),
      (L.foldl (fun tab p => p.1.foldl (fun tab t => tab.modify t (· ++ [x p.2 t])) tab) tab).length = tab.length := by
    intro L
    induction L with
    | nil => intros; rfl
    | cons p L ih =>
      intro tab x
      rw [List.foldl_cons, ih]
      generalize p.1 = ts
      induction ts generalizing tab with
      | nil => rfl
      | cons t ts ih' => rw [List.foldl_cons, ih']; simp
  exact (this _ _ _).trans (by simp)

/-- **When a mesh is accepted**: a region whose triangles and tetrahedra have all their sides is accepted exactly
when, in two dimensions, every edge is a side of one or two triangles, and, when there are tetrahedra, every
triangle is a face of one or two tetrahedra. -/
theorem finalize_iff {m : Mesh} (h : m.Good) (hc : m.Complete) (T : Tables) :
    finalizeMesh m = some T ↔ T = tables m ∧
      (m.tris ≠ [] → m.dim = 2 → ∀ s ∈ m.edges, containing m.tris s = 1 ∨ containing m.tris s = 2) ∧
      (m.tets ≠ [] → ∀ s ∈ m.tris, containing m.tets s = 1 ∨ containing m.tets s = 2) := by
  have h1 := partOf_all (n := m.n) h.tris h.edges
  have h2 := partOf_all (n := m.n) h.tets h.tris
  have h3 : (tables m).tetEdge.all (fun l => l.all fun d => decide (d.idx.length = 2)) = true := by
    rw [List.all_eq_true]
    intro l hl
    rw [List.all_eq_true]
    intro d hd
    obtain ⟨t, ht⟩ := List.mem_iff_getElem?.1 hl
    have hlt : t < m.tets.length := by
      have := (List.getElem?_eq_some_iff.1 ht).1
      rwa [tetEdge_len] at this
    have e : (tables m).tetEdge.getD t [] = l := by rw [List.getD_eq_getElem?_getD, ht]; rfl
    obtain ⟨p, q, -, -, -, hi, -⟩ := tet_edge_data h hc (List.getElem?_eq_getElem hlt) (by rw [e]; exact hd)
    simp [hi]
  have e1 : (m.tris ≠ [] → m.dim = 2 → ∀ s ∈ m.edges, containing m.tris s = 1 ∨ containing m.tris s = 2) ↔
      (m.tris.isEmpty || decide (m.dim ≠ 2) ||
        (tables m).edgeTri.all (fun l => decide (l.length = 1) || decide (l.length = 2))) = true := by
    rw [Bool.or_eq_true, Bool.or_eq_true, decide_eq_true_eq, List.isEmpty_iff]
    show _ ↔ _ ∨ (partOf m.n m.tris m.edges).all _ = true
    rw [h1]
    generalize (∀ s ∈ m.edges, containing m.tris s = 1 ∨ containing m.tris s = 2) = Q
    by_cases a : m.tris = [] <;> by_cases b : m.dim = 2 <;> simp [a, b]
  have e2 : (m.tets ≠ [] → ∀ s ∈ m.tris, containing m.tets s = 1 ∨ containing m.tets s = 2) ↔
      (m.tets.isEmpty || ((tables m).triTet.all (fun l => decide (l.length = 1) || decide (l.length = 2)) &&
        (tables m).tetEdge.all (fun l => l.all fun d => decide (d.idx.length = 2)))) = true := by
    rw [Bool.or_eq_true, Bool.and_eq_true, List.isEmpty_iff, h3]
    show _ ↔ _ ∨ ((partOf m.n m.tets m.tris).all _ = true ∧ _)
    rw [h2]
    generalize (∀ s ∈ m.tris, containing m.tets s = 1 ∨ containing m.tets s = 2) = Q
    by_cases a : m.tets = [] <;> simp [a]
  rw [e1, e2, ← Bool.and_eq_true, finalizeMesh]
  split
  · rename_i hb
    rw [hb]
    exact ⟨fun h => ⟨(Option.some.inj h).symm, rfl⟩, fun h => by rw [h.1]⟩
  · rename_i hb
    constructor
    · intro h; cases h
    · rintro ⟨-, h⟩; exact absurd h hb

/-- The pairs of four nodes. -/
def pairs (a b c d : Nat) : List Elem := [[a, b], [a, c], [a, d], [b, c], [b, d], [c, d]]

/-- **Six edges**: each pair of nodes of a tetrahedron of a complete region is an edge of its list, once. -/
theorem tet_six_edges {m : Mesh} (h : m.Good) (hc : m.Complete) {t a b c d : Nat} (ht : m.tets[t]? = some [a, b, c, d]) :
    (((tables m).tetEdge.getD t []).map fun x => m.edges.getD x.edge []).Perm (pairs a b c d) := by
  obtain ⟨h1, h2⟩ := tet_edges h ht
  have hE := h.tets _ (List.mem_of_getElem? ht)
  have hord := hE.2.1
  simp only [List.pairwise_cons, List.mem_cons, List.not_mem_nil, or_false, forall_eq_or_imp, forall_eq,
    false_imp_iff, implies_true, List.Pairwise.nil, and_true] at hord
  have hmm : (((tables m).tetEdge.getD t []).map fun x => m.edges.getD x.edge []) =
      (((tables m).tetEdge.getD t []).map (·.edge)).map fun i => m.edges.getD i [] := by
    rw [List.map_map]; rfl
  have hget : ∀ (i : Nat) s, m.edges[i]? = some s → m.edges.getD i [] = s := by
    intro i s hs; rw [List.getD_eq_getElem?_getD, hs]; rfl
  rw [List.perm_ext_iff_of_nodup]
  · intro s
    rw [hmm, List.mem_map]
    have hmem : s ∈ pairs a b c d ↔ s ∈ m.edges ∧ ∀ v ∈ s, v ∈ [a, b, c, d] := by
      constructor
      · intro hs
        have f := hc.tets _ (List.mem_of_getElem? ht)
        have f0 := hc.tris _ (f 0 (by omega))
        have f1 := hc.tris _ (f 1 (by omega))
        have f2 := hc.tris _ (f 2 (by omega))
        simp only [pairs, List.mem_cons, List.not_mem_nil, or_false] at hs
        rcases hs with rfl | rfl | rfl | rfl | rfl | rfl
        · exact ⟨f2 2 (by omega), by simp⟩
        · exact ⟨f1 2 (by omega), by simp⟩
        · exact ⟨f1 1 (by omega), by simp⟩
        · exact ⟨f0 2 (by omega), by simp⟩
        · exact ⟨f0 1 (by omega), by simp⟩
        · exact ⟨f0 0 (by omega), by simp⟩
      · rintro ⟨hs, hv⟩
        have hS := h.edges s hs
        obtain ⟨x, y, rfl⟩ : ∃ x y, s = [x, y] := by
          match s, hS.1 with
          | [x, y], _ => exact ⟨x, y, rfl⟩
        have hxy := hS.2.1
        simp only [List.pairwise_cons, List.mem_cons, List.not_mem_nil, or_false, forall_eq_or_imp, forall_eq,
          false_imp_iff, implies_true, List.Pairwise.nil, and_true] at hxy hv
        simp only [pairs, List.mem_cons, List.cons.injEq, and_true, List.not_mem_nil, or_false]
        omega
    rw [hmem]
    constructor
    · rintro ⟨i, hi, rfl⟩
      obtain ⟨s, hs, hv⟩ := (h2 i).1 hi
      rw [hget i s hs]
      exact ⟨List.mem_of_getElem? hs, hv⟩
    · rintro ⟨hs, hv⟩
      obtain ⟨i, hi⟩ := List.mem_iff_getElem?.1 hs
      exact ⟨i, (h2 i).2 ⟨s, hi, hv⟩, hget i s hi⟩
  · rw [hmm]
    refine List.Nodup.map_on ?_ (h1.imp fun h => ne_of_lt h)
    intro i hi i' hi' he
    obtain ⟨s, hs, -⟩ := (h2 i).1 hi
    obtain ⟨s', hs', -⟩ := (h2 i').1 hi'
    rw [hget i s hs, hget i' s' hs'] at he
    subst he
    obtain ⟨hl, e1⟩ := List.getElem?_eq_some_iff.1 hs
    obtain ⟨hl', e2⟩ := List.getElem?_eq_some_iff.1 hs'
    exact (List.Nodup.getElem_inj_iff h.nodupEdges).1 (e1.trans e2.symm)
  · simp [pairs]
    omega

/-- **Search by nodes**: for as many different nodes as an element has, in any order, the search finds the
element with exactly these nodes, and nothing when there is none. -/
theorem findElem_iff {n k : Nat} {els : List Elem} (hels : ∀ e ∈ els, IsElem n k e) (hnd : els.Nodup) {s : Elem}
    (hk : k ≠ 0) (hl : s.length = k) (hs : s.Nodup) (hn : ∀ v ∈ s, v < n) (i : Nat) :
    findElem n els s = some i ↔ ∃ e, els[i]? = some e ∧ e.Perm s := by
  have hne : s ≠ [] := by rintro rfl; exact hk hl.symm
  obtain ⟨h1, h2⟩ := common_spec (Mesh.Good.nodup hels) hne hn
  have hperm : ∀ {e}, e ∈ els → (∀ v ∈ s, v ∈ e) → e.Perm s := by
    intro e he hv
    exact ((List.subperm_of_subset hs hv).perm_of_length_le (by rw [(hels e he).1, hl])).symm
  have huniq : ∀ {j j' : Nat}, j ∈ common (nodeTo n els) s → j' ∈ common (nodeTo n els) s → j = j' := by
    intro j j' hj hj'
    obtain ⟨e, he, hv⟩ := (h2 j).1 hj
    obtain ⟨e', he', hv'⟩ := (h2 j').1 hj'
    have hm := List.mem_of_getElem? he
    have hm' := List.mem_of_getElem? he'
    have hp := (hperm hm hv).trans (hperm hm' hv').symm
    have : e = e' := hp.eq_of_pairwise (fun a b _ _ h1 h2 => absurd h2 (by omega)) (hels e hm).2.1 (hels e' hm').2.1
    subst this
    obtain ⟨hl, e1⟩ := List.getElem?_eq_some_iff.1 he
    obtain ⟨hl', e2⟩ := List.getElem?_eq_some_iff.1 he'
    exact (List.Nodup.getElem_inj_iff hnd).1 (e1.trans e2.symm)
  unfold findElem
  rw [List.head?_eq_some_iff]
  constructor
  · rintro ⟨l, hl⟩
    obtain ⟨e, he, hv⟩ := (h2 i).1 (by rw [hl]; simp)
    exact ⟨e, he, hperm (List.mem_of_getElem? he) hv⟩
  · rintro ⟨e, he, hp⟩
    have hi := (h2 i).2 ⟨e, he, fun v hv => hp.mem_iff.2 hv⟩
    cases hc : common (nodeTo n els) s with
    | nil => rw [hc] at hi; cases hi
    | cons j l =>
      have : i = j := huniq hi (by rw [hc]; simp)
      exact ⟨l, by rw [this]⟩

/-- **The slot of an edge in a triangle**: the position found is that of the node opposite to the edge. -/
theorem edgeIndexOnTriangle_iff {m : Mesh} (h : m.Good) {t i : Nat} {e s : Elem} (ht : m.tris[t]? = some e)
    (hi : m.edges[i]? = some s) (j : Nat) :
    edgeIndexOnTriangle (tables m) t i = some j ↔ j < 3 ∧ s = e.eraseIdx j := by
  have hlt : t < m.tris.length := (List.getElem?_eq_some_iff.1 ht).1
  obtain ⟨hs1, hs2⟩ : Shape m.tris.length 3 (tables m).triEdge := fillSlots_shape m.tris (n := m.n) h.tris
  have hlen : ((tables m).triEdge.getD t []).length = 3 := by
    have hlt' : t < (tables m).triEdge.length := by rw [hs1]; exact hlt
    rw [List.getD_eq_getElem?_getD, List.getElem?_eq_getElem hlt']
    exact hs2 _ (List.getElem_mem _)
  have hE := h.tris e (List.mem_of_getElem? ht)
  have hget : ∀ j (hj : j < ((tables m).triEdge.getD t []).length),
      ((tables m).triEdge.getD t [])[j] = some i ↔ s = e.eraseIdx j := by
    intro j hj
    have h3 := tri_edges h ht (show j < 3 by omega) i
    rw [hi, Option.some.injEq] at h3
    rw [← h3, slot]
    have : ((tables m).triEdge.getD t []).getD j none = ((tables m).triEdge.getD t [])[j] := by
      generalize (tables m).triEdge.getD t [] = l at hj ⊢
      rw [List.getD_eq_getElem?_getD, List.getElem?_eq_getElem hj]; rfl
    rw [this]
  unfold edgeIndexOnTriangle
  rw [List.findIdx?_eq_some_iff_getElem]
  constructor
  · rintro ⟨hj, h1, -⟩
    exact ⟨by omega, (hget j hj).1 (by simpa using h1)⟩
  · rintro ⟨hj, rfl⟩
    refine ⟨by omega, by simpa using (hget j (by omega)).2 rfl, ?_⟩
    intro j' hj'
    have := (hget j' (by omega)).not
    simp only [beq_iff_eq, Bool.not_eq_true, beq_eq_false_iff_ne, ne_eq]
    intro hc
    have := (hget j' (by omega)).1 hc
    obtain ⟨a, b, c, rfl⟩ : ∃ a b c, e = [a, b, c] := by
      match e, hE.1 with
      | [a, b, c], _ => exact ⟨a, b, c, rfl⟩
    have hord := hE.2.1
    simp only [List.pairwise_cons, List.mem_cons, List.not_mem_nil, or_false, forall_eq_or_imp, forall_eq,
      false_imp_iff, implies_true, List.Pairwise.nil, and_true] at hord
    have : j' = 0 ∧ j = 1 ∨ j' = 0 ∧ j = 2 ∨ j' = 1 ∧ j = 2 := by omega
    rcases this with ⟨rfl, rfl⟩ | ⟨rfl, rfl⟩ | ⟨rfl, rfl⟩ <;> simp at this <;> omega

/-! ### Examples -/

instance (n k : Nat) (e : Elem) : Decidable (IsElem n k e) := by unfold IsElem; infer_instance

/-- Two tetrahedra with a common face, with all edges and triangles. -/
def exMesh : Mesh where
  n := 5
  dim := 3
  edges := [[0, 1], [0, 2], [0, 3], [1, 2], [1, 3], [2, 3], [1, 4], [2, 4], [3, 4]]
  tris := [[1, 2, 3], [0, 1, 2], [0, 1, 3], [0, 2, 3], [1, 2, 4], [1, 3, 4], [2, 3, 4]]
  tets := [[0, 1, 2, 3], [1, 2, 3, 4]]

theorem exMesh_good : exMesh.Good where
  edges := by decide +kernel
  tris := by decide +kernel
  tets := by decide +kernel
  nodupEdges := by decide +kernel
  nodupTris := by decide +kernel

theorem exMesh_complete : exMesh.Complete where
  tris := by decide +kernel
  tets := by decide +kernel

example : ∃ T, finalizeMesh exMesh = some T :=
  ⟨tables exMesh, (finalize_iff exMesh_good exMesh_complete _).2 ⟨rfl, fun _ h => absurd h (by decide),
    fun _ => (by decide +kernel)⟩⟩

/-- A triangle with a missing edge: the region is accepted, and a slot of the triangle is empty. -/
def exHole : Mesh where
  n := 3
  dim := 2
  edges := [[0, 1], [1, 2]]
  tris := [[0, 1, 2]]

theorem exHole_accepted : exHole.Good ∧ (finalizeMesh exHole).isSome ∧ slot (tables exHole).triEdge 0 1 = none := by
  have hg : exHole.Good := ⟨by decide +kernel, by decide +kernel, by decide +kernel, by decide +kernel, by decide +kernel⟩
  refine ⟨hg, ?_, ?_⟩
  · have h1 := (partOf_all (n := 3) hg.tris hg.edges).2 (by decide +kernel)
    have h1' : (tables exHole).edgeTri.all (fun l => decide (l.length = 1) || decide (l.length = 2)) = true := h1
    have h2 : exHole.tets.isEmpty = true := rfl
    unfold finalizeMesh
    simp only [h1', h2, Bool.or_true, Bool.true_or, Bool.and_self, if_true, Option.isSome_some]
  · exact (tri_edge_missing hg (t := 0) (e := [0, 1, 2]) rfl (by omega)).2 (by decide)

end Verif.Geom
