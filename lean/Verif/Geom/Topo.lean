import Verif.Geom.Slots

/-!
# Connectivity: the tables of a region
-/

namespace Verif.Geom

/-- A region as the mesh loaders make it (`MeshLoaderStructs.hh:230-400`: the nodes of each element are sorted;
`Region.cc:300-360`: elements are numbered in the order they were added): every edge, triangle and tetrahedron
is given by increasing nodes of the region, and no element occurs twice. -/
structure Mesh.Good (m : Mesh) : Prop where
  edges : ∀ e ∈ m.edges, IsElem m.n 2 e
  tris : ∀ e ∈ m.tris, IsElem m.n 3 e
  tets : ∀ e ∈ m.tets, IsElem m.n 4 e
  nodupEdges : m.edges.Nodup
  nodupTris : m.tris.Nodup

/-- Nothing is missing: the sides of every triangle are edges of the region, the faces of every tetrahedron
triangles of the region. -/
structure Mesh.Complete (m : Mesh) : Prop where
  tris : ∀ e ∈ m.tris, ∀ j < 3, e.eraseIdx j ∈ m.edges
  tets : ∀ e ∈ m.tets, ∀ j < 4, e.eraseIdx j ∈ m.tris

theorem Mesh.Good.nodup {n k : Nat} {els : List Elem} (h : ∀ e ∈ els, IsElem n k e) : ∀ e ∈ els, e.Nodup :=
  fun e he => (h e he).2.1.imp fun h => ne_of_lt h

/-- The row of the table of `partOf`. -/
theorem partOf_spec {n k j : Nat} {els subs : List Elem} (hels : ∀ e ∈ els, IsElem n k e)
    (hsubs : ∀ e ∈ subs, IsElem n (j + 1) e) {i : Nat} {s : Elem} (hi : subs[i]? = some s) :
    ((partOf n els subs).getD i []).Pairwise (· < ·) ∧
    ∀ t, t ∈ (partOf n els subs).getD i [] ↔ ∃ e, els[t]? = some e ∧ ∀ v ∈ s, v ∈ e := by
  have hS := hsubs s (List.mem_of_getElem? hi)
  have : (partOf n els subs).getD i [] = common (nodeTo n els) s := by
    simp [partOf, List.getD_eq_getElem?_getD, hi]
  rw [this]
  refine common_spec (Mesh.Good.nodup hels) ?_ hS.2.2
  rintro rfl
  simpa using hS.1

theorem node_edges {m : Mesh} (h : m.Good) {v : Nat} (hv : v < m.n) :
    ((tables m).nodeEdge.getD v []).Pairwise (· < ·) ∧
    ∀ i, i ∈ (tables m).nodeEdge.getD v [] ↔ ∃ e, m.edges[i]? = some e ∧ v ∈ e :=
  nodeTo_spec (Mesh.Good.nodup h.edges) hv

theorem node_tris {m : Mesh} (h : m.Good) {v : Nat} (hv : v < m.n) :
    ((tables m).nodeTri.getD v []).Pairwise (· < ·) ∧
    ∀ i, i ∈ (tables m).nodeTri.getD v [] ↔ ∃ e, m.tris[i]? = some e ∧ v ∈ e :=
  nodeTo_spec (Mesh.Good.nodup h.tris) hv

theorem node_tets {m : Mesh} (h : m.Good) {v : Nat} (hv : v < m.n) :
    ((tables m).nodeTet.getD v []).Pairwise (· < ·) ∧
    ∀ i, i ∈ (tables m).nodeTet.getD v [] ↔ ∃ e, m.tets[i]? = some e ∧ v ∈ e :=
  nodeTo_spec (Mesh.Good.nodup h.tets) hv

/-- **The triangles of an edge** are those that have both of its nodes. -/
theorem edge_tris {m : Mesh} (h : m.Good) {i : Nat} {s : Elem} (hi : m.edges[i]? = some s) :
    ((tables m).edgeTri.getD i []).Pairwise (· < ·) ∧
    ∀ t, t ∈ (tables m).edgeTri.getD i [] ↔ ∃ e, m.tris[t]? = some e ∧ ∀ v ∈ s, v ∈ e :=
  partOf_spec h.tris h.edges hi

/-- **The tetrahedra of an edge.** -/
theorem edge_tets {m : Mesh} (h : m.Good) {i : Nat} {s : Elem} (hi : m.edges[i]? = some s) :
    ((tables m).edgeTet.getD i []).Pairwise (· < ·) ∧
    ∀ t, t ∈ (tables m).edgeTet.getD i [] ↔ ∃ e, m.tets[t]? = some e ∧ ∀ v ∈ s, v ∈ e :=
  partOf_spec h.tets h.edges hi

/-- **The tetrahedra of a triangle.** -/
theorem tri_tets {m : Mesh} (h : m.Good) {i : Nat} {s : Elem} (hi : m.tris[i]? = some s) :
    ((tables m).triTet.getD i []).Pairwise (· < ·) ∧
    ∀ t, t ∈ (tables m).triTet.getD i [] ↔ ∃ e, m.tets[t]? = some e ∧ ∀ v ∈ s, v ∈ e :=
  partOf_spec h.tets h.tris hi

/-- **The edges of a triangle**: in slot `j` is the edge that joins the two nodes other than node `j`. -/
theorem tri_edges {m : Mesh} (h : m.Good) {t : Nat} {e : Elem} (ht : m.tris[t]? = some e) {j : Nat} (hj : j < 3)
    (i : Nat) : slot (tables m).triEdge t j = some i ↔ m.edges[i]? = some (e.eraseIdx j) :=
  fillSlots_spec m.tris (by decide) h.tris h.edges h.nodupEdges ht hj i

/-- **The triangles of a tetrahedron**: in slot `j` is the triangle of the three nodes other than node `j`. -/
theorem tet_tris {m : Mesh} (h : m.Good) {t : Nat} {e : Elem} (ht : m.tets[t]? = some e) {j : Nat} (hj : j < 4)
    (i : Nat) : slot (tables m).tetTri t j = some i ↔ m.tris[i]? = some (e.eraseIdx j) :=
  fillSlots_spec m.tets (by decide) h.tets h.tris h.nodupTris ht hj i

/-- A slot of a triangle is empty exactly when the region lacks that edge. -/
theorem tri_edge_missing {m : Mesh} (h : m.Good) {t : Nat} {e : Elem} (ht : m.tris[t]? = some e) {j : Nat} (hj : j < 3) :
    slot (tables m).triEdge t j = none ↔ e.eraseIdx j ∉ m.edges :=
  fillSlots_none m.tris (by decide) h.tris h.edges h.nodupEdges ht hj

theorem tet_tri_missing {m : Mesh} (h : m.Good) {t : Nat} {e : Elem} (ht : m.tets[t]? = some e) {j : Nat} (hj : j < 4) :
    slot (tables m).tetTri t j = none ↔ e.eraseIdx j ∉ m.tris :=
  fillSlots_none m.tets (by decide) h.tets h.tris h.nodupTris ht hj

/-! ### The edges of a tetrahedron -/

theorem inner_push {α : Type} (x : Nat → α) (ts : List Nat) : ∀ (tab : List (List α)) (t : Nat), t < tab.length →
    (ts.foldl (fun tab t => tab.modify t (· ++ [x t])) tab).getD t [] =
      tab.getD t [] ++ List.replicate (ts.count t) (x t) ∧
    (ts.foldl (fun tab t => tab.modify t (· ++ [x t])) tab).length = tab.length := by
  induction ts with
  | nil => intros; simp
  | cons t0 ts ih =>
    intro tab t ht
    obtain ⟨h1, h2⟩ := ih (tab.modify t0 (· ++ [x t0])) t (by simpa using ht)
    rw [List.foldl_cons]
    refine ⟨?_, h2.trans (by simp)⟩
    rw [h1]
    by_cases h : t0 = t
    · subst h
      simp only [List.getD_eq_getElem?_getD, List.getElem?_modify_eq, List.getElem?_eq_getElem ht]
      simp [List.replicate_succ]
    · simp only [List.getD_eq_getElem?_getD, List.getElem?_modify_ne _ _ h]
      rw [List.count_cons_of_ne h]

theorem outer_push {α : Type} (x : Nat → Nat → α) (L : List (List Nat × Nat)) :
    ∀ (tab : List (List α)) (t : Nat), t < tab.length →
    (L.foldl (fun tab p => p.1.foldl (fun tab t => tab.modify t (· ++ [x p.2 t])) tab) tab).getD t [] =
      tab.getD t [] ++ L.flatMap fun p => List.replicate (p.1.count t) (x p.2 t) := by
  induction L with
  | nil => intros; simp
  | cons p L ih =>
    intro tab t ht
    obtain ⟨h1, h2⟩ := inner_push (x p.2) p.1 tab t ht
    rw [List.foldl_cons, ih _ t (by rw [h2]; exact ht), h1]
    simp

/-- The edges in the list of a tetrahedron. -/
theorem tetEdge_eq (m : Mesh) {t : Nat} (ht : t < m.tets.length) :
    (tables m).tetEdge.getD t [] = ((tables m).edgeTet.zipIdx).flatMap fun p =>
      List.replicate (p.1.count t) (edgeData m (tables m).triEdge (tables m).tetTri p.2 t) := by
  have := outer_push (fun i t => edgeData m (tables m).triEdge (tables m).tetTri i t) (tables m).edgeTet.zipIdx
    (List.replicate m.tets.length []) t (by simpa using ht)
  have hr : (List.replicate m.tets.length ([] : List EdgeData)).getD t [] = [] := by
    simp [List.getD_eq_getElem?_getD, ht]
  rw [hr, List.nil_append] at this
  exact this

theorem flatMap_sorted {f : List Nat → Nat} {L : List (List Nat)} (k : Nat) (hf : ∀ l ∈ L, f l ≤ 1) :
    ((L.zipIdx k).flatMap fun p => List.replicate (f p.1) p.2).Pairwise (· < ·) ∧
    ∀ i, i ∈ ((L.zipIdx k).flatMap fun p => List.replicate (f p.1) p.2) ↔ k ≤ i ∧ ∃ l, L[i - k]? = some l ∧ f l = 1 := by
  induction L generalizing k with
  | nil => simp
  | cons l L ih =>
    obtain ⟨h1, h2⟩ := ih (k + 1) fun l hl => hf l (List.mem_cons_of_mem _ hl)
    have h0 := hf l List.mem_cons_self
    rw [List.zipIdx_cons, List.flatMap_cons]
    constructor
    · rw [List.pairwise_append]
      refine ⟨?_, h1, ?_⟩
      · have : f l = 0 ∨ f l = 1 := by omega
        rcases this with e | e <;> simp [e]
      · intro a ha b hb
        have := (h2 b).1 hb
        have := List.eq_of_mem_replicate ha
        simp only at this
        omega
    · intro i
      rw [List.mem_append, h2, List.mem_replicate]
      simp only
      constructor
      · rintro (⟨h, rfl⟩ | ⟨hk, l', hl', h⟩)
        · exact ⟨le_refl _, l, by simp, by omega⟩
        · refine ⟨by omega, l', ?_, h⟩
          have : i - k = (i - (k + 1)) + 1 := by omega
          rw [this, List.getElem?_cons_succ, hl']
      · rintro ⟨hk, l', hl', h⟩
        by_cases hik : i = k
        · subst hik
          simp at hl'
          subst hl'
          exact .inl ⟨by omega, rfl⟩
        · right
          refine ⟨by omega, l', ?_, h⟩
          have : i - k = (i - (k + 1)) + 1 := by omega
          rwa [this, List.getElem?_cons_succ] at hl'

/-- **The edges of a tetrahedron** are listed once each, in the order of the edges of the region, and they are
the edges that join two of its nodes. -/
theorem tet_edges {m : Mesh} (h : m.Good) {t : Nat} {e : Elem} (ht : m.tets[t]? = some e) :
    (((tables m).tetEdge.getD t []).map (·.edge)).Pairwise (· < ·) ∧
    ∀ i, i ∈ ((tables m).tetEdge.getD t []).map (·.edge) ↔ ∃ s, m.edges[i]? = some s ∧ ∀ v ∈ s, v ∈ e := by
  obtain ⟨hlt, -⟩ := List.getElem?_eq_some_iff.1 ht
  have hm : ((tables m).tetEdge.getD t []).map (·.edge) =
      ((tables m).edgeTet.zipIdx).flatMap fun p => List.replicate (p.1.count t) p.2 := by
    rw [tetEdge_eq m hlt, List.map_flatMap]
    congr 1
    funext p
    simp [edgeData]
  have hlen : (tables m).edgeTet.length = m.edges.length := by simp [tables, partOf]
  have hrow : ∀ (i : Nat) (l : List Nat), (tables m).edgeTet[i]? = some l → ∃ s, m.edges[i]? = some s ∧ l.Nodup ∧
      ∀ t, t ∈ l ↔ ∃ e, m.tets[t]? = some e ∧ ∀ v ∈ s, v ∈ e := by
    intro i l hl
    obtain ⟨hi, -⟩ := List.getElem?_eq_some_iff.1 hl
    rw [hlen] at hi
    have hs := List.getElem?_eq_getElem hi
    obtain ⟨h1, h2⟩ := edge_tets h hs
    have : (tables m).edgeTet.getD i [] = l := by rw [List.getD_eq_getElem?_getD, hl]; rfl
    rw [this] at h1 h2
    exact ⟨_, hs, h1.imp fun h => ne_of_lt h, h2⟩
  obtain ⟨h1, h2⟩ := flatMap_sorted (f := fun l => l.count t) (L := (tables m).edgeTet) 0 (by
    intro l hl
    obtain ⟨i, hi⟩ := List.mem_iff_getElem?.1 hl
    obtain ⟨s, -, hnd, -⟩ := hrow i l hi
    exact List.nodup_iff_count_le_one.1 hnd t)
  rw [hm]
  refine ⟨h1, fun i => ?_⟩
  rw [h2]
  simp only [Nat.zero_le, true_and, Nat.sub_zero]
  constructor
  · rintro ⟨l, hl, hc⟩
    obtain ⟨s, hs, -, hiff⟩ := hrow i l hl
    have : t ∈ l := List.count_pos_iff.1 (by omega)
    obtain ⟨e', he', hv⟩ := (hiff t).1 this
    rw [ht] at he'; cases he'
    exact ⟨s, hs, hv⟩
  · rintro ⟨s, hs, hv⟩
    obtain ⟨hi, -⟩ := List.getElem?_eq_some_iff.1 hs
    have hl := List.getElem?_eq_getElem (l := (tables m).edgeTet) (i := i) (by rw [hlen]; exact hi)
    obtain ⟨s', hs', hnd, hiff⟩ := hrow i _ hl
    rw [hs] at hs'; cases hs'
    exact ⟨_, hl, List.count_eq_one_of_mem hnd ((hiff t).2 ⟨e, ht, hv⟩)⟩

/-- An edge is in the list of a triangle exactly when it joins two of its nodes. -/
theorem triEdge_contains {m : Mesh} (h : m.Good) {f : Nat} {g : Elem} (hf : m.tris[f]? = some g) {i : Nat} {s : Elem}
    (hi : m.edges[i]? = some s) :
    ((tables m).triEdge.getD f []).contains (some i) = true ↔ ∃ k < 3, s = g.eraseIdx k := by
  rw [List.contains_iff_mem, List.mem_iff_getElem?]
  have hlt : f < m.tris.length := (List.getElem?_eq_some_iff.1 hf).1
  obtain ⟨hs1, hs2⟩ : Shape m.tris.length 3 (tables m).triEdge := fillSlots_shape m.tris (n := m.n) h.tris
  have hlen : ((tables m).triEdge.getD f []).length = 3 := by
    have hlt' : f < (tables m).triEdge.length := by rw [hs1]; exact hlt
    rw [List.getD_eq_getElem?_getD, List.getElem?_eq_getElem hlt']
    exact hs2 _ (List.getElem_mem _)
  constructor
  · rintro ⟨k, hk⟩
    have hk3 : k < 3 := by rw [← hlen]; exact (List.getElem?_eq_some_iff.1 hk).1
    have : slot (tables m).triEdge f k = some i := by
      unfold slot; rw [List.getD_eq_getElem?_getD, hk]; rfl
    have := (tri_edges h hf hk3 i).1 this
    rw [hi] at this
    exact ⟨k, hk3, Option.some.inj this⟩
  · rintro ⟨k, hk3, rfl⟩
    have := (tri_edges h hf hk3 i).2 hi
    unfold slot at this
    refine ⟨k, ?_⟩
    rw [List.getElem?_eq_getElem (by rw [hlen]; exact hk3)]
    rw [List.getD_eq_getElem?_getD, List.getElem?_eq_getElem (by rw [hlen]; exact hk3)] at this
    exact congrArg some this

/-- The two faces of a tetrahedron at an edge, for any way to find them. -/
theorem two_faces {a b c d x y : Nat} (hab : a < b) (hbc : b < c) (hcd : c < d) (hxy : x < y)
    (hx : x = a ∨ x = b ∨ x = c ∨ x = d) (hy : y = a ∨ y = b ∨ y = c ∨ y = d) {F : Nat → Bool} {O : Nat → Option Nat}
    (hF : ∀ j < 4, F j = true ↔ ∃ k < 3, [x, y] = ([a, b, c, d].eraseIdx j).eraseIdx k)
    (hO : ∀ j < 4, O j = opposite [x, y] ([a, b, c, d].eraseIdx j)) :
    ∃ p q, p < q ∧ q < 4 ∧ [x, y] = ([a, b, c, d].eraseIdx q).eraseIdx p ∧ (List.range 4).filter F = [p, q] ∧
      [p, q].map O = [[a, b, c, d][q]?, [a, b, c, d][p]?] := by
  have ex3 : ∀ (P : Nat → Prop), (∃ k < 3, P k) ↔ P 0 ∨ P 1 ∨ P 2 := by
    intro P
    constructor
    · rintro ⟨k, hk, hp⟩
      match k, hk with
      | 0, _ => exact .inl hp
      | 1, _ => exact .inr (.inl hp)
      | 2, _ => exact .inr (.inr hp)
    · rintro (hp | hp | hp)
      · exact ⟨0, by omega, hp⟩
      · exact ⟨1, by omega, hp⟩
      · exact ⟨2, by omega, hp⟩
  have hcase : (x = a ∧ y = b) ∨ (x = a ∧ y = c) ∨ (x = a ∧ y = d) ∨ (x = b ∧ y = c) ∨ (x = b ∧ y = d) ∨ (x = c ∧ y = d) := by
    omega
  have c0 := hF 0 (by omega)
  have c1 := hF 1 (by omega)
  have c2 := hF 2 (by omega)
  have c3 := hF 3 (by omega)
  have o0 := hO 0 (by omega)
  have o1 := hO 1 (by omega)
  have o2 := hO 2 (by omega)
  have o3 := hO 3 (by omega)
  clear hF hO hx hy
  rw [ex3] at c0 c1 c2 c3
  simp only [List.eraseIdx_zero, List.tail_cons, List.eraseIdx_cons_succ, List.cons.injEq, and_true] at c0 c1 c2 c3
  have bf : ∀ {P : Prop} {x : Bool}, (x = true ↔ P) → ¬ P → x = false := by
    intro P x h1 h2; cases x
    · rfl
    · exact absurd (h1.1 rfl) h2
  have hr : List.range 4 = [0, 1, 2, 3] := rfl
  have hop : ∀ {u v w z : Nat}, u = x ∨ u = y → v = x ∨ v = y → w ≠ x → w ≠ y → z = z →
      opposite [x, y] [w, u, v] = some w ∧ opposite [x, y] [u, w, v] = some w ∧ opposite [x, y] [u, v, w] = some w := by
    intro u v w z hu hv hw1 hw2 _
    have e1 : decide (u ∉ [x, y]) = false := by simpa [not_imp_comm, or_iff_not_imp_left] using hu
    have e2 : decide (v ∉ [x, y]) = false := by simpa [or_iff_not_imp_left] using hv
    have e3 : decide (w ∉ [x, y]) = true := by simpa using ⟨hw1, hw2⟩
    simp only [opposite, List.find?_cons, e1, e2, e3, and_self]
  simp only [hr, List.filter_cons, List.filter_nil, List.map_cons, List.map_nil]
  rcases hcase with ⟨rfl, rfl⟩ | ⟨rfl, rfl⟩ | ⟨rfl, rfl⟩ | ⟨rfl, rfl⟩ | ⟨rfl, rfl⟩ | ⟨rfl, rfl⟩
  · rw [bf c0 (by clear c0 c1 c2 c3; omega), bf c1 (by clear c0 c1 c2 c3; omega), c2.2 (by clear c0 c1 c2 c3; omega), c3.2 (by clear c0 c1 c2 c3; omega)]
    refine ⟨2, 3, by omega, by omega, rfl, rfl, ?_⟩
    rw [o2, o3]
    exact congrArg₂ (fun u v => [u, v]) (hop (z := 0) (.inl rfl) (.inr rfl) (by clear c0 c1 c2 c3; omega) (by clear c0 c1 c2 c3; omega) rfl).2.2
      (hop (z := 0) (.inl rfl) (.inr rfl) (by clear c0 c1 c2 c3; omega) (by clear c0 c1 c2 c3; omega) rfl).2.2
  · rw [bf c0 (by clear c0 c1 c2 c3; omega), c1.2 (by clear c0 c1 c2 c3; omega), bf c2 (by clear c0 c1 c2 c3; omega), c3.2 (by clear c0 c1 c2 c3; omega)]
    refine ⟨1, 3, by omega, by omega, rfl, rfl, ?_⟩
    rw [o1, o3]
    exact congrArg₂ (fun u v => [u, v]) (hop (z := 0) (.inl rfl) (.inr rfl) (by clear c0 c1 c2 c3; omega) (by clear c0 c1 c2 c3; omega) rfl).2.2
      (hop (z := 0) (.inl rfl) (.inr rfl) (by clear c0 c1 c2 c3; omega) (by clear c0 c1 c2 c3; omega) rfl).2.1
  · rw [bf c0 (by clear c0 c1 c2 c3; omega), c1.2 (by clear c0 c1 c2 c3; omega), c2.2 (by clear c0 c1 c2 c3; omega), bf c3 (by clear c0 c1 c2 c3; omega)]
    refine ⟨1, 2, by omega, by omega, rfl, rfl, ?_⟩
    rw [o1, o2]
    exact congrArg₂ (fun u v => [u, v]) (hop (z := 0) (.inl rfl) (.inr rfl) (by clear c0 c1 c2 c3; omega) (by clear c0 c1 c2 c3; omega) rfl).2.1
      (hop (z := 0) (.inl rfl) (.inr rfl) (by clear c0 c1 c2 c3; omega) (by clear c0 c1 c2 c3; omega) rfl).2.1
  · rw [c0.2 (by clear c0 c1 c2 c3; omega), bf c1 (by clear c0 c1 c2 c3; omega), bf c2 (by clear c0 c1 c2 c3; omega), c3.2 (by clear c0 c1 c2 c3; omega)]
    refine ⟨0, 3, by omega, by omega, rfl, rfl, ?_⟩
    rw [o0, o3]
    exact congrArg₂ (fun u v => [u, v]) (hop (z := 0) (.inl rfl) (.inr rfl) (by clear c0 c1 c2 c3; omega) (by clear c0 c1 c2 c3; omega) rfl).2.2
      (hop (z := 0) (.inl rfl) (.inr rfl) (by clear c0 c1 c2 c3; omega) (by clear c0 c1 c2 c3; omega) rfl).1
  · rw [c0.2 (by clear c0 c1 c2 c3; omega), bf c1 (by clear c0 c1 c2 c3; omega), c2.2 (by clear c0 c1 c2 c3; omega), bf c3 (by clear c0 c1 c2 c3; omega)]
    refine ⟨0, 2, by omega, by omega, rfl, rfl, ?_⟩
    rw [o0, o2]
    exact congrArg₂ (fun u v => [u, v]) (hop (z := 0) (.inl rfl) (.inr rfl) (by clear c0 c1 c2 c3; omega) (by clear c0 c1 c2 c3; omega) rfl).2.1
      (hop (z := 0) (.inl rfl) (.inr rfl) (by clear c0 c1 c2 c3; omega) (by clear c0 c1 c2 c3; omega) rfl).1
  · rw [c0.2 (by clear c0 c1 c2 c3; omega), c1.2 (by clear c0 c1 c2 c3; omega), bf c2 (by clear c0 c1 c2 c3; omega), bf c3 (by clear c0 c1 c2 c3; omega)]
    refine ⟨0, 1, by omega, by omega, rfl, rfl, ?_⟩
    rw [o0, o1]
    exact congrArg₂ (fun u v => [u, v]) (hop (z := 0) (.inl rfl) (.inr rfl) (by clear c0 c1 c2 c3; omega) (by clear c0 c1 c2 c3; omega) rfl).1
      (hop (z := 0) (.inl rfl) (.inr rfl) (by clear c0 c1 c2 c3; omega) (by clear c0 c1 c2 c3; omega) rfl).1

/-- **Data of an edge in a tetrahedron** of a complete region: the edge joins the nodes other than `p` and `q`;
the two slots are those of the faces opposite to these nodes, and the node of face `p` (`q`) that is not on the
edge is node `q` (`p`). -/
theorem tet_edge_data {m : Mesh} (h : m.Good) (hc : m.Complete) {t : Nat} {e : Elem} (ht : m.tets[t]? = some e)
    {d : EdgeData} (hd : d ∈ (tables m).tetEdge.getD t []) :
    ∃ p q, p < q ∧ q < 4 ∧ m.edges[d.edge]? = some ((e.eraseIdx q).eraseIdx p) ∧ d.idx = [p, q] ∧
      d.opp = [e[q]?, e[p]?] := by
  obtain ⟨hlt, -⟩ := List.getElem?_eq_some_iff.1 ht
  obtain ⟨-, h2⟩ := tet_edges h ht
  obtain ⟨s, hs, hsub⟩ := (h2 d.edge).1 (List.mem_map_of_mem hd)
  have hde : d = edgeData m (tables m).triEdge (tables m).tetTri d.edge t := by
    rw [tetEdge_eq m hlt, List.mem_flatMap] at hd
    obtain ⟨p, -, hp⟩ := hd
    have := List.eq_of_mem_replicate hp
    rw [this]
    rfl
  generalize d.edge = i at *
  have hS := h.edges s (List.mem_of_getElem? hs)
  have hE := h.tets e (List.mem_of_getElem? ht)
  have hface : ∀ j < 4, ∃ f, ((tables m).tetTri.getD t []).getD j none = some f ∧ m.tris[f]? = some (e.eraseIdx j) := by
    intro j hj
    obtain ⟨f, hf⟩ := List.mem_iff_getElem?.1 (hc.tets e (List.mem_of_getElem? ht) j hj)
    exact ⟨f, (tet_tris h ht hj f).2 hf, hf⟩
  have hF : ∀ j < 4, (match ((tables m).tetTri.getD t []).getD j none with
      | some f => ((tables m).triEdge.getD f []).contains (some i)
      | none => false) = true ↔ ∃ k < 3, s = (e.eraseIdx j).eraseIdx k := by
    intro j hj
    obtain ⟨f, hf, hf'⟩ := hface j hj
    rw [hf]
    exact triEdge_contains h hf' hs
  have hO : ∀ j < 4, (match ((tables m).tetTri.getD t []).getD j none with
      | some f => opposite (m.edges.getD i []) (m.tris.getD f [])
      | none => none) = opposite s (e.eraseIdx j) := by
    intro j hj
    obtain ⟨f, hf, hf'⟩ := hface j hj
    have e1 : m.edges.getD i [] = s := by rw [List.getD_eq_getElem?_getD, hs]; rfl
    have e2 : m.tris.getD f [] = e.eraseIdx j := by rw [List.getD_eq_getElem?_getD, hf']; rfl
    rw [hf, e1]
    show opposite s (m.tris.getD f []) = _
    rw [e2]
  obtain ⟨a, b, c, d', rfl⟩ : ∃ a b c d', e = [a, b, c, d'] := by
    match e, hE.1 with
    | [a, b, c, d'], _ => exact ⟨a, b, c, d', rfl⟩
  obtain ⟨x, y, rfl⟩ : ∃ x y, s = [x, y] := by
    match s, hS.1 with
    | [x, y], _ => exact ⟨x, y, rfl⟩
  have hord := hE.2.1
  have hxy := hS.2.1
  simp only [List.pairwise_cons, List.mem_cons, List.not_mem_nil, or_false, forall_eq_or_imp, forall_eq,
    false_imp_iff, implies_true, List.Pairwise.nil, and_true] at hord hxy hsub
  obtain ⟨p, q, hpq, hq, h1, h2, h3⟩ := two_faces hord.1.1 hord.2.1.1 hord.2.2 hxy hsub.1 hsub.2 hF hO
  have hi : d.idx = [p, q] := by rw [hde]; exact h2
  refine ⟨p, q, hpq, hq, by rw [hs, h1], hi, ?_⟩
  rw [← h3, ← hi, hde]
  rfl

end Verif.Geom
