import Verif.Bnd.Model

/-!
# The elements of contacts and interfaces
-/

namespace Verif.Bnd
open Verif.Geom

/-! ### Specification -/

/-- Element number `i` of `subs` is on the outside (part of just one element of `els`) and has all its nodes in `nodes`. -/
def Outer (els subs : List Elem) (nodes : List ℕ) (i : ℕ) : Prop :=
  ∃ s, subs[i]? = some s ∧ containing els s = 1 ∧ ∀ v ∈ s, v ∈ nodes

/-- The increasing list of the numbers with a property. -/
def IsList (l : List ℕ) (P : ℕ → Prop) : Prop := l.Pairwise (· < ·) ∧ ∀ i, i ∈ l ↔ P i

/-- Edge number `i` is a side of one of the triangles with the property. -/
def SideOf (m : Mesh) (P : ℕ → Prop) (i : ℕ) : Prop :=
  ∃ t e s, P t ∧ m.tris[t]? = some e ∧ m.edges[i]? = some s ∧ ∀ v ∈ s, v ∈ e

theorem IsList.unique {l l' : List ℕ} {P : ℕ → Prop} (h : IsList l P) (h' : IsList l' P) : l = l' := by
  have hp : List.Perm l l' := (List.perm_ext_iff_of_nodup (h.1.imp fun h => ne_of_lt h) (h'.1.imp fun h => ne_of_lt h)).2
    fun i => (h.2 i).trans (h'.2 i).symm
  exact hp.eq_of_pairwise (fun a b _ _ h1 h2 => absurd h1 (by omega)) h.1 h'.1

/-! ### The loops -/

theorem pick_spec {n k j : ℕ} {els subs : List Elem} (hels : ∀ e ∈ els, IsElem n k e)
    (hsubs : ∀ e ∈ subs, IsElem n (j + 1) e) (nodes : List ℕ) {row : ℕ → Option (List ℕ)}
    (hrow : ∀ i, row i = (partOf n els subs)[i]?) :
    ∃ l, pick row nodes subs.zipIdx = some l ∧ IsList l (Outer els subs nodes) := by
  have key : ∀ (l : List (Elem × ℕ)), (∀ p ∈ l, subs[p.2]? = some p.1) → pick row nodes l =
      some ((l.filter fun p => decide (containing els p.1 = 1) && p.1.all (nodes.contains ·)).map (·.2)) := by
    intro l
    induction l with
    | nil => intro _; rfl
    | cons p l ih =>
      intro h
      obtain ⟨e, i⟩ := p
      have hi : subs[i]? = some e := h (e, i) (by simp)
      have hlt : i < (partOf n els subs).length := by
        simp only [partOf, List.length_map]; exact (List.getElem?_eq_some_iff.1 hi).1
      have hr : row i = some ((partOf n els subs).getD i []) := by
        rw [hrow, List.getD_eq_getElem?_getD, List.getElem?_eq_getElem hlt]; rfl
      have hlen := partOf_length hels hsubs hi
      simp only [pick, hr, ih fun p hp => h p (by simp [hp]), hlen, List.filter_cons]
      by_cases h1 : containing els e = 1
      · by_cases h2 : e.all (nodes.contains ·) = true
        · simp only [h1, h2]; simp
        · simp only [h1, h2]; simp
      · simp [h1]
  refine ⟨_, key subs.zipIdx fun p hp => ?_, ?_⟩
  · have := List.mem_zipIdx_iff_getElem?.1 hp; exact this
  · obtain ⟨h1, h2⟩ := filter_zipIdx_spec subs (fun e => decide (containing els e = 1) && e.all (nodes.contains ·)) 0
    refine ⟨h1, fun i => (h2 i).trans ?_⟩
    simp [Outer, List.all_eq_true]

/-- **Edges in two dimensions**: those on the outside of the region with both nodes among the given. -/
theorem findEdges_spec {m : Mesh} (h : m.Good) (ht : m.tris ≠ []) (nodes : List ℕ) :
    ∃ l, findEdges m nodes = some l ∧ IsList l (Outer m.tris m.edges nodes) :=
  pick_spec h.tris h.edges nodes fun i => by simp only [edgeRow, if_neg ht]; rfl

theorem sideRow_spec {m : Mesh} (h : m.Good) (hc : m.Complete) {t : ℕ} {e : Elem} (ht : m.tris[t]? = some e) :
    ∃ l, sideRow m t = some l ∧ ∀ i, i ∈ l ↔ ∃ j < 3, m.edges[i]? = some (e.eraseIdx j) := by
  obtain ⟨hs1, hs2⟩ := fillSlots_shape (subs := m.edges) m.tris h.tris
  have hlt : t < (tables m).triEdge.length := by
    change t < (fillSlots 3 m.tris m.edges (partOf m.n m.tris m.edges)).length
    rw [hs1]; exact (List.getElem?_eq_some_iff.1 ht).1
  have hrow : (tables m).triEdge[t]? = some ((tables m).triEdge[t]) := List.getElem?_eq_getElem hlt
  have hlen : ((tables m).triEdge[t]).length = 3 := hs2 _ (List.getElem_mem hlt)
  have hslot : ∀ j, slot (tables m).triEdge t j = ((tables m).triEdge[t]).getD j none := by
    intro j
    have : (tables m).triEdge.getD t [] = (tables m).triEdge[t] := by rw [List.getD_eq_getElem?_getD, hrow]; rfl
    unfold slot; rw [this]
  generalize (tables m).triEdge[t] = r at *
  have hsp : ∀ j < 3, ∀ i, r.getD j none = some i ↔ m.edges[i]? = some (e.eraseIdx j) := by
    intro j hj i; rw [← hslot]; exact tri_edges h ht hj i
  have hex : ∀ j < 3, ∃ i, r.getD j none = some i := by
    intro j hj
    obtain ⟨i, hi⟩ := List.mem_iff_getElem?.1 (hc.tris e (List.mem_of_getElem? ht) j hj)
    exact ⟨i, (hsp j hj i).2 hi⟩
  match r, hlen with
  | [a, b, c], _ =>
    obtain ⟨x, hx⟩ := hex 0 (by omega)
    obtain ⟨y, hy⟩ := hex 1 (by omega)
    obtain ⟨z, hz⟩ := hex 2 (by omega)
    simp at hx hy hz
    subst hx hy hz
    refine ⟨[x, y, z], by simp [sideRow, hrow], fun i => ?_⟩
    constructor
    · intro hi
      simp only [List.mem_cons, List.not_mem_nil, or_false] at hi
      rcases hi with rfl | rfl | rfl
      · exact ⟨0, by omega, (hsp 0 (by omega) _).1 (by simp)⟩
      · exact ⟨1, by omega, (hsp 1 (by omega) _).1 (by simp)⟩
      · exact ⟨2, by omega, (hsp 2 (by omega) _).1 (by simp)⟩
    · rintro ⟨j, hj, hi⟩
      have := (hsp j hj i).2 hi
      rcases (by omega : j = 0 ∨ j = 1 ∨ j = 2) with rfl | rfl | rfl <;> · simp at this; simp [this]

theorem erase_of_part {n : ℕ} {s e : Elem} (hs : IsElem n 2 s) (he : IsElem n 3 e) :
    (∀ v ∈ s, v ∈ e) ↔ ∃ j < 3, s = e.eraseIdx j := by
  constructor
  · intro h
    have hex : ∃ v ∈ e, v ∉ s := by
      by_contra hc
      push Not at hc
      have := (List.subperm_of_subset (he.2.1.imp fun h => ne_of_lt h) hc).length_le
      rw [hs.1, he.1] at this; omega
    cases hf : e.findIdx? (· ∉ s) with
    | none =>
      obtain ⟨v, hv, hv2⟩ := hex
      have := List.findIdx?_eq_none_iff.1 hf v hv
      simp [hv2] at this
    | some j =>
      obtain ⟨hj, hj2⟩ := (missing_one hs.2.1 he.2.1 (by rw [hs.1, he.1]) j).1 ⟨h, hf⟩
      exact ⟨j, by rw [he.1] at hj; exact hj, hj2⟩
  · rintro ⟨j, -, rfl⟩ v hv
    exact List.mem_of_mem_eraseIdx hv

theorem sides_spec {m : Mesh} (h : m.Good) (hc : m.Complete) {ts : List ℕ} {P : ℕ → Prop} (hts : ∀ t, t ∈ ts ↔ P t)
    (hP : ∀ t, P t → ∃ e, m.tris[t]? = some e) : ∃ l, sides m ts = some l ∧ IsList l (SideOf m P) := by
  have key : ∀ ts : List ℕ, (∀ t ∈ ts, ∃ e, m.tris[t]? = some e) → ∃ ls, ts.mapM (sideRow m) = some ls ∧
      ∀ i, i ∈ ls.flatten ↔ ∃ t ∈ ts, ∃ e, m.tris[t]? = some e ∧ ∃ j < 3, m.edges[i]? = some (e.eraseIdx j) := by
    intro ts
    induction ts with
    | nil => intro _; exact ⟨[], by simp, by simp⟩
    | cons t ts ih =>
      intro ht
      obtain ⟨ls, hl1, hl2⟩ := ih fun t h => ht t (by simp [h])
      obtain ⟨e, he⟩ := ht t (by simp)
      obtain ⟨r, hr1, hr2⟩ := sideRow_spec h hc he
      refine ⟨r :: ls, by simp [List.mapM_cons, hr1, hl1], fun i => ?_⟩
      rw [List.flatten_cons, List.mem_append, hr2, hl2]
      constructor
      · rintro (hh | ⟨t', ht', hh⟩)
        · exact ⟨t, by simp, e, he, hh⟩
        · exact ⟨t', by simp [ht'], hh⟩
      · rintro ⟨t', ht', e', he', hh⟩
        rcases List.mem_cons.1 ht' with rfl | ht'
        · rw [he] at he'; cases he'; exact .inl hh
        · exact .inr ⟨t', ht', e', he', hh⟩
  obtain ⟨ls, hl1, hl2⟩ := key ts fun t ht => hP t ((hts t).1 ht)
  refine ⟨_, by rw [sides, hl1]; rfl, List.Pairwise.filter _ List.pairwise_lt_range, fun i => ?_⟩
  rw [List.mem_filter, List.contains_iff_mem, hl2, List.mem_range]
  constructor
  · rintro ⟨-, t, ht, e, he, j, hj, hi⟩
    exact ⟨t, e, _, (hts t).1 ht, he, hi, fun v hv => List.mem_of_mem_eraseIdx hv⟩
  · rintro ⟨t, e, s, ht, he, hi, hv⟩
    refine ⟨(List.getElem?_eq_some_iff.1 hi).1, t, (hts t).2 ht, e, he, ?_⟩
    obtain ⟨j, hj, rfl⟩ := (erase_of_part (h.edges s (List.mem_of_getElem? hi)) (h.tris e (List.mem_of_getElem? he))).1 hv
    exact ⟨j, hj, hi⟩

/-- **Triangles in three dimensions**: those on the outside of the region with all nodes among the given; the edges are their
sides. -/
theorem findTriangles_spec {m : Mesh} (h : m.Good) (hc : m.Complete) (ht : m.tets ≠ []) (nodes : List ℕ) :
    ∃ es ts, findTriangles m nodes = some (es, ts) ∧ IsList ts (Outer m.tets m.tris nodes) ∧
      IsList es (SideOf m (Outer m.tets m.tris nodes)) := by
  obtain ⟨ts, h1, h2⟩ := pick_spec h.tets h.tris nodes (row := tetRow m) fun i => by simp only [tetRow, if_neg ht]; rfl
  obtain ⟨es, h3, h4⟩ := sides_spec h hc h2.2 fun t ⟨s, hs, _⟩ => ⟨s, hs⟩
  exact ⟨es, ts, by simp [findTriangles, h1, h3], h2, h4⟩

/-- Without triangles nothing is found. -/
theorem findTriangles_none {m : Mesh} (ht : m.tris = []) (nodes : List ℕ) : findTriangles m nodes = some ([], []) := by
  simp [findTriangles, ht, pick, sides]

/-- Triangles but no tetrahedra, as in two dimensions: the table of tetrahedra is read beyond its end. -/
theorem findTriangles_crash {m : Mesh} (ht : m.tris ≠ []) (ht2 : m.tets = []) (nodes : List ℕ) : findTriangles m nodes = none := by
  unfold findTriangles
  have : pick (tetRow m) nodes m.tris.zipIdx = none := by
    match h : m.tris, ht with
    | e :: l, _ => rw [List.zipIdx_cons]; simp [pick, tetRow, ht2]
  rw [this]

/-! ### Histories -/

/-- A question about a contact or one side of an interface. -/
inductive Query
  | edges
  | tris
deriving DecidableEq, Repr

/-- A region as the loaders make it, in one, two or three dimensions. -/
structure Proper (m : Mesh) : Prop where
  good : m.Good
  complete : m.Complete
  dims : (m.dim = 1 ∧ m.tris = [] ∧ m.tets = []) ∨ (m.dim = 2 ∧ m.tris ≠ [] ∧ m.tets = []) ∨ (m.dim = 3 ∧ m.tets ≠ [])

/-- The elements of a boundary with the given nodes. In one dimension there are none, in two they are edges, in three triangles with
their sides. -/
def Boundary (m : Mesh) (nodes : List ℕ) : Query → ℕ → Prop
  | .edges, i => (m.dim = 2 ∧ Outer m.tris m.edges nodes i) ∨ (m.dim = 3 ∧ SideOf m (Outer m.tets m.tris nodes) i)
  | .tris, i => m.dim = 3 ∧ Outer m.tets m.tris nodes i

/-- Triangles are not asked for in two dimensions. -/
def Fits (m : Mesh) (q : Query) : Prop := m.dim = 2 → q = .edges

/-- One question: the answer, and the contact afterwards. -/
def Con.ask (m : Mesh) (c : Con) : Query → Option (Con × List ℕ)
  | .edges => (c.getEdges m).map fun c => (c, c.edges)
  | .tris => (c.getTris m).map fun c => (c, c.tris)

/-- Some questions, one after the other. -/
def Con.askAll (m : Mesh) (c : Con) : List Query → Option (Con × List (List ℕ))
  | [] => some (c, [])
  | q :: qs =>
    match c.ask m q with
    | none => none
    | some (c1, a) => (c1.askAll m qs).map fun p => (p.1, a :: p.2)

/-- What is stored is either nothing, or the boundary. -/
def Con.Fresh (m : Mesh) (c : Con) : Prop :=
  (c.edges = [] ∧ c.tris = []) ∨ (IsList c.edges (Boundary m c.nodes .edges) ∧ IsList c.tris (Boundary m c.nodes .tris))

theorem isList_nil {P : ℕ → Prop} (h : ∀ i, ¬ P i) : IsList [] P := ⟨List.Pairwise.nil, fun i => by simp [h i]⟩

theorem Con.findTris_spec {m : Mesh} (h : Proper m) (hd : m.dim ≠ 2) (c : Con) : ∃ c', c.findTris m = some c' ∧
    c'.nodes = c.nodes ∧ c'.region = c.region ∧ c'.material = c.material ∧
    IsList c'.edges (Boundary m c.nodes .edges) ∧ IsList c'.tris (Boundary m c.nodes .tris) := by
  rcases h.dims with ⟨hd1, ht, -⟩ | ⟨hd2, -⟩ | ⟨hd3, ht⟩
  · refine ⟨{ c with edges := [], tris := [] }, by simp [Con.findTris, findTriangles_none ht], rfl, rfl, rfl, ?_, ?_⟩
    · exact isList_nil fun i => by simp [Boundary, hd1]
    · exact isList_nil fun i => by simp [Boundary, hd1]
  · exact absurd hd2 hd
  · obtain ⟨es, ts, h1, h2, h3⟩ := findTriangles_spec h.good h.complete ht c.nodes
    refine ⟨{ c with edges := es, tris := ts }, by simp [Con.findTris, h1], rfl, rfl, rfl, ?_, ?_⟩
    · simpa [IsList, Boundary, hd3] using h3
    · simpa [IsList, Boundary, hd3] using h2

theorem Con.ask_spec {m : Mesh} (h : Proper m) {c : Con} (hc : c.Fresh m) {q : Query} (hq : Fits m q) :
    ∃ c' a, c.ask m q = some (c', a) ∧ IsList a (Boundary m c.nodes q) ∧ c'.Fresh m ∧ c'.nodes = c.nodes ∧ c'.region = c.region ∧
      c'.material = c.material := by
  have hE : ∃ c', c.findEdgs m = some c' ∧ c'.nodes = c.nodes ∧ c'.region = c.region ∧ c'.material = c.material ∧
      (c.edges = [] → c.tris = [] → IsList c'.edges (Boundary m c.nodes .edges) ∧ c'.Fresh m) := by
    rcases h.dims with ⟨hd1, ht, -⟩ | ⟨hd2, ht, hT⟩ | ⟨hd3, ht⟩
    · refine ⟨c, by simp [Con.findEdgs, hd1], rfl, rfl, rfl, fun he htr => ⟨?_, .inl ⟨he, htr⟩⟩⟩
      rw [he]; exact isList_nil fun i => by simp [Boundary, hd1]
    · obtain ⟨l, h1, h2⟩ := findEdges_spec h.good ht c.nodes
      have hl : IsList l (Boundary m c.nodes .edges) := by simpa [IsList, Boundary, hd2] using h2
      refine ⟨{ c with edges := l }, by simp [Con.findEdgs, hd2, h1], rfl, rfl, rfl, fun _ htr => ⟨hl, .inr ⟨hl, ?_⟩⟩⟩
      simp only [htr]; exact isList_nil fun i => by simp [Boundary, hd2]
    · obtain ⟨c', h1, h2, h3, h4, h5, h6⟩ := Con.findTris_spec h (by omega) c
      exact ⟨c', by simp [Con.findEdgs, hd3, h1], h2, h3, h4, fun _ _ => ⟨h5, .inr ⟨h2 ▸ h5, h2 ▸ h6⟩⟩⟩
  cases q with
  | edges =>
    by_cases he : c.edges = []
    · obtain ⟨c', h1, h2, h3, h4, h5⟩ := hE
      refine ⟨c', c'.edges, by simp [Con.ask, Con.getEdges, he, h1], ?_, ?_, h2, h3, h4⟩
      · rcases hc with ⟨h6, h7⟩ | ⟨h6, h7⟩
        · exact (h5 h6 h7).1
        · by_cases htr : c.tris = []
          · exact (h5 he htr).1
          · rcases h.dims with ⟨hd1, -⟩ | ⟨hd2, -⟩ | ⟨hd3, ht⟩
            · simp only [Con.findEdgs, hd1, if_true, Option.some.injEq] at h1; subst h1; exact h6
            · exfalso
              match hct : c.tris, htr with
              | t :: _, _ => have := (h7.2 t).1 (by simp [hct]); simp [Boundary, hd2] at this
            · obtain ⟨c2, g1, g2, g3, g4, g5, g6⟩ := Con.findTris_spec h (by omega) c
              simp only [Con.findEdgs, hd3, g1] at h1
              simp at h1; subst h1; exact g5
      · rcases hc with ⟨h6, h7⟩ | ⟨h6, h7⟩
        · exact (h5 h6 h7).2
        · by_cases htr : c.tris = []
          · exact (h5 he htr).2
          · rcases h.dims with ⟨hd1, -⟩ | ⟨hd2, -⟩ | ⟨hd3, ht⟩
            · simp only [Con.findEdgs, hd1, if_true, Option.some.injEq] at h1; subst h1; exact .inr ⟨h6, h7⟩
            · exfalso
              match hct : c.tris, htr with
              | t :: _, _ => have := (h7.2 t).1 (by simp [hct]); simp [Boundary, hd2] at this
            · obtain ⟨c2, g1, g2, g3, g4, g5, g6⟩ := Con.findTris_spec h (by omega) c
              simp only [Con.findEdgs, hd3, g1] at h1
              simp at h1; subst h1; exact .inr ⟨g2 ▸ g5, g2 ▸ g6⟩
    · rcases hc with ⟨h6, -⟩ | ⟨h6, h7⟩
      · exact absurd h6 he
      · exact ⟨c, c.edges, by simp [Con.ask, Con.getEdges, he], h6, .inr ⟨h6, h7⟩, rfl, rfl, rfl⟩
  | tris =>
    have hd : m.dim ≠ 2 := fun hd => by cases hq hd
    by_cases ht : c.tris = []
    · obtain ⟨c2, g1, g2, g3, g4, g5, g6⟩ := Con.findTris_spec h hd c
      exact ⟨c2, c2.tris, by simp [Con.ask, Con.getTris, ht, g1], g6, .inr ⟨g2 ▸ g5, g2 ▸ g6⟩, g2, g3, g4⟩
    · rcases hc with ⟨-, h6⟩ | ⟨h6, h7⟩
      · exact absurd h6 ht
      · exact ⟨c, c.tris, by simp [Con.ask, Con.getTris, ht], h7, .inr ⟨h6, h7⟩, rfl, rfl, rfl⟩

/-- **The elements of a contact**: of a contact that was made from nodes, every question in every history is answered by the boundary
with these nodes. -/
theorem contact_elements {m : Mesh} (h : Proper m) {c : Con} (hc : c.Fresh m) (qs : List Query) (hq : ∀ q ∈ qs, Fits m q) :
    ∃ c' as, c.askAll m qs = some (c', as) ∧ as.length = qs.length ∧ c'.nodes = c.nodes ∧ c'.region = c.region ∧
      c'.material = c.material ∧ ∀ (k : ℕ) q a, qs[k]? = some q → as[k]? = some a → IsList a (Boundary m c.nodes q) := by
  induction qs generalizing c with
  | nil => exact ⟨c, [], rfl, rfl, rfl, rfl, rfl, by simp⟩
  | cons q qs ih =>
    obtain ⟨c1, a, h1, h2, h3, h4, h5, h6⟩ := Con.ask_spec h hc (hq q (by simp))
    obtain ⟨c2, as, g1, g2, g3, g4, g5, g6⟩ := ih h3 fun q hq' => hq q (by simp [hq'])
    refine ⟨c2, a :: as, by simp [Con.askAll, h1, g1], by simp [g2], by rw [g3, h4], by rw [g4, h5], by rw [g5, h6], ?_⟩
    intro k q' a' hk ha
    cases k with
    | zero => simp at hk ha; subst hk ha; exact h2
    | succ k => simp at hk ha; rw [← h4]; exact g6 k q' a' hk ha

/-- **`get_element_node_list` for a contact**: in two and three dimensions the nodes of the boundary elements, in the order of the
elements, at any time in a history. -/
theorem element_node_list {m : Mesh} (h : Proper m) (hd : m.dim ≠ 1) {c : Con} (hc : c.Fresh m) :
    ∃ c' l, c.elements m = some (c', l.map fun t => (if m.dim = 3 then m.tris else m.edges).getD t []) ∧ c'.Fresh m ∧
      IsList l (Boundary m c.nodes (if m.dim = 3 then .tris else .edges)) := by
  by_cases h3 : m.dim = 3
  · obtain ⟨c', a, h1, h2, h4, -⟩ := Con.ask_spec h hc (q := .tris) (fun h => by omega)
    simp only [Con.ask, Option.map_eq_some_iff, Prod.mk.injEq] at h1
    obtain ⟨g, g1, rfl, rfl⟩ := h1
    exact ⟨g, g.tris, by simp [Con.elements, h3, g1], h4, by simpa [h3] using h2⟩
  · have h2d : m.dim = 2 := by rcases h.dims with h | h | h <;> omega
    obtain ⟨c', a, h1, h2, h4, -⟩ := Con.ask_spec h hc (q := .edges) (fun _ => rfl)
    simp only [Con.ask, Option.map_eq_some_iff, Prod.mk.injEq] at h1
    obtain ⟨g, g1, rfl, rfl⟩ := h1
    exact ⟨g, g.edges, by simp [Con.elements, h2d, g1], h4, by simpa [h3] using h2⟩

/-- The elements that are stored. -/
def Con.stored (c : Con) : Query → List ℕ
  | .edges => c.edges
  | .tris => c.tris

/-- **Elements from a file**: edges that are given (in three dimensions with triangles) are kept, whatever is asked. -/
theorem contact_kept {m : Mesh} {c : Con} (he : c.edges ≠ []) (ht : m.dim = 2 ∨ c.tris ≠ []) (qs : List Query)
    (hq : ∀ q ∈ qs, Fits m q) : c.askAll m qs = some (c, qs.map c.stored) := by
  induction qs with
  | nil => rfl
  | cons q qs ih =>
    have h1 : c.ask m q = some (c, c.stored q) := by
      cases q with
      | edges => simp [Con.ask, Con.getEdges, he, Con.stored]
      | tris =>
        rcases ht with ht | ht
        · cases hq .tris (by simp) ht
        · simp [Con.ask, Con.getTris, ht, Con.stored]
    simp only [Con.askAll, h1, ih fun q hq' => hq q (by simp [hq'])]
    rfl

/-! ### Interfaces -/

def Itf.nodes (f : Itf) : Bool → List ℕ
  | false => f.nodes0
  | true => f.nodes1

/-- The elements that are stored of a side. -/
def Itf.stored (f : Itf) : Bool → Query → List ℕ
  | false, .edges => f.edges0
  | false, .tris => f.tris0
  | true, .edges => f.edges1
  | true, .tris => f.tris1

/-- One question to a side of an interface. -/
def Itf.ask (m0 m1 : Mesh) (f : Itf) : Bool → Query → Option (Itf × List ℕ)
  | false, .edges => (f.getEdges0 m0 m1).map fun f => (f, f.edges0)
  | false, .tris => (f.getTris0 m0 m1).map fun f => (f, f.tris0)
  | true, .edges => (f.getEdges1 m0 m1).map fun f => (f, f.edges1)
  | true, .tris => (f.getTris1 m0 m1).map fun f => (f, f.tris1)

def Itf.askAll (m0 m1 : Mesh) (f : Itf) : List (Bool × Query) → Option (Itf × List (List ℕ))
  | [] => some (f, [])
  | q :: qs =>
    match f.ask m0 m1 q.1 q.2 with
    | none => none
    | some (f1, a) => (f1.askAll m0 m1 qs).map fun p => (p.1, a :: p.2)

/-- The region of a side. -/
def side (m0 m1 : Mesh) : Bool → Mesh
  | false => m0
  | true => m1

/-- What is stored is the boundary on both sides. -/
def Itf.Whole (m0 m1 : Mesh) (f : Itf) : Prop := ∀ b q, IsList (f.stored b q) (Boundary (side m0 m1 b) (f.nodes b) q)

/-- What is stored is either nothing, or the boundary on both sides. -/
def Itf.Fresh (m0 m1 : Mesh) (f : Itf) : Prop := (∀ b q, f.stored b q = []) ∨ f.Whole m0 m1

/-- The same interface, but for its elements. -/
def Itf.Same (f f' : Itf) : Prop :=
  f'.region0 = f.region0 ∧ f'.region1 = f.region1 ∧ f'.nodes0 = f.nodes0 ∧ f'.nodes1 = f.nodes1

theorem Itf.Same.trans {f f' f'' : Itf} (h : f.Same f') (h' : f'.Same f'') : f.Same f'' := by
  obtain ⟨a, b, c, d⟩ := h
  obtain ⟨a', b', c', d'⟩ := h'
  exact ⟨a'.trans a, b'.trans b, c'.trans c, d'.trans d⟩

theorem Itf.Same.nodes {f f' : Itf} (h : f.Same f') (b : Bool) : f'.nodes b = f.nodes b := by
  cases b
  · exact h.2.2.1
  · exact h.2.2.2

theorem findTriangles_boundary {m : Mesh} (h : Proper m) (hd : m.dim ≠ 2) (nodes : List ℕ) : ∃ p, findTriangles m nodes = some p ∧
    IsList p.1 (Boundary m nodes .edges) ∧ IsList p.2 (Boundary m nodes .tris) := by
  obtain ⟨c', h1, -, -, -, h5, h6⟩ := Con.findTris_spec h hd { region := "", nodes := nodes, material := "" }
  simp only [Con.findTris, Option.map_eq_some_iff] at h1
  obtain ⟨p, hp, rfl⟩ := h1
  exact ⟨p, hp, h5, h6⟩

theorem findEdges_boundary {m : Mesh} (h : Proper m) (hd : m.dim = 2) (nodes : List ℕ) : ∃ l, findEdges m nodes = some l ∧
    IsList l (Boundary m nodes .edges) := by
  rcases h.dims with ⟨hd1, -⟩ | ⟨-, ht, -⟩ | ⟨hd3, -⟩
  · omega
  · obtain ⟨l, h1, h2⟩ := findEdges_spec h.good ht nodes
    exact ⟨l, h1, by simpa [IsList, Boundary, hd] using h2⟩
  · omega

theorem Itf.findTris_spec {m0 m1 : Mesh} (h0 : Proper m0) (h1 : Proper m1) (hd : m0.dim = m1.dim) (hd2 : m0.dim ≠ 2) (f : Itf) :
    ∃ f', f.findTris m0 m1 = some f' ∧ f.Same f' ∧ f'.Whole m0 m1 := by
  obtain ⟨p0, a0, b0, c0⟩ := findTriangles_boundary h0 hd2 f.nodes0
  obtain ⟨p1, a1, b1, c1⟩ := findTriangles_boundary h1 (hd ▸ hd2) f.nodes1
  refine ⟨{ f with edges0 := p0.1, tris0 := p0.2, edges1 := p1.1, tris1 := p1.2, provided := false },
    by simp [Itf.findTris, hd, a0, a1], ⟨rfl, rfl, rfl, rfl⟩, ?_⟩
  intro b q
  cases b <;> cases q
  · exact b0
  · exact c0
  · exact b1
  · exact c1

theorem Itf.findEdgs_spec {m0 m1 : Mesh} (h0 : Proper m0) (h1 : Proper m1) (hd : m0.dim = m1.dim) {f : Itf} (hf : f.Fresh m0 m1) :
    ∃ f', f.findEdgs m0 m1 = some f' ∧ f.Same f' ∧ f'.Whole m0 m1 := by
  rcases h0.dims with ⟨hd1, -⟩ | ⟨hd2, -⟩ | ⟨hd3, -⟩
  · refine ⟨f, by simp [Itf.findEdgs, hd1, ← hd], ⟨rfl, rfl, rfl, rfl⟩, ?_⟩
    rcases hf with hf | hf
    · intro b q
      rw [hf]
      refine isList_nil fun i => ?_
      cases b <;> cases q <;> simp [Boundary, side, hd1, ← hd]
    · exact hf
  · obtain ⟨p0, a0, b0⟩ := findEdges_boundary h0 hd2 f.nodes0
    obtain ⟨p1, a1, b1⟩ := findEdges_boundary h1 (hd ▸ hd2) f.nodes1
    have hd2' : m1.dim = 2 := hd ▸ hd2
    refine ⟨{ f with edges0 := p0, edges1 := p1, provided := false }, by simp [Itf.findEdgs, hd2, hd2', a0, a1],
      ⟨rfl, rfl, rfl, rfl⟩, ?_⟩
    intro b q
    cases b <;> cases q
    · exact b0
    · have : f.tris0 = [] := by
        rcases hf with hf | hf
        · exact hf false .tris
        · exact (hf false .tris).unique (isList_nil fun i => by simp [Boundary, side, hd2])
      simp only [Itf.stored, this]; exact isList_nil fun i => by simp [Boundary, side, hd2]
    · exact b1
    · have : f.tris1 = [] := by
        rcases hf with hf | hf
        · exact hf true .tris
        · exact (hf true .tris).unique (isList_nil fun i => by simp [Boundary, side, hd2'])
      simp only [Itf.stored, this]; exact isList_nil fun i => by simp [Boundary, side, hd2']
  · obtain ⟨f', a, b, c⟩ := Itf.findTris_spec h0 h1 hd (by omega) f
    exact ⟨f', by simp [Itf.findEdgs, ← hd, hd3, a], b, c⟩

theorem Itf.ask_spec {m0 m1 : Mesh} (h0 : Proper m0) (h1 : Proper m1) (hd : m0.dim = m1.dim) {f : Itf} (hf : f.Fresh m0 m1)
    (b : Bool) {q : Query} (hq : Fits m0 q) :
    ∃ f' a, f.ask m0 m1 b q = some (f', a) ∧ f.Same f' ∧ f'.Whole m0 m1 ∧ a = f'.stored b q := by
  have stay : f.stored b q ≠ [] → f.Whole m0 m1 := by
    intro h
    rcases hf with hf | hf
    · exact absurd (hf b q) h
    · exact hf
  cases q with
  | edges =>
    obtain ⟨f', a1, a2, a3⟩ := Itf.findEdgs_spec h0 h1 hd hf
    cases b with
    | false =>
      by_cases h : f.edges0 = []
      · exact ⟨f', _, by simp only [Itf.ask, Itf.getEdges0, if_pos h, a1]; rfl, a2, a3, rfl⟩
      · exact ⟨f, _, by simp only [Itf.ask, Itf.getEdges0, if_neg h]; rfl, ⟨rfl, rfl, rfl, rfl⟩, stay h, rfl⟩
    | true =>
      by_cases h : f.edges1 = []
      · exact ⟨f', _, by simp only [Itf.ask, Itf.getEdges1, if_pos h, a1]; rfl, a2, a3, rfl⟩
      · exact ⟨f, _, by simp only [Itf.ask, Itf.getEdges1, if_neg h]; rfl, ⟨rfl, rfl, rfl, rfl⟩, stay h, rfl⟩
  | tris =>
    obtain ⟨f', a1, a2, a3⟩ := Itf.findTris_spec h0 h1 hd (fun h => by cases hq h) f
    cases b with
    | false =>
      by_cases h : f.tris0 = []
      · exact ⟨f', _, by simp only [Itf.ask, Itf.getTris0, if_pos h, a1]; rfl, a2, a3, rfl⟩
      · exact ⟨f, _, by simp only [Itf.ask, Itf.getTris0, if_neg h]; rfl, ⟨rfl, rfl, rfl, rfl⟩, stay h, rfl⟩
    | true =>
      by_cases h : f.tris1 = []
      · exact ⟨f', _, by simp only [Itf.ask, Itf.getTris1, if_pos h, a1]; rfl, a2, a3, rfl⟩
      · exact ⟨f, _, by simp only [Itf.ask, Itf.getTris1, if_neg h]; rfl, ⟨rfl, rfl, rfl, rfl⟩, stay h, rfl⟩

/-- **The elements of an interface**: of an interface that was made from nodes, every question to either side in every history is
answered by the boundary of that side. -/
theorem interface_elements {m0 m1 : Mesh} (h0 : Proper m0) (h1 : Proper m1) (hd : m0.dim = m1.dim) {f : Itf} (hf : f.Fresh m0 m1)
    (qs : List (Bool × Query)) (hq : ∀ q ∈ qs, Fits m0 q.2) :
    ∃ f' as, f.askAll m0 m1 qs = some (f', as) ∧ as.length = qs.length ∧ f.Same f' ∧
      ∀ (k : ℕ) q a, qs[k]? = some q → as[k]? = some a → IsList a (Boundary (side m0 m1 q.1) (f.nodes q.1) q.2) := by
  induction qs generalizing f with
  | nil => exact ⟨f, [], rfl, rfl, ⟨rfl, rfl, rfl, rfl⟩, by simp⟩
  | cons q qs ih =>
    obtain ⟨f1, a, a1, a2, a3, a4⟩ := Itf.ask_spec h0 h1 hd hf q.1 (hq q (by simp))
    obtain ⟨f2, as, b1, b2, b3, b4⟩ := ih (.inr a3) fun q hq' => hq q (by simp [hq'])
    refine ⟨f2, a :: as, by simp [Itf.askAll, a1, b1], by simp [b2], a2.trans b3, ?_⟩
    intro k q' a' hk ha
    cases k with
    | zero =>
      simp at hk ha; subst hk ha a4
      rw [← a2.nodes]; exact a3 q.1 q.2
    | succ k => simp at hk ha; rw [← a2.nodes]; exact b4 k q' a' hk ha

/-- **Elements from a file** are kept. -/
theorem interface_kept {m0 m1 : Mesh} {f : Itf} (he : ∀ b, f.stored b .edges ≠ []) (ht : m0.dim = 2 ∨ ∀ b, f.stored b .tris ≠ [])
    (qs : List (Bool × Query)) (hq : ∀ q ∈ qs, Fits m0 q.2) :
    f.askAll m0 m1 qs = some (f, qs.map fun q => f.stored q.1 q.2) := by
  have e0 : f.edges0 ≠ [] := he false
  have e1 : f.edges1 ≠ [] := he true
  induction qs with
  | nil => rfl
  | cons q qs ih =>
    have h1 : f.ask m0 m1 q.1 q.2 = some (f, f.stored q.1 q.2) := by
      obtain ⟨b, q⟩ := q
      cases q with
      | edges => cases b <;> simp [Itf.ask, Itf.getEdges0, Itf.getEdges1, e0, e1, Itf.stored]
      | tris =>
        rcases ht with ht | ht
        · cases hq (b, .tris) (by simp) ht
        · have t0 : f.tris0 ≠ [] := ht false
          have t1 : f.tris1 ≠ [] := ht true
          cases b <;> simp [Itf.ask, Itf.getTris0, Itf.getTris1, t0, t1, Itf.stored]
    simp only [Itf.askAll, h1, ih fun q hq' => hq q (by simp [hq'])]
    rfl

/-- The answers are the lists that the loader gave. -/
theorem loaded_kept {m0 m1 : Mesh} {f : Itf} {t0 t1 e0 e1 : List ℕ} (h0 : e0 ≠ []) (h1 : e1 ≠ [])
    (ht : m0.dim = 2 ∨ (t0 ≠ [] ∧ t1 ≠ [])) (qs : List (Bool × Query)) (hq : ∀ q ∈ qs, Fits m0 q.2) :
    (f.load t0 t1 e0 e1).askAll m0 m1 qs = some (f.load t0 t1 e0 e1, qs.map fun
      | (false, .edges) => e0 | (true, .edges) => e1 | (false, .tris) => t0 | (true, .tris) => t1) := by
  rw [interface_kept (f := f.load t0 t1 e0 e1) (fun b => by cases b; exacts [h0, h1])
    (ht.imp_right fun h b => by cases b; exacts [h.1, h.2]) qs hq]
  congr 2
  refine List.map_congr_left fun q _ => ?_
  obtain ⟨b, q⟩ := q
  cases b <;> cases q <;> rfl

end Verif.Bnd
