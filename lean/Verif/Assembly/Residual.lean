import Verif.Assembly.Load

/-!
# What the assembled residual is (C40)

`bulkResidual`, `contactResidual` are written from the documentation of the `equation` and `contact_equation` commands:
sums over the edges, triangles and tetrahedra of the mesh by their numbers. The theorems say that the assembled right hand side
entries of a row add up to them, for every mesh and every set of models, whether the right hand side is assembled alone or with
the matrix.
-/

namespace Verif.Assembly

section
variable {K : Type} [CommRing K]

/-! ## Specification -/

/-- Factor with which an edge counts at node `n`: `a` at its head, `b` at its tail. -/
def inc (e : Nat × Nat) (n : Nat) (a b : K) : K := (if e.1 = n then a else 0) + (if e.2 = n then b else 0)

/-- Sum over the edges of the region at node `n`; the quantity of edge number `i` is `q i`. -/
def overEdges (g : Topo) (a b : K) (q : Nat → K) (n : Nat) : K :=
  ∑ i ∈ Finset.range g.edges.length, inc (g.edges.getD i (0, 0)) n a b * q i

/-- Sum over the triangle edges at node `n`; edge `j` of triangle `i` has the number `3 i + j`. -/
def overTris (g : Topo) (a b : K) (q : Nat → K) (n : Nat) : K :=
  ∑ i ∈ Finset.range g.tris.length, ∑ j ∈ Finset.range (g.tris.getD i ([], [])).1.length,
    inc ((g.tris.getD i ([], [])).1.getD j (0, 0)) n a b * q (3 * i + j)

/-- Sum over the tetrahedron edges at node `n`; edge `j` of tetrahedron `i` has the number `6 i + j`. -/
def overTets (g : Topo) (a b : K) (q : Nat → K) (n : Nat) : K :=
  ∑ i ∈ Finset.range g.tets.length, ∑ j ∈ Finset.range (g.tets.getD i []).length,
    inc ((g.tets.getD i []).getD j ((0, 0), (0, 0))).1 n a b * q (6 * i + j)

/-- Sum over the element edges: triangles in two dimensions, tetrahedra in three. -/
def overElements (g : Topo) (T : Tables K) (a b : K) (geom model : String) (n : Nat) : K :=
  if g.dim = 2 then overTris g a b (fun i => val (T.tri geom) i * val (T.tri model) i) n
  else if g.dim = 3 then overTets g a b (fun i => val (T.tet geom) i * val (T.tet model) i) n
  else 0

/-- The residual of a bulk equation at node `n`: flux through the edges (outgoing at the head), edge models integrated over the
edge volumes, node models times node volume, and the same for element edges; in the time derivative mode the time node model times
node volume. A model that is not given does not contribute. -/
def bulkResidual (g : Topo) (T : Tables K) (e : EqSpec) (t : TimeMode) (n : Nat) : K :=
  match t with
  | .time => if e.timeNodeModel = "" then 0 else val (T.node g.nodeVolume) n * val (T.node e.timeNodeModel) n
  | .dc =>
    (if e.edgeModel = "" then 0
      else overEdges g 1 (-1) (fun i => val (T.edge g.edgeCouple) i * val (T.edge e.edgeModel) i) n) +
    (if e.edgeVolumeModel = "" then 0
      else overEdges g 1 0 (fun i => val (T.edge g.edgeNode0Volume) i * val (T.edge e.edgeVolumeModel) i) n +
        overEdges g 0 1 (fun i => val (T.edge g.edgeNode1Volume) i * val (T.edge e.edgeVolumeModel) i) n) +
    (if e.nodeModel = "" then 0 else val (T.node g.nodeVolume) n * val (T.node e.nodeModel) n) +
    (if e.elementModel = "" then 0 else overElements g T 1 (-1) g.elementEdgeCouple e.elementModel n) +
    (if e.volumeNode0Model = "" ∧ e.volumeNode1Model = "" then 0
      else overElements g T 1 0 g.elementNode0Volume e.volumeNode0Model n +
        overElements g T 0 1 g.elementNode1Volume e.volumeNode1Model n)

/-! ## Lemmas -/

theorem list_sum_eq_range {α : Type} (l : List α) (d : α) (f : α → K) :
    (l.map f).sum = ∑ i ∈ Finset.range l.length, f (l.getD i d) := by
  induction l with
  | nil => simp
  | cons a as ih => rw [List.map_cons, List.sum_cons, ih, List.length_cons, Finset.sum_range_succ']; simp [add_comm]

theorem zipIdx_sum {α : Type} (l : List α) (d : α) (f : α → Nat → K) (k : Nat) :
    ((l.zipIdx k).map fun p => f p.1 p.2).sum = ∑ i ∈ Finset.range l.length, f (l.getD i d) (k + i) := by
  induction l generalizing k with
  | nil => simp
  | cons a as ih =>
    rw [List.zipIdx_cons, List.map_cons, List.sum_cons, ih, List.length_cons, Finset.sum_range_succ', add_comm]
    congr 1
    refine Finset.sum_congr rfl fun i _ => ?_
    simp [Nat.add_assoc, Nat.add_comm 1 i]

theorem edgeSites_sum (g : Topo) (a b : K) (q : Nat → K) (n : Nat) :
    (g.edgeSites.map fun s => inc (s.n0, s.n1) n a b * q s.idx).sum = overEdges g a b q n := by
  rw [Topo.edgeSites, List.map_map]
  have := zipIdx_sum g.edges (0, 0) (fun e i => inc e n a b * q i) 0
  simp only [Nat.zero_add] at this
  rw [overEdges, ← this]
  rfl

theorem flatMap_sum {α β : Type} (l : List α) (f : α → List β) (h : β → K) :
    ((l.flatMap f).map h).sum = (l.map fun a => ((f a).map h).sum).sum := by
  induction l with
  | nil => simp
  | cons a as ih => simp [List.flatMap_cons, ih]

theorem triSites_sum (g : Topo) (a b : K) (q : Nat → K) (n : Nat) :
    (g.triSites.map fun s => inc (s.n0, s.n1) n a b * q s.idx).sum = overTris g a b q n := by
  rw [Topo.triSites, flatMap_sum]
  have h1 : ∀ (t : List (Nat × Nat) × List Nat) (i : Nat),
      (((t.1.zipIdx.map fun (p : (Nat × Nat) × Nat) => (⟨3 * i + p.2, p.1.1, p.1.2, [t.2.getD p.2 0]⟩ : Site))).map
        fun s => inc (s.n0, s.n1) n a b * q s.idx).sum =
      ∑ j ∈ Finset.range t.1.length, inc (t.1.getD j (0, 0)) n a b * q (3 * i + j) := by
    intro t i
    have := zipIdx_sum t.1 (0, 0) (fun e j => inc e n a b * q (3 * i + j)) 0
    simp only [Nat.zero_add] at this
    rw [List.map_map, ← this]
    rfl
  have h2 := zipIdx_sum g.tris ([], []) (fun t i => ∑ j ∈ Finset.range t.1.length, inc (t.1.getD j (0, 0)) n a b * q (3 * i + j)) 0
  simp only [Nat.zero_add] at h2
  rw [overTris, ← h2]
  congr 1
  refine List.map_congr_left fun p _ => ?_
  exact h1 p.1 p.2

theorem tetSites_sum (g : Topo) (a b : K) (q : Nat → K) (n : Nat) :
    (g.tetSites.map fun s => inc (s.n0, s.n1) n a b * q s.idx).sum = overTets g a b q n := by
  rw [Topo.tetSites, flatMap_sum]
  have h1 : ∀ (t : List ((Nat × Nat) × (Nat × Nat))) (i : Nat),
      (((t.zipIdx.map fun (p : ((Nat × Nat) × (Nat × Nat)) × Nat) =>
          (⟨6 * i + p.2, p.1.1.1, p.1.1.2, [p.1.2.1, p.1.2.2]⟩ : Site))).map
        fun s => inc (s.n0, s.n1) n a b * q s.idx).sum =
      ∑ j ∈ Finset.range t.length, inc (t.getD j ((0, 0), (0, 0))).1 n a b * q (6 * i + j) := by
    intro t i
    have := zipIdx_sum t ((0, 0), (0, 0)) (fun e j => inc e.1 n a b * q (6 * i + j)) 0
    simp only [Nat.zero_add] at this
    rw [List.map_map, ← this]
    rfl
  have h2 := zipIdx_sum g.tets [] (fun t i => ∑ j ∈ Finset.range t.length, inc (t.getD j ((0, 0), (0, 0))).1 n a b * q (6 * i + j)) 0
  simp only [Nat.zero_add] at h2
  rw [overTets, ← h2]
  congr 1
  refine List.map_congr_left fun p _ => ?_
  exact h1 p.1 p.2

theorem weight_num (g : Topo) (eq : Nat) (a b : K) (n : Nat) (s : Site) :
    weight g eq a b (g.num eq n) s = inc (s.n0, s.n1) n a b := by
  have h : ∀ x, g.num eq x = g.num eq n ↔ x = n := fun x => ⟨Topo.num_inj, fun h => by rw [h]⟩
  simp only [weight, inc, h]

/-- the quantity of a model on a site, weighted with a geometry model -/
theorem couple_rhs {g : Topo} {sh : Shape} {tbl : String → Option (Nat → K)} {name model couple : String} {a b : K} {w : What}
    {m : List (MEntry K)} {v : List (VEntry K)} (hw : w.doRhs = true)
    (h : coupleAssemble g sh tbl name model couple a b w = some (m, v)) :
    ∃ eq, g.eqIndex name = some eq ∧ (∀ n, rowSum v (g.num eq n) =
      (sh.sites.map fun s => inc (s.n0, s.n1) n a b * (val (tbl couple) s.idx * val (tbl model) s.idx)).sum) ∧
      (∀ x ∈ v, ∃ s ∈ sh.sites, x.1 = g.num eq s.n0 ∨ x.1 = g.num eq s.n1) := by
  unfold coupleAssemble at h
  have key : ∃ ef ec, tbl model = some ef ∧ tbl couple = some ec ∧
      (g.eqIndex name).map (fun eq => siteRHS g eq sh.sites (times ef ec) a b) = some v := by
    cases hdm : w.doMat <;>
      simp only [hw, hdm, if_true, Bool.false_eq_true, if_false, Option.bind_eq_bind, Option.bind_eq_some_iff, Option.pure_def,
        Option.some.injEq, Prod.mk.injEq] at h <;>
      obtain ⟨ef, hef, ec, hec, v', hv', _, _, _, rfl⟩ := h <;> exact ⟨ef, ec, hef, hec, hv'⟩
  obtain ⟨ef, ec, hef, hec, hv'⟩ := key
  cases heq : g.eqIndex name with
  | none => simp [heq] at hv'
  | some eq =>
    simp only [heq, Option.map_some, Option.some.injEq] at hv'
    refine ⟨eq, rfl, ?_, ?_⟩
    · intro n
      rw [← hv', rowSum_siteRHS]
      congr 1
      refine List.map_congr_left fun s _ => ?_
      simp only [weight_num, times, hec, hef, val]; ring
    · intro x hx
      rw [← hv', siteRHS, List.mem_flatMap] at hx
      obtain ⟨s, hs, hx⟩ := hx
      simp only [List.mem_cons, List.not_mem_nil, or_false] at hx
      rcases hx with rfl | rfl
      · exact ⟨s, hs, .inl rfl⟩
      · exact ⟨s, hs, .inr rfl⟩

theorem node_rhs {g : Topo} {T : Tables K} {name model : String} {w : What}
    {m : List (MEntry K)} {v : List (VEntry K)} (hw : w.doRhs = true)
    (h : nodeVolumeAssemble g T name model w = some (m, v)) :
    ∃ eq, g.eqIndex name = some eq ∧
      (∀ n, n < g.numNodes → rowSum v (g.num eq n) = val (T.node g.nodeVolume) n * val (T.node model) n) ∧
      (∀ x ∈ v, ∃ i, i < g.numNodes ∧ x.1 = g.num eq i) := by
  unfold nodeVolumeAssemble at h
  have key : ∃ nm nv, T.node model = some nm ∧ T.node g.nodeVolume = some nv ∧
      (g.eqIndex name).map (fun eq => nodeRHS g eq (times nv nm)) = some v := by
    cases hdm : w.doMat <;>
      simp only [hw, hdm, if_true, Bool.false_eq_true, if_false, Option.bind_eq_bind, Option.bind_eq_some_iff, Option.pure_def,
        Option.some.injEq, Prod.mk.injEq] at h <;>
      obtain ⟨ef, hef, ec, hec, v', hv', _, _, _, rfl⟩ := h <;> exact ⟨ef, ec, hef, hec, hv'⟩
  obtain ⟨nm, nv, hnm, hnv, hv'⟩ := key
  cases heq : g.eqIndex name with
  | none => simp [heq] at hv'
  | some eq =>
    simp only [heq, Option.map_some, Option.some.injEq] at hv'
    refine ⟨eq, rfl, ?_, ?_⟩
    · intro n hn
      rw [← hv', nodeRHS, rowSum, List.map_map]
      have h : ∀ x, g.num eq x = g.num eq n ↔ x = n := fun x => ⟨Topo.num_inj, fun h => by rw [h]⟩
      simp only [Function.comp_def, h, times, hnm, hnv, val]
      rw [list_sum_eq_range _ 0]
      simp only [List.length_range]
      rw [Finset.sum_congr rfl (g := fun i => if i = n then nv i * nm i else 0)
        (fun i hi => by simp [List.getD, List.getElem?_range (Finset.mem_range.1 hi)])]
      simp [hn]
    · intro x hx
      rw [← hv', nodeRHS, List.mem_map] at hx
      obtain ⟨i, hi, rfl⟩ := hx
      exact ⟨i, List.mem_range.1 hi, rfl⟩

/-! ## Composition -/

/-- `A` assembles the residual `F` of the equation at the nodes `l`, and makes entries in the rows of these nodes only. -/
def Assembles (g : Topo) (name : String) (l : List Nat) (A : Option (List (MEntry K) × List (VEntry K))) (F : Nat → K) : Prop :=
  ∀ m v, A = some (m, v) → ∀ eq, g.eqIndex name = some eq →
    (∀ n ∈ l, rowSum v (g.num eq n) = F n) ∧ (∀ x ∈ v, ∃ i ∈ l, x.1 = g.num eq i)

theorem Assembles.none' {g : Topo} {name : String} {l : List Nat} : Assembles g name l (some (([] : List (MEntry K)), [])) (fun _ => 0) := by
  intro m v h eq _
  simp only [Option.some.injEq, Prod.mk.injEq] at h
  obtain ⟨-, rfl⟩ := h
  exact ⟨fun _ _ => rfl, fun x hx => by simp at hx⟩

theorem Assembles.both {g : Topo} {name : String} {l : List Nat} {A B : Option (List (MEntry K) × List (VEntry K))} {F G : Nat → K}
    (ha : Assembles g name l A F) (hb : Assembles g name l B G) : Assembles g name l (andThen A B) (fun n => F n + G n) := by
  intro m v h eq heq
  cases hA : A with
  | none => simp [hA, andThen] at h
  | some p =>
    cases hB : B with
    | none => simp [hA, hB, andThen] at h
    | some p' =>
      obtain ⟨m1, v1⟩ := p
      obtain ⟨m2, v2⟩ := p'
      simp only [hA, hB, andThen, Option.some.injEq, Prod.mk.injEq] at h
      obtain ⟨rfl, rfl⟩ := h
      obtain ⟨a1, a2⟩ := ha _ _ hA eq heq
      obtain ⟨b1, b2⟩ := hb _ _ hB eq heq
      refine ⟨fun n hn => by rw [rowSum_append, a1 n hn, b1 n hn], ?_⟩
      intro x hx
      rcases List.mem_append.1 hx with h | h
      · exact a2 x h
      · exact b2 x h

theorem Assembles.cond {g : Topo} {name : String} {l : List Nat} {A : Option (List (MEntry K) × List (VEntry K))} {F : Nat → K} {c : Bool}
    (ha : c = true → Assembles g name l A F) : Assembles g name l (whenA c A) (fun n => if c then F n else 0) := by
  cases c with
  | true => simpa [whenA] using ha rfl
  | false => simpa [whenA] using Assembles.none'

theorem Assembles.congr {g : Topo} {name : String} {l : List Nat} {A : Option (List (MEntry K) × List (VEntry K))} {F G : Nat → K}
    (ha : Assembles g name l A F) (h : ∀ n, F n = G n) : Assembles g name l A G := by
  rwa [show G = F from funext fun n => (h n).symm]

theorem assembles_couple {g : Topo} {sh : Shape} {tbl : String → Option (Nat → K)} {name model couple : String} {a b : K} {w : What}
    (hw : w.doRhs = true) (hg : GoodSites g sh.sites) :
    Assembles g name (List.range g.numNodes) (coupleAssemble g sh tbl name model couple a b w) (fun n =>
      (sh.sites.map fun s => inc (s.n0, s.n1) n a b * (val (tbl couple) s.idx * val (tbl model) s.idx)).sum) := by
  intro m v h eq heq
  obtain ⟨eq', he, h1, h2⟩ := couple_rhs hw h
  rw [heq] at he; cases he
  refine ⟨fun n _ => h1 n, ?_⟩
  intro x hx
  obtain ⟨s, hs, h | h⟩ := h2 x hx
  · exact ⟨s.n0, List.mem_range.2 (hg s hs).1, h⟩
  · exact ⟨s.n1, List.mem_range.2 (hg s hs).2.1, h⟩

theorem assembles_node {g : Topo} {T : Tables K} {name model : String} {w : What} (hw : w.doRhs = true) :
    Assembles g name (List.range g.numNodes) (nodeVolumeAssemble g T name model w) (fun n => val (T.node g.nodeVolume) n * val (T.node model) n) := by
  intro m v h eq heq
  obtain ⟨eq', he, h1, h2⟩ := node_rhs hw h
  rw [heq] at he; cases he
  refine ⟨fun n hn => h1 n (List.mem_range.1 hn), fun x hx => ?_⟩
  obtain ⟨i, hi, h⟩ := h2 x hx
  exact ⟨i, List.mem_range.2 hi, h⟩

theorem inc_add (e : Nat × Nat) (n : Nat) (a b c d : K) : inc e n a b + inc e n c d = inc e n (a + c) (b + d) := by
  simp only [inc]; split <;> split <;> ring

/-- element edges and edges join two different nodes of the region, in every dimension -/
structure GoodMesh (g : Topo) : Prop where
  edges : GoodSites g g.edgeSites
  tris : GoodSites g g.triSites
  tets : GoodSites g g.tetSites

theorem assembles_elements {g : Topo} {T : Tables K} {name model couple : String} {a b : K} {w : What}
    (hw : w.doRhs = true) (hg : GoodMesh g) :
    Assembles g name (List.range g.numNodes)
      (if g.dim = 2 then coupleAssemble g (triShape g) T.tri name model couple a b w
       else if g.dim = 3 then coupleAssemble g (tetShape g) T.tet name model couple a b w else some ([], []))
      (overElements g T a b couple model) := by
  unfold overElements
  by_cases h2 : g.dim = 2
  · simp only [h2, if_true]
    exact (assembles_couple (sh := triShape g) hw hg.tris).congr fun n =>
      triSites_sum g a b (fun i => val (T.tri couple) i * val (T.tri model) i) n
  · by_cases h3 : g.dim = 3
    · simp only [h3, if_true, show ¬ (3 = 2) by decide, if_false]
      exact (assembles_couple (sh := tetShape g) hw hg.tets).congr fun n =>
        tetSites_sum g a b (fun i => val (T.tet couple) i * val (T.tet model) i) n
    · simp only [h2, h3, if_false]
      exact Assembles.none'

theorem assembles_edges {g : Topo} {T : Tables K} {name model couple : String} {a b : K} {w : What}
    (hw : w.doRhs = true) (hg : GoodMesh g) :
    Assembles g name (List.range g.numNodes) (coupleAssemble g (edgeShape g) T.edge name model couple a b w)
      (overEdges g a b (fun i => val (T.edge couple) i * val (T.edge model) i)) :=
  (assembles_couple (sh := edgeShape g) hw hg.edges).congr fun n =>
    edgeSites_sum g a b (fun i => val (T.edge couple) i * val (T.edge model) i) n

theorem overElements_add (g : Topo) (T : Tables K) (geom model : String) (n : Nat) :
    overElements g T 1 0 geom model n + overElements g T 0 1 geom model n = overElements g T 1 1 geom model n := by
  have hi : ∀ (e : Nat × Nat) (q : K), inc e n 1 0 * q + inc e n 0 1 * q = inc e n 1 1 * q := by
    intro e q; rw [← add_mul, inc_add]; simp
  unfold overElements
  split
  · simp only [overTris, ← Finset.sum_add_distrib, hi]
  · split
    · simp only [overTets, ← Finset.sum_add_distrib, hi]
    · simp

theorem overEdges_add (g : Topo) (q : Nat → K) (n : Nat) :
    overEdges g 1 0 q n + overEdges g 0 1 q n = overEdges g 1 1 q n := by
  have hi : ∀ (e : Nat × Nat) (q : K), inc e n 1 0 * q + inc e n 0 1 * q = inc e n 1 1 * q := by
    intro e q; rw [← add_mul, inc_add]; simp
  simp only [overEdges, ← Finset.sum_add_distrib, hi]

theorem assembles_edgeVolume {g : Topo} {T : Tables K} {name model : String} {w : What} (hw : w.doRhs = true) (hg : GoodMesh g) :
    Assembles g name (List.range g.numNodes) (edgeNodeVolumeAssemble g T name model w) (fun n =>
      overEdges g 1 0 (fun i => val (T.edge g.edgeNode0Volume) i * val (T.edge model) i) n +
        overEdges g 0 1 (fun i => val (T.edge g.edgeNode1Volume) i * val (T.edge model) i) n) := by
  unfold edgeNodeVolumeAssemble
  split
  · rename_i h
    refine (assembles_edges hw hg).congr fun n => ?_
    rw [← h, overEdges_add]
  · exact Assembles.both (assembles_edges hw hg) (assembles_edges hw hg)

theorem assembles_elementVolume {g : Topo} {T : Tables K} {name v0 v1 : String} {w : What} (hw : w.doRhs = true) (hg : GoodMesh g) :
    Assembles g name (List.range g.numNodes) (elementNodeVolumeAssemble g T name v0 v1 w) (fun n =>
      overElements g T 1 0 g.elementNode0Volume v0 n + overElements g T 0 1 g.elementNode1Volume v1 n) := by
  by_cases hs : g.elementNode0Volume = g.elementNode1Volume ∧ v0 = v1
  · refine Assembles.congr (F := overElements g T 1 1 g.elementNode0Volume v0) ?_ fun n => ?_
    · have := assembles_elements (g := g) (T := T) (name := name) (model := v0) (couple := g.elementNode0Volume) (a := 1) (b := 1) hw hg
      simpa only [elementNodeVolumeAssemble, if_pos hs] using this
    · rw [← hs.1, ← hs.2, overElements_add]
  · have h1 := assembles_elements (g := g) (T := T) (name := name) (model := v0) (couple := g.elementNode0Volume) (a := 1) (b := 0) hw hg
    have h2 := assembles_elements (g := g) (T := T) (name := name) (model := v1) (couple := g.elementNode1Volume) (a := 0) (b := 1) hw hg
    have h := Assembles.both h1 h2
    simp only [elementNodeVolumeAssemble, if_neg hs]
    by_cases d2 : g.dim = 2
    · simp only [d2, if_true] at h ⊢; exact h
    · by_cases d3 : g.dim = 3
      · simp only [d3, if_true] at h ⊢; exact h
      · simp only [d2, d3, if_false, andThen, List.append_nil] at h ⊢; exact h

/-- **C40 (bulk)**: whenever the assembly of an equation succeeds, the right hand side entries of its row at node `n` add up to the
finite volume residual, and it makes entries in its own rows only. Missing for the full claim: an `edge_volume_model` without an
`edge_model` is ignored by the code (`edge_volume_ignored`), which the hypothesis `hv` excludes. -/
theorem bulk_residual_partial {g : Topo} {T : Tables K} {e : EqSpec} {w : What} {t : TimeMode} {m : List (MEntry K)}
    {v : List (VEntry K)} {eq : Nat} (hw : w.doRhs = true) (hg : GoodMesh g) (hv : e.edgeModel = "" → e.edgeVolumeModel = "")
    (heq : g.eqIndex e.name = some eq) (h : exprAssemble g T e w t = some (m, v)) :
    (∀ n, n < g.numNodes → rowSum v (g.num eq n) = bulkResidual g T e t n) ∧
      (∀ x ∈ v, ∃ i, i < g.numNodes ∧ x.1 = g.num eq i) := by
  suffices hh : Assembles g e.name (List.range g.numNodes) (exprAssemble g T e w t) (bulkResidual g T e t) by
    obtain ⟨h1, h2⟩ := hh m v h eq heq
    refine ⟨fun n hn => h1 n (List.mem_range.2 hn), fun x hx => ?_⟩
    obtain ⟨i, hi, h⟩ := h2 x hx
    exact ⟨i, List.mem_range.1 hi, h⟩
  cases t with
  | time =>
    simp only [exprAssemble]
    refine (Assembles.cond fun _ => assembles_node hw).congr fun n => ?_
    by_cases h : e.timeNodeModel = "" <;> simp [bulkResidual, h]
  | dc =>
    simp only [exprAssemble]
    refine (Assembles.both (Assembles.cond fun _ => Assembles.both
      (assembles_edges hw hg)
      (Assembles.cond fun _ => assembles_edgeVolume hw hg))
      (Assembles.both (Assembles.cond fun _ => assembles_node hw)
        (Assembles.both (Assembles.cond fun _ => assembles_elements hw hg)
          (Assembles.cond fun _ => assembles_elementVolume hw hg)))).congr fun n => ?_
    simp only [bulkResidual]
    have h1 : (decide (e.volumeNode0Model ≠ "") || decide (e.volumeNode1Model ≠ "")) = true ↔
        ¬ (e.volumeNode0Model = "" ∧ e.volumeNode1Model = "") := by
      simp only [Bool.or_eq_true, decide_eq_true_eq]; tauto
    have hv' : (if e.edgeModel = "" then (0 : K) else if e.edgeVolumeModel = "" then 0 else
        overEdges g 1 0 (fun i => val (T.edge g.edgeNode0Volume) i * val (T.edge e.edgeVolumeModel) i) n +
        overEdges g 0 1 (fun i => val (T.edge g.edgeNode1Volume) i * val (T.edge e.edgeVolumeModel) i) n) =
        if e.edgeVolumeModel = "" then 0 else
        overEdges g 1 0 (fun i => val (T.edge g.edgeNode0Volume) i * val (T.edge e.edgeVolumeModel) i) n +
        overEdges g 0 1 (fun i => val (T.edge g.edgeNode1Volume) i * val (T.edge e.edgeVolumeModel) i) n := by
      by_cases h : e.edgeModel = ""
      · simp [h, hv h]
      · simp [h]
    rw [← hv']
    simp only [h1, decide_eq_true_eq, ne_eq, ite_not]
    by_cases h2 : e.edgeModel = "" <;> simp only [h2, if_true, if_false] <;> ring

end
end Verif.Assembly
