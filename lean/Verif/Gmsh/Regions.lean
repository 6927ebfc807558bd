import Verif.Gmsh.Finalize

/-!
# C69: the regions of a device made of a Gmsh mesh
-/

namespace Verif.Gmsh
open Verif.MeshIO

variable {α : Type}

/-! ### Specification -/

/-- Some element of the named physical groups has the node `c`. -/
def Used (G : Gmsh α) (ps : List Text) (c : Nat) : Prop := ∃ p ∈ ps, ∃ e, Group G p e ∧ c ∈ e.nodes

/-- `l` is a line, triangle or tetrahedron (by its length) of an element of the named physical groups. -/
def Has (G : Gmsh α) (ps : List Text) (l : List Nat) : Prop := ∃ p ∈ ps, ∃ e, Group G p e ∧ Side e l

/-- Coordinate number `j` of the list is the last one with index `i`. -/
def Pos (G : Gmsh α) (i j : Nat) : Prop :=
  (∃ c, G.coords[j]? = some (i, c)) ∧ ∀ k c, G.coords[k]? = some (i, c) → k ≤ j

/-- The coordinates that nodes of a region stand for. -/
def glob (ids : List Nat) (e : List Nat) : List Nat := e.map fun k => ids.getD k 0

/-- What a region of the device is. `ids` lists the coordinate indices of its nodes: those of the elements of its
physical groups, in increasing order. Node number `k` of the region lies at the coordinate with index `ids[k]`; the
edges, triangles and tetrahedra of the region are exactly those of the elements of its groups, each listed once. -/
structure RegionOK (G : Gmsh α) (dim : Nat) (ri : RInfo) (ids : List Nat) (r : Reg α) : Prop where
  material : r.material = ri.material
  dim : r.dim = dim
  ids_sorted : ids.Pairwise (· < ·)
  ids_mem : ∀ c, c ∈ ids ↔ Used G ri.pnames c
  nodes_len : r.nodes.length = ids.length
  nodes : ∀ (k : Nat) i, ids[k]? = some i → ∃ j, r.nodes[k]? = some j ∧ Pos G i j
  edges_sorted : r.edges.Pairwise (· < ·)
  edges : ∀ e, e ∈ r.edges ↔ e.length = 2 ∧ (∀ k ∈ e, k < ids.length) ∧ Has G ri.pnames (glob ids e)
  tris_sorted : r.tris.Pairwise (· < ·)
  tris : ∀ e, e ∈ r.tris ↔ e.length = 3 ∧ (∀ k ∈ e, k < ids.length) ∧ Has G ri.pnames (glob ids e)
  tets_sorted : r.tets.Pairwise (· < ·)
  tets : ∀ e, e ∈ r.tets ↔ e.length = 4 ∧ (∀ k ∈ e, k < ids.length) ∧ Has G ri.pnames (glob ids e)

/-! ### Positions -/

theorem foldl_pos (l : List (Nat × (α × α × α))) (n : Nat) (f : Nat → Option Nat) (i j : Nat) :
    ((l.zipIdx n).foldl (fun f c => fun i => if i = c.1.1 then some c.2 else f i) f) i = some j ↔
      ((∃ (k : Nat) (c : α × α × α), j = n + k ∧ l[k]? = some (i, c) ∧ ∀ (k' : Nat) c, l[k']? = some (i, c) → k' ≤ k) ∨
        ((∀ (k : Nat) c, l[k]? ≠ some (i, c)) ∧ f i = some j)) := by
  induction l generalizing n f with
  | nil => simp
  | cons x l ih =>
    rw [List.zipIdx_cons, List.foldl_cons, ih]
    obtain ⟨a, c⟩ := x
    dsimp only
    constructor
    · rintro (⟨k, c', rfl, h1, h2⟩ | ⟨h1, h2⟩)
      · left
        refine ⟨k + 1, c', by omega, by simpa using h1, ?_⟩
        intro k' c'' hk
        cases k' with
        | zero => omega
        | succ k' =>
          have := h2 k' c'' (by simpa using hk)
          omega
      · by_cases hi : i = a
        · subst hi
          simp only [if_true, Option.some.injEq] at h2
          left
          refine ⟨0, c, by omega, by simp, ?_⟩
          intro k' c'' hk
          cases k' with
          | zero => omega
          | succ k' => exact absurd (by simpa using hk) (h1 k' c'')
        · rw [if_neg hi] at h2
          right
          refine ⟨?_, h2⟩
          intro k c' hk
          cases k with
          | zero => simp at hk; exact hi hk.1.symm
          | succ k => exact h1 k c' (by simpa using hk)
    · rintro (⟨k, c', rfl, h1, h2⟩ | ⟨h1, h2⟩)
      · cases k with
        | zero =>
          right
          simp only [List.getElem?_cons_zero, Option.some.injEq, Prod.mk.injEq] at h1
          refine ⟨?_, by rw [if_pos h1.1.symm]; simp⟩
          intro k' c'' hk
          have := h2 (k' + 1) c'' (by simpa using hk)
          omega
        | succ k =>
          left
          refine ⟨k, c', by omega, by simpa using h1, ?_⟩
          intro k' c'' hk
          have := h2 (k' + 1) c'' (by simpa using hk)
          omega
      · right
        refine ⟨fun k c' hk => h1 (k + 1) c' (by simpa using hk), ?_⟩
        rw [if_neg]
        · exact h2
        · rintro rfl
          exact h1 0 c (by simp)

theorem pos_iff {G : Gmsh α} {i j : Nat} : G.pos i = some j ↔ Pos G i j := by
  unfold Gmsh.pos Pos
  rw [foldl_pos]
  constructor
  · rintro (⟨k, c, rfl, h1, h2⟩ | ⟨_, h⟩)
    · rw [Nat.zero_add]
      exact ⟨⟨c, h1⟩, h2⟩
    · simp at h
  · rintro ⟨⟨c, h1⟩, h2⟩
    exact Or.inl ⟨j, c, by omega, h1, h2⟩

/-! ### Local and global numbers -/

theorem idxOf_lt_idxOf {ids : List Nat} (h : ids.Pairwise (· < ·)) {i j : Nat} (hi : i ∈ ids) (hj : j ∈ ids) (hij : i < j) :
    ids.idxOf i < ids.idxOf j := by
  have h1 := List.idxOf_lt_length_of_mem hi
  have h2 := List.idxOf_lt_length_of_mem hj
  by_contra hc
  rcases lt_or_eq_of_le (not_lt.1 hc) with hlt | heq
  · have := List.pairwise_iff_getElem.1 h _ _ h2 h1 hlt
    rw [List.getElem_idxOf h1, List.getElem_idxOf h2] at this
    omega
  · have e1 := List.getElem_idxOf h1
    have e2 := List.getElem_idxOf h2
    have : ids[ids.idxOf i]'h1 = ids[ids.idxOf j]'h2 := by congr 1; exact heq.symm
    rw [e1, e2] at this
    omega

theorem loc_lt {ids : List Nat} (h : ids.Pairwise (· < ·)) {e e' : List Nat} (he : ∀ i ∈ e, i ∈ ids) (he' : ∀ i ∈ e', i ∈ ids)
    (hlt : e < e') : loc ids e < loc ids e' := by
  induction e generalizing e' with
  | nil =>
    cases e' with
    | nil => exact absurd hlt (lt_irrefl _)
    | cons b t => exact List.nil_lt_cons _ _
  | cons a s ih =>
    cases e' with
    | nil => exact absurd hlt (List.not_lt_nil _)
    | cons b t =>
      unfold loc
      rw [List.map_cons, List.map_cons]
      rw [List.cons_lt_cons_iff] at hlt ⊢
      rcases hlt with hab | ⟨rfl, hst⟩
      · exact Or.inl (idxOf_lt_idxOf h (he a (by simp)) (he' b (by simp)) hab)
      · exact Or.inr ⟨rfl, ih (fun i hi => he i (by simp [hi])) (fun i hi => he' i (by simp [hi])) hst⟩

theorem glob_loc {ids e : List Nat} (he : ∀ i ∈ e, i ∈ ids) : glob ids (loc ids e) = e := by
  unfold glob loc
  rw [List.map_map]
  conv_rhs => rw [← List.map_id e]
  apply List.map_congr_left
  intro i hi
  have h1 := List.idxOf_lt_length_of_mem (he i hi)
  simp only [Function.comp_apply, id_eq]
  rw [List.getD_eq_getElem?_getD, List.getElem?_eq_getElem h1, List.getElem_idxOf h1]
  rfl

theorem loc_glob {ids e : List Nat} (h : ids.Pairwise (· < ·)) (he : ∀ k ∈ e, k < ids.length) : loc ids (glob ids e) = e := by
  unfold glob loc
  rw [List.map_map]
  conv_rhs => rw [← List.map_id e]
  apply List.map_congr_left
  intro k hk
  have h1 := he k hk
  simp only [Function.comp_apply, id_eq]
  rw [List.getD_eq_getElem?_getD, List.getElem?_eq_getElem h1, Option.getD_some,
    List.Nodup.idxOf_getElem (h.imp fun h => ne_of_lt h) k h1]

theorem loc_bound {ids e : List Nat} (he : ∀ i ∈ e, i ∈ ids) : ∀ k ∈ loc ids e, k < ids.length := by
  intro k hk
  obtain ⟨i, hi, rfl⟩ := List.mem_map.1 hk
  exact List.idxOf_lt_length_of_mem (he i hi)

theorem glob_mem {ids e : List Nat} (he : ∀ k ∈ e, k < ids.length) : ∀ i ∈ glob ids e, i ∈ ids := by
  intro i hi
  obtain ⟨k, hk, rfl⟩ := List.mem_map.1 hi
  have h1 := he k hk
  rw [List.getD_eq_getElem?_getD, List.getElem?_eq_getElem h1]
  exact List.getElem_mem h1

/-! ### The unions of groups -/

/-- `F` is what `finalize_mesh` makes of `G`. -/
def Final (G F : Gmsh α) : Prop := Fresh G ∧ G.finalize = (true, F)

theorem Final.shapes {G F : Gmsh α} (h : Final G F) (p : Text) : ShapesOK ((F.shapes.get p).getD {}) (Group G p) := by
  have := finalize_shapes h.1 p
  rwa [h.2] at this

theorem mem_uniq {β : Type} [LinearOrder β] {F : Gmsh α} {sel : Shapes → List β} {ps : List Text} {x : β} :
    x ∈ F.uniq sel ps ↔ ∃ p ∈ ps, x ∈ sel ((F.shapes.get p).getD {}) := by
  unfold Gmsh.uniq
  rw [mem_sortUniq, List.mem_flatMap]

theorem mem_pts {G F : Gmsh α} (h : Final G F) {ps : List Text} {c : Nat} : c ∈ F.uniq (·.pts) ps ↔ Used G ps c := by
  rw [mem_uniq]
  exact exists_congr fun p => and_congr_right fun _ => (h.shapes p).pts c

theorem mem_lines {G F : Gmsh α} (h : Final G F) {ps : List Text} {l : List Nat} :
    l ∈ F.uniq (·.lines) ps ↔ l.length = 2 ∧ Has G ps l := by
  rw [mem_uniq]
  unfold Has
  constructor
  · rintro ⟨p, hp, hl⟩
    obtain ⟨h2, hh⟩ := ((h.shapes p).lines l).1 hl
    exact ⟨h2, p, hp, hh⟩
  · rintro ⟨h2, p, hp, hh⟩
    exact ⟨p, hp, ((h.shapes p).lines l).2 ⟨h2, hh⟩⟩

theorem mem_tris {G F : Gmsh α} (h : Final G F) {ps : List Text} {l : List Nat} :
    l ∈ F.uniq (·.tris) ps ↔ l.length = 3 ∧ Has G ps l := by
  rw [mem_uniq]
  unfold Has
  constructor
  · rintro ⟨p, hp, hl⟩
    obtain ⟨h2, hh⟩ := ((h.shapes p).tris l).1 hl
    exact ⟨h2, p, hp, hh⟩
  · rintro ⟨h2, p, hp, hh⟩
    exact ⟨p, hp, ((h.shapes p).tris l).2 ⟨h2, hh⟩⟩

theorem mem_tets {G F : Gmsh α} (h : Final G F) {ps : List Text} {l : List Nat} :
    l ∈ F.uniq (·.tets) ps ↔ l.length = 4 ∧ Has G ps l := by
  rw [mem_uniq]
  unfold Has
  constructor
  · rintro ⟨p, hp, hl⟩
    obtain ⟨h2, hh⟩ := ((h.shapes p).tets l).1 hl
    exact ⟨h2, p, hp, hh⟩
  · rintro ⟨h2, p, hp, hh⟩
    exact ⟨p, hp, ((h.shapes p).tets l).2 ⟨h2, hh⟩⟩

theorem has_used {G : Gmsh α} {ps : List Text} {l : List Nat} (h : Has G ps l) : ∀ i ∈ l, Used G ps i := by
  obtain ⟨p, hp, e, he, hs⟩ := h
  exact fun i hi => ⟨p, hp, e, he, hs.2.subset hi⟩

theorem has_dim {G F : Gmsh α} (h : Final G F) {ps : List Text} {l : List Nat} (hl : Has G ps l) : l.length ≤ F.dim + 1 := by
  obtain ⟨p, _, e, he, hs⟩ := hl
  have h1 := side_length hs
  have h2 := (finalize_dim h.1 (by rw [h.2])).1 e he.1
  have h3 := (h.1.proper e he.1).2
  rw [h.2] at h2
  dsimp only at h2
  omega

theorem Final.fields {G F : Gmsh α} (h : Final G F) : F.finalized = true ∧ F.coords = G.coords ∧ F.maxIdx = G.maxIdx ∧
    F.regions = G.regions ∧ F.contacts = G.contacts ∧ F.ifaces = G.ifaces := by
  obtain ⟨h1, h2, h3, h4, h5, h6, h7, h8⟩ := finalize_rest h.1
  rw [h.2] at h1 h2 h3 h4 h5 h6 h7 h8
  exact ⟨h1, h2, h5, h6, h7, h8⟩

theorem pos_final {G F : Gmsh α} (h : Final G F) : F.pos = G.pos := by
  unfold Gmsh.pos
  rw [h.fields.2.1]

/-- The largest index is known to the mesh. -/
def MaxOK (G : Gmsh α) : Prop := ∀ x ∈ G.coords, x.1 ≤ G.maxIdx

/-! ### One region -/

theorem sorted_loc {ids : List Nat} (h : ids.Pairwise (· < ·)) {l : List (List Nat)} (hl : l.Pairwise (· < ·))
    (hm : ∀ e ∈ l, ∀ i ∈ e, i ∈ ids) : (l.map (loc ids)).Pairwise (· < ·) := by
  rw [List.pairwise_map]
  exact hl.imp_of_mem fun ha hb hab => loc_lt h (hm _ ha) (hm _ hb) hab

theorem mem_map_loc {G F : Gmsh α} (h : Final G F) {ps : List Text} {n : Nat} {l : List (List Nat)}
    (hl : ∀ e, e ∈ l ↔ e.length = n ∧ Has G ps e) (e : List Nat) :
    e ∈ l.map (loc (F.uniq (·.pts) ps)) ↔
      e.length = n ∧ (∀ k ∈ e, k < (F.uniq (·.pts) ps).length) ∧ Has G ps (glob (F.uniq (·.pts) ps) e) := by
  have hs : (F.uniq (·.pts) ps).Pairwise (· < ·) := sortUniq_sorted _
  rw [List.mem_map]
  constructor
  · rintro ⟨x, hx, rfl⟩
    obtain ⟨h1, h2⟩ := (hl x).1 hx
    have hm : ∀ i ∈ x, i ∈ F.uniq (·.pts) ps := fun i hi => (mem_pts h).2 (has_used h2 i hi)
    refine ⟨by simpa [loc] using h1, loc_bound hm, ?_⟩
    rwa [glob_loc hm]
  · rintro ⟨h1, h2, h3⟩
    exact ⟨_, (hl _).2 ⟨by simpa [glob] using h1, h3⟩, loc_glob hs h2⟩

/-- The region that the mesh describes, before its models are made. -/
def plain (F : Gmsh α) (ri : RInfo) : Reg α :=
  let ids := F.uniq (·.pts) ri.pnames
  { material := ri.material, dim := F.dim, nodes := ids.map fun i => (F.pos i).getD 0
    tets := (if F.dim = 3 then F.uniq (·.tets) ri.pnames else []).map (loc ids)
    tris := (if F.dim ≥ 2 then F.uniq (·.tris) ri.pnames else []).map (loc ids)
    edges := (F.uniq (·.lines) ri.pnames).map (loc ids) }

theorem all_on {G F : Gmsh α} (h : Final G F) {ps : List Text} {l : List (List Nat)} (hl : ∀ e ∈ l, Has G ps e) :
    (l.all fun e => e.all (· ∈ F.uniq (·.pts) ps)) = true := by
  rw [List.all_eq_true]
  intro e he
  rw [List.all_eq_true]
  intro i hi
  simpa using (mem_pts h).2 (has_used (hl e he) i hi)

/-- What `mkRegion` does. -/
theorem mkRegion_eq {G F : Gmsh α} (h : Final G F) (hmax : MaxOK G) (env : Env α) (ri : RInfo) :
    mkRegion env F ri =
      if (F.uniq (·.pts) ri.pnames).all (fun i => (F.pos i).isSome) then
        if env.topoOK (plain F ri).dim (plain F ri).nodes.length (plain F ri).edges (plain F ri).tris (plain F ri).tets then
          (true, F.uniq (·.pts) ri.pnames, (plain F ri).defaults env)
        else (false, F.uniq (·.pts) ri.pnames, plain F ri)
      else (false, F.uniq (·.pts) ri.pnames, { material := ri.material, dim := F.dim, nodes := [] }) := by
  unfold mkRegion
  dsimp only
  have h1 : (F.uniq (·.pts) ri.pnames).all (fun i => i < F.maxIdx + 1 && (F.pos i).isSome) =
      (F.uniq (·.pts) ri.pnames).all (fun i => (F.pos i).isSome) := by
    congr 1
    funext i
    cases hp : F.pos i with
    | none => simp
    | some j =>
      rw [pos_final h] at hp
      obtain ⟨⟨c, hc⟩, _⟩ := pos_iff.1 hp
      have := hmax _ (List.mem_of_getElem? hc)
      dsimp only at this
      rw [h.fields.2.2.1]
      simp; omega
  rw [h1]
  by_cases a : (F.uniq (·.pts) ri.pnames).all (fun i => (F.pos i).isSome) = true
  · rw [if_pos a, if_pos a]
    rw [if_pos]
    · rfl
    · rw [all_on h, all_on h, all_on h]
      · rfl
      · exact fun e he => ((mem_lines h).1 he).2
      · intro e he
        split_ifs at he
        · exact ((mem_tris h).1 he).2
        · simp at he
      · intro e he
        split_ifs at he
        · exact ((mem_tets h).1 he).2
        · simp at he
  · rw [if_neg a, if_neg a]

/-- **C69** The region described by the mesh is made of the elements of its physical groups. -/
theorem plain_ok {G F : Gmsh α} (h : Final G F) (ri : RInfo) (hc : ∀ c, Used G ri.pnames c → ∃ j, Pos G c j) (env : Env α) :
    RegionOK G F.dim ri (F.uniq (·.pts) ri.pnames) ((plain F ri).defaults env) := by
  have hs : (F.uniq (·.pts) ri.pnames).Pairwise (· < ·) := sortUniq_sorted _
  have htri : ∀ e, e ∈ (if F.dim ≥ 2 then F.uniq (·.tris) ri.pnames else []) ↔ e.length = 3 ∧ Has G ri.pnames e := by
    intro e
    split_ifs with hd
    · exact mem_tris h
    · simp only [List.not_mem_nil, false_iff]
      rintro ⟨h3, hh⟩
      have := has_dim h hh
      omega
  have htet : ∀ e, e ∈ (if F.dim = 3 then F.uniq (·.tets) ri.pnames else []) ↔ e.length = 4 ∧ Has G ri.pnames e := by
    intro e
    split_ifs with hd
    · exact mem_tets h
    · simp only [List.not_mem_nil, false_iff]
      rintro ⟨h3, hh⟩
      have := has_dim h hh
      have h4 : F.dim ≤ 3 := by
        rcases (finalize_dim h.1 (by rw [h.2])).2 with h0 | ⟨x, hx, hd'⟩
        · rw [h.2] at h0; dsimp only at h0; omega
        · rw [h.2] at hd'; dsimp only at hd'
          have := (h.1.proper x hx).1
          omega
      omega
  have srt : ∀ {l : List (List Nat)} {n : Nat}, l.Pairwise (· < ·) → (∀ e, e ∈ l ↔ e.length = n ∧ Has G ri.pnames e) →
      (l.map (loc (F.uniq (·.pts) ri.pnames))).Pairwise (· < ·) := fun hl hm =>
    sorted_loc hs hl fun e he i hi => (mem_pts h).2 (has_used ((hm e).1 he).2 i hi)
  refine
    { material := rfl
      dim := rfl
      ids_sorted := hs
      ids_mem := fun c => mem_pts h
      nodes_len := by simp [plain, Reg.defaults]
      nodes := ?_
      edges_sorted := srt (sortUniq_sorted _) fun e => mem_lines h
      edges := mem_map_loc h fun e => mem_lines h
      tris_sorted := srt ?_ htri
      tris := mem_map_loc h htri
      tets_sorted := srt ?_ htet
      tets := mem_map_loc h htet }
  · intro k i hk
    obtain ⟨j, hj⟩ := hc i ((mem_pts h).1 (List.mem_of_getElem? hk))
    refine ⟨j, ?_, hj⟩
    simp only [plain, Reg.defaults, List.getElem?_map, hk, Option.map_some, pos_final h, pos_iff.2 hj, Option.getD_some]
  · split_ifs
    · exact sortUniq_sorted _
    · exact List.Pairwise.nil
  · split_ifs
    · exact sortUniq_sorted _
    · exact List.Pairwise.nil

/-! ### All regions -/

theorem mkRegions_spec (env : Env α) (G : Gmsh α) {m : SMap Text RInfo} (hm : SMap.Sorted m)
    (acc : SMap Text (List Nat × Reg α)) (ha : ∀ e ∈ acc, ∀ x ∈ m, e.1 < x.1) :
    ((mkRegions env G m acc).1 = true ↔ ∀ e ∈ m, (mkRegion env G e.2).1 = true) ∧
    ((mkRegions env G m acc).1 = true → (mkRegions env G m acc).2 = acc ++ m.map fun e => (e.1, (mkRegion env G e.2).2)) := by
  induction m generalizing acc with
  | nil => simp [mkRegions]
  | cons x m ih =>
    obtain ⟨n, ri⟩ := x
    have hcons := List.pairwise_cons.1 hm
    rw [mkRegions]
    have hput : SMap.put acc n (mkRegion env G ri).2 = acc ++ [(n, (mkRegion env G ri).2)] :=
      SMap.put_last fun e he => ha e he (n, ri) (by simp)
    by_cases hr : (mkRegion env G ri).1 = true
    · rw [if_pos hr, hput]
      obtain ⟨h1, h2⟩ := ih hcons.2 (acc ++ [(n, (mkRegion env G ri).2)]) (by
        intro e he x hx
        rcases List.mem_append.1 he with he | he
        · exact ha e he x (by simp [hx])
        · rw [List.mem_singleton] at he
          subst he
          exact hcons.1 x hx)
      refine ⟨?_, ?_⟩
      · rw [h1]
        simp [hr]
      · intro h
        rw [h2 h]
        simp
    · rw [if_neg hr]
      simp [hr]

/-! ### Contacts and interfaces: the loop -/

theorem mkAll_crash {ι β : Type} (f : ι → Bool × Made β) (m : SMap Text ι) (st : Res × SMap Text β) (hst : st.1 ≠ .crash) :
    (mkAll f m st).1 = .crash ↔ ∃ e ∈ m, (f e.2).2 = .crash := by
  induction m generalizing st with
  | nil => simp [mkAll, hst]
  | cons x m ih =>
    obtain ⟨n, i⟩ := x
    rw [mkAll]
    cases hf : (f i).2 with
    | crash => simp [hf]
    | skip =>
      dsimp only
      rw [ih _ (by simp)]
      simp [hf]
    | made b =>
      dsimp only
      rw [ih _ (by dsimp only; split_ifs; exact hst; simp)]
      simp [hf]

theorem mkAll_ok {ι β : Type} (f : ι → Bool × Made β) (m : SMap Text ι) (st : Res × SMap Text β) :
    (mkAll f m st).1 = .ok ↔ st.1 = .ok ∧ ∀ e ∈ m, ∃ b, f e.2 = (true, .made b) := by
  induction m generalizing st with
  | nil => simp [mkAll]
  | cons x m ih =>
    obtain ⟨n, i⟩ := x
    rw [mkAll]
    cases hf : (f i).2 with
    | crash =>
      have : ∀ b, f i ≠ (true, .made b) := fun b hb => by rw [hb] at hf; simp at hf
      simp [this]
    | skip =>
      have : ∀ b, f i ≠ (true, .made b) := fun b hb => by rw [hb] at hf; simp at hf
      dsimp only
      rw [ih]
      simp [this]
    | made b =>
      dsimp only
      rw [ih]
      by_cases hb : (f i).1 = true
      · have : f i = (true, .made b) := Prod.ext hb hf
        simp [this]
      · have : ∀ b, f i ≠ (true, .made b) := fun b h => hb (by rw [h])
        simp [hb, this]

theorem mkAll_get {ι β : Type} (f : ι → Bool × Made β) {m : SMap Text ι} (hm : SMap.Sorted m) (st : Res × SMap Text β)
    (ha : ∀ e ∈ st.2, ∀ x ∈ m, e.1 < x.1) (h : ∀ e ∈ m, ∃ b, f e.2 = (true, .made b)) (n : Text) (b : β) :
    (mkAll f m st).2.get n = some b ↔ st.2.get n = some b ∨ ∃ i, m.get n = some i ∧ f i = (true, .made b) := by
  induction m generalizing st with
  | nil => simp [mkAll, SMap.get]
  | cons x m ih =>
    obtain ⟨k, i⟩ := x
    have hcons := List.pairwise_cons.1 hm
    obtain ⟨b', hb'⟩ := h (k, i) (by simp)
    dsimp only at hb'
    rw [mkAll]
    rw [hb']
    dsimp only
    rw [ih hcons.2 _ _ fun e he => h e (by simp [he])]
    · dsimp only
      rw [SMap.get_put, SMap.get_cons]
      by_cases hk : n = k
      · subst hk
        have hnone : SMap.get m n = none := SMap.get_none_of_lt fun e he => hcons.1 e he
        have hnone' : SMap.get st.2 n = none := by
          rw [SMap.get_none_iff]
          apply SMap.has_false_of_lt
          exact fun e he => ha e he (n, i) (by simp)
        simp [hnone, hnone', hb']
      · simp [hk, Ne.symm hk]
    · intro e he x hx
      rcases SMap.mem_put he with h1 | h1
      · subst h1; exact hcons.1 x hx
      · exact ha e h1 x (by simp [hx])

end Verif.Gmsh
