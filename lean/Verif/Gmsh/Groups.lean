import Verif.Gmsh.Model
import Mathlib.Data.List.Sublists

/-!
# C68: what `finalize_mesh` makes of the physical groups
-/

namespace Verif.Gmsh
open Verif.MeshIO

variable {α : Type}

/-! ### Specification -/

/-- An element has as many nodes as its type says. -/
def Elem.Proper (e : Elem) : Prop := e.ty ≤ 3 ∧ e.nodes.length = e.ty + 1

/-- `l` is made of nodes of `e`, in increasing order: for two nodes a line of `e`, for three nodes a triangle of `e`,
for all nodes `e` itself. -/
def Side (e : Elem) (l : List Nat) : Prop := l.Pairwise (· ≤ ·) ∧ l.Subperm e.nodes

/-- The elements of the mesh that carry a physical name: the name given to their dimension and physical number, or
the number in decimal digits if it has none. -/
def Group (G : Gmsh α) (p : Text) (e : Elem) : Prop :=
  e ∈ G.elems ∧ ((G.phys e.ty).get e.phys = some p ∨ (G.phys e.ty).get e.phys = none ∧ p = showNat e.phys)

/-- The shapes of a group are, without repetition and in order, the points, lines, triangles and tetrahedra of
its elements. -/
structure ShapesOK (s : Shapes) (E : Elem → Prop) : Prop where
  pts_sorted : s.pts.Pairwise (· < ·)
  lines_sorted : s.lines.Pairwise (· < ·)
  tris_sorted : s.tris.Pairwise (· < ·)
  tets_sorted : s.tets.Pairwise (· < ·)
  pts : ∀ c, c ∈ s.pts ↔ ∃ e, E e ∧ c ∈ e.nodes
  lines : ∀ l, l ∈ s.lines ↔ l.length = 2 ∧ ∃ e, E e ∧ Side e l
  tris : ∀ l, l ∈ s.tris ↔ l.length = 3 ∧ ∃ e, E e ∧ Side e l
  tets : ∀ l, l ∈ s.tets ↔ l.length = 4 ∧ ∃ e, E e ∧ Side e l

/-! ### Elements -/

theorem mkElem_perm (l : List Nat) : (mkElem l).Perm l := List.mergeSort_perm _ _

theorem mkElem_sorted (l : List Nat) : (mkElem l).Pairwise (· ≤ ·) := by
  have := List.pairwise_mergeSort (le := fun a b : Nat => decide (a ≤ b))
      (fun a b c h1 h2 => by simp only [decide_eq_true_eq] at *; exact le_trans h1 h2)
      (fun a b => by simp only [Bool.or_eq_true, decide_eq_true_eq]; exact le_total _ _) l
  exact this.imp fun h => by simpa using h

theorem eq_mkElem {e l : List Nat} (h : e.Pairwise (· ≤ ·)) (hp : e.Perm l) : e = mkElem l :=
  List.Perm.eq_of_pairwise (fun _ _ _ _ h1 h2 => Nat.le_antisymm h1 h2) h (mkElem_sorted l) (hp.trans (mkElem_perm l).symm)

theorem mkElem_of_sorted {l : List Nat} (h : l.Pairwise (· ≤ ·)) : mkElem l = l := (eq_mkElem h (List.Perm.refl l)).symm

theorem length_mkElem (l : List Nat) : (mkElem l).length = l.length := (mkElem_perm l).length_eq

/-- A side is a sublist of the sorted nodes. -/
theorem side_iff {e : Elem} {l : List Nat} : Side e l ↔ l.Sublist (mkElem e.nodes) := by
  constructor
  · rintro ⟨h, m, hm, hs⟩
    have h1 : (mkElem m).Subperm (mkElem e.nodes) :=
      ((mkElem_perm m).subperm).trans (hs.subperm.trans (mkElem_perm e.nodes).symm.subperm)
    obtain ⟨k, hk, hs'⟩ := h1
    have : k = mkElem m := eq_mkElem ((mkElem_sorted _).sublist hs') (hk.trans (mkElem_perm m))
    rw [← eq_mkElem h hm.symm] at this
    rwa [← this]
  · intro h
    exact ⟨(mkElem_sorted _).sublist h, h.subperm.trans (mkElem_perm e.nodes).subperm⟩

theorem side_self {e : Elem} {l : List Nat} (h : l.length = e.nodes.length) : Side e l ↔ l = mkElem e.nodes := by
  rw [side_iff]
  constructor
  · intro hs
    exact hs.eq_of_length (by rw [h, length_mkElem])
  · rintro rfl
    exact List.Sublist.refl _

theorem side_length {e : Elem} {l : List Nat} (h : Side e l) : l.length ≤ e.nodes.length := h.2.length_le

theorem mem_tetTris {t l : List Nat} (ht : t.Pairwise (· ≤ ·)) (h4 : t.length = 4) :
    l ∈ tetTris t ↔ l.length = 3 ∧ l.Sublist t := by
  match t, h4, ht with
  | [a, b, c, d], _, ht =>
    have key : ∀ x : List Nat, x.Sublist [a, b, c, d] → mkElem x = x := fun x hx => mkElem_of_sorted (ht.sublist hx)
    unfold tetTris
    dsimp only
    rw [key [a, b, c] (by simp), key [a, b, d] (by simp), key [a, c, d] (by simp), key [b, c, d] (by simp)]
    have h : List.sublistsLen 3 [a, b, c, d] = [[b, c, d], [a, c, d], [a, b, d], [a, b, c]] := rfl
    have := List.mem_sublistsLen (n := 3) (l := [a, b, c, d]) (l' := l)
    rw [h] at this
    rw [and_comm, ← this]
    simp only [List.mem_cons, List.not_mem_nil, or_false]
    tauto

theorem mem_triLines {t l : List Nat} (ht : t.Pairwise (· ≤ ·)) (h3 : t.length = 3) :
    l ∈ triLines t ↔ l.length = 2 ∧ l.Sublist t := by
  match t, h3, ht with
  | [a, b, c], _, ht =>
    have key : ∀ x : List Nat, x.Sublist [a, b, c] → mkElem x = x := fun x hx => mkElem_of_sorted (ht.sublist hx)
    unfold triLines
    dsimp only
    rw [key [a, b] (by simp), key [a, c] (by simp), key [b, c] (by simp)]
    have h : List.sublistsLen 2 [a, b, c] = [[b, c], [a, c], [a, b]] := rfl
    have := List.mem_sublistsLen (n := 2) (l := [a, b, c]) (l' := l)
    rw [h] at this
    rw [and_comm, ← this]
    simp only [List.mem_cons, List.not_mem_nil, or_false]
    tauto

/-! ### The shapes of a list of elements -/

/-- The shapes of elements, before they are decomposed. -/
def ofElems (es : List Elem) : Shapes := es.foldl Shapes.add {}

theorem foldl_add (es : List Elem) (s : Shapes) (h : ∀ e ∈ es, e.Proper) :
    es.foldl Shapes.add s =
      { pts := s.pts ++ (es.filter (·.ty = 0)).flatMap (·.nodes)
        lines := s.lines ++ (es.filter (·.ty = 1)).map fun e => mkElem e.nodes
        tris := s.tris ++ (es.filter (·.ty = 2)).map fun e => mkElem e.nodes
        tets := s.tets ++ (es.filter (·.ty = 3)).map fun e => mkElem e.nodes } := by
  induction es generalizing s with
  | nil => simp
  | cons e es ih =>
    rw [List.foldl_cons, ih _ fun x hx => h x (by simp [hx])]
    obtain ⟨h3, hl⟩ := h e (by simp)
    have ht : e.nodes.take (e.ty + 1) = e.nodes := List.take_of_length_le (by omega)
    unfold Shapes.add
    match hty : e.ty, h3 with
    | 0, _ => rw [hty] at ht; simp [hty, ht]
    | 1, _ => rw [hty] at ht; simp [hty, ht]
    | 2, _ => rw [hty] at ht; simp [hty, ht]
    | 3, _ => rw [hty] at ht; simp [hty, ht]

theorem ofElems_eq {es : List Elem} (h : ∀ e ∈ es, e.Proper) : ofElems es =
    { pts := (es.filter (·.ty = 0)).flatMap (·.nodes)
      lines := (es.filter (·.ty = 1)).map fun e => mkElem e.nodes
      tris := (es.filter (·.ty = 2)).map fun e => mkElem e.nodes
      tets := (es.filter (·.ty = 3)).map fun e => mkElem e.nodes } := by
  rw [ofElems, foldl_add es _ h]; simp

/-- Elements of `k` nodes that are sides of an element of a higher type are sides of a side. -/
theorem sub_split {n : List Nat} {l : List Nat} {k : Nat} (hl : l.Sublist n) (h1 : l.length ≤ k) (h2 : k ≤ n.length) :
    ∃ m, m.length = k ∧ l.Sublist m ∧ m.Sublist n := by
  induction n generalizing l k with
  | nil => exact ⟨[], by simp at h2; simp [h2], by simpa using hl, by simp⟩
  | cons a n ih =>
    by_cases hk : k = n.length + 1
    · exact ⟨a :: n, by simp [hk], hl, List.Sublist.refl _⟩
    · cases hl with
      | cons _ hs =>
        obtain ⟨m, hm, h3, h4⟩ := ih hs h1 (by simp at h2; omega)
        exact ⟨m, hm, h3, h4.cons _⟩
      | cons_cons _ hs =>
        rename_i l'
        match k, h1 with
        | k + 1, h1 =>
          obtain ⟨m, hm, h3, h4⟩ := ih hs (k := k) (by simpa using h1) (by simp at h2; omega)
          exact ⟨a :: m, by simp [hm], h3.cons_cons a, h4.cons_cons a⟩

/-- **C68** The points, lines, triangles and tetrahedra of a list of elements. -/
theorem decompose_ok {es : List Elem} (h : ∀ e ∈ es, e.Proper) : ShapesOK (ofElems es).decompose (· ∈ es) := by
  have len : ∀ e ∈ es, ∀ l, Side e l → l.length = 4 → e.ty = 3 := fun e he l hs hl => by
    have := side_length hs; have := h e he; unfold Elem.Proper at this; omega
  have htet : ∀ l, l ∈ (ofElems es).decompose.tets ↔ l.length = 4 ∧ ∃ e ∈ es, Side e l := by
    intro l
    rw [ofElems_eq h]
    unfold Shapes.decompose
    dsimp only
    rw [mem_sortUniq, List.mem_map]
    constructor
    · rintro ⟨e, he, rfl⟩
      obtain ⟨he, hty⟩ := List.mem_filter.1 he
      have hp := h e he
      simp only [decide_eq_true_eq] at hty
      exact ⟨by rw [length_mkElem, hp.2, hty], e, he, (side_self (length_mkElem _)).2 rfl⟩
    · rintro ⟨hl, e, he, hs⟩
      have hty := len e he l hs hl
      have hp := h e he
      exact ⟨e, List.mem_filter.2 ⟨he, by simpa using hty⟩, ((side_self (by rw [hl, hp.2, hty])).1 hs).symm⟩
  have htri : ∀ l, l ∈ (ofElems es).decompose.tris ↔ l.length = 3 ∧ ∃ e ∈ es, Side e l := by
    intro l
    have h1 : (ofElems es).decompose.tris = sortUniq ((ofElems es).tris ++ (ofElems es).decompose.tets.flatMap tetTris) := rfl
    rw [h1, mem_sortUniq, List.mem_append, List.mem_flatMap]
    have h0 : (ofElems es).tris = (es.filter (·.ty = 2)).map fun e => mkElem e.nodes := by rw [ofElems_eq h]
    rw [h0, List.mem_map]
    constructor
    · rintro (⟨e, he, rfl⟩ | ⟨t, ht, hl⟩)
      · obtain ⟨he, hty⟩ := List.mem_filter.1 he
        have hp := h e he
        simp only [decide_eq_true_eq] at hty
        exact ⟨by rw [length_mkElem, hp.2, hty], e, he, (side_self (length_mkElem _)).2 rfl⟩
      · obtain ⟨h4, e, he, hs⟩ := (htet t).1 ht
        obtain ⟨h3, hsub⟩ := (mem_tetTris hs.1 h4).1 hl
        exact ⟨h3, e, he, side_iff.2 (hsub.trans (side_iff.1 hs))⟩
    · rintro ⟨h3, e, he, hs⟩
      have hp := h e he
      have hle := side_length hs
      by_cases hty : e.ty = 2
      · exact Or.inl ⟨e, List.mem_filter.2 ⟨he, by simpa using hty⟩, ((side_self (by rw [h3, hp.2, hty])).1 hs).symm⟩
      · right
        have hty3 : e.ty = 3 := by unfold Elem.Proper at hp; omega
        have hm : mkElem e.nodes ∈ (ofElems es).decompose.tets :=
          (htet _).2 ⟨by rw [length_mkElem, hp.2, hty3], e, he, (side_self (length_mkElem _)).2 rfl⟩
        exact ⟨_, hm, (mem_tetTris (mkElem_sorted _) (by rw [length_mkElem, hp.2, hty3])).2 ⟨h3, side_iff.1 hs⟩⟩
  have hline : ∀ l, l ∈ (ofElems es).decompose.lines ↔ l.length = 2 ∧ ∃ e ∈ es, Side e l := by
    intro l
    have h1 : (ofElems es).decompose.lines = sortUniq ((ofElems es).lines ++ (ofElems es).decompose.tris.flatMap triLines) := rfl
    rw [h1, mem_sortUniq, List.mem_append, List.mem_flatMap]
    have h0 : (ofElems es).lines = (es.filter (·.ty = 1)).map fun e => mkElem e.nodes := by rw [ofElems_eq h]
    rw [h0, List.mem_map]
    constructor
    · rintro (⟨e, he, rfl⟩ | ⟨t, ht, hl⟩)
      · obtain ⟨he, hty⟩ := List.mem_filter.1 he
        have hp := h e he
        simp only [decide_eq_true_eq] at hty
        exact ⟨by rw [length_mkElem, hp.2, hty], e, he, (side_self (length_mkElem _)).2 rfl⟩
      · obtain ⟨h4, e, he, hs⟩ := (htri t).1 ht
        obtain ⟨h3, hsub⟩ := (mem_triLines hs.1 h4).1 hl
        exact ⟨h3, e, he, side_iff.2 (hsub.trans (side_iff.1 hs))⟩
    · rintro ⟨h2, e, he, hs⟩
      have hp := h e he
      have hle := side_length hs
      by_cases hty : e.ty = 1
      · exact Or.inl ⟨e, List.mem_filter.2 ⟨he, by simpa using hty⟩, ((side_self (by rw [h2, hp.2, hty])).1 hs).symm⟩
      · right
        obtain ⟨m, hm, hlm, hmn⟩ := sub_split (k := 3) (side_iff.1 hs) (by omega)
          (by rw [length_mkElem]; unfold Elem.Proper at hp; omega)
        exact ⟨m, (htri m).2 ⟨hm, e, he, side_iff.2 hmn⟩, (mem_triLines ((mkElem_sorted _).sublist hmn) hm).2 ⟨h2, hlm⟩⟩
  have hpt : ∀ c, c ∈ (ofElems es).decompose.pts ↔ ∃ e ∈ es, c ∈ e.nodes := by
    intro c
    have h1 : (ofElems es).decompose.pts = sortUniq ((ofElems es).pts ++ (ofElems es).decompose.lines.flatten) := rfl
    rw [h1, mem_sortUniq, List.mem_append, List.mem_flatten]
    have h0 : (ofElems es).pts = (es.filter (·.ty = 0)).flatMap (·.nodes) := by rw [ofElems_eq h]
    rw [h0, List.mem_flatMap]
    constructor
    · rintro (⟨e, he, hc⟩ | ⟨l, hl, hc⟩)
      · exact ⟨e, (List.mem_filter.1 he).1, hc⟩
      · obtain ⟨_, e, he, hs⟩ := (hline l).1 hl
        exact ⟨e, he, hs.2.subset hc⟩
    · rintro ⟨e, he, hc⟩
      have hp := h e he
      by_cases hty : e.ty = 0
      · exact Or.inl ⟨e, List.mem_filter.2 ⟨he, by simpa using hty⟩, hc⟩
      · right
        obtain ⟨m, hm, hlm, hmn⟩ := sub_split (k := 2)
          (List.singleton_sublist.2 ((mkElem_perm e.nodes).mem_iff.2 hc)) (by simp)
          (by rw [length_mkElem]; unfold Elem.Proper at hp; omega)
        exact ⟨m, (hline m).2 ⟨hm, e, he, side_iff.2 hmn⟩, List.singleton_sublist.1 hlm⟩
  exact ⟨sortUniq_sorted _, sortUniq_sorted _, sortUniq_sorted _, sortUniq_sorted _, hpt, hline, htri, htet⟩

/-! ### The groups of a mesh -/

theorem group_iff {G : Gmsh α} {p : Text} {e : Elem} : Group G p e ↔ e ∈ G.elems ∧ G.groupName e = p := by
  unfold Group Gmsh.groupName
  cases h : (G.phys e.ty).get e.phys with
  | none => simp [eq_comm]
  | some q => simp

theorem groups_foldl (name : Elem → Text) (es : List Elem) (m : SMap Text Shapes) (p : Text) :
    SMap.get (es.foldl (fun m e => m.put (name e) (((m.get (name e)).getD {}).add e)) m) p =
      if (es.filter (name · = p)).isEmpty then m.get p
      else some ((es.filter (name · = p)).foldl Shapes.add ((m.get p).getD {})) := by
  induction es generalizing m with
  | nil => simp
  | cons e es ih =>
    rw [List.foldl_cons, ih, SMap.get_put]
    by_cases h : name e = p
    · subst h
      rw [List.filter_cons_of_pos (by simp)]
      by_cases h2 : (es.filter (name · = name e)).isEmpty
      · rw [if_pos h2]
        rw [List.isEmpty_iff] at h2
        simp [h2]
      · rw [if_neg h2]
        simp
    · rw [List.filter_cons_of_neg (by simpa using h)]
      rw [if_neg (Ne.symm h)]

theorem groups_sorted_foldl (name : Elem → Text) (es : List Elem) {m : SMap Text Shapes} (hm : SMap.Sorted m) :
    SMap.Sorted (es.foldl (fun m e => m.put (name e) (((m.get (name e)).getD {}).add e)) m) := by
  induction es generalizing m with
  | nil => exact hm
  | cons e es ih => exact ih (SMap.put_sorted hm _ _)

/-- The mesh as it is before `finalize_mesh`. -/
structure Fresh (G : Gmsh α) : Prop where
  shapes : G.shapes = []
  dim : G.dim = 0
  fin : G.finalized = false
  proper : ∀ e ∈ G.elems, e.Proper

theorem get_groups {G : Gmsh α} (hG : Fresh G) (p : Text) : G.groups.get p =
    if (G.elems.filter (G.groupName · = p)).isEmpty then none else some (ofElems (G.elems.filter (G.groupName · = p))) := by
  rw [Gmsh.groups, groups_foldl, hG.shapes]
  simp [SMap.get, ofElems]

theorem groups_sorted {G : Gmsh α} (hG : Fresh G) : SMap.Sorted G.groups := by
  unfold Gmsh.groups
  apply groups_sorted_foldl
  rw [hG.shapes]; exact List.Pairwise.nil

theorem numTypes_one {es : List Elem} (h : ∀ e ∈ es, e.Proper) (hne : es ≠ []) :
    (ofElems es).numTypes = 1 ↔ ∀ e ∈ es, ∀ e' ∈ es, e.ty = e'.ty := by
  have hs : ∀ (f : Elem → List Nat) (k : Nat), ((es.filter (·.ty = k)).map f).isEmpty = true ↔ ∀ e ∈ es, e.ty ≠ k := by
    intro f k
    rw [List.isEmpty_iff, List.map_eq_nil_iff, List.filter_eq_nil_iff]
    simp
  have hp : ((es.filter (·.ty = 0)).flatMap (·.nodes)).isEmpty = true ↔ ∀ e ∈ es, e.ty ≠ 0 := by
    rw [List.isEmpty_iff, List.flatMap_eq_nil_iff]
    constructor
    · intro hh e he h0
      have := hh e (List.mem_filter.2 ⟨he, by simpa using h0⟩)
      have hp := (h e he).2
      rw [this] at hp; simp at hp
    · intro hh e he
      obtain ⟨he, h0⟩ := List.mem_filter.1 he
      exact absurd (by simpa using h0) (hh e he)
  rw [ofElems_eq h]
  unfold Shapes.numTypes
  dsimp only
  have val : ∀ (b : Bool) (P : Prop), (b = true ↔ P) → (P → (if !b then 1 else 0 : Nat) = 0) ∧ (¬ P → (if !b then 1 else 0 : Nat) = 1) := by
    intro b P hb
    cases b <;> simp at hb <;> simp [hb]
  have v3 := val _ _ (hs (fun e => mkElem e.nodes) 3)
  have v2 := val _ _ (hs (fun e => mkElem e.nodes) 2)
  have v1 := val _ _ (hs (fun e => mkElem e.nodes) 1)
  have v0 := val _ _ hp
  constructor
  · intro hsum e he e' he'
    by_contra hne'
    have hk : ∀ x ∈ es, x.ty = 0 ∨ x.ty = 1 ∨ x.ty = 2 ∨ x.ty = 3 := fun x hx => by have := (h x hx).1; omega
    have e1 : ∀ k, e.ty = k → ¬ ∀ x ∈ es, x.ty ≠ k := fun k hk hh => hh e he hk
    have e2 : ∀ k, e'.ty = k → ¬ ∀ x ∈ es, x.ty ≠ k := fun k hk hh => hh e' he' hk
    rcases hk e he with a | a | a | a <;> rcases hk e' he' with b | b | b | b <;>
      first
        | (exact hne' (a.trans b.symm))
        | (have h1 := e1 _ a
           have h2 := e2 _ b
           first
             | (have w1 := v0.2 h1; first | (have w2 := v1.2 h2; omega) | (have w2 := v2.2 h2; omega) | (have w2 := v3.2 h2; omega))
             | (have w1 := v1.2 h1; first | (have w2 := v0.2 h2; omega) | (have w2 := v2.2 h2; omega) | (have w2 := v3.2 h2; omega))
             | (have w1 := v2.2 h1; first | (have w2 := v0.2 h2; omega) | (have w2 := v1.2 h2; omega) | (have w2 := v3.2 h2; omega))
             | (have w1 := v3.2 h1; first | (have w2 := v0.2 h2; omega) | (have w2 := v1.2 h2; omega) | (have w2 := v2.2 h2; omega)))
  · intro hall
    obtain ⟨e, he⟩ := List.exists_mem_of_ne_nil es hne
    have hk : e.ty = 0 ∨ e.ty = 1 ∨ e.ty = 2 ∨ e.ty = 3 := by have := (h e he).1; omega
    have no : ∀ k, k ≠ e.ty → ∀ x ∈ es, x.ty ≠ k := fun k hk x hx hh => hk (by rw [← hh]; exact hall x hx e he)
    have yes : ∀ k, e.ty = k → ¬ ∀ x ∈ es, x.ty ≠ k := fun k hk hh => hh e he hk
    rcases hk with a | a | a | a
    · rw [v3.1 (no 3 (by omega)), v2.1 (no 2 (by omega)), v1.1 (no 1 (by omega)), v0.2 (yes 0 a)]
    · rw [v3.1 (no 3 (by omega)), v2.1 (no 2 (by omega)), v1.2 (yes 1 a), v0.1 (no 0 (by omega))]
    · rw [v3.1 (no 3 (by omega)), v2.2 (yes 2 a), v1.1 (no 1 (by omega)), v0.1 (no 0 (by omega))]
    · rw [v3.2 (yes 3 a), v2.1 (no 2 (by omega)), v1.1 (no 1 (by omega)), v0.1 (no 0 (by omega))]

end Verif.Gmsh
