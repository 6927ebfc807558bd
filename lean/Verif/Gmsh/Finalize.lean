import Verif.Gmsh.Groups

/-!
# C68: when `finalize_mesh` succeeds, and what it leaves
-/

namespace Verif.Gmsh
open Verif.MeshIO

variable {α : Type}

/-- **C68** `finalize_mesh` succeeds if and only if all elements of a physical group are of one type. -/
theorem finalize_iff {G : Gmsh α} (hG : Fresh G) :
    G.finalize.1 = true ↔ ∀ p e e', Group G p e → Group G p e' → e.ty = e'.ty := by
  unfold Gmsh.finalize
  rw [if_neg (by simp [hG.fin])]
  dsimp only
  rw [List.all_eq_true]
  have hpr : ∀ p, ∀ e ∈ G.elems.filter (G.groupName · = p), e.Proper :=
    fun p e he => hG.proper e (List.mem_filter.1 he).1
  have hmem : ∀ p e, e ∈ G.elems.filter (G.groupName · = p) ↔ Group G p e := by
    intro p e; rw [group_iff, List.mem_filter]; simp
  constructor
  · intro h p e e' he he'
    rw [← hmem] at he he'
    have hne : G.elems.filter (G.groupName · = p) ≠ [] := List.ne_nil_of_mem he
    have hg := get_groups hG p
    rw [if_neg (by simpa [List.isEmpty_iff] using hne)] at hg
    have := h _ (SMap.mem_of_get hg)
    simp only [decide_eq_true_eq] at this
    exact (numTypes_one (hpr p) hne).1 this e he e' he'
  · rintro h ⟨p, s⟩ hs
    have hg := SMap.get_of_mem (groups_sorted hG) hs
    dsimp only at hg
    rw [get_groups hG] at hg
    split_ifs at hg with hne
    simp only [Option.some.injEq] at hg
    subst hg
    rw [List.isEmpty_iff] at hne
    simp only [decide_eq_true_eq]
    rw [numTypes_one (hpr p) hne]
    intro e he e' he'
    exact h p e e' ((hmem p e).1 he) ((hmem p e').1 he')

/-- **C68** After `finalize_mesh` the shapes of every physical group are exactly the points, lines, triangles and
tetrahedra of the elements of the group. -/
theorem finalize_shapes {G : Gmsh α} (hG : Fresh G) (p : Text) :
    ShapesOK ((G.finalize.2.shapes.get p).getD {}) (Group G p) := by
  unfold Gmsh.finalize
  rw [if_neg (by simp [hG.fin])]
  dsimp only
  have h1 := SMap.get_map (fun (_ : Text) (s : Shapes) => s.decompose) G.groups p
  rw [h1, get_groups hG]
  have hmem : ∀ e, e ∈ G.elems.filter (G.groupName · = p) ↔ Group G p e := by
    intro e; rw [group_iff, List.mem_filter]; simp
  have hE : (fun e => e ∈ G.elems.filter (G.groupName · = p)) = Group G p := funext fun e => propext (hmem e)
  have hok : ShapesOK (ofElems (G.elems.filter (G.groupName · = p))).decompose (Group G p) := by
    rw [← hE]
    exact decompose_ok fun e he => hG.proper e (List.mem_filter.1 he).1
  split_ifs with hne
  · rw [List.isEmpty_iff] at hne
    have hno : ∀ e, ¬ Group G p e := fun e he => by have := (hmem e).2 he; rw [hne] at this; simp at this
    constructor <;> simp [hno]
  · exact hok

theorem dim_of_ty {es : List Elem} (h : ∀ e ∈ es, e.Proper) {k : Nat} (hk : ∀ e ∈ es, e.ty = k) (hne : es ≠ []) :
    (ofElems es).dim = k := by
  obtain ⟨e, he⟩ := List.exists_mem_of_ne_nil es hne
  have hkk := hk e he
  have h3 : k ≤ 3 := by rw [← hkk]; exact (h e he).1
  have yes : es.filter (·.ty = k) = es := List.filter_eq_self.2 fun x hx => by simp [hk x hx]
  have no : ∀ j, j ≠ k → es.filter (·.ty = j) = [] := fun j hj => List.filter_eq_nil_iff.2 fun x hx => by
    simp [hk x hx, Ne.symm hj]
  have hm : ∀ f : Elem → List Nat, (es.map f).isEmpty = false := fun f => by
    rw [List.isEmpty_eq_false_iff]; simpa using hne
  rw [ofElems_eq h]
  unfold Shapes.dim
  dsimp only
  have hc : k = 0 ∨ k = 1 ∨ k = 2 ∨ k = 3 := by omega
  rcases hc with rfl | rfl | rfl | rfl
  · rw [no 3 (by omega), no 2 (by omega), no 1 (by omega)]; simp
  · rw [no 3 (by omega), no 2 (by omega), yes, hm]; simp
  · rw [no 3 (by omega), yes, hm]; simp
  · rw [yes, hm]; simp

theorem foldl_dim (m : SMap Text Shapes) (d : Nat) (h : ∀ e ∈ m, e.2.numTypes = 1) :
    let r := m.foldl (fun d e => if e.2.numTypes ≠ 1 then d else if e.2.dim > d then e.2.dim else d) d
    d ≤ r ∧ (∀ e ∈ m, e.2.dim ≤ r) ∧ (r = d ∨ ∃ e ∈ m, e.2.dim = r) := by
  induction m generalizing d with
  | nil => simp
  | cons e m ih =>
    have h1 := h e (by simp)
    obtain ⟨a, b, c⟩ := ih (if e.2.dim > d then e.2.dim else d) fun x hx => h x (by simp [hx])
    dsimp only at a b c ⊢
    rw [List.foldl_cons, if_neg (by simp [h1])]
    refine ⟨le_trans ?_ a, ?_, ?_⟩
    · split <;> omega
    · intro x hx
      rcases List.mem_cons.1 hx with rfl | hx
      · refine le_trans ?_ a
        split <;> omega
      · exact b x hx
    · rcases c with c | ⟨x, hx, hc⟩
      · by_cases hd : e.2.dim > d
        · right
          refine ⟨e, by simp, ?_⟩
          rw [c, if_pos hd]
        · left
          rw [c, if_neg hd]
      · exact Or.inr ⟨x, by simp [hx], hc⟩

/-- **C68** The dimension of the mesh is the highest dimension of its elements. -/
theorem finalize_dim {G : Gmsh α} (hG : Fresh G) (h : G.finalize.1 = true) :
    (∀ e ∈ G.elems, e.ty ≤ G.finalize.2.dim) ∧ (G.finalize.2.dim = 0 ∨ ∃ e ∈ G.elems, e.ty = G.finalize.2.dim) := by
  have hone := (finalize_iff hG).1 h
  unfold Gmsh.finalize at h ⊢
  rw [if_neg (by simp [hG.fin])] at h ⊢
  dsimp only at h ⊢
  rw [List.all_eq_true] at h
  have hfd := foldl_dim G.groups G.dim fun e he => by simpa using h e he
  dsimp only at hfd
  obtain ⟨_, hb, hc⟩ := hfd
  have hmem : ∀ p e, e ∈ G.elems.filter (G.groupName · = p) ↔ Group G p e := by
    intro p e; rw [group_iff, List.mem_filter]; simp
  have hpr : ∀ p, ∀ e ∈ G.elems.filter (G.groupName · = p), e.Proper :=
    fun p e he => hG.proper e (List.mem_filter.1 he).1
  constructor
  · intro e he
    have he' : e ∈ G.elems.filter (G.groupName · = G.groupName e) := List.mem_filter.2 ⟨he, by simp⟩
    have hne := List.ne_nil_of_mem he'
    have hg := get_groups hG (G.groupName e)
    rw [if_neg (by simpa [List.isEmpty_iff] using hne)] at hg
    have := hb _ (SMap.mem_of_get hg)
    dsimp only at this
    rw [dim_of_ty (k := e.ty) (hpr _) (fun x hx => hone _ x e ((hmem _ _).1 hx) ((hmem _ _).1 he')) hne] at this
    exact this
  · rcases hc with hc | ⟨⟨p, s⟩, hs, hc⟩
    · left; rw [hc, hG.dim]
    · right
      have hg := SMap.get_of_mem (groups_sorted hG) hs
      dsimp only at hg
      rw [get_groups hG] at hg
      split_ifs at hg with hne
      simp only [Option.some.injEq] at hg
      rw [List.isEmpty_iff] at hne
      obtain ⟨e, he⟩ := List.exists_mem_of_ne_nil _ hne
      refine ⟨e, (List.mem_filter.1 he).1, ?_⟩
      rw [← hc, ← hg]
      dsimp only
      rw [dim_of_ty (k := e.ty) (hpr p) (fun x hx => hone _ x e ((hmem _ _).1 hx) ((hmem _ _).1 he)) hne]

/-- **C68** `finalize_mesh` changes neither the coordinates nor the elements nor the description of regions, contacts
and interfaces; the mesh is finalized if and only if the command succeeded. -/
theorem finalize_rest {G : Gmsh α} (hG : Fresh G) :
    G.finalize.2.finalized = G.finalize.1 ∧ G.finalize.2.coords = G.coords ∧ G.finalize.2.elems = G.elems ∧
    G.finalize.2.phys = G.phys ∧ G.finalize.2.maxIdx = G.maxIdx ∧ G.finalize.2.regions = G.regions ∧
    G.finalize.2.contacts = G.contacts ∧ G.finalize.2.ifaces = G.ifaces := by
  unfold Gmsh.finalize
  rw [if_neg (by simp [hG.fin])]
  exact ⟨rfl, rfl, rfl, rfl, rfl, rfl, rfl, rfl⟩

/-! ### A second `finalize_mesh` -/

theorem numTypes_mono {s s' : Shapes} (h0 : s.pts.isEmpty = false → s'.pts.isEmpty = false)
    (h1 : s.lines.isEmpty = false → s'.lines.isEmpty = false) (h2 : s.tris.isEmpty = false → s'.tris.isEmpty = false)
    (h3 : s.tets.isEmpty = false → s'.tets.isEmpty = false) : s.numTypes ≤ s'.numTypes := by
  unfold Shapes.numTypes
  cases a0 : s.pts.isEmpty <;> cases a1 : s.lines.isEmpty <;> cases a2 : s.tris.isEmpty <;> cases a3 : s.tets.isEmpty <;>
    simp only [a0, a1, a2, a3, true_imp_iff, Bool.true_eq_false, false_imp_iff] at h0 h1 h2 h3 <;>
    simp [*] <;> split_ifs <;> omega

theorem sortUniq_isEmpty {κ : Type} [LinearOrder κ] {l : List κ} : (sortUniq l).isEmpty = l.isEmpty := by
  rw [Bool.eq_iff_iff, List.isEmpty_iff, List.isEmpty_iff]
  constructor
  · intro h
    rw [List.eq_nil_iff_forall_not_mem] at h ⊢
    exact fun x hx => h x (mem_sortUniq.2 hx)
  · rintro rfl; rfl

theorem add_mono (s : Shapes) (e : Elem) : s.numTypes ≤ (s.add e).numTypes := by
  unfold Shapes.add
  split <;> (apply numTypes_mono <;> simp_all)

theorem decompose_mono (s : Shapes) : s.numTypes ≤ s.decompose.numTypes := by
  unfold Shapes.decompose
  have app : ∀ {κ : Type} [LinearOrder κ] (l m : List κ), l.isEmpty = false → (sortUniq (l ++ m)).isEmpty = false := by
    intro κ _ l m h
    rw [sortUniq_isEmpty]
    cases l <;> simp_all
  apply numTypes_mono
  · exact app _ _
  · exact app _ _
  · exact app _ _
  · intro h; rw [sortUniq_isEmpty]; exact h

theorem foldl_add_mono (es : List Elem) (s : Shapes) : s.numTypes ≤ (es.foldl Shapes.add s).numTypes := by
  induction es generalizing s with
  | nil => exact le_refl _
  | cons e es ih => exact le_trans (add_mono s e) (ih _)

/-- **C68** A mesh for which `finalize_mesh` has failed cannot be finalized, whatever is done to its description of
regions, contacts and interfaces. -/
theorem finalize_again {G : Gmsh α} (hG : Fresh G) (h : G.finalize.1 = false) {G' : Gmsh α}
    (hs : G'.shapes = G.finalize.2.shapes) : G'.finalize.1 = false := by
  by_cases hf : G'.finalized
  · unfold Gmsh.finalize; rw [if_pos hf]
  have h' := h
  unfold Gmsh.finalize at h hs
  rw [if_neg (by simp [hG.fin])] at h hs
  dsimp only at h hs
  rw [List.all_eq_false] at h
  obtain ⟨⟨p, s⟩, hm, hn⟩ := h
  simp only [decide_eq_true_eq] at hn
  unfold Gmsh.finalize
  rw [if_neg hf]
  dsimp only
  rw [List.all_eq_false]
  have hg := SMap.get_of_mem (groups_sorted hG) hm
  dsimp only at hg
  have hn2 : 2 ≤ s.numTypes := by
    rw [get_groups hG] at hg
    split_ifs at hg with hne
    simp only [Option.some.injEq] at hg
    rw [List.isEmpty_iff] at hne
    obtain ⟨e, he⟩ := List.exists_mem_of_ne_nil _ hne
    have h1 : (ofElems [e]).numTypes = 1 :=
      (numTypes_one (fun x hx => by
        rw [List.mem_singleton] at hx; subst hx; exact hG.proper x (List.mem_filter.1 he).1) (by simp)).2 (by simp)
    have hpos : 1 ≤ (ofElems (G.elems.filter (G.groupName · = p))).numTypes := by
      by_contra hlt
      have h0 : (ofElems (G.elems.filter (G.groupName · = p))).numTypes = 0 := by omega
      have hpr : ∀ x ∈ G.elems.filter (G.groupName · = p), x.Proper := fun x hx => hG.proper x (List.mem_filter.1 hx).1
      have hpe := hpr e he
      have hk : e.ty = 0 ∨ e.ty = 1 ∨ e.ty = 2 ∨ e.ty = 3 := by have := hpe.1; omega
      rw [ofElems_eq hpr] at h0
      unfold Shapes.numTypes at h0
      dsimp only at h0
      have hmem : ∀ k, e.ty = k → ((G.elems.filter (G.groupName · = p)).filter (·.ty = k)) ≠ [] := fun k hk =>
        List.ne_nil_of_mem (List.mem_filter.2 ⟨he, by simpa using hk⟩)
      have hl : ∀ k, e.ty = k → (((G.elems.filter (G.groupName · = p)).filter (·.ty = k)).map fun e => mkElem e.nodes).isEmpty = false :=
        fun k hk => by rw [List.isEmpty_eq_false_iff]; simpa using hmem k hk
      rcases hk with a | a | a | a
      · have : ((((G.elems.filter (G.groupName · = p)).filter (·.ty = 0)).flatMap (·.nodes))).isEmpty = false := by
          rw [List.isEmpty_eq_false_iff]
          intro hnil
          rw [List.flatMap_eq_nil_iff] at hnil
          have h5 := hnil e (List.mem_filter.2 ⟨he, by simpa using a⟩)
          have := hpe.2
          rw [h5] at this; simp at this
        rw [this] at h0; simp at h0
      · rw [hl 1 a] at h0; simp at h0
      · rw [hl 2 a] at h0; simp at h0
      · rw [hl 3 a] at h0; simp at h0
    rw [← hg] at hn ⊢
    omega
  have hget : G'.shapes.get p = some s.decompose := by
    rw [hs]
    have h1 := SMap.get_map (fun (_ : Text) (s : Shapes) => s.decompose) G.groups p
    rw [h1, hg]; rfl
  have hnew : ∃ s', G'.groups.get p = some s' ∧ 2 ≤ s'.numTypes := by
    unfold Gmsh.groups
    rw [groups_foldl, hget]
    split_ifs
    · exact ⟨_, rfl, le_trans hn2 (decompose_mono s)⟩
    · exact ⟨_, rfl, le_trans hn2 (le_trans (decompose_mono s) (foldl_add_mono _ _))⟩
  obtain ⟨s', h1, h2⟩ := hnew
  exact ⟨(p, s'), SMap.mem_of_get h1, by simp; omega⟩

end Verif.Gmsh
