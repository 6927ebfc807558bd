import Verif.Gmsh.Regions

/-!
# C69: contacts, interfaces, and the device
-/

namespace Verif.Gmsh
open Verif.MeshIO

variable {α : Type}

/-! ### Specification -/

/-- No element has a node twice. -/
def Distinct (G : Gmsh α) : Prop := ∀ e ∈ G.elems, e.nodes.Nodup

/-- The dimension of contacts and interfaces: in two dimensions no triangle, in one dimension no line. -/
def LowDim (G : Gmsh α) (dim : Nat) (ps : List Text) : Prop :=
  (dim = 2 → ∀ l, l.length = 3 → ¬ Has G ps l) ∧ (dim = 1 → ∀ l, l.length = 2 → ¬ Has G ps l)

/-- If the groups have triangles, so do the groups of the region. -/
def TrisToo (G : Gmsh α) (ps rs : List Text) : Prop :=
  (∃ l, l.length = 3 ∧ Has G ps l) → ∃ l, l.length = 3 ∧ Has G rs l

/-- A contact that can be made: its region exists, its groups have nodes, all of them on the region, and its
dimension is right. -/
def ContactGood (G : Gmsh α) (dim : Nat) (ci : CInfo) : Prop :=
  ∃ ri, G.regions.get ci.region = some ri ∧ (∃ c, Used G ci.pnames c) ∧
    (∀ c, Used G ci.pnames c → Used G ri.pnames c) ∧ LowDim G dim ci.pnames ∧ TrisToo G ci.pnames ri.pnames

/-- An interface that can be made. -/
def IfaceGood (G : Gmsh α) (dim : Nat) (ii : IInfo) : Prop :=
  ∃ ri0 ri1, G.regions.get ii.region0 = some ri0 ∧ G.regions.get ii.region1 = some ri1 ∧ (∃ c, Used G ii.pnames c) ∧
    (∀ c, Used G ii.pnames c → Used G ri0.pnames c ∧ Used G ri1.pnames c) ∧ LowDim G dim ii.pnames ∧
    TrisToo G ii.pnames ri0.pnames ∧ TrisToo G ii.pnames ri1.pnames

/-- What a contact is: the nodes of its region whose coordinates its groups use, and the edges and triangles of its
region that are lines and triangles of its groups. -/
structure ContactOK (G : Gmsh α) (ci : CInfo) (ids : List Nat) (r : Reg α) (c : Con) : Prop where
  region : c.region = ci.region
  material : c.material = ci.material
  nodes_sorted : c.nodes.Pairwise (· < ·)
  nodes : ∀ k, k ∈ c.nodes ↔ k < ids.length ∧ Used G ci.pnames (ids.getD k 0)
  edges_sorted : c.edges.Pairwise (· < ·)
  edges : ∀ e, e ∈ c.edges ↔ e ∈ r.edges ∧ Has G ci.pnames (glob ids e)
  tris_sorted : c.tris.Pairwise (· < ·)
  tris : ∀ e, e ∈ c.tris ↔ e ∈ r.tris ∧ Has G ci.pnames (glob ids e)

/-- What an interface is: pairs of nodes at the same coordinate, one for each coordinate that its groups use, and
pairs of edges and of triangles on the same coordinates, one for each line or triangle of its groups that both
regions have. -/
structure IfaceOK (G : Gmsh α) (ii : IInfo) (ids0 ids1 : List Nat) (r0 r1 : Reg α) (c : Ifc) : Prop where
  region0 : c.region0 = ii.region0
  region1 : c.region1 = ii.region1
  same_nodes : glob ids0 c.nodes0 = glob ids1 c.nodes1
  nodes_sorted : c.nodes0.Pairwise (· < ·)
  nodes0 : ∀ k, k ∈ c.nodes0 ↔ k < ids0.length ∧ Used G ii.pnames (ids0.getD k 0)
  nodes1 : ∀ k, k ∈ c.nodes1 ↔ k < ids1.length ∧ Used G ii.pnames (ids1.getD k 0)
  same_edges : c.edges0.map (glob ids0) = c.edges1.map (glob ids1)
  edges_sorted : c.edges0.Pairwise (· < ·)
  edges0 : ∀ e, e ∈ c.edges0 ↔ e ∈ r0.edges ∧ Has G ii.pnames (glob ids0 e) ∧ ∃ e' ∈ r1.edges, glob ids1 e' = glob ids0 e
  edges1 : ∀ e, e ∈ c.edges1 ↔ e ∈ r1.edges ∧ Has G ii.pnames (glob ids1 e) ∧ ∃ e' ∈ r0.edges, glob ids0 e' = glob ids1 e
  same_tris : c.tris0.map (glob ids0) = c.tris1.map (glob ids1)
  tris_sorted : c.tris0.Pairwise (· < ·)
  tris0 : ∀ e, e ∈ c.tris0 ↔ e ∈ r0.tris ∧ Has G ii.pnames (glob ids0 e) ∧ ∃ e' ∈ r1.tris, glob ids1 e' = glob ids0 e
  tris1 : ∀ e, e ∈ c.tris1 ↔ e ∈ r1.tris ∧ Has G ii.pnames (glob ids1 e) ∧ ∃ e' ∈ r0.tris, glob ids0 e' = glob ids1 e

/-- What the device is. -/
structure DevOK (G : Gmsh α) (dim : Nat) (d : Dev α) : Prop where
  dimension : d.dim = dim
  coords : d.coords = G.coords.map Prod.snd
  region_names : ∀ n, d.regions.has n = G.regions.has n
  contact_names : ∀ n, d.contacts.has n = G.contacts.has n
  iface_names : ∀ n, d.ifaces.has n = G.ifaces.has n
  /-- one list of coordinate indices for each region -/
  regions : ∃ ids : Text → List Nat,
    (∀ n ri r, G.regions.get n = some ri → d.regions.get n = some r → RegionOK G dim ri (ids n) r) ∧
    (∀ n ci c r, G.contacts.get n = some ci → d.contacts.get n = some c → d.regions.get ci.region = some r →
      ContactOK G ci (ids ci.region) r c) ∧
    (∀ n ii c r0 r1, G.ifaces.get n = some ii → d.ifaces.get n = some c → d.regions.get ii.region0 = some r0 →
      d.regions.get ii.region1 = some r1 → IfaceOK G ii (ids ii.region0) (ids ii.region1) r0 r1 c)

/-! ### Finding elements -/

theorem findElem_exact {l : List (List Nat)} {n : Nat} {ns : List Nat} (hl : ∀ x ∈ l, x.length = n)
    (hn : ns.Pairwise (· < ·)) (hlen : ns.length = n) (hx : ∀ x ∈ l, x.Pairwise (· < ·)) :
    findElem l ns = if ns ∈ l then some ns else none := by
  unfold findElem
  have key : ∀ x ∈ l, (ns.all (· ∈ x)) = true → x = ns := by
    intro x hxl hall
    rw [List.all_eq_true] at hall
    have hsub : ns ⊆ x := fun i hi => by simpa using hall i hi
    have hsp := List.subperm_of_subset (hn.imp fun h => ne_of_lt h) hsub
    have hp : ns.Perm x := hsp.perm_of_length_le (by rw [hl x hxl, hlen])
    exact (List.Perm.eq_of_pairwise (fun _ _ _ _ h1 h2 => absurd h1 (lt_asymm h2)) hn (hx x hxl) hp).symm
  split_ifs with h
  · cases hf : l.find? fun e => ns.all (· ∈ e) with
    | none =>
      have := List.find?_eq_none.1 hf ns h
      simp at this
    | some x =>
      rw [key x (List.mem_of_find?_eq_some hf) (by have := List.find?_some hf; simpa using this)]
  · rw [List.find?_eq_none]
    intro x hxl hall
    exact h (key x hxl hall ▸ hxl)

theorem has_strict {G : Gmsh α} (hd : Distinct G) {ps : List Text} {l : List Nat} (h : Has G ps l) : l.Pairwise (· < ·) := by
  obtain ⟨p, _, e, he, hs⟩ := h
  obtain ⟨m, hm, hsub⟩ := hs.2
  have hnd : l.Nodup := hm.nodup_iff.1 ((hd e he.1).sublist hsub)
  exact (hs.1.and hnd).imp fun ⟨h1, h2⟩ => lt_of_le_of_ne h1 h2

theorem loc_strict {ids e : List Nat} (h : ids.Pairwise (· < ·)) (he : ∀ i ∈ e, i ∈ ids) (hs : e.Pairwise (· < ·)) :
    (loc ids e).Pairwise (· < ·) := by
  unfold loc
  rw [List.pairwise_map]
  exact hs.imp_of_mem fun ha hb hab => idxOf_lt_idxOf h (he _ ha) (he _ hb) hab

theorem glob_inj {ids e e' : List Nat} (h : ids.Pairwise (· < ·)) (he : ∀ k ∈ e, k < ids.length)
    (he' : ∀ k ∈ e', k < ids.length) (hg : glob ids e = glob ids e') : e = e' := by
  rw [← loc_glob h he, ← loc_glob h he', hg]

theorem has_mono {G : Gmsh α} {ps rs : List Text} (h : ∀ c, Used G ps c → Used G rs c) {l : List Nat} (hl : Has G ps l) :
    ∀ i ∈ l, Used G rs i := fun i hi => h i (has_used hl i hi)

/-- Elements of a region of one kind. -/
structure ElemsOK (G : Gmsh α) (rs : List Text) (ids : List Nat) (n : Nat) (l : List (List Nat)) : Prop where
  sorted : l.Pairwise (· < ·)
  mem : ∀ e, e ∈ l ↔ e.length = n ∧ (∀ k ∈ e, k < ids.length) ∧ Has G rs (glob ids e)

theorem elems_strict {G : Gmsh α} (hd : Distinct G) {rs : List Text} {ids : List Nat} (hs : ids.Pairwise (· < ·)) {n : Nat}
    {l : List (List Nat)} (h : ElemsOK G rs ids n l) {e : List Nat} (he : e ∈ l) : e.Pairwise (· < ·) := by
  obtain ⟨_, h2, h3⟩ := (h.mem e).1 he
  have := loc_strict hs (glob_mem h2) (has_strict hd h3)
  rwa [loc_glob hs h2] at this

theorem find_iff {G : Gmsh α} (hd : Distinct G) {ps rs : List Text} {ids : List Nat} (hs : ids.Pairwise (· < ·)) {n : Nat}
    {l : List (List Nat)} (h : ElemsOK G rs ids n l) {e : List Nat} (hn : e.length = n) (hh : Has G ps e)
    (hon : ∀ i ∈ e, i ∈ ids) : findElem l (loc ids e) = if loc ids e ∈ l then some (loc ids e) else none :=
  findElem_exact (n := n) (fun x hx => ((h.mem x).1 hx).1) (loc_strict hs hon (has_strict hd hh)) (by simpa [loc] using hn)
    fun x hx => elems_strict hd hs h hx

theorem filterMap_if {β γ : Type} (l : List β) (g : β → γ) (P : β → Prop) [DecidablePred P] (f : β → Option γ)
    (h : ∀ x ∈ l, f x = if P x then some (g x) else none) : l.filterMap f = (l.filter (fun x => P x)).map g := by
  induction l with
  | nil => rfl
  | cons a l ih =>
    have h1 := h a (by simp)
    have h2 := ih fun x hx => h x (by simp [hx])
    rw [List.filterMap_cons, h1, h2, List.filter_cons]
    split_ifs <;> simp_all

/-- The elements of the groups of a contact that its region has. -/
theorem found_ok {G : Gmsh α} (hd : Distinct G) {ps rs : List Text} {ids : List Nat} (hs : ids.Pairwise (· < ·)) {n : Nat}
    {l es : List (List Nat)} (h : ElemsOK G rs ids n l) (hes : es.Pairwise (· < ·))
    (hm : ∀ e, e ∈ es ↔ e.length = n ∧ Has G ps e) (hon : ∀ e ∈ es, ∀ i ∈ e, i ∈ ids) :
    (es.filterMap fun e => findElem l (loc ids e)).Pairwise (· < ·) ∧
    ∀ e, (e ∈ es.filterMap fun e => findElem l (loc ids e)) ↔ e ∈ l ∧ Has G ps (glob ids e) := by
  have hf : (es.filterMap fun e => findElem l (loc ids e)) = (es.filter fun e => loc ids e ∈ l).map (loc ids) :=
    filterMap_if es (loc ids) (fun e => loc ids e ∈ l) _ fun e he =>
      find_iff hd hs h ((hm e).1 he).1 ((hm e).1 he).2 (hon e he)
  rw [hf]
  constructor
  · exact sorted_loc hs (hes.filter _) fun e he => hon e (List.mem_filter.1 he).1
  · intro e
    rw [List.mem_map]
    constructor
    · rintro ⟨x, hx, rfl⟩
      obtain ⟨hx, hl⟩ := List.mem_filter.1 hx
      refine ⟨by simpa using hl, ?_⟩
      rw [glob_loc (hon x hx)]
      exact ((hm x).1 hx).2
    · rintro ⟨hl, hh⟩
      obtain ⟨h1, h2, _⟩ := (h.mem e).1 hl
      have hle := loc_glob hs h2
      refine ⟨glob ids e, List.mem_filter.2 ⟨(hm _).2 ⟨by simpa [glob] using h1, hh⟩, ?_⟩, hle⟩
      simpa [hle] using hl

theorem loc_filter_nodes {G : Gmsh α} {ps : List Text} {ids ns : List Nat} (hs : ids.Pairwise (· < ·))
    (hns : ns.Pairwise (· < ·)) (hm : ∀ c, c ∈ ns ↔ Used G ps c) (hon : ∀ c ∈ ns, c ∈ ids) :
    (loc ids ns).Pairwise (· < ·) ∧ ∀ k, k ∈ loc ids ns ↔ k < ids.length ∧ Used G ps (ids.getD k 0) := by
  refine ⟨loc_strict hs hon hns, ?_⟩
  intro k
  constructor
  · intro hk
    have hb := loc_bound hon k hk
    refine ⟨hb, ?_⟩
    have hg : ids.getD k 0 ∈ glob ids (loc ids ns) := List.mem_map.2 ⟨k, hk, rfl⟩
    rw [glob_loc hon] at hg
    exact (hm _).1 hg
  · rintro ⟨hb, hu⟩
    have h1 := loc_glob hs (e := [k]) (by simpa using hb)
    have h2 : ids.getD k 0 ∈ ns := (hm _).2 hu
    have h3 : ids.idxOf (ids.getD k 0) = k := by
      unfold loc glob at h1
      simpa only [List.map_cons, List.map_nil, List.cons.injEq, and_true] using h1
    exact List.mem_map.2 ⟨_, h2, h3⟩

/-! ### One contact -/

theorem dimOK_iff {G F : Gmsh α} (h : Final G F) {ps : List Text} :
    dimOK F.dim (F.uniq (·.tris) ps) (F.uniq (·.lines) ps) = true ↔ LowDim G F.dim ps := by
  have h3 : (F.uniq (·.tris) ps).isEmpty = true ↔ ∀ l, l.length = 3 → ¬ Has G ps l := by
    rw [List.isEmpty_iff, List.eq_nil_iff_forall_not_mem]
    exact forall_congr' fun l => by rw [mem_tris h, not_and]
  have h2 : (F.uniq (·.lines) ps).isEmpty = true ↔ ∀ l, l.length = 2 → ¬ Has G ps l := by
    rw [List.isEmpty_iff, List.eq_nil_iff_forall_not_mem]
    exact forall_congr' fun l => by rw [mem_lines h, not_and]
  unfold dimOK LowDim
  rw [← h3, ← h2]
  cases (F.uniq (·.tris) ps).isEmpty <;> cases (F.uniq (·.lines) ps).isEmpty <;>
    by_cases a : F.dim = 2 <;> by_cases b : F.dim = 1 <;> simp [a, b]

theorem tris_empty {G F : Gmsh α} (h : Final G F) {ps : List Text} :
    (F.uniq (·.tris) ps).isEmpty = false ↔ ∃ l, l.length = 3 ∧ Has G ps l := by
  rw [List.isEmpty_eq_false_iff]
  constructor
  · intro hne
    obtain ⟨l, hl⟩ := List.exists_mem_of_ne_nil _ hne
    exact ⟨l, (mem_tris h).1 hl⟩
  · rintro ⟨l, hl⟩
    exact List.ne_nil_of_mem ((mem_tris h).2 hl)

theorem pts_empty {G F : Gmsh α} (h : Final G F) {ps : List Text} :
    (F.uniq (·.pts) ps).isEmpty = false ↔ ∃ c, Used G ps c := by
  rw [List.isEmpty_eq_false_iff]
  constructor
  · intro hne
    obtain ⟨l, hl⟩ := List.exists_mem_of_ne_nil _ hne
    exact ⟨l, (mem_pts h).1 hl⟩
  · rintro ⟨l, hl⟩
    exact List.ne_nil_of_mem ((mem_pts h).2 hl)

/-- What the loops over contacts and interfaces know of a region. -/
structure KnownReg (G : Gmsh α) (rs : List Text) (ids : List Nat) (r : Reg α) : Prop where
  sorted : ids.Pairwise (· < ·)
  mem : ∀ c, c ∈ ids ↔ Used G rs c
  edges : ElemsOK G rs ids 2 r.edges
  tris : ElemsOK G rs ids 3 r.tris

theorem RegionOK.known {G : Gmsh α} {dim : Nat} {ri : RInfo} {ids : List Nat} {r : Reg α} (h : RegionOK G dim ri ids r) :
    KnownReg G ri.pnames ids r :=
  ⟨h.ids_sorted, h.ids_mem, ⟨h.edges_sorted, h.edges⟩, ⟨h.tris_sorted, h.tris⟩⟩

theorem known_tris {G : Gmsh α} {rs : List Text} {ids : List Nat} {r : Reg α} (h : KnownReg G rs ids r) :
    r.tris.isEmpty = false ↔ ∃ l, l.length = 3 ∧ Has G rs l := by
  rw [List.isEmpty_eq_false_iff]
  constructor
  · intro hne
    obtain ⟨l, hl⟩ := List.exists_mem_of_ne_nil _ hne
    obtain ⟨h1, _, h3⟩ := (h.tris.mem l).1 hl
    exact ⟨_, by simpa [glob] using h1, h3⟩
  · rintro ⟨l, h1, h2⟩
    have hon : ∀ i ∈ l, i ∈ ids := fun i hi => (h.mem i).2 (has_used h2 i hi)
    exact List.ne_nil_of_mem (a := loc ids l)
      ((h.tris.mem _).2 ⟨by simpa [loc] using h1, loc_bound hon, by rwa [glob_loc hon]⟩)

theorem contact_made {G F : Gmsh α} (h : Final G F) {regs : SMap Text (List Nat × Reg α)} {ci : CInfo} {rs : List Text}
    {ids : List Nat} {r : Reg α} (hr : regs.get ci.region = some (ids, r)) (hk : KnownReg G rs ids r) :
    (∃ c, mkContact F regs ci = (true, .made c)) ↔ (∃ c, Used G ci.pnames c) ∧
      (∀ c, Used G ci.pnames c → Used G rs c) ∧ LowDim G F.dim ci.pnames ∧ TrisToo G ci.pnames rs := by
  unfold mkContact
  rw [hr]
  dsimp only
  have hall : ((F.uniq (·.pts) ci.pnames).all (· ∈ ids)) = true ↔ ∀ c, Used G ci.pnames c → Used G rs c := by
    rw [List.all_eq_true]
    exact forall_congr' fun c => by rw [mem_pts h]; simp [hk.mem]
  constructor
  · rintro ⟨c, hc⟩
    split_ifs at hc with h1 h2
    · simp at hc
    rotate_left
    · simp at hc
    simp only [Prod.mk.injEq, Bool.and_eq_true] at hc
    have hsub := hall.1 hc.1.2
    rw [Bool.and_eq_true, Bool.and_eq_true] at h2
    have hfil : (F.uniq (·.pts) ci.pnames).filter (· ∈ ids) = F.uniq (·.pts) ci.pnames :=
      List.filter_eq_self.2 (List.all_eq_true.1 hc.1.2)
    rw [hfil] at h1
    refine ⟨(pts_empty h).1 (by simpa using h1), hsub, (dimOK_iff h).1 hc.1.1, ?_⟩
    intro ht
    have h3 := h2.2
    rw [(tris_empty h).2 ht] at h3
    exact (known_tris hk).1 (by simpa using h3)
  · rintro ⟨h1, h2, h3, h4⟩
    have hfil : (F.uniq (·.pts) ci.pnames).filter (· ∈ ids) = F.uniq (·.pts) ci.pnames :=
      List.filter_eq_self.2 (List.all_eq_true.1 (hall.2 h2))
    have hon : ∀ {l : List (List Nat)}, (∀ e ∈ l, Has G ci.pnames e) → (l.all fun e => e.all (· ∈ ids)) = true := by
      intro l hl
      rw [List.all_eq_true]
      intro e he
      rw [List.all_eq_true]
      intro i hi
      simpa using (hk.mem i).2 (has_mono h2 (hl e he) i hi)
    rw [hfil, if_neg (by rw [(pts_empty h).2 h1]; simp), if_pos, (dimOK_iff h).2 h3, hall.2 h2]
    · exact ⟨_, rfl⟩
    · rw [hon fun e he => ((mem_lines h).1 he).2, hon fun e he => ((mem_tris h).1 he).2]
      cases ht : (F.uniq (·.tris) ci.pnames).isEmpty with
      | true => rfl
      | false => rw [(known_tris hk).2 (h4 ((tris_empty h).1 ht))]; rfl

theorem contact_ok {G F : Gmsh α} (h : Final G F) (hd : Distinct G) {regs : SMap Text (List Nat × Reg α)} {ci : CInfo}
    {rs : List Text} {ids : List Nat} {r : Reg α} (hr : regs.get ci.region = some (ids, r)) (hk : KnownReg G rs ids r)
    {c : Con} (hc : mkContact F regs ci = (true, .made c)) : ContactOK G ci ids r c := by
  obtain ⟨_, h2, _, _⟩ := (contact_made h hr hk).1 ⟨c, hc⟩
  have hall : ∀ i ∈ F.uniq (·.pts) ci.pnames, i ∈ ids := fun i hi => (hk.mem i).2 (h2 i ((mem_pts h).1 hi))
  have hfil : (F.uniq (·.pts) ci.pnames).filter (· ∈ ids) = F.uniq (·.pts) ci.pnames :=
    List.filter_eq_self.2 fun i hi => by simpa using hall i hi
  unfold mkContact at hc
  rw [hr] at hc
  dsimp only at hc
  split_ifs at hc
  · simp at hc
  rotate_left
  · simp at hc
  simp only [Prod.mk.injEq, Made.made.injEq] at hc
  rw [hfil] at hc
  have hc := hc.2
  subst hc
  have hn := loc_filter_nodes (G := G) (ps := ci.pnames) hk.sorted (sortUniq_sorted _) (fun c => mem_pts h) hall
  have he := found_ok (ps := ci.pnames) hd hk.sorted hk.edges (sortUniq_sorted _) (fun e => mem_lines h)
    fun e he i hi => (hk.mem i).2 (has_mono h2 ((mem_lines h).1 he).2 i hi)
  have ht := found_ok (ps := ci.pnames) hd hk.sorted hk.tris (sortUniq_sorted _) (fun e => mem_tris h)
    fun e he i hi => (hk.mem i).2 (has_mono h2 ((mem_tris h).1 he).2 i hi)
  exact ⟨rfl, rfl, hn.1, hn.2, he.1, he.2, ht.1, ht.2⟩

/-- **C69** A contact whose groups have a node on its region, and an element other than a point with a node that is not
on its region: the program follows a null pointer. -/
theorem contact_crash {G F : Gmsh α} (h : Final G F) {regs : SMap Text (List Nat × Reg α)} {ci : CInfo} {rs : List Text}
    {ids : List Nat} {r : Reg α} (hr : regs.get ci.region = some (ids, r)) (hk : KnownReg G rs ids r)
    (hon : ∃ c, Used G ci.pnames c ∧ Used G rs c)
    (hoff : ∃ p ∈ ci.pnames, ∃ e c, Group G p e ∧ 1 ≤ e.ty ∧ c ∈ e.nodes ∧ ¬ Used G rs c) :
    (mkContact F regs ci).2 = .crash := by
  unfold mkContact
  rw [hr]
  dsimp only
  obtain ⟨c, hc1, hc2⟩ := hon
  obtain ⟨p, hp, e, c', he, hty, hce, hcn⟩ := hoff
  rw [if_neg, if_neg]
  · rw [Bool.and_eq_true, Bool.and_eq_true]
    rintro ⟨⟨h1, _⟩, _⟩
    have hpr := h.1.proper e he.1
    obtain ⟨m, hm, hlm, hmn⟩ := sub_split (k := 2) (l := [c'])
      (List.singleton_sublist.2 ((mkElem_perm e.nodes).mem_iff.2 hce)) (by simp)
      (by rw [length_mkElem]; unfold Elem.Proper at hpr; omega)
    have := List.all_eq_true.1 h1 m ((mem_lines h).2 ⟨hm, p, hp, e, he, side_iff.2 hmn⟩)
    have := List.all_eq_true.1 this c' (List.singleton_sublist.1 hlm)
    exact hcn ((hk.mem c').1 (by simpa using this))
  · intro hemp
    rw [List.isEmpty_iff, List.filter_eq_nil_iff] at hemp
    exact hemp c ((mem_pts h).2 hc1) (by simpa using (hk.mem c).2 hc2)

/-! ### One interface -/

theorem iface_made {G F : Gmsh α} (h : Final G F) {regs : SMap Text (List Nat × Reg α)} {ii : IInfo} {rs0 rs1 : List Text}
    {ids0 ids1 : List Nat} {r0 r1 : Reg α} (hr0 : regs.get ii.region0 = some (ids0, r0))
    (hr1 : regs.get ii.region1 = some (ids1, r1)) (hk0 : KnownReg G rs0 ids0 r0) (hk1 : KnownReg G rs1 ids1 r1) :
    (∃ c, mkIface F regs ii = (true, .made c)) ↔ (∃ c, Used G ii.pnames c) ∧
      (∀ c, Used G ii.pnames c → Used G rs0 c ∧ Used G rs1 c) ∧ LowDim G F.dim ii.pnames ∧
      TrisToo G ii.pnames rs0 ∧ TrisToo G ii.pnames rs1 := by
  unfold mkIface
  rw [hr0, hr1]
  dsimp only
  have hall : ((F.uniq (·.pts) ii.pnames).all fun i => i ∈ ids0 && i ∈ ids1) = true ↔
      ∀ c, Used G ii.pnames c → Used G rs0 c ∧ Used G rs1 c := by
    rw [List.all_eq_true]
    exact forall_congr' fun c => by rw [mem_pts h]; simp [hk0.mem, hk1.mem]
  constructor
  · rintro ⟨c, hc⟩
    split_ifs at hc with h1 h2
    · simp at hc
    rotate_left
    · simp at hc
    simp only [Prod.mk.injEq, Bool.and_eq_true] at hc
    have hall' : ((F.uniq (·.pts) ii.pnames).all fun i => i ∈ ids0 && i ∈ ids1) = true := hc.1.2
    have hsub := hall.1 hall'
    rw [Bool.and_eq_true, Bool.and_eq_true] at h2
    have hfil : (F.uniq (·.pts) ii.pnames).filter (fun i => i ∈ ids0 && i ∈ ids1) = F.uniq (·.pts) ii.pnames :=
      List.filter_eq_self.2 (List.all_eq_true.1 hall')
    rw [hfil] at h1
    have h3 := h2.2
    refine ⟨(pts_empty h).1 (by simpa using h1), hsub, (dimOK_iff h).1 hc.1.1, ?_, ?_⟩
    · intro ht
      rw [(tris_empty h).2 ht] at h3
      simp only [Bool.false_or, Bool.and_eq_true, Bool.not_eq_true'] at h3
      exact (known_tris hk0).1 h3.1
    · intro ht
      rw [(tris_empty h).2 ht] at h3
      simp only [Bool.false_or, Bool.and_eq_true, Bool.not_eq_true'] at h3
      exact (known_tris hk1).1 h3.2
  · rintro ⟨h1, h2, h3, h4, h5⟩
    have hfil : (F.uniq (·.pts) ii.pnames).filter (fun i => i ∈ ids0 && i ∈ ids1) = F.uniq (·.pts) ii.pnames :=
      List.filter_eq_self.2 (List.all_eq_true.1 (hall.2 h2))
    have hon : ∀ {l : List (List Nat)}, (∀ e ∈ l, Has G ii.pnames e) →
        (l.all fun e => e.all fun i => i ∈ ids0 && i ∈ ids1) = true := by
      intro l hl
      rw [List.all_eq_true]
      intro e he
      rw [List.all_eq_true]
      intro i hi
      have := h2 i (has_used (hl e he) i hi)
      simp [(hk0.mem i).2 this.1, (hk1.mem i).2 this.2]
    rw [hfil, if_neg (by rw [(pts_empty h).2 h1]; simp), if_pos, (dimOK_iff h).2 h3, hall.2 h2]
    · exact ⟨_, rfl⟩
    · rw [hon fun e he => ((mem_lines h).1 he).2, hon fun e he => ((mem_tris h).1 he).2]
      cases ht : (F.uniq (·.tris) ii.pnames).isEmpty with
      | true => rfl
      | false =>
        rw [(known_tris hk0).2 (h4 ((tris_empty h).1 ht)), (known_tris hk1).2 (h5 ((tris_empty h).1 ht))]; rfl

theorem both_ok {G : Gmsh α} (hd : Distinct G) {ps rs0 rs1 : List Text} {ids0 ids1 : List Nat} (hs0 : ids0.Pairwise (· < ·))
    (hs1 : ids1.Pairwise (· < ·)) {n : Nat} {l0 l1 es : List (List Nat)} (h0 : ElemsOK G rs0 ids0 n l0)
    (h1 : ElemsOK G rs1 ids1 n l1) (hes : es.Pairwise (· < ·)) (hm : ∀ e, e ∈ es ↔ e.length = n ∧ Has G ps e)
    (hon0 : ∀ e ∈ es, ∀ i ∈ e, i ∈ ids0) (hon1 : ∀ e ∈ es, ∀ i ∈ e, i ∈ ids1) :
    ((es.filterMap (findBoth l0 l1 ids0 ids1)).map Prod.fst).map (glob ids0) =
      ((es.filterMap (findBoth l0 l1 ids0 ids1)).map Prod.snd).map (glob ids1) ∧
    ((es.filterMap (findBoth l0 l1 ids0 ids1)).map Prod.fst).Pairwise (· < ·) ∧
    (∀ e, e ∈ (es.filterMap (findBoth l0 l1 ids0 ids1)).map Prod.fst ↔
      e ∈ l0 ∧ Has G ps (glob ids0 e) ∧ ∃ e' ∈ l1, glob ids1 e' = glob ids0 e) ∧
    (∀ e, e ∈ (es.filterMap (findBoth l0 l1 ids0 ids1)).map Prod.snd ↔
      e ∈ l1 ∧ Has G ps (glob ids1 e) ∧ ∃ e' ∈ l0, glob ids0 e' = glob ids1 e) := by
  have hf : es.filterMap (findBoth l0 l1 ids0 ids1) =
      (es.filter fun e => loc ids0 e ∈ l0 ∧ loc ids1 e ∈ l1).map fun e => (loc ids0 e, loc ids1 e) :=
    filterMap_if es (fun e => (loc ids0 e, loc ids1 e)) (fun e => loc ids0 e ∈ l0 ∧ loc ids1 e ∈ l1) _ fun e he => by
      unfold findBoth
      rw [find_iff hd hs0 h0 ((hm e).1 he).1 ((hm e).1 he).2 (hon0 e he),
        find_iff hd hs1 h1 ((hm e).1 he).1 ((hm e).1 he).2 (hon1 e he)]
      by_cases a : loc ids0 e ∈ l0 <;> by_cases b : loc ids1 e ∈ l1 <;> simp [a, b]
  have e0 : (es.filterMap (findBoth l0 l1 ids0 ids1)).map Prod.fst =
      (es.filter fun e => loc ids0 e ∈ l0 ∧ loc ids1 e ∈ l1).map (loc ids0) := by rw [hf, List.map_map]; rfl
  have e1 : (es.filterMap (findBoth l0 l1 ids0 ids1)).map Prod.snd =
      (es.filter fun e => loc ids0 e ∈ l0 ∧ loc ids1 e ∈ l1).map (loc ids1) := by rw [hf, List.map_map]; rfl
  rw [e0, e1]
  refine ⟨?_, ?_, ?_, ?_⟩
  · rw [List.map_map, List.map_map]
    apply List.map_congr_left
    intro e he
    have he := (List.mem_filter.1 he).1
    simp only [Function.comp_apply]
    rw [glob_loc (hon0 e he), glob_loc (hon1 e he)]
  · exact sorted_loc hs0 (hes.filter _) fun e he => hon0 e (List.mem_filter.1 he).1
  · intro e
    rw [List.mem_map]
    constructor
    · rintro ⟨x, hx, rfl⟩
      obtain ⟨hx, hl⟩ := List.mem_filter.1 hx
      simp only [decide_eq_true_eq] at hl
      rw [glob_loc (hon0 x hx)]
      exact ⟨hl.1, ((hm x).1 hx).2, loc ids1 x, hl.2, glob_loc (hon1 x hx)⟩
    · rintro ⟨hl, hh, e', he', hg⟩
      obtain ⟨a1, a2, _⟩ := (h0.mem e).1 hl
      obtain ⟨b1, b2, _⟩ := (h1.mem e').1 he'
      have hle := loc_glob hs0 a2
      have hle' := loc_glob hs1 b2
      refine ⟨glob ids0 e, List.mem_filter.2 ⟨(hm _).2 ⟨by simpa [glob] using a1, hh⟩, ?_⟩, hle⟩
      rw [hg] at hle'
      simp [hle, hle', hl, he']
  · intro e
    rw [List.mem_map]
    constructor
    · rintro ⟨x, hx, rfl⟩
      obtain ⟨hx, hl⟩ := List.mem_filter.1 hx
      simp only [decide_eq_true_eq] at hl
      rw [glob_loc (hon1 x hx)]
      exact ⟨hl.2, ((hm x).1 hx).2, loc ids0 x, hl.1, glob_loc (hon0 x hx)⟩
    · rintro ⟨hl, hh, e', he', hg⟩
      obtain ⟨a1, a2, _⟩ := (h1.mem e).1 hl
      obtain ⟨b1, b2, _⟩ := (h0.mem e').1 he'
      have hle := loc_glob hs1 a2
      have hle' := loc_glob hs0 b2
      refine ⟨glob ids1 e, List.mem_filter.2 ⟨(hm _).2 ⟨by simpa [glob] using a1, hh⟩, ?_⟩, hle⟩
      rw [hg] at hle'
      simp [hle, hle', hl, he']

theorem iface_ok {G F : Gmsh α} (h : Final G F) (hd : Distinct G) {regs : SMap Text (List Nat × Reg α)} {ii : IInfo}
    {rs0 rs1 : List Text} {ids0 ids1 : List Nat} {r0 r1 : Reg α} (hr0 : regs.get ii.region0 = some (ids0, r0))
    (hr1 : regs.get ii.region1 = some (ids1, r1)) (hk0 : KnownReg G rs0 ids0 r0) (hk1 : KnownReg G rs1 ids1 r1) {c : Ifc}
    (hc : mkIface F regs ii = (true, .made c)) : IfaceOK G ii ids0 ids1 r0 r1 c := by
  obtain ⟨_, h2, _, _⟩ := (iface_made h hr0 hr1 hk0 hk1).1 ⟨c, hc⟩
  have hall0 : ∀ i ∈ F.uniq (·.pts) ii.pnames, i ∈ ids0 := fun i hi => (hk0.mem i).2 (h2 i ((mem_pts h).1 hi)).1
  have hall1 : ∀ i ∈ F.uniq (·.pts) ii.pnames, i ∈ ids1 := fun i hi => (hk1.mem i).2 (h2 i ((mem_pts h).1 hi)).2
  have hfil : (F.uniq (·.pts) ii.pnames).filter (fun i => i ∈ ids0 && i ∈ ids1) = F.uniq (·.pts) ii.pnames :=
    List.filter_eq_self.2 fun i hi => by simp [hall0 i hi, hall1 i hi]
  unfold mkIface at hc
  rw [hr0, hr1] at hc
  dsimp only at hc
  split_ifs at hc
  · simp at hc
  rotate_left
  · simp at hc
  simp only [Prod.mk.injEq, Made.made.injEq] at hc
  rw [hfil] at hc
  have hc := hc.2
  subst hc
  have hn0 := loc_filter_nodes (G := G) (ps := ii.pnames) hk0.sorted (sortUniq_sorted _) (fun c => mem_pts h) hall0
  have hn1 := loc_filter_nodes (G := G) (ps := ii.pnames) hk1.sorted (sortUniq_sorted _) (fun c => mem_pts h) hall1
  have he := both_ok (ps := ii.pnames) hd hk0.sorted hk1.sorted hk0.edges hk1.edges (sortUniq_sorted _) (fun e => mem_lines h)
    (fun e he i hi => (hk0.mem i).2 (h2 i (has_used ((mem_lines h).1 he).2 i hi)).1)
    (fun e he i hi => (hk1.mem i).2 (h2 i (has_used ((mem_lines h).1 he).2 i hi)).2)
  have ht := both_ok (ps := ii.pnames) hd hk0.sorted hk1.sorted hk0.tris hk1.tris (sortUniq_sorted _) (fun e => mem_tris h)
    (fun e he i hi => (hk0.mem i).2 (h2 i (has_used ((mem_tris h).1 he).2 i hi)).1)
    (fun e he i hi => (hk1.mem i).2 (h2 i (has_used ((mem_tris h).1 he).2 i hi)).2)
  exact ⟨rfl, rfl, by rw [glob_loc hall0, glob_loc hall1], hn0.1, hn0.2, hn1.2, he.1, he.2.1, he.2.2.1, he.2.2.2,
    ht.1, ht.2.1, ht.2.2.1, ht.2.2.2⟩

end Verif.Gmsh
