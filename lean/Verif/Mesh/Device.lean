import Verif.Mesh.Mesh1d

/-!
# C32: the device created from a one-dimensional mesh
-/

namespace Verif.Mesh
open Classical

/-! ### Specification -/

/-- A region of the device: a chain of nodes and edges with the requested spacings. -/
structure DevRegionOK (lines : List Line) (R : DevRegion) : Prop where
  size : 2 ≤ R.coords.length
  increasing : R.coords.Pairwise (· < ·)
  edges : ∀ e, e ∈ R.edges ↔ e.2 = e.1 + 1 ∧ e.2 < R.coords.length
  edges_once : R.edges.Nodup
  spacing : ∀ i u v, R.coords[i]? = some u → R.coords[i + 1]? = some v →
    ∃ a b, Neighbours lines a b ∧ GapOK a.pos b.pos a.ps b.ns u v

/-- The region goes from one of the tagged lines to the other. -/
structure Spans (lines : List Line) (r : RegionDef) (R : DevRegion) : Prop where
  name : R.name = r.name
  material : R.material = r.material
  ends : ∃ a ∈ lines, ∃ b ∈ lines, a.tag = r.tag0 ∧ b.tag = r.tag1 ∧
    R.coords.head? = some (min a.pos b.pos) ∧ R.coords.getLast? = some (max a.pos b.pos)

/-- A contact of the device sits on the node at the position of its tag. -/
structure ContactOK (lines : List Line) (D : Dev) (c : ContactDef) (k : DevContact) : Prop where
  name : k.name = c.name
  material : k.material = c.material
  node : ∃ R, D.regions[k.region]? = some R ∧ ∃ a ∈ lines, a.tag = c.tag ∧ R.coords[k.node]? = some a.pos ∧
    ((∀ b ∈ lines, a.pos ≤ b.pos) ∨ (∀ b ∈ lines, b.pos ≤ a.pos))

/-- The interface number `i` of the device joins the end of region `i` with the beginning of region `i + 1`, which are
at the same place, the line with the tag of the requested interface. -/
structure InterfaceOK (lines : List Line) (interfaces : List InterfaceDef) (D : Dev) (i : Nat) (k : DevInterface) : Prop where
  regions : k.region0 = i ∧ k.region1 = i + 1
  requested : ∃ d ∈ interfaces, d.name = k.name ∧ ∃ a ∈ lines, a.tag = d.tag ∧ ∃ R0 R1, D.regions[i]? = some R0 ∧
    D.regions[i + 1]? = some R1 ∧ R0.coords.length = k.node0 + 1 ∧ k.node1 = 0 ∧ R0.coords[k.node0]? = some a.pos ∧
    R1.coords[k.node1]? = some a.pos

/-- What the device is. -/
structure DevOK (lines : List Line) (regions : List RegionDef) (contacts : List ContactDef) (interfaces : List InterfaceDef)
    (D : Dev) : Prop where
  region_ok : ∀ R ∈ D.regions, DevRegionOK lines R
  region_count : D.regions.length = regions.length
  region_requested : ∀ r ∈ regions, ∃ R ∈ D.regions, Spans lines r R
  region_only : ∀ R ∈ D.regions, ∃ r ∈ regions, Spans lines r R
  region_glued : ∀ i R R', D.regions[i]? = some R → D.regions[i + 1]? = some R' → R.coords.getLast? = R'.coords.head?
  lines_in : ∀ c ∈ lines, ∃ R ∈ D.regions, c.pos ∈ R.coords
  contact_ok : List.Forall₂ (ContactOK lines D) contacts D.contacts
  interface_count : D.interfaces.length = D.regions.length - 1
  interface_ok : ∀ i k, D.interfaces[i]? = some k → InterfaceOK lines interfaces D i k
  interface_used : ∀ d ∈ interfaces, ∃ k ∈ D.interfaces, k.name = d.name

/-! ### Regions -/

theorem coords_getElem? {l : Layout} {r : RegionIx} (h1 : r.i0 < r.i1) (h2 : r.i1 < l.locations.length) (k : Nat) :
    (buildRegion l r).coords[k]? = if k ≤ r.i1 - r.i0 then l.locations[r.i0 + k]? else none := by
  unfold buildRegion
  dsimp only
  rw [List.getElem?_map]
  by_cases hk : k ≤ r.i1 - r.i0
  · rw [if_pos hk, List.getElem?_range (by omega)]
    have : r.i0 + k < l.locations.length := by omega
    simp only [Option.map_some, List.getD_eq_getElem?_getD]
    rw [List.getElem?_eq_getElem this]
    rfl
  · rw [if_neg hk, List.getElem?_eq_none (by simp; omega)]
    rfl

theorem coords_length {l : Layout} {r : RegionIx} : (buildRegion l r).coords.length = r.i1 + 1 - r.i0 := by
  simp [buildRegion]

theorem coords_head {l : Layout} {r : RegionIx} (h1 : r.i0 < r.i1) (h2 : r.i1 < l.locations.length) :
    (buildRegion l r).coords.head? = l.locations[r.i0]? := by
  rw [List.head?_eq_getElem?, coords_getElem? h1 h2, if_pos (by omega)]; rfl

theorem coords_last {l : Layout} {r : RegionIx} (h1 : r.i0 < r.i1) (h2 : r.i1 < l.locations.length) :
    (buildRegion l r).coords.getLast? = l.locations[r.i1]? := by
  rw [List.getLast?_eq_getElem?, coords_length, coords_getElem? h1 h2, if_pos (by omega)]
  congr 1; omega

theorem region_ok_of {lines : List Line} {l : Layout} (hl : LayoutOK lines l) {r : RegionIx} (h1 : r.i0 < r.i1)
    (h2 : r.i1 < l.locations.length) : DevRegionOK lines (buildRegion l r) := by
  have hlen := coords_length (l := l) (r := r)
  refine ⟨by omega, ?_, ?_, ?_, ?_⟩
  · rw [List.pairwise_iff_getElem]
    intro i j hi hj hij
    have a1 := coords_getElem? h1 h2 i
    have a2 := coords_getElem? h1 h2 j
    rw [List.getElem?_eq_getElem hi, if_pos (by omega), List.getElem?_eq_getElem (by omega)] at a1
    rw [List.getElem?_eq_getElem hj, if_pos (by omega), List.getElem?_eq_getElem (by omega)] at a2
    rw [Option.some.inj a1, Option.some.inj a2]
    exact List.pairwise_iff_getElem.1 hl.increasing _ _ _ _ (by omega)
  · rintro ⟨a, b⟩
    simp only [buildRegion, List.mem_map, List.mem_range, List.length_map, List.length_range, Prod.mk.injEq]
    constructor
    · rintro ⟨k, hk, rfl, rfl⟩; omega
    · rintro ⟨rfl, h⟩; exact ⟨a, by omega, rfl, rfl⟩
  · unfold buildRegion
    dsimp only
    refine List.Nodup.map ?_ List.nodup_range
    intro a b h
    exact (Prod.mk.inj h).1
  · intro i u v hu hv
    rw [coords_getElem? h1 h2] at hu hv
    split at hu
    · split at hv
      · exact hl.spacing (r.i0 + i) u v hu hv
      · simp at hv
    · simp at hu

theorem spans_of {lines : List Line} {l : Layout} (hl : LayoutOK lines l) {r : RegionDef} {x : RegionIx} (h : RegionOf l r x)
    (h2 : x.i1 < l.locations.length) : Spans lines r (buildRegion l x) := by
  refine ⟨h.name, h.material, ?_⟩
  rw [coords_head h.lt h2, coords_last h.lt h2]
  have hlt : ∀ u v, l.locations[x.i0]? = some u → l.locations[x.i1]? = some v → u < v := by
    intro u v hu hv
    obtain ⟨g1, rfl⟩ := List.getElem?_eq_some_iff.1 hu
    obtain ⟨g2, rfl⟩ := List.getElem?_eq_some_iff.1 hv
    exact List.pairwise_iff_getElem.1 hl.increasing _ _ _ _ h.lt
  rcases h.tags with ⟨t0, t1⟩ | ⟨t0, t1⟩
  · obtain ⟨_, a, ha, hat, hap⟩ := hl.tag_line _ _ t0
    obtain ⟨_, b, hb, hbt, hbp⟩ := hl.tag_line _ _ t1
    have := hlt _ _ hap hbp
    exact ⟨a, ha, b, hb, hat, hbt, by rw [hap, min_eq_left this.le], by rw [hbp, max_eq_right this.le]⟩
  · obtain ⟨_, a, ha, hat, hap⟩ := hl.tag_line _ _ t0
    obtain ⟨_, b, hb, hbt, hbp⟩ := hl.tag_line _ _ t1
    have := hlt _ _ hbp hap
    exact ⟨a, ha, b, hb, hat, hbt, by rw [hbp, min_eq_right this.le], by rw [hap, max_eq_left this.le]⟩

theorem forall₂_mem_left {α β : Type} {R : α → β → Prop} {as : List α} {bs : List β} (h : List.Forall₂ R as bs) :
    ∀ a ∈ as, ∃ b ∈ bs, R a b := by
  induction h with
  | nil => simp
  | cons h _ ih =>
    intro a ha
    rcases List.mem_cons.1 ha with rfl | ha
    · exact ⟨_, by simp, h⟩
    · obtain ⟨b, hb, hr⟩ := ih a ha
      exact ⟨b, List.mem_cons_of_mem _ hb, hr⟩

theorem forall₂_mem_right {α β : Type} {R : α → β → Prop} {as : List α} {bs : List β} (h : List.Forall₂ R as bs) :
    ∀ b ∈ bs, ∃ a ∈ as, R a b := by
  induction h with
  | nil => simp
  | cons h _ ih =>
    intro b hb
    rcases List.mem_cons.1 hb with rfl | hb
    · exact ⟨_, by simp, h⟩
    · obtain ⟨a, ha, hr⟩ := ih b hb
      exact ⟨a, List.mem_cons_of_mem _ ha, hr⟩

theorem tile_cover : ∀ {rs : List RegionIx} {c e : Nat}, Tile c rs e → rs ≠ [] → ∀ k, c ≤ k → k ≤ e →
    ∃ r ∈ rs, r.i0 ≤ k ∧ k ≤ r.i1 := by
  intro rs
  induction rs with
  | nil => intro c e _ h; exact absurd rfl h
  | cons r rs ih =>
    intro c e h _ k h1 h2
    by_cases hk : k ≤ r.i1
    · exact ⟨r, by simp, by rw [h.1]; exact h1, hk⟩
    · by_cases hne : rs = []
      · subst hne
        have : r.i1 = e := h.2
        omega
      · obtain ⟨r', hr', g⟩ := ih h.2 hne k (by omega) h2
        exact ⟨r', List.mem_cons_of_mem _ hr', g⟩

theorem tile_last : ∀ {rs : List RegionIx} {c e : Nat}, Tile c rs e → ∀ r, rs.getLast? = some r → r.i1 = e := by
  intro rs
  induction rs with
  | nil => intro c e _ r h; simp at h
  | cons x rs ih =>
    intro c e h r hr
    cases rs with
    | nil =>
      simp only [List.getLast?_singleton, Option.some.injEq] at hr
      subst hr
      exact h.2
    | cons y rs =>
      rw [List.getLast?_cons_cons] at hr
      exact ih h.2 r hr

/-! ### Interfaces -/

theorem buildInterfaces_some {m : List (Nat × InterfaceDef)} : ∀ (rs : List RegionIx) (i : Nat) (prev : RegionIx),
    (∀ j r r', (prev :: rs)[j]? = some r → (prev :: rs)[j + 1]? = some r' → (m.lookup r.i1).isSome) →
    ∃ is, buildInterfaces m (i + 1) prev rs = some is ∧ is.length = rs.length ∧ ∀ j k, is[j]? = some k →
      ∃ r r' d, (prev :: rs)[j]? = some r ∧ (prev :: rs)[j + 1]? = some r' ∧ m.lookup r.i1 = some d ∧
        k = ⟨d.name, i + j, r.lastNode, i + j + 1, 0⟩ := by
  intro rs
  induction rs with
  | nil => intro i prev _; exact ⟨[], rfl, rfl, by simp⟩
  | cons r rs ih =>
    intro i prev h
    obtain ⟨is, h1, h2, h3⟩ := ih (i + 1) r (fun j a b ha hb => h (j + 1) a b ha hb)
    obtain ⟨d, hd⟩ := Option.isSome_iff_exists.1 (h 0 prev r rfl rfl)
    rw [buildInterfaces, hd, h1]
    refine ⟨_, rfl, by simp [h2], ?_⟩
    intro j k hk
    cases j with
    | zero =>
      simp only [List.getElem?_cons_zero, Option.some.injEq] at hk
      subst hk
      exact ⟨prev, r, d, rfl, rfl, hd, by simp⟩
    | succ j =>
      simp only [List.getElem?_cons_succ] at hk
      obtain ⟨a, b, d', g1, g2, g3, g4⟩ := h3 j k hk
      refine ⟨a, b, d', g1, g2, g3, ?_⟩
      rw [g4]
      simp only [DevInterface.mk.injEq, true_and, and_true]
      omega

/-! ### The device -/

theorem contacts_some {lines : List Line} {regions : List RegionDef} {contacts : List ContactDef}
    {interfaces : List InterfaceDef} {M : Mesh1d} (h : MeshOK lines regions contacts interfaces M)
    (D : Dev) (hD : D.regions = M.regions.map (buildRegion M.layout)) : ∀ cs : List ContactDef,
    (∀ c ∈ cs, M.layout.find c.tag = some 0 ∨ M.layout.find c.tag = some (M.layout.locations.length - 1)) →
    ∃ ks, buildContacts M cs = some ks ∧ List.Forall₂ (ContactOK lines D) cs ks := by
  have hincr := h.layout.increasing
  have hlt : ∀ x ∈ M.regions, x.i0 < x.i1 := by
    obtain ⟨rs0, hf, hp⟩ := h.requested
    exact fun x hx => forall₂_right_lt hf x (hp.mem_iff.1 hx)
  have hle := tile_le h.tile hlt
  obtain ⟨a0, b0, ha0, hb0, hhead, hlast⟩ := h.layout.ends
  have hlen : M.layout.locations.length ≠ 0 := by
    intro hc
    rw [List.length_eq_zero_iff.1 hc] at hhead
    simp at hhead
  intro cs
  induction cs with
  | nil => intro _; exact ⟨[], rfl, .nil⟩
  | cons c cs ih =>
    intro hcs
    obtain ⟨ks, h1, h2⟩ := ih fun c' hc' => hcs c' (List.mem_cons_of_mem _ hc')
    obtain ⟨k, hk1, hk2⟩ : ∃ k, buildContact M c = some k ∧ ContactOK lines D c k := by
      have hfind := hcs c (by simp)
      by_cases h0 : M.layout.find c.tag = some 0
      · refine ⟨⟨c.name, c.material, 0, 0⟩, by unfold buildContact; rw [h0], rfl, rfl, ?_⟩
        obtain ⟨r, rs, hrs⟩ := List.exists_cons_of_ne_nil h.nonempty
        have hr : r ∈ M.regions := by rw [hrs]; simp
        have hr0 : r.i0 = 0 := by
          have := h.tile
          rw [hrs] at this
          exact this.1
        have hb := hle r hr
        have hlr := hlt r hr
        obtain ⟨_, a, ha, hat, hap⟩ := h.layout.tag_line _ _ h0
        refine ⟨buildRegion M.layout r, by rw [hD, hrs]; rfl, a, ha, hat, ?_, .inl fun b hb' => ?_⟩
        · dsimp only
          rw [coords_getElem? hlr (by omega), if_pos (by omega), hr0]
          exact hap
        · obtain ⟨i, hi⟩ := List.getElem?_of_mem (h.layout.lines_in b hb')
          obtain ⟨g1, g2⟩ := List.getElem?_eq_some_iff.1 hap
          obtain ⟨g3, g4⟩ := List.getElem?_eq_some_iff.1 hi
          rw [← g2, ← g4]
          rcases Nat.eq_zero_or_pos i with rfl | hpos
          · exact le_refl _
          · exact (List.pairwise_iff_getElem.1 hincr _ _ _ _ hpos).le
      · have hl1 : M.layout.find c.tag = some (M.layout.locations.length - 1) := by
          rcases hfind with hf | hf
          · exact absurd hf h0
          · exact hf
        obtain ⟨n, hn⟩ : ∃ n, M.layout.locations.length - 1 = n + 1 := by
          refine ⟨M.layout.locations.length - 1 - 1, ?_⟩
          have : M.layout.locations.length - 1 ≠ 0 := fun hc => h0 (by rw [hl1, hc])
          omega
        obtain ⟨r, hr⟩ : ∃ r, M.regions.getLast? = some r := by
          rw [List.getLast?_eq_some_getLast h.nonempty]; exact ⟨_, rfl⟩
        refine ⟨⟨c.name, c.material, M.regions.length - 1, r.lastNode⟩, ?_, rfl, rfl, ?_⟩
        · unfold buildContact
          rw [hl1, hn]
          dsimp only
          rw [hr]
          rfl
        · have hre := tile_last h.tile r hr
          have hmem := List.mem_of_getLast? hr
          have hlr := hlt r hmem
          have hb := hle r hmem
          obtain ⟨_, a, ha, hat, hap⟩ := h.layout.tag_line _ _ hl1
          refine ⟨buildRegion M.layout r, ?_, a, ha, hat, ?_, .inr fun b hb' => ?_⟩
          · rw [hD, List.getElem?_map]
            dsimp only
            rw [← List.getLast?_eq_getElem?, hr]
            rfl
          · dsimp only
            rw [coords_getElem? hlr (by omega), if_pos (by unfold RegionIx.lastNode; omega), ← hap]
            congr 1
            unfold RegionIx.lastNode
            omega
          · obtain ⟨i, hi⟩ := List.getElem?_of_mem (h.layout.lines_in b hb')
            obtain ⟨g1, g2⟩ := List.getElem?_eq_some_iff.1 hap
            obtain ⟨g3, g4⟩ := List.getElem?_eq_some_iff.1 hi
            rw [← g2, ← g4]
            rcases Nat.lt_or_ge i (M.layout.locations.length - 1) with hlt' | hge
            · exact (List.pairwise_iff_getElem.1 hincr _ _ _ _ hlt').le
            · have : i = M.layout.locations.length - 1 := by omega
              subst this
              exact le_refl _
    exact ⟨k :: ks, by rw [buildContacts, hk1, h1], .cons hk2 h2⟩

/-- **C32** A finalized mesh always becomes a device, and the device is what was requested. -/
theorem instantiate_spec {lines : List Line} {regions : List RegionDef} {contacts : List ContactDef}
    {interfaces : List InterfaceDef} {M : Mesh1d} (h : MeshOK lines regions contacts interfaces M) :
    ∃ D, instantiate M = some D ∧ DevOK lines regions contacts interfaces D := by
  have hlt : ∀ x ∈ M.regions, x.i0 < x.i1 := by
    obtain ⟨rs0, hf, hp⟩ := h.requested
    exact fun x hx => forall₂_right_lt hf x (hp.mem_iff.1 hx)
  have hle := tile_le h.tile hlt
  have hlen : M.layout.locations.length ≠ 0 := by
    obtain ⟨a0, b0, ha0, hb0, hhead, hlast⟩ := h.layout.ends
    intro hc
    rw [List.length_eq_zero_iff.1 hc] at hhead
    simp at hhead
  obtain ⟨r, rs, hrs⟩ := List.exists_cons_of_ne_nil h.nonempty
  have hj := h.junction
  rw [hrs] at hj
  obtain ⟨is, hi1, hi2, hi3⟩ := buildInterfaces_some rs 0 r hj
  rw [← hrs] at hi3
  obtain ⟨hcs, c0, c1, hc, hcc⟩ := h.at_contacts
  have hcc' : ∀ c ∈ M.contacts, M.layout.find c.tag = some 0 ∨ M.layout.find c.tag = some (M.layout.locations.length - 1) := by
    intro c hcm
    rw [hcs, hc] at hcm
    simp only [List.mem_cons, List.not_mem_nil, or_false] at hcm
    rcases hcm with rfl | rfl
    · rcases hcc with g | g
      · exact .inl g.1
      · exact .inr g.2
    · rcases hcc with g | g
      · exact .inr g.2
      · exact .inl g.1
  obtain ⟨ks, hks, _⟩ := contacts_some h ⟨M.regions.map (buildRegion M.layout), [], []⟩ rfl M.contacts hcc'
  obtain ⟨D, hD⟩ : ∃ D : Dev, D = ⟨M.regions.map (buildRegion M.layout), ks, is⟩ := ⟨_, rfl⟩
  have hDr : D.regions = M.regions.map (buildRegion M.layout) := by rw [hD]
  have hget : ∀ (i : Nat) R, D.regions[i]? = some R → ∃ x, M.regions[i]? = some x ∧ R = buildRegion M.layout x := by
    intro i R hR
    rw [hDr, List.getElem?_map, Option.map_eq_some_iff] at hR
    obtain ⟨x, hx, rfl⟩ := hR
    exact ⟨x, hx, rfl⟩
  have hin : ∀ x ∈ M.regions, x.i1 < M.layout.locations.length := fun x hx => by
    have := hle x hx
    omega
  have hif : ∀ i k, D.interfaces[i]? = some k → InterfaceOK lines interfaces D i k := by
    intro i k hk
    rw [hD] at hk
    obtain ⟨a, b, d, g1, g2, g3, rfl⟩ := hi3 i k hk
    have ha := List.mem_of_getElem? g1
    have hb := List.mem_of_getElem? g2
    obtain ⟨hd1, hd2⟩ := (h.at_interface _ _).1 g3
    obtain ⟨_, c, hcl, hct, hcp⟩ := h.layout.tag_line _ _ hd2
    have hab := tile_next h.tile i a b g1 g2
    have hla := hlt a ha
    refine ⟨by simp, d, hd1, rfl, c, hcl, hct, buildRegion M.layout a, buildRegion M.layout b, ?_, ?_, ?_, rfl, ?_, ?_⟩
    · rw [hDr, List.getElem?_map, g1]; rfl
    · rw [hDr, List.getElem?_map, g2]; rfl
    · rw [coords_length]; dsimp only [RegionIx.lastNode]; omega
    · change (buildRegion M.layout a).coords[a.i1 - a.i0]? = _
      rw [coords_getElem? hla (hin a ha), if_pos (le_refl _), ← hcp]
      congr 1; omega
    · change (buildRegion M.layout b).coords[0]? = _
      rw [coords_getElem? (hlt b hb) (hin b hb), if_pos (by omega), ← hab]
      exact hcp
  refine ⟨D, ?_, ?_, ?_, ?_, ?_, ?_, ?_, ?_, ?_, hif, ?_⟩
  · unfold instantiate
    rw [hks, hD]
    rw [hrs]
    dsimp only
    rw [hi1]
  · intro R hR
    rw [hDr] at hR
    obtain ⟨x, hx, rfl⟩ := List.mem_map.1 hR
    exact region_ok_of h.layout (hlt x hx) (hin x hx)
  · obtain ⟨rs0, hf, hp⟩ := h.requested
    rw [hDr, List.length_map, hp.length_eq, hf.length_eq]
  · intro q hq
    obtain ⟨rs0, hf, hp⟩ := h.requested
    obtain ⟨x, hx, hqx⟩ := forall₂_mem_left hf q hq
    have hx' := hp.mem_iff.2 hx
    exact ⟨buildRegion M.layout x, by rw [hDr]; exact List.mem_map_of_mem hx', spans_of h.layout hqx (hin x hx')⟩
  · intro R hR
    rw [hDr] at hR
    obtain ⟨x, hx, rfl⟩ := List.mem_map.1 hR
    obtain ⟨rs0, hf, hp⟩ := h.requested
    obtain ⟨q, hq, hqx⟩ := forall₂_mem_right hf x (hp.mem_iff.1 hx)
    exact ⟨q, hq, spans_of h.layout hqx (hin x hx)⟩
  · intro i R R' hR hR'
    obtain ⟨x, hx, rfl⟩ := hget i R hR
    obtain ⟨y, hy, rfl⟩ := hget (i + 1) R' hR'
    have hxm := List.mem_of_getElem? hx
    have hym := List.mem_of_getElem? hy
    rw [coords_last (hlt x hxm) (hin x hxm), coords_head (hlt y hym) (hin y hym), tile_next h.tile i x y hx hy]
  · intro c hcl
    obtain ⟨k, hk⟩ := List.getElem?_of_mem (h.layout.lines_in c hcl)
    obtain ⟨hkl, _⟩ := List.getElem?_eq_some_iff.1 hk
    obtain ⟨x, hx, g1, g2⟩ := tile_cover h.tile h.nonempty k (by omega) (by omega)
    refine ⟨buildRegion M.layout x, by rw [hDr]; exact List.mem_map_of_mem hx, ?_⟩
    refine List.mem_of_getElem? (i := k - x.i0) ?_
    rw [coords_getElem? (hlt x hx) (hin x hx), if_pos (by omega), ← hk]
    congr 1; omega
  · obtain ⟨ks', hks', hf⟩ := contacts_some h D hDr M.contacts hcc'
    rw [hks] at hks'
    cases hks'
    rw [← hcs, hD]
    rw [hD] at hf
    exact hf
  · rw [hDr, List.length_map, hD, hrs]
    simp [hi2]
  · intro d hd
    obtain ⟨i, a, b, g1, g2, g3⟩ := h.used d hd
    have hib : i < is.length := by
      obtain ⟨hb, _⟩ := List.getElem?_eq_some_iff.1 g2
      rw [hrs] at hb
      simp only [List.length_cons] at hb
      omega
    obtain ⟨a', b', d', e1, e2, e3, e4⟩ := hi3 i is[i] (List.getElem?_eq_getElem hib)
    rw [g1] at e1
    cases e1
    have : M.interfaces.lookup a.i1 = some d := (h.at_interface _ _).2 ⟨hd, g3⟩
    rw [this] at e3
    cases e3
    exact ⟨is[i], by rw [hD]; exact List.getElem_mem _, by rw [e4]⟩

end Verif.Mesh
