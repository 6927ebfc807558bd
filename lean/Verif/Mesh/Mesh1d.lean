import Verif.Mesh.Complete

/-!
# C32: regions, contacts and interfaces of a one-dimensional mesh, and the device
-/

namespace Verif.Mesh
open Classical

/-! ### Specification -/

/-- The region `x` of the mesh is the requested region `r`. -/
structure RegionOf (l : Layout) (r : RegionDef) (x : RegionIx) : Prop where
  name : x.name = r.name
  material : x.material = r.material
  tags : (l.find r.tag0 = some x.i0 ∧ l.find r.tag1 = some x.i1) ∨ (l.find r.tag0 = some x.i1 ∧ l.find r.tag1 = some x.i0)
  lt : x.i0 < x.i1

/-- The regions follow each other from position `c` to position `e`. -/
def Tile : Nat → List RegionIx → Nat → Prop
  | c, [], e => c = e
  | c, r :: rs, e => r.i0 = c ∧ Tile r.i1 rs e

/-- What a finalized mesh is. -/
structure MeshOK (lines : List Line) (regions : List RegionDef) (contacts : List ContactDef) (interfaces : List InterfaceDef)
    (M : Mesh1d) : Prop where
  layout : LayoutOK lines M.layout
  requested : ∃ rs0, List.Forall₂ (RegionOf M.layout) regions rs0 ∧ M.regions.Perm rs0
  nonempty : M.regions ≠ []
  tile : Tile 0 M.regions (M.layout.locations.length - 1)
  at_contacts : M.contacts = contacts ∧ ∃ c0 c1, contacts = [c0, c1] ∧
    ((M.layout.find c0.tag = some 0 ∧ M.layout.find c1.tag = some (M.layout.locations.length - 1)) ∨
     (M.layout.find c1.tag = some 0 ∧ M.layout.find c0.tag = some (M.layout.locations.length - 1)))
  interface_names : (interfaces.map InterfaceDef.name).Nodup
  at_interface : ∀ k d, M.interfaces.lookup k = some d ↔ d ∈ interfaces ∧ M.layout.find d.tag = some k
  junction : ∀ i r r', M.regions[i]? = some r → M.regions[i + 1]? = some r' → (M.interfaces.lookup r.i1).isSome
  used : ∀ d ∈ interfaces, ∃ i r r', M.regions[i]? = some r ∧ M.regions[i + 1]? = some r' ∧ M.layout.find d.tag = some r.i1

/-! ### Regions -/

theorem sortTags_spec {l : Layout} {r : RegionDef} {x : RegionIx} (h : sortTags l r = some x) : RegionOf l r x := by
  unfold sortTags at h
  split at h
  · rename_i a b ha hb
    split at h
    · simp at h
    · rename_i hne
      simp only [Option.some.injEq] at h
      subst h
      rcases Nat.lt_or_gt_of_ne hne with hlt | hlt
      · exact ⟨rfl, rfl, .inl ⟨by dsimp only; rw [Nat.min_eq_left hlt.le]; exact ha, by dsimp only; rw [Nat.max_eq_right hlt.le]; exact hb⟩,
          by dsimp only; omega⟩
      · exact ⟨rfl, rfl, .inr ⟨by dsimp only; rw [Nat.max_eq_left hlt.le]; exact ha, by dsimp only; rw [Nat.min_eq_right hlt.le]; exact hb⟩,
          by dsimp only; omega⟩
  · simp at h

theorem sortAllTags_spec {l : Layout} : ∀ {rs : List RegionDef} {xs : List RegionIx}, sortAllTags l rs = some xs →
    List.Forall₂ (RegionOf l) rs xs := by
  intro rs
  induction rs with
  | nil => intro xs h; simp only [sortAllTags, Option.some.injEq] at h; subst h; exact .nil
  | cons r rs ih =>
    intro xs h
    rw [sortAllTags] at h
    split at h
    · rename_i x xs' hx hxs
      simp only [Option.some.injEq] at h
      subst h
      exact .cons (sortTags_spec hx) (ih hxs)
    · simp at h

theorem forall₂_right_lt {l : Layout} {rs : List RegionDef} {xs : List RegionIx} (h : List.Forall₂ (RegionOf l) rs xs) :
    ∀ x ∈ xs, x.i0 < x.i1 := by
  induction h with
  | nil => simp
  | cons h _ ih =>
    intro x hx
    rcases List.mem_cons.1 hx with rfl | hx
    · exact h.lt
    · exact ih x hx

theorem checkRegions_spec {m : List (Nat × InterfaceDef)} {last : Nat} : ∀ {rs : List RegionIx} {c e : Nat},
    checkRegions m last rs c = some e → Tile c rs e ∧ ∀ r ∈ rs, r.i1 ≠ last → (m.lookup r.i1).isSome := by
  intro rs
  induction rs with
  | nil => intro c e h; simp only [checkRegions, Option.some.injEq] at h; exact ⟨h, by simp⟩
  | cons r rs ih =>
    intro c e h
    rw [checkRegions] at h
    split at h
    · simp at h
    · rename_i h0
      split at h
      · simp at h
      · rename_i h1
        obtain ⟨g1, g2⟩ := ih h
        refine ⟨⟨(not_not.1 h0).symm, g1⟩, fun x hx hne => ?_⟩
        rcases List.mem_cons.1 hx with rfl | hx
        · by_contra hc
          exact h1 ⟨hne, Option.isNone_iff_eq_none.2 (Option.not_isSome_iff_eq_none.1 hc)⟩
        · exact g2 x hx hne

theorem tile_ge : ∀ {rs : List RegionIx} {c e : Nat}, Tile c rs e → (∀ x ∈ rs, x.i0 < x.i1) → c ≤ e := by
  intro rs
  induction rs with
  | nil => intro c e h _; exact le_of_eq h
  | cons r rs ih =>
    intro c e h hx
    have := ih h.2 (fun x hx' => hx x (List.mem_cons_of_mem _ hx'))
    have h1 := hx r (by simp)
    have h2 := h.1
    omega

theorem tile_next : ∀ {rs : List RegionIx} {c e : Nat}, Tile c rs e → ∀ i r r', rs[i]? = some r → rs[i + 1]? = some r' →
    r.i1 = r'.i0 := by
  intro rs
  induction rs with
  | nil => intro c e _ i r r' h; simp at h
  | cons x rs ih =>
    intro c e h i r r' h1 h2
    cases i with
    | zero =>
      simp only [List.getElem?_cons_zero, Option.some.injEq] at h1
      subst h1
      cases rs with
      | nil => simp at h2
      | cons y rs =>
        simp only [zero_add, List.getElem?_cons_succ, List.getElem?_cons_zero, Option.some.injEq] at h2
        subst h2
        exact h.2.1.symm
    | succ i =>
      simp only [List.getElem?_cons_succ] at h1 h2
      exact ih h.2 i r r' h1 h2

theorem tile_le : ∀ {rs : List RegionIx} {c e : Nat}, Tile c rs e → (∀ x ∈ rs, x.i0 < x.i1) → ∀ x ∈ rs, c ≤ x.i0 ∧ x.i1 ≤ e := by
  intro rs
  induction rs with
  | nil => intro c e _ _ x hx; simp at hx
  | cons r rs ih =>
    intro c e h hlt x hx
    have hrest : ∀ x ∈ rs, x.i0 < x.i1 := fun x hx' => hlt x (List.mem_cons_of_mem _ hx')
    rcases List.mem_cons.1 hx with rfl | hx
    · exact ⟨le_of_eq h.1.symm, tile_ge h.2 hrest⟩
    · have := ih h.2 hrest x hx
      have h1 := hlt r (by simp)
      have h2 := h.1
      omega

theorem tile_start : ∀ {rs : List RegionIx} {c e : Nat}, Tile c rs e → ∀ x ∈ rs, x.i0 ≠ c →
    ∃ i r r', rs[i]? = some r ∧ rs[i + 1]? = some r' ∧ r' = x := by
  intro rs
  induction rs with
  | nil => intro c e _ x hx; simp at hx
  | cons r rs ih =>
    intro c e h x hx hne
    rcases List.mem_cons.1 hx with rfl | hx
    · exact absurd h.1 hne
    · by_cases hi : x.i0 = r.i1
      · cases rs with
        | nil => simp at hx
        | cons y rs =>
          by_cases hxy : x = y
          · exact ⟨0, r, y, rfl, rfl, hxy.symm⟩
          · obtain ⟨i, a, b, h1, h2, h3⟩ : ∃ i a b, (y :: rs)[i]? = some a ∧ (y :: rs)[i + 1]? = some b ∧ b = x := by
              obtain ⟨j, hj⟩ := List.getElem?_of_mem hx
              cases j with
              | zero => simp only [List.getElem?_cons_zero, Option.some.injEq] at hj; exact absurd hj.symm hxy
              | succ j =>
                obtain ⟨hlt, _⟩ := List.getElem?_eq_some_iff.1 hj
                exact ⟨j, (y :: rs)[j]'(by omega), x, List.getElem?_eq_getElem _, hj, rfl⟩
            exact ⟨i + 1, a, b, h1, h2, h3⟩
      · obtain ⟨i, a, b, h1, h2, h3⟩ := ih h.2 x hx hi
        exact ⟨i + 1, a, b, h1, h2, h3⟩

/-! ### Interfaces -/

theorem checkInterfaces_spec {l : Layout} : ∀ {is : List InterfaceDef} {names : List String} {m m' : List (Nat × InterfaceDef)},
    checkInterfaces l is names m = some m' →
    (is.map InterfaceDef.name).Nodup ∧ (∀ i ∈ is, i.name ∉ names) ∧
    ∀ k d, m'.lookup k = some d ↔ m.lookup k = some d ∨ (d ∈ is ∧ l.find d.tag = some k) := by
  intro is
  induction is with
  | nil => intro names m m' h; simp only [checkInterfaces, Option.some.injEq] at h; subst h; simp
  | cons i is ih =>
    intro names m m' h
    rw [checkInterfaces] at h
    split at h
    · simp at h
    · rename_i hn
      split at h
      · simp at h
      · rename_i k0 hk0
        split at h
        · simp at h
        · rename_i hm
          have hm' : m.lookup k0 = none := Option.not_isSome_iff_eq_none.1 hm
          obtain ⟨g1, g2, g3⟩ := ih h
          refine ⟨?_, ?_, ?_⟩
          · rw [List.map_cons, List.nodup_cons]
            refine ⟨fun hc => ?_, g1⟩
            obtain ⟨j, hj, hjn⟩ := List.mem_map.1 hc
            exact g2 j hj (by rw [hjn]; simp)
          · intro j hj
            rcases List.mem_cons.1 hj with rfl | hj
            · exact hn
            · exact fun hc => g2 j hj (List.mem_cons_of_mem _ hc)
          · intro k d
            rw [g3, List.lookup_cons]
            by_cases hk : k = k0
            · subst hk
              simp only [beq_self_eq_true, Option.some.injEq, hm', List.mem_cons]
              constructor
              · rintro (rfl | ⟨h1, h2⟩)
                · exact .inr ⟨.inl rfl, hk0⟩
                · exact .inr ⟨.inr h1, h2⟩
              · rintro (h1 | ⟨rfl | h1, h2⟩)
                · simp at h1
                · exact .inl rfl
                · exact .inr ⟨h1, h2⟩
            · have : (k == k0) = false := by simpa using hk
              rw [this]
              simp only [List.mem_cons]
              constructor
              · rintro (h1 | ⟨h1, h2⟩)
                · exact .inl h1
                · exact .inr ⟨.inr h1, h2⟩
              · rintro (h1 | ⟨rfl | h1, h2⟩)
                · exact .inl h1
                · rw [hk0] at h2
                  simp only [Option.some.injEq] at h2
                  exact absurd h2.symm hk
                · exact .inr ⟨h1, h2⟩

/-! ### The whole mesh -/

theorem checkContacts_spec {l : Layout} {cs : List ContactDef} {q : Nat × Nat} (h : checkContacts l cs = .ok q) :
    ∃ c0 c1, cs = [c0, c1] ∧
    ((l.find c0.tag = some 0 ∧ l.find c1.tag = some (l.locations.length - 1)) ∨
     (l.find c1.tag = some 0 ∧ l.find c0.tag = some (l.locations.length - 1))) := by
  unfold checkContacts at h
  split at h
  · rename_i c0 c1
    split at h
    · rename_i p0 p1 h0 h1
      split at h
      · simp at h
      · split at h
        · rename_i hc
          refine ⟨c0, c1, rfl, ?_⟩
          rcases hc with ⟨a, b⟩ | ⟨a, b⟩
          · left; rw [h0, h1, a, b]; exact ⟨rfl, rfl⟩
          · right; rw [h0, h1, a, b]; exact ⟨rfl, rfl⟩
        · simp at h
    · simp at h
  · simp at h

/-- **C32** Every finalized mesh has the requested lines, spacings, regions, contacts and interfaces. -/
theorem finalize_spec {fuel : Nat} {order : List RegionIx → List RegionIx} (horder : ∀ l, (order l).Perm l)
    {lines : List Line} (hpos : Positive lines) {regions : List RegionDef} {contacts : List ContactDef}
    {interfaces : List InterfaceDef} {M : Mesh1d}
    (h : finalize fuel order lines regions contacts interfaces = .ok M) : MeshOK lines regions contacts interfaces M := by
  unfold finalize at h
  split at h
  · simp at h
  · split at h
    · rename_i l hl
      have hlay := place_spec hpos hl
      split at h
      · simp at h
      · rename_i rs0 hrs0
        have hf := sortAllTags_spec hrs0
        dsimp only at h
        split at h
        · rename_i q hq
          split at h
          · simp at h
          · rename_i m hm
            split at h
            · simp at h
            · rename_i cpos hcpos
              split at h
              · simp at h
              · rename_i n1
                split at h
                · simp at h
                · rename_i n2
                  split at h
                  · simp at h
                  · rename_i n3
                    split at h
                    · simp at h
                    · rename_i n4
                      simp only [Res.ok.injEq] at h
                      subst h
                      obtain ⟨t1, t2⟩ := checkRegions_spec hcpos
                      obtain ⟨k1, k2, k3⟩ := checkInterfaces_spec hm
                      have hce : cpos = l.locations.length - 1 := by
                        by_contra hc
                        exact n1 ⟨hc, n3⟩
                      subst hce
                      have hlt : ∀ x ∈ order rs0, x.i0 < x.i1 := fun x hx =>
                        forall₂_right_lt hf x ((horder rs0).mem_iff.1 hx)
                      have hint : ∀ k d, m.lookup k = some d ↔ d ∈ interfaces ∧ l.find d.tag = some k := by
                        intro k d; rw [k3]; simp
                      refine ⟨hlay, ⟨rs0, hf, horder rs0⟩, n3, t1, ⟨rfl, checkContacts_spec hq⟩, k1, hint, ?_, ?_⟩
                      · intro i r r' hr hr'
                        refine t2 r (List.mem_of_getElem? hr) ?_
                        have e := tile_next t1 i r r' hr hr'
                        have g1 := hlt r' (List.mem_of_getElem? hr')
                        have g2 := tile_le t1 hlt r' (List.mem_of_getElem? hr')
                        omega
                      · intro d hd
                        have hk : ∃ k, l.find d.tag = some k := by
                          clear n1 n2 n3 n4 hcpos k2 k3 hint t2
                          by_contra hc
                          exact absurd hm (by
                            have : ∀ (is : List InterfaceDef) names m0, d ∈ is → checkInterfaces l is names m0 ≠ some m := by
                              intro is
                              induction is with
                              | nil => intro _ _ h; simp at h
                              | cons i is ih =>
                                intro names m0 hmem hh
                                rw [checkInterfaces] at hh
                                split at hh
                                · simp at hh
                                · split at hh
                                  · simp at hh
                                  · rename_i k0 hk0
                                    split at hh
                                    · simp at hh
                                    · rcases List.mem_cons.1 hmem with rfl | hmem
                                      · exact hc ⟨k0, hk0⟩
                                      · exact ih _ _ hmem hh
                            exact this interfaces [] [] hd)
                        obtain ⟨k, hk⟩ := hk
                        have hlk : m.lookup k = some d := (hint k d).2 ⟨hd, hk⟩
                        obtain ⟨_, c, _, _, hloc⟩ := hlay.tag_line _ _ hk
                        obtain ⟨hklt, _⟩ := List.getElem?_eq_some_iff.1 hloc
                        have hex : ∃ r ∈ order rs0, r.i0 = k := by
                          by_contra hc
                          push Not at hc
                          exact n4 ⟨k, hklt, by rw [hlk]; rfl, hc⟩
                        obtain ⟨r, hr, hrk⟩ := hex
                        have hk0 : k ≠ 0 := by
                          rintro rfl
                          exact n2 (.inl (by rw [hlk]; rfl))
                        obtain ⟨i, a, b, h1, h2, h3⟩ := tile_start t1 r hr (by rw [hrk]; exact hk0)
                        refine ⟨i, a, b, h1, h2, ?_⟩
                        rw [hk, tile_next t1 i a b h1 h2, h3, hrk]
        all_goals simp at h
    all_goals simp at h

end Verif.Mesh
