import Verif.Gmsh.Device

/-!
# C69: when `create_device` succeeds on a Gmsh mesh, and what it makes
-/

namespace Verif.Gmsh
open Verif.MeshIO

variable {α : Type}

/-- A region that can be made: all nodes of its elements have coordinates, and `Region::FinalizeMesh` accepts it. -/
def RegionGood (env : Env α) (G : Gmsh α) (dim : Nat) (ri : RInfo) : Prop :=
  (∀ c, Used G ri.pnames c → ∃ j, Pos G c j) ∧
  ∀ ids r, RegionOK G dim ri ids r → env.topoOK r.dim r.nodes.length r.edges r.tris r.tets = true

/-- What the mesh is before `finalize_mesh`: nothing has been finalized, the largest coordinate index is known, and
the maps are maps. -/
structure Described (G : Gmsh α) : Prop where
  fresh : Fresh G
  max : MaxOK G
  regions : SMap.Sorted G.regions
  contacts : SMap.Sorted G.contacts
  ifaces : SMap.Sorted G.ifaces

theorem sorted_ext {κ : Type} [LinearOrder κ] {a b : List κ} (ha : a.Pairwise (· < ·)) (hb : b.Pairwise (· < ·))
    (h : ∀ x, x ∈ a ↔ x ∈ b) : a = b := by
  rw [← sortUniq_of_sorted ha, ← sortUniq_of_sorted hb]
  have hp : a.Perm b := (List.perm_ext_iff_of_nodup (ha.imp fun h => ne_of_lt h) (hb.imp fun h => ne_of_lt h)).2 h
  rw [List.Perm.eq_of_pairwise (fun _ _ _ _ h1 h2 => absurd h1 (lt_asymm h2)) ha hb hp]

/-- The description of a region leaves no choice. -/
theorem region_unique {G : Gmsh α} {dim : Nat} {ri : RInfo} {ids ids' : List Nat} {r r' : Reg α}
    (h : RegionOK G dim ri ids r) (h' : RegionOK G dim ri ids' r') :
    ids = ids' ∧ r.dim = r'.dim ∧ r.nodes = r'.nodes ∧ r.edges = r'.edges ∧ r.tris = r'.tris ∧ r.tets = r'.tets := by
  have hids : ids = ids' := sorted_ext h.ids_sorted h'.ids_sorted fun c => by rw [h.ids_mem, h'.ids_mem]
  subst hids
  refine ⟨rfl, by rw [h.dim, h'.dim], ?_, sorted_ext h.edges_sorted h'.edges_sorted fun e => by rw [h.edges, h'.edges],
    sorted_ext h.tris_sorted h'.tris_sorted fun e => by rw [h.tris, h'.tris],
    sorted_ext h.tets_sorted h'.tets_sorted fun e => by rw [h.tets, h'.tets]⟩
  apply List.ext_getElem?
  intro k
  by_cases hk : k < ids.length
  · obtain ⟨j, hj, hp⟩ := h.nodes k _ (List.getElem?_eq_getElem hk)
    obtain ⟨j', hj', hp'⟩ := h'.nodes k _ (List.getElem?_eq_getElem hk)
    rw [hj, hj']
    rw [← pos_iff] at hp hp'
    rw [← hp, ← hp']
  · rw [List.getElem?_eq_none (by rw [h.nodes_len]; omega), List.getElem?_eq_none (by rw [h'.nodes_len]; omega)]

theorem mkRegion_iff {G F : Gmsh α} (h : Final G F) (hmax : MaxOK G) (env : Env α) (ri : RInfo) :
    (mkRegion env F ri).1 = true ↔ RegionGood env G F.dim ri := by
  rw [mkRegion_eq h hmax]
  have hall : ((F.uniq (·.pts) ri.pnames).all fun i => (F.pos i).isSome) = true ↔
      ∀ c, Used G ri.pnames c → ∃ j, Pos G c j := by
    rw [List.all_eq_true]
    exact forall_congr' fun c => by
      rw [mem_pts h, pos_final h, Option.isSome_iff_exists]
      simp only [pos_iff]
  unfold RegionGood
  constructor
  · intro hr
    split_ifs at hr with a b
    · refine ⟨hall.1 a, ?_⟩
      intro ids r hok
      obtain ⟨_, e1, e2, e3, e4, e5⟩ := region_unique hok (plain_ok h ri (hall.1 a) env)
      rw [e1, e2, e3, e4, e5]
      exact b
  · rintro ⟨h1, h2⟩
    have := h2 _ _ (plain_ok h ri h1 env)
    rw [if_pos (hall.2 h1), if_pos (by exact this)]

theorem mkRegion_val {G F : Gmsh α} (h : Final G F) (hmax : MaxOK G) (env : Env α) (ri : RInfo)
    (hr : (mkRegion env F ri).1 = true) : RegionOK G F.dim ri (mkRegion env F ri).2.1 (mkRegion env F ri).2.2 := by
  have hg := (mkRegion_iff h hmax env ri).1 hr
  have e := mkRegion_eq h hmax env ri
  have := plain_ok h ri hg.1 env
  split_ifs at e with a b
  · rw [e]; exact this
  · rw [e] at hr; simp at hr
  · rw [e] at hr; simp at hr

/-- The regions are known to the later loops. -/
structure Known (G : Gmsh α) (dim : Nat) (regs : SMap Text (List Nat × Reg α)) : Prop where
  some : ∀ n ri, G.regions.get n = some ri → ∃ ids r, regs.get n = some (ids, r) ∧ RegionOK G dim ri ids r
  none : ∀ n, G.regions.get n = none → regs.get n = none

theorem mkRegions_known {G F : Gmsh α} (h : Final G F) (hG : Described G) (env : Env α)
    (hr : (mkRegions env F F.regions []).1 = true) : Known G F.dim (mkRegions env F F.regions []).2 := by
  have hreg : F.regions = G.regions := h.fields.2.2.2.1
  obtain ⟨h1, h2⟩ := mkRegions_spec env F (hreg ▸ hG.regions) [] (by simp)
  have hv := h2 hr
  rw [List.nil_append, hreg] at hv
  have hall := h1.1 hr
  rw [hreg] at hall ⊢
  rw [hv]
  have hget := SMap.get_map (fun (_ : Text) (ri : RInfo) => (mkRegion env F ri).2) G.regions
  constructor
  · intro n ri hn
    refine ⟨_, _, ?_, mkRegion_val h hG.max env ri (hall _ (SMap.mem_of_get hn))⟩
    rw [hget, hn]; rfl
  · intro n hn
    rw [hget, hn]; rfl

theorem contact_iff {G F : Gmsh α} (h : Final G F) {regs : SMap Text (List Nat × Reg α)} (hk : Known G F.dim regs) (ci : CInfo) :
    (∃ c, mkContact F regs ci = (true, .made c)) ↔ ContactGood G F.dim ci := by
  unfold ContactGood
  cases hr : G.regions.get ci.region with
  | none =>
    have := hk.none _ hr
    constructor
    · rintro ⟨c, hc⟩
      unfold mkContact at hc
      rw [this] at hc
      simp at hc
    · rintro ⟨ri, h1, _⟩
      simp at h1
  | some ri =>
    obtain ⟨ids, r, h1, h2⟩ := hk.some _ _ hr
    rw [contact_made h h1 h2.known]
    simp

theorem iface_iff {G F : Gmsh α} (h : Final G F) {regs : SMap Text (List Nat × Reg α)} (hk : Known G F.dim regs) (ii : IInfo) :
    (∃ c, mkIface F regs ii = (true, .made c)) ↔ IfaceGood G F.dim ii := by
  unfold IfaceGood
  cases hr0 : G.regions.get ii.region0 with
  | none =>
    have := hk.none _ hr0
    constructor
    · rintro ⟨c, hc⟩
      unfold mkIface at hc
      rw [this] at hc
      simp at hc
    · rintro ⟨ri, _, h1, _⟩
      simp at h1
  | some ri0 =>
    obtain ⟨ids0, r0, a1, a2⟩ := hk.some _ _ hr0
    cases hr1 : G.regions.get ii.region1 with
    | none =>
      have := hk.none _ hr1
      constructor
      · rintro ⟨c, hc⟩
        unfold mkIface at hc
        rw [a1, this] at hc
        simp at hc
      · rintro ⟨_, ri, _, h1, _⟩
        simp at h1
    | some ri1 =>
      obtain ⟨ids1, r1, b1, b2⟩ := hk.some _ _ hr1
      rw [iface_made h a1 b1 a2.known b2.known]
      simp

/-- **C69** `create_device` on a finalized Gmsh mesh succeeds if and only if the name is free, all nodes of all regions
have coordinates, the regions pass the topological checks, and every contact and every interface names existing
regions and lies on them. -/
theorem create_ok_iff {G F : Gmsh α} (h : Final G F) (hG : Described G) (env : Env α) (name : Text) (devs : Devs α) :
    (instantiate env F name devs).1 = .ok ↔ devs.has name = false ∧
      (∀ n ri, G.regions.get n = some ri → RegionGood env G F.dim ri) ∧
      (∀ n ci, G.contacts.get n = some ci → ContactGood G F.dim ci) ∧
      (∀ n ii, G.ifaces.get n = some ii → IfaceGood G F.dim ii) := by
  obtain ⟨hfin, _, _, hreg, hcon, hifc⟩ := h.fields
  have hrs := (mkRegions_spec env F (hreg ▸ hG.regions) [] (by simp)).1
  have hmem : ∀ {ι : Type} {m : SMap Text ι} (hm : SMap.Sorted m) (P : ι → Prop),
      (∀ e ∈ m, P e.2) ↔ ∀ n i, m.get n = some i → P i := by
    intro ι m hm P
    exact ⟨fun h n i hi => h _ (SMap.mem_of_get hi), fun h e he => h e.1 e.2 (SMap.get_of_mem hm he)⟩
  have hrs' : (mkRegions env F F.regions []).1 = true ↔ ∀ n ri, G.regions.get n = some ri → RegionGood env G F.dim ri := by
    rw [hrs, ← hreg, hmem (hreg ▸ hG.regions) fun ri => (mkRegion env F ri).1 = true]
    exact forall_congr' fun n => forall_congr' fun ri => by rw [mkRegion_iff h hG.max]
  unfold instantiate
  rw [if_neg (by simp [hfin])]
  by_cases hn : devs.has name = true
  · rw [if_pos hn]; simp [hn]
  · rw [if_neg hn]
    dsimp only
    by_cases hr : (mkRegions env F F.regions []).1 = true
    · rw [if_neg (by simp [hr])]
      have hk := mkRegions_known h hG env hr
      have hc : (∀ e ∈ F.contacts, ∃ b, mkContact F (mkRegions env F F.regions []).2 e.2 = (true, .made b)) ↔
          ∀ n ci, G.contacts.get n = some ci → ContactGood G F.dim ci := by
        rw [hcon, hmem hG.contacts fun ci => ∃ b, mkContact F (mkRegions env F F.regions []).2 ci = (true, .made b)]
        exact forall_congr' fun n => forall_congr' fun ci => by rw [contact_iff h hk]
      have hi : (∀ e ∈ F.ifaces, ∃ b, mkIface F (mkRegions env F F.regions []).2 e.2 = (true, .made b)) ↔
          ∀ n ii, G.ifaces.get n = some ii → IfaceGood G F.dim ii := by
        rw [hifc, hmem hG.ifaces fun ii => ∃ b, mkIface F (mkRegions env F F.regions []).2 ii = (true, .made b)]
        exact forall_congr' fun n => forall_congr' fun ii => by rw [iface_iff h hk]
      have hcs := mkAll_ok (mkContact F (mkRegions env F F.regions []).2) F.contacts (.ok, [])
      split_ifs with hcr
      · rw [hcr] at hcs
        simp only [reduceCtorEq, true_and, false_iff] at hcs
        simp only [reduceCtorEq, false_iff]
        rintro ⟨_, _, h3, _⟩
        exact hcs (hc.2 h3)
      · rw [mkAll_ok, hcs, hc, hi, ← hrs']
        simp [hn, hr]
    · rw [if_pos (by simpa using hr), ← hrs']
      simp [hr]

/-- **C69** The device that a successful `create_device` makes: its regions, contacts and interfaces are those of the
description, and each of them is made of exactly the elements of its physical groups. The other devices are left
alone. -/
theorem create_ok {G F : Gmsh α} (h : Final G F) (hG : Described G) (hd : Distinct G) (env : Env α) (name : Text)
    (devs : Devs α) (hok : (instantiate env F name devs).1 = .ok) :
    (∃ d, (instantiate env F name devs).2.get name = some d ∧ DevOK G F.dim d) ∧
    ∀ n, n ≠ name → (instantiate env F name devs).2.get n = devs.get n := by
  obtain ⟨hnm, hR, hC, hI⟩ := (create_ok_iff h hG env name devs).1 hok
  obtain ⟨hfin, hco, _, hreg, hcon, hifc⟩ := h.fields
  have hrs := mkRegions_spec env F (hreg ▸ hG.regions) [] (by simp)
  have hr : (mkRegions env F F.regions []).1 = true := by
    rw [hrs.1, hreg]
    exact fun e he => (mkRegion_iff h hG.max env e.2).2 (hR e.1 e.2 (SMap.get_of_mem hG.regions he))
  have hk := mkRegions_known h hG env hr
  have hc : ∀ e ∈ F.contacts, ∃ b, mkContact F (mkRegions env F F.regions []).2 e.2 = (true, .made b) := by
    rw [hcon]
    exact fun e he => (contact_iff h hk e.2).2 (hC e.1 e.2 (SMap.get_of_mem hG.contacts he))
  have hi : ∀ e ∈ F.ifaces, ∃ b, mkIface F (mkRegions env F F.regions []).2 e.2 = (true, .made b) := by
    rw [hifc]
    exact fun e he => (iface_iff h hk e.2).2 (hI e.1 e.2 (SMap.get_of_mem hG.ifaces he))
  have hcs := (mkAll_ok (mkContact F (mkRegions env F F.regions []).2) F.contacts (.ok, [])).2 ⟨rfl, hc⟩
  have hcg := mkAll_get (mkContact F (mkRegions env F F.regions []).2) (hcon ▸ hG.contacts) (.ok, []) (by simp) hc
  have hig := mkAll_get (mkIface F (mkRegions env F F.regions []).2) (hifc ▸ hG.ifaces)
    ((mkAll (mkContact F (mkRegions env F F.regions []).2) F.contacts (.ok, [])).1, []) (by simp) hi
  have hval : (instantiate env F name devs).2 = devs.put name
      { dim := F.dim, coords := F.coords.map Prod.snd
        regions := (mkRegions env F F.regions []).2.map fun e => (e.1, e.2.2)
        contacts := (mkAll (mkContact F (mkRegions env F F.regions []).2) F.contacts (.ok, [])).2
        ifaces := (mkAll (mkIface F (mkRegions env F F.regions []).2) F.ifaces
          ((mkAll (mkContact F (mkRegions env F F.regions []).2) F.contacts (.ok, [])).1, [])).2 } := by
    unfold instantiate
    rw [if_neg (by simp [hfin]), if_neg (by simp [hnm])]
    dsimp only
    rw [if_neg (by simp [hr]), if_neg (by rw [hcs]; simp)]
  have hgr := SMap.get_map (fun (_ : Text) (x : List Nat × Reg α) => x.2) (mkRegions env F F.regions []).2
  rw [hval]
  refine ⟨⟨_, by rw [SMap.get_put, if_pos rfl], ?_⟩, fun n hn => by rw [SMap.get_put, if_neg hn]⟩
  have has_of : ∀ {β γ : Type} {a : SMap Text β} {b : SMap Text γ} {n : Text},
      ((∃ x, a.get n = some x) ↔ ∃ y, b.get n = some y) → a.has n = b.has n := by
    intro β γ a b n hh
    rw [← SMap.get_isSome, ← SMap.get_isSome, Bool.eq_iff_iff, Option.isSome_iff_exists, Option.isSome_iff_exists]
    exact hh
  refine
    { dimension := rfl
      coords := by rw [hco]
      region_names := fun n => has_of ?_
      contact_names := fun n => has_of ?_
      iface_names := fun n => has_of ?_
      regions := ⟨fun n => (((mkRegions env F F.regions []).2.get n).map Prod.fst).getD [], ?_, ?_, ?_⟩ }
  · dsimp only
    rw [hgr]
    cases hn : G.regions.get n with
    | none => rw [hk.none n hn]; simp
    | some ri =>
      obtain ⟨ids, r, h1, _⟩ := hk.some n ri hn
      rw [h1]; simp
  · dsimp only
    constructor
    · rintro ⟨c, hc'⟩
      rcases (hcg n c).1 hc' with hx | ⟨ci, h1, _⟩
      · simp [SMap.get] at hx
      · exact ⟨ci, by rw [← hcon]; exact h1⟩
    · rintro ⟨ci, h1⟩
      obtain ⟨b, hb⟩ := hc (n, ci) (by rw [hcon]; exact SMap.mem_of_get h1)
      exact ⟨b, (hcg n b).2 (Or.inr ⟨ci, by rw [hcon]; exact h1, hb⟩)⟩
  · dsimp only
    constructor
    · rintro ⟨c, hc'⟩
      rcases (hig n c).1 hc' with hx | ⟨ci, h1, _⟩
      · simp [SMap.get] at hx
      · exact ⟨ci, by rw [← hifc]; exact h1⟩
    · rintro ⟨ci, h1⟩
      obtain ⟨b, hb⟩ := hi (n, ci) (by rw [hifc]; exact SMap.mem_of_get h1)
      exact ⟨b, (hig n b).2 (Or.inr ⟨ci, by rw [hifc]; exact h1, hb⟩)⟩
  · intro n ri r hn hrn
    dsimp only at hrn
    rw [hgr] at hrn
    obtain ⟨ids, r', h1, h2⟩ := hk.some n ri hn
    beta_reduce
    rw [h1] at hrn ⊢
    simp only [Option.map_some, Option.some.injEq] at hrn
    subst hrn
    exact h2
  · intro n ci c r hn hcn hrn
    dsimp only at hcn hrn
    rw [hgr] at hrn
    rcases (hcg n c).1 hcn with hx | ⟨ci', h1, h2⟩
    · simp [SMap.get] at hx
    · rw [hcon, hn] at h1
      simp only [Option.some.injEq] at h1
      subst h1
      cases hri : G.regions.get ci.region with
      | none => rw [hk.none _ hri] at hrn; simp at hrn
      | some ri =>
        obtain ⟨ids, r', a1, a2⟩ := hk.some _ _ hri
        beta_reduce
        rw [a1] at hrn ⊢
        simp only [Option.map_some, Option.some.injEq] at hrn
        subst hrn
        exact contact_ok h hd a1 a2.known h2
  · intro n ii c r0 r1 hn hcn hrn0 hrn1
    dsimp only at hcn hrn0 hrn1
    rw [hgr] at hrn0 hrn1
    rcases (hig n c).1 hcn with hx | ⟨ii', h1, h2⟩
    · simp [SMap.get] at hx
    · rw [hifc, hn] at h1
      simp only [Option.some.injEq] at h1
      subst h1
      cases hri0 : G.regions.get ii.region0 with
      | none => rw [hk.none _ hri0] at hrn0; simp at hrn0
      | some ri0 =>
        cases hri1 : G.regions.get ii.region1 with
        | none => rw [hk.none _ hri1] at hrn1; simp at hrn1
        | some ri1 =>
          obtain ⟨ids0, r0', a1, a2⟩ := hk.some _ _ hri0
          obtain ⟨ids1, r1', b1, b2⟩ := hk.some _ _ hri1
          beta_reduce
          rw [a1] at hrn0 ⊢
          rw [b1] at hrn1 ⊢
          simp only [Option.map_some, Option.some.injEq] at hrn0 hrn1
          subst hrn0 hrn1
          exact iface_ok h hd a1 b1 a2.known b2.known h2

/-- **C69** Whenever the name is free, a device of that name exists afterwards, whether the command succeeded or not. -/
theorem create_leaves_device {G F : Gmsh α} (h : Final G F) (env : Env α) {name : Text} {devs : Devs α}
    (hn : devs.has name = false) : (instantiate env F name devs).2.has name = true := by
  unfold instantiate
  rw [if_neg (by simp [h.fields.1]), if_neg (by simp [hn])]
  dsimp only
  split_ifs <;> (rw [← SMap.get_isSome, SMap.get_put, if_pos rfl]; rfl)

/-- **C69** The program follows a null pointer when a contact has a node on its region, and an element other than a
point with a node that is not on its region. -/
theorem create_crash {G F : Gmsh α} (h : Final G F) (hG : Described G) (env : Env α) {name : Text} {devs : Devs α}
    (hn : devs.has name = false) (hR : ∀ n ri, G.regions.get n = some ri → RegionGood env G F.dim ri)
    {cn : Text} {ci : CInfo} {ri : RInfo} (hc : G.contacts.get cn = some ci) (hri : G.regions.get ci.region = some ri)
    (hon : ∃ c, Used G ci.pnames c ∧ Used G ri.pnames c)
    (hoff : ∃ p ∈ ci.pnames, ∃ e c, Group G p e ∧ 1 ≤ e.ty ∧ c ∈ e.nodes ∧ ¬ Used G ri.pnames c) :
    (instantiate env F name devs).1 = .crash := by
  obtain ⟨hfin, hco, _, hreg, hcon, hifc⟩ := h.fields
  have hrs := mkRegions_spec env F (hreg ▸ hG.regions) [] (by simp)
  have hr : (mkRegions env F F.regions []).1 = true := by
    rw [hrs.1, hreg]
    exact fun e he => (mkRegion_iff h hG.max env e.2).2 (hR e.1 e.2 (SMap.get_of_mem hG.regions he))
  obtain ⟨ids, r, a1, a2⟩ := (mkRegions_known h hG env hr).some _ _ hri
  have hcr := (mkAll_crash (mkContact F (mkRegions env F F.regions []).2) F.contacts (.ok, []) (by simp)).2
    ⟨(cn, ci), by rw [hcon]; exact SMap.mem_of_get hc, contact_crash h a1 a2.known hon hoff⟩
  unfold instantiate
  rw [if_neg (by simp [hfin]), if_neg (by simp [hn])]
  dsimp only
  rw [if_neg (by simp [hr]), if_pos hcr]

/-- **C69** A region all of whose physical groups are unknown is accepted as a region without nodes. -/
theorem unknown_group_empty {G F : Gmsh α} (h : Final G F) {ri : RInfo} {ids : List Nat} {r : Reg α}
    (hr : RegionOK G F.dim ri ids r) (hu : ∀ p ∈ ri.pnames, ∀ e, ¬ Group G p e) :
    r.nodes = [] ∧ r.edges = [] ∧ r.tris = [] ∧ r.tets = [] := by
  have hno : ∀ l, ¬ Has G ri.pnames l := fun l ⟨p, hp, e, he, _⟩ => hu p hp e he
  have hids : ids = [] := by
    rw [List.eq_nil_iff_forall_not_mem]
    intro c hc
    obtain ⟨p, hp, e, he, _⟩ := (hr.ids_mem c).1 hc
    exact hu p hp e he
  refine ⟨?_, ?_, ?_, ?_⟩
  · rw [← List.length_eq_zero_iff, hr.nodes_len, hids]; rfl
  · rw [List.eq_nil_iff_forall_not_mem]
    exact fun e he => hno _ ((hr.edges e).1 he).2.2
  · rw [List.eq_nil_iff_forall_not_mem]
    exact fun e he => hno _ ((hr.tris e).1 he).2.2
  · rw [List.eq_nil_iff_forall_not_mem]
    exact fun e he => hno _ ((hr.tets e).1 he).2.2

end Verif.Gmsh
