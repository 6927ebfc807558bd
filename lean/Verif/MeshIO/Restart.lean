import Verif.MeshIO.RestartModels

/-!
# A device that is written with its models and equations, and loaded again
-/

namespace Verif.MeshIO

variable {α : Type}

/-- The geometry of the devices, without models. -/
def geoDev (d : Dev α) : Dev α := { d with regions := d.regions.map fun e => (e.1, bare e.2) }

def geo (devs : Devs α) : Devs α := devs.map fun e => (e.1, geoDev e.2)

/-- Commands that change neither the devices nor their meshes, as the commands on models and equations. -/
def Tame (env : Env α) (cs : List Cmd) : Prop :=
  ∀ c ∈ cs, ∀ devs, geo (env.run c.1 (cmdArgs c) devs).2 = geo devs

/-- A device with a consistent mesh, and models and equations that the file can describe. -/
structure RestartOK (env : Env α) (d : Dev α) (X : Extra α) : Prop where
  coords : d.coords ≠ []
  regions : d.regions ≠ [] ∧ SMap.Sorted d.regions
  topo : ∀ e ∈ d.regions, TopoOK env d.coords.length d.dim e.2
  models : ∀ e ∈ d.regions, ∀ k, SMap.Sorted (X.models e.1 k)
  /-- `Region::AddNodeModel`, ... (`Region.cc:884-1110`) -/
  disjoint : ∀ e ∈ d.regions, ∀ k k', k ≠ k' → ∀ x, (X.models e.1 k).has x = true → (X.models e.1 k').has x = false
  data : ∀ e ∈ d.regions, DataOK X e.1 e.2
  reqns : ∀ e ∈ d.regions, SMap.Sorted (X.reqns e.1)
  contacts : SMap.Sorted d.contacts
  con : ∀ e ∈ d.contacts, ConOK d e.2
  ceqns : ∀ e ∈ d.contacts, SMap.Sorted (X.ceqns e.1)
  ifaces : SMap.Sorted d.ifaces
  ifc : ∀ e ∈ d.ifaces, IfcOK d (X.provided e.1) e.2
  imodels : ∀ e ∈ d.ifaces, SMap.Sorted (X.imodels e.1)
  ieqns : ∀ e ∈ d.ifaces, SMap.Sorted (X.ieqns e.1)

/-! ### The mesh is accepted -/

/-- The region that is read, after its decomposition. -/
def rmfull (env : Env α) (F : Fmt α) (X : Extra α) (rn : Text) (r : Reg α) : MReg α :=
  { material := r.material, nodes := r.nodes, edges := r.edges, tris := r.tris, tets := r.tets
    sols := rsols env F X rn, eqns := meqns (X.reqns rn) }

section
variable {env : Env α} {F : Fmt α} {X : Extra α} {rn : Text} {r : Reg α} {nc dim : Nat}

theorem decompose_rmreg (h : TopoOK env nc dim r) : (rmreg env F X dim rn r).decompose = rmfull env F X rn r := by
  have hn : r.nodes ≠ [] := h.nodes.1
  have e1 : decTris (rmreg env F X dim rn r) = r.tris := by
    rcases h.top with ⟨rfl, h1, h2⟩ | ⟨rfl, h1, h2, h3⟩ | ⟨rfl, h1, h2, h3⟩
    · simp [decTris, rmreg, h1]
    · simp [decTris, rmreg]
    · simp only [decTris, rmreg, if_true, Nat.reduceEqDiff, if_false, List.isEmpty_nil, Bool.and_true]
      rw [if_pos (by simp [h1]), trisOf_eq (fun t ht => ⟨(h.tets.2 t ht).1, (h.tets.2 t ht).2.1⟩) h2]
  have e2 : decEdges (rmreg env F X dim rn r) = r.edges := by
    unfold decEdges
    rw [e1]
    rcases h.top with ⟨rfl, h1, h2⟩ | ⟨rfl, h1, h2, h3⟩ | ⟨rfl, h1, h2, h3⟩
    · simp [rmreg, h1]
    · rw [if_pos (by simp [rmreg, h1]), edgesOf_eq (fun t ht => ⟨(h.tris.2 t ht).1, (h.tris.2 t ht).2.1⟩) h3]
    · have ht : r.tris ≠ [] := facesOf_ne h2 (fun t ht => by rw [(h.tets.2 t ht).1]; omega) h1
      rw [if_pos (by simp [rmreg, ht]), edgesOf_eq (fun t ht => ⟨(h.tris.2 t ht).1, (h.tris.2 t ht).2.1⟩) h3]
  have e3 : decNodes (rmreg env F X dim rn r) = r.nodes := by
    unfold decNodes
    rw [if_neg (by simp [rmreg, hn])]
    rfl
  rw [decompose_eq, e1, e2, e3]
  have e4 : (rmreg env F X dim rn r).tets = r.tets := by
    rcases h.top with ⟨rfl, h1, h2⟩ | ⟨rfl, h1, h2, h3⟩ | ⟨rfl, h1, h2, h3⟩
    · simp [rmreg, h2]
    · simp [rmreg, h2]
    · simp [rmreg]
  unfold rmfull
  rw [← e4]
  rfl

theorem dim_rmfull (h : TopoOK env nc dim r) : (rmfull env F X rn r).dim = dim := by
  simp only [MReg.dim, rmfull]
  rcases h.top with ⟨rfl, h1, h2⟩ | ⟨rfl, h1, h2, h3⟩ | ⟨rfl, h1, h2, h3⟩ <;> simp [h1] <;> simp [h2]

theorem topo_rmfull (h : TopoOK env nc dim r) : (rmfull env F X rn r).topo = bare r := by
  have hd : (rmfull env F X rn r).dim = r.dim := by rw [dim_rmfull h, h.hdim]
  have e1 : sortUniq r.edges = r.edges := sortUniq_of_sorted h.edges.2.1
  have e2 : sortUniq r.tris = r.tris := sortUniq_of_sorted h.tris.1
  have e3 : (if r.dim = 3 then sortUniq r.tets else []) = r.tets := by
    rw [h.hdim]
    rcases h.top with ⟨rfl, h1, h2⟩ | ⟨rfl, h1, h2, h3⟩ | ⟨rfl, h1, h2, h3⟩
    · simp [h2]
    · simp [h2]
    · rw [if_pos rfl]; exact sortUniq_of_sorted h.tets.1
  unfold MReg.topo bare
  rw [hd]
  simp only [rmfull, e1, e2, e3]

theorem all_elems {m N : Nat} {l : List (List Nat)} (hl : ∀ e ∈ l, IsElem m N e) :
    l.all (fun e => e.all (· < N)) = true := by
  simp only [List.all_eq_true, decide_eq_true_eq]
  exact fun e he => (hl e he).2.2

theorem asserts_topo (h : TopoOK env nc dim r) : (bare r).asserts env nc = true := by
  have h1 : r.nodes.all (· < nc) = true := by simpa using h.nodes.2.2
  simp only [Reg.asserts, Bool.and_eq_true]
  exact ⟨⟨⟨⟨h1, all_elems h.edges.2.2⟩, all_elems h.tris.2⟩, all_elems h.tets.2⟩, h.topo⟩

theorem check_rmfull (h : TopoOK env nc dim r) : (rmfull env F X rn r).check nc dim = true := by
  have h1 : r.nodes.all (· < nc) = true := by simpa using h.nodes.2.2
  have h3 : r.nodes.isEmpty = false := by have := h.nodes.1; cases e : r.nodes <;> simp_all
  have h4 : r.edges.isEmpty = false := by have := h.edges.1; cases e : r.edges <;> simp_all
  simp only [MReg.check, dim_rmfull h, Bool.and_eq_true]
  exact ⟨⟨⟨⟨⟨⟨decide_eq_true trivial, by simp [rmfull, h3]⟩, decide_eq_true h.nodes.2.1⟩, h1⟩, by simp [rmfull, h4]⟩,
    all_elems h.edges.2.2⟩, all_elems h.tris.2⟩

end

/-- The mesh after `Finalize`. -/
def rmdone (env : Env α) (F : Fmt α) (dn : Text) (d : Dev α) (X : Extra α) : Loader α :=
  { rmloader env F dn d X with regions := d.regions.map fun e => (e.1, rmfull env F X e.1 e.2) }

theorem finalize_rmloader {env : Env α} {F : Fmt α} {dn : Text} {d : Dev α} {X : Extra α} (h : RestartOK env d X) :
    (rmloader env F dn d X).finalize = (true, rmdone env F dn d X) := by
  have h0 : (rmloader env F dn d X).regions.map (fun e => (e.1, e.2.decompose)) =
      d.regions.map fun e => (e.1, rmfull env F X e.1 e.2) := by
    simp only [rmloader, List.map_map]
    refine List.map_congr_left fun e he => ?_
    simp only [Function.comp_apply, decompose_rmreg (h.topo e he)]
  have hlen : (rmloader env F dn d X).coords.length = d.coords.length := by simp [rmloader]
  have hc : (rmloader env F dn d X).coords.isEmpty = false := by
    have := h.coords
    cases e : d.coords <;> simp_all [rmloader]
  have hr : (rmloader env F dn d X).regions.isEmpty = false := by
    have := h.regions.1
    cases e : d.regions <;> simp_all [rmloader]
  have hd0 : (rmloader env F dn d X).dim0 = d.dim := by
    have h1 := h.regions.1
    have h2 := h.topo
    cases e : d.regions with
    | nil => exact absurd e h1
    | cons x l =>
      have h3 := h2 x (by simp [e])
      simp only [Loader.dim0, rmloader, e, List.map_cons]
      have h4 := h3.edges.1
      rcases h3.top with ⟨h5, h6, h7⟩ | ⟨h5, h6, h7, h8⟩ | ⟨h5, h6, h7, h8⟩
      · simp [rmreg, h5, h4]
      · simp [rmreg, h5, h6]
      · simp [rmreg, h5, h6]
  have hall : (d.regions.map fun e => (e.1, rmfull env F X e.1 e.2)).all
      (fun e => e.2.check (rmloader env F dn d X).coords.length (rmloader env F dn d X).dim0) = true := by
    rw [hlen, hd0]
    simp only [List.all_eq_true, List.mem_map]
    rintro _ ⟨e, he, rfl⟩
    exact check_rmfull (h.topo e he)
  simp only [Loader.finalize, h0, hc, hr, hall, Bool.not_false, Bool.and_self]
  rfl

/-! ### The device is made -/

theorem mkRegions_restart {env : Env α} {F : Fmt α} {X : Extra α} {nc dim : Nat} : ∀ (l : SMap Text (Reg α)) (acc : SMap Text (Reg α)),
    SMap.Sorted l → (∀ x ∈ acc, ∀ e ∈ l, x.1 < e.1) → (∀ e ∈ l, TopoOK env nc dim e.2) →
    mkRegions env nc (l.map fun e => (e.1, rmfull env F X e.1 e.2)) acc =
      (.ok, acc ++ l.map fun e => (e.1, (bare e.2).defaults env))
  | [], acc, _, _, _ => by simp [mkRegions]
  | e :: l, acc, hs, ha, h => by
    obtain ⟨h1, h2⟩ := List.pairwise_cons.mp hs
    have he := h e (by simp)
    simp only [List.map_cons, mkRegions, topo_rmfull he]
    rw [if_pos (asserts_topo he), SMap.put_last fun x hx => ha x hx e (by simp),
      mkRegions_restart l _ h2 ?_ fun x hx => h x (by simp [hx])]
    · simp
    · intro x hx y hy
      rcases List.mem_append.1 hx with hx | hx
      · exact ha x hx y (by simp [hy])
      · simp only [List.mem_singleton] at hx
        subst hx
        exact h1 y hy

theorem mkContacts_restart (rs : SMap Text (Reg α)) (f : Text → Con → MCon α) :
    ∀ (l : SMap Text Con) (acc : SMap Text Con), SMap.Sorted l → (∀ x ∈ acc, ∀ e ∈ l, x.1 < e.1) →
    (∀ e ∈ l, mkContact rs (f e.1 e.2) = some e.2) →
    mkContacts rs (l.map fun e => (e.1, f e.1 e.2)) acc = (true, acc ++ l)
  | [], acc, _, _, _ => by simp [mkContacts]
  | e :: l, acc, hs, ha, h => by
    obtain ⟨h1, h2⟩ := List.pairwise_cons.mp hs
    simp only [List.map_cons, mkContacts, h e (by simp)]
    rw [SMap.put_last fun x hx => ha x hx e (by simp),
      mkContacts_restart rs f l _ h2 ?_ fun x hx => h x (by simp [hx])]
    · simp
    · intro x hx y hy
      rcases List.mem_append.1 hx with hx | hx
      · exact ha x hx y (by simp [hy])
      · simp only [List.mem_singleton] at hx
        subst hx
        exact h1 y hy

theorem mkIfaces_restart (rs : SMap Text (Reg α)) (f : Text → Ifc → MIfc α) :
    ∀ (l : SMap Text Ifc) (acc : SMap Text Ifc), SMap.Sorted l → (∀ x ∈ acc, ∀ e ∈ l, x.1 < e.1) →
    (∀ e ∈ l, mkIface rs (f e.1 e.2) = some e.2) →
    mkIfaces rs (l.map fun e => (e.1, f e.1 e.2)) acc = (true, acc ++ l)
  | [], acc, _, _, _ => by simp [mkIfaces]
  | e :: l, acc, hs, ha, h => by
    obtain ⟨h1, h2⟩ := List.pairwise_cons.mp hs
    simp only [List.map_cons, mkIfaces, h e (by simp)]
    rw [SMap.put_last fun x hx => ha x hx e (by simp),
      mkIfaces_restart rs f l _ h2 ?_ fun x hx => h x (by simp [hx])]
    · simp
    · intro x hx y hy
      rcases List.mem_append.1 hx with hx | hx
      · exact ha x hx y (by simp [hy])
      · simp only [List.mem_singleton] at hx
        subst hx
        exact h1 y hy

section
variable {env : Env α} {F : Fmt α} {d : Dev α} {X : Extra α}

theorem regions_get {n : Text} {r : Reg α} (hr : d.regions.get n = some r) :
    SMap.get (d.regions.map fun e => (e.1, (bare e.2).defaults env)) n = some ((bare r).defaults env) := by
  rw [SMap.get_map (fun _ r => (bare r).defaults env), hr]
  rfl

theorem mkContact_restart (h : RestartOK env d X) {n : Text} {c : Con} (hc : ConOK d c) :
    mkContact (d.regions.map fun e => (e.1, (bare e.2).defaults env)) (rmcon X d.dim n c : MCon α) = some c := by
  obtain ⟨r, hr, hs⟩ := hc
  have ht := h.topo _ (SMap.mem_of_get hr)
  obtain ⟨⟨e1, e2, e3⟩, h1, h2, h3⟩ := skin_decompose ht hs
  have hr' := regions_get (env := env) hr
  have e0 : (rmcon X d.dim n c : MCon α).elems = skinElems d.dim c.nodes c.edges c.tris := rfl
  have hreg : (rmcon X d.dim n c : MCon α).region = c.region := rfl
  unfold mkContact
  rw [hreg, hr']
  dsimp only
  rw [e0, e1, e2, e3]
  have g1 : getElems ((bare r).defaults env).nodes.length ((bare r).defaults env).edges c.edges = c.edges :=
    getElems_mem ht.edges.2.2 h1
  have g2 : getElems ((bare r).defaults env).nodes.length ((bare r).defaults env).tris c.tris = c.tris :=
    getElems_mem ht.tris.2 h2
  rw [g1, g2, if_pos]
  · rfl
  · have : ((bare r).defaults env).nodes = r.nodes := rfl
    rw [this]
    simpa using h3

theorem mkIface_restart (h : RestartOK env d X) {n : Text} {i : Ifc} (hi : IfcOK d (X.provided n) i) :
    mkIface (d.regions.map fun e => (e.1, (bare e.2).defaults env)) (rmifc env F X d.dim n i) = some i := by
  obtain ⟨r0, r1, hr0, hr1, hs⟩ := hi
  have ht0 := h.topo _ (SMap.mem_of_get hr0)
  have ht1 := h.topo _ (SMap.mem_of_get hr1)
  have hr0' := regions_get (env := env) hr0
  have hr1' := regions_get (env := env) hr1
  have n0 : ((bare r0).defaults env).nodes = r0.nodes := rfl
  have n1 : ((bare r1).defaults env).nodes = r1.nodes := rfl
  have hreg0 : (rmifc env F X d.dim n i).region0 = i.region0 := rfl
  have hreg1 : (rmifc env F X d.dim n i).region1 = i.region1 := rfl
  unfold mkIface
  rw [hreg0, hreg1, hr0', hr1']
  dsimp only
  by_cases hb : d.dim = 1 ∨ X.provided n = false
  · rw [if_pos hb] at hs
    obtain ⟨hl, hn0, hn1, he0, he1, hq0, hq1⟩ := hs
    have hbb : decide (d.dim = 1 ∨ X.provided n = false) = true := by simpa using hb
    have x0 : (rmifc env F X d.dim n i).elems0 = { material := [] } := by simp [rmifc, hb]
    have x1 : (rmifc env F X d.dim n i).elems1 = { material := [] } := by simp [rmifc, hb]
    have x2 : (rmifc env F X d.dim n i).pairs = i.nodes0.zip i.nodes1 := by simp [rmifc, hb]
    have y : ({ material := [] } : MReg α).decompose = { material := [] } := by simp [MReg.decompose]
    rw [x0, x1, x2, y]
    have hall : (i.nodes0.zip i.nodes1).all
        (fun p => decide (p.1 < ((bare r0).defaults env).nodes.length) && decide (p.2 < ((bare r1).defaults env).nodes.length)) = true := by
      rw [List.all_eq_true]
      intro p hp
      have := List.of_mem_zip hp
      simp [n0, n1, hn0 _ this.1, hn1 _ this.2]
    have hm0 : (i.nodes0.zip i.nodes1).map Prod.fst = i.nodes0 := List.map_fst_zip (by omega)
    have hm1 : (i.nodes0.zip i.nodes1).map Prod.snd = i.nodes1 := List.map_snd_zip (by omega)
    rw [if_pos hall, hm0, hm1]
    have z0 : (if (i.nodes0.zip i.nodes1).isEmpty = true then
        List.filter (fun x => decide (x < ((bare r0).defaults env).nodes.length)) ([] : List Nat) else i.nodes0) = i.nodes0 := by
      split
      · rename_i hz; rw [List.isEmpty_iff] at hz; rw [← hm0, hz]; rfl
      · rfl
    have z1 : (if (i.nodes0.zip i.nodes1).isEmpty = true then
        List.filter (fun x => decide (x < ((bare r1).defaults env).nodes.length)) ([] : List Nat) else i.nodes1) = i.nodes1 := by
      split
      · rename_i hz; rw [List.isEmpty_iff] at hz; rw [← hm1, hz]; rfl
      · rfl
    rw [z0, z1]
    obtain ⟨a1, a2, a3, a4, a5, a6, a7, a8⟩ := i
    simp only at he0 he1 hq0 hq1
    subst he0 he1 hq0 hq1
    rfl
  · rw [if_neg hb] at hs
    obtain ⟨hs0, hs1, hle, hlt⟩ := hs
    push Not at hb
    obtain ⟨hb1, hb2⟩ := hb
    simp only [ne_eq, Bool.not_eq_false] at hb2
    obtain ⟨⟨e1, e2, e3⟩, h1, h2, h3⟩ := skin_decompose ht0 hs0
    obtain ⟨⟨f1, f2, f3⟩, g1, g2, g3⟩ := skin_decompose ht1 hs1
    have hdim : d.dim = 2 ∨ d.dim = 3 := by
      rcases ht0.top with ⟨h, -⟩ | ⟨h, -⟩ | ⟨h, -⟩
      · exact absurd h hb1
      · exact .inl h
      · exact .inr h
    have x0 : (rmifc env F X d.dim n i).elems0 = skinElems d.dim i.nodes0 i.edges0 i.tris0 := by
      rcases hdim with hd | hd
      · simp [rmifc, skinElems, hd, hb2, pairsOf, hle hd, List.map_fst_zip]
      · simp [rmifc, skinElems, hd, hb2, pairsOf, hlt hd, List.map_fst_zip]
    have x1 : (rmifc env F X d.dim n i).elems1 = skinElems d.dim i.nodes1 i.edges1 i.tris1 := by
      rcases hdim with hd | hd
      · simp [rmifc, skinElems, hd, hb2, pairsOf, hle hd, List.map_snd_zip]
      · simp [rmifc, skinElems, hd, hb2, pairsOf, hlt hd, List.map_snd_zip]
    have x2 : (rmifc env F X d.dim n i).pairs = [] := by simp [rmifc, hb1, hb2]
    rw [x0, x1, x2, e1, e2, e3, f1, f2, f3]
    have q1 : getElems ((bare r0).defaults env).nodes.length ((bare r0).defaults env).edges i.edges0 = i.edges0 :=
      getElems_mem ht0.edges.2.2 h1
    have q2 : getElems ((bare r0).defaults env).nodes.length ((bare r0).defaults env).tris i.tris0 = i.tris0 :=
      getElems_mem ht0.tris.2 h2
    have q3 : getElems ((bare r1).defaults env).nodes.length ((bare r1).defaults env).edges i.edges1 = i.edges1 :=
      getElems_mem ht1.edges.2.2 g1
    have q4 : getElems ((bare r1).defaults env).nodes.length ((bare r1).defaults env).tris i.tris1 = i.tris1 :=
      getElems_mem ht1.tris.2 g2
    rw [q1, q2, q3, q4]
    have z0 : List.filter (fun x => decide (x < ((bare r0).defaults env).nodes.length)) i.nodes0 = i.nodes0 := by
      rw [List.filter_eq_self]; simpa [n0] using h3
    have z1 : List.filter (fun x => decide (x < ((bare r1).defaults env).nodes.length)) i.nodes1 = i.nodes1 := by
      rw [List.filter_eq_self]; simpa [n1] using g3
    simp only [List.all_nil, if_true, List.isEmpty_nil, z0, z1]

end

end Verif.MeshIO
