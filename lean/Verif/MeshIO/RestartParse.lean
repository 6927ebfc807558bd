import Verif.MeshIO.RestartSteps

/-!
# The tokens of a restart file describe the mesh, the models and the equations
-/

namespace Verif.MeshIO

variable {α : Type}

/-- What the parser needs: node indices of elements increase, and names are distinct. -/
structure FileSer (d : Dev α) (X : Extra α) : Prop where
  edges : ∀ e ∈ d.regions, ∀ l ∈ e.2.edges, l.length = 2 ∧ l.Pairwise (· < ·)
  tris : ∀ e ∈ d.regions, ∀ l ∈ e.2.tris, l.length = 3 ∧ l.Pairwise (· < ·)
  tets : ∀ e ∈ d.regions, ∀ l ∈ e.2.tets, l.length = 4 ∧ l.Pairwise (· < ·)
  models : ∀ e ∈ d.regions, ∀ k, SMap.Sorted (X.models e.1 k)
  disjoint : ∀ e ∈ d.regions, ∀ k k', k ≠ k' → ∀ x, (X.models e.1 k).has x = true → (X.models e.1 k').has x = false
  reqns : ∀ e ∈ d.regions, SMap.Sorted (X.reqns e.1)
  cedges : ∀ e ∈ d.contacts, ∀ l ∈ e.2.edges, l.length = 2 ∧ l.Pairwise (· < ·)
  ctris : ∀ e ∈ d.contacts, ∀ l ∈ e.2.tris, l.length = 3 ∧ l.Pairwise (· < ·)
  ceqns : ∀ e ∈ d.contacts, SMap.Sorted (X.ceqns e.1)
  iedges : ∀ e ∈ d.ifaces, ∀ l ∈ e.2.edges0 ++ e.2.edges1, l.length = 2 ∧ l.Pairwise (· < ·)
  itris : ∀ e ∈ d.ifaces, ∀ l ∈ e.2.tris0 ++ e.2.tris1, l.length = 3 ∧ l.Pairwise (· < ·)
  imodels : ∀ e ∈ d.ifaces, SMap.Sorted (X.imodels e.1)
  ieqns : ∀ e ∈ d.ifaces, SMap.Sorted (X.ieqns e.1)
  sr : SMap.Sorted d.regions
  sc : SMap.Sorted d.contacts
  si : SMap.Sorted d.ifaces

theorem putSers_has (env : Env α) (F : Fmt α) (k : MK) (l : SMap Text (MSer α)) : ∀ (m : SMap Text (Sol α)) (x : Text),
    m.has x = false → l.has x = false → (putSers env F k m l).has x = false := by
  induction l with
  | nil => intro m x h _; exact h
  | cons e l ih =>
    intro m x h hx
    simp only [SMap.has, List.any_cons, Bool.or_eq_false_iff, decide_eq_false_iff_not] at hx
    exact ih _ x (has_put hx.1 h) hx.2

section
variable (env : Env α) (L : Loader α) (n : Text) (ms : List Text) (ds : Devs α)

/-- All models and equations of a region. -/
theorem steps_rrest (F : Fmt α) (X : Extra α) (r : MReg α) (hr : r.sols = []) (hr' : r.eqns = [])
    (hm : ∀ k, SMap.Sorted (X.models n k))
    (hd : ∀ k k', k ≠ k' → ∀ x, (X.models n k).has x = true → (X.models n k').has x = false)
    (he : SMap.Sorted (X.reqns n)) {c : Ctx α} (h : InO .region c) :
    steps env c (sReg L n r ms ds)
      (serModelToks F .node (X.models n .node) ++ (serModelToks F .edge (X.models n .edge) ++
      (serModelToks F .tri (X.models n .tri) ++ (serModelToks F .tet (X.models n .tet) ++
      (serEqnToks .region (X.reqns n) ++ [.kw .endRegion]))))) =
      some (.region, sDev { L with regions := L.regions.put n { r with sols := rsols env F X n, eqns := meqns (X.reqns n) } } ms ds) := by
  obtain ⟨mat, nodes, es, ts, us, sols, eqns⟩ := r
  obtain rfl : sols = [] := hr
  obtain rfl : eqns = [] := hr'
  have hh : ∀ k, ∀ e ∈ X.models n k, (X.models n k).has e.1 = true := fun k e h => SMap.has_iff.2 ⟨e.2, h⟩
  obtain ⟨c1, hc1, h1⟩ := steps_rmodels env L n ms ds F .node rfl (X.models n .node) (SMap.keys_nodup (hm _)) ⟨mat, nodes, es, ts, us, [], []⟩
    (fun _ _ => rfl) h
  obtain ⟨c2, hc2, h2⟩ := steps_rmodels env L n ms ds F .edge rfl (X.models n .edge) (SMap.keys_nodup (hm _))
    ⟨mat, nodes, es, ts, us, putSers env F .node [] (X.models n .node), []⟩
    (fun e he => putSers_has env F .node _ [] e.1 rfl (hd .edge .node (by decide) _ (hh _ e he))) hc1
  obtain ⟨c3, hc3, h3⟩ := steps_rmodels env L n ms ds F .tri rfl (X.models n .tri) (SMap.keys_nodup (hm _))
    ⟨mat, nodes, es, ts, us, putSers env F .edge (putSers env F .node [] (X.models n .node)) (X.models n .edge), []⟩
    (fun e he => putSers_has env F .edge _ _ e.1 (putSers_has env F .node _ [] e.1 rfl
      (hd .tri .node (by decide) _ (hh _ e he))) (hd .tri .edge (by decide) _ (hh _ e he))) hc2
  obtain ⟨c4, hc4, h4⟩ := steps_rmodels env L n ms ds F .tet rfl (X.models n .tet) (SMap.keys_nodup (hm _))
    ⟨mat, nodes, es, ts, us, putSers env F .tri (putSers env F .edge (putSers env F .node [] (X.models n .node))
        (X.models n .edge)) (X.models n .tri), []⟩
    (fun e he => putSers_has env F .tri _ _ e.1 (putSers_has env F .edge _ _ e.1 (putSers_has env F .node _ [] e.1 rfl
      (hd .tet .node (by decide) _ (hh _ e he))) (hd .tet .edge (by decide) _ (hh _ e he)))
      (hd .tet .tri (by decide) _ (hh _ e he))) hc3
  rw [steps_append env h1, steps_append env h2, steps_append env h3, steps_append env h4]
  obtain ⟨c5, hc5, h5⟩ := steps_maps env .region (fun a => sReg L n ⟨mat, nodes, es, ts, us, rsols env F X n, a⟩ ms ds)
    (fun nm x => [.kw .begREq, .word nm] ++ (cmdToks x ++ [.kw .endREq])) meqn (.eqn .region .idle) .eqn (X.reqns n) he
    (fun e _ a c hc ha => steps_reqn env L n ms ds e.1 e.2 _ ha hc) hc4
  refine (steps_append env (show steps env c4 _ (serEqnToks .region (X.reqns n)) = _ from h5)).trans ?_
  have h6 : ∀ r' : MReg α, step env (sReg L n r' ms ds) c5 (.kw .endRegion) =
      .ok .region (sDev { L with regions := L.regions.put n r' } ms ds) := by
    intro r'
    rw [step_inO env _ hc5 (by decide)]
    rfl
  simp only [steps, h6]
  rfl

/-- The elements of a region. -/
theorem steps_relems (dim : Nat) (r : Reg α) (m : MReg α) (he : ∀ l ∈ r.edges, l.length = 2 ∧ l.Pairwise (· < ·))
    (ht : ∀ l ∈ r.tris, l.length = 3 ∧ l.Pairwise (· < ·)) (hu : ∀ l ∈ r.tets, l.length = 4 ∧ l.Pairwise (· < ·))
    (hm : m.edges = [] ∧ m.tris = [] ∧ m.tets = []) :
    ∃ c', InO .region c' ∧ steps env (.elems .rnode []) (sReg L n m ms ds) (partToks (elemPart dim r)) =
      some (c', sReg L n { m with edges := if dim = 1 then r.edges else [], tris := if dim = 2 then r.tris else []
                                  tets := if dim = 3 then r.tets else [] } ms ds) := by
  obtain ⟨mat, nodes, es, ts, us, sols, eqns⟩ := m
  obtain ⟨rfl, rfl, rfl⟩ : es = [] ∧ ts = [] ∧ us = [] := hm
  by_cases h1 : dim = 1
  · subst h1
    refine ⟨_, .elems (e := .redge) rfl, ?_⟩
    have := steps_redges env L n ms ds r.edges he ⟨mat, nodes, [], [], [], sols, eqns⟩ (.elems (e := .rnode) rfl) rfl
    simpa [partToks, elemPart] using this
  by_cases h2 : dim = 2
  · subst h2
    by_cases h3 : r.tris = []
    · refine ⟨_, .elems (e := .rnode) rfl, ?_⟩
      simp [partToks, elemPart, h3, steps]
    · refine ⟨_, .elems (e := .rtri) rfl, ?_⟩
      have := steps_rtris env L n ms ds r.tris ht ⟨mat, nodes, [], [], [], sols, eqns⟩ (.elems (e := .rnode) rfl) rfl
      simpa [partToks, elemPart, h3] using this
  by_cases h4 : dim = 3
  · subst h4
    by_cases h3 : r.tets = []
    · refine ⟨_, .elems (e := .rnode) rfl, ?_⟩
      simp [partToks, elemPart, h3, steps]
    · refine ⟨_, .elems (e := .rtet) rfl, ?_⟩
      have := steps_rtets env L n ms ds r.tets hu ⟨mat, nodes, [], [], [], sols, eqns⟩ (.elems (e := .rnode) rfl) rfl
      simpa [partToks, elemPart, h3] using this
  · refine ⟨_, .elems (e := .rnode) rfl, ?_⟩
    simp [partToks, elemPart, h1, h2, h4, steps]

theorem steps_serRegion (F : Fmt α) (d : Dev α) (X : Extra α) (hf : FileSer d X) (r : Reg α) (hr : (n, r) ∈ d.regions)
    {c : Ctx α} (h : InDev c) (hn : L.regions.has n = false) :
    steps env c (sDev L ms ds) (serRegionToks F X d.dim n r) =
      some (.region, sDev { L with regions := L.regions.put n (rmreg env F X d.dim n r) } ms ds) := by
  unfold serRegionToks
  rw [steps_append env (steps_begRegion env L n ms ds r.material h hn),
    steps_append env (steps_rnodes env L n ms ds r.nodes { material := r.material } .region rfl)]
  obtain ⟨c1, hc1, h1⟩ := steps_relems env L n ms ds d.dim r { material := r.material, nodes := r.nodes }
    (hf.edges _ hr) (hf.tris _ hr) (hf.tets _ hr) ⟨rfl, rfl, rfl⟩
  refine (steps_append env h1).trans ?_
  exact steps_rrest env L n ms ds F X _ rfl rfl (hf.models _ hr) (hf.disjoint _ hr) (hf.reqns _ hr) hc1

/-- The elements of a contact. -/
theorem steps_celems (dim : Nat) (k : Con) (m : MCon α) (he : ∀ l ∈ k.edges, l.length = 2 ∧ l.Pairwise (· < ·))
    (ht : ∀ l ∈ k.tris, l.length = 3 ∧ l.Pairwise (· < ·)) (hm : m.elems = { material := [] }) :
    ∃ c', InO .contact c' ∧ steps env .contact (sCon L n m ms ds) (partToks (conPart dim k)) =
      some (c', sCon L n { m with elems := { material := []
                                             nodes := if dim = 1 then k.nodes else []
                                             edges := if dim = 2 then k.edges else []
                                             tris := if dim = 3 then k.tris else [] } } ms ds) := by
  obtain ⟨rn, mat, elems, eqns⟩ := m
  obtain rfl : elems = { material := [] } := hm
  by_cases h1 : dim = 1
  · subst h1
    refine ⟨_, .elems (e := .cnode) rfl, ?_⟩
    have := steps_cnodes env L n ms ds k.nodes ⟨rn, mat, { material := [] }, eqns⟩ rfl
    simpa [partToks, conPart] using this
  by_cases h2 : dim = 2
  · subst h2
    by_cases h3 : k.edges = []
    · refine ⟨_, .base, ?_⟩
      simp [partToks, conPart, h3, steps, Owner.ctx]
    · refine ⟨_, .elems (e := .cedge) rfl, ?_⟩
      have := steps_cedges env L n ms ds k.edges he ⟨rn, mat, { material := [] }, eqns⟩ rfl
      simpa [partToks, conPart, h3] using this
  by_cases h4 : dim = 3
  · subst h4
    by_cases h3 : k.tris = []
    · refine ⟨_, .base, ?_⟩
      simp [partToks, conPart, h3, steps, Owner.ctx]
    · refine ⟨_, .elems (e := .ctri) rfl, ?_⟩
      have := steps_ctris env L n ms ds k.tris ht ⟨rn, mat, { material := [] }, eqns⟩ rfl
      simpa [partToks, conPart, h3] using this
  · refine ⟨_, .base, ?_⟩
    simp [partToks, conPart, h1, h2, h4, steps, Owner.ctx]

theorem steps_serContact (d : Dev α) (X : Extra α) (hf : FileSer d X) (k : Con) (hk : (n, k) ∈ d.contacts)
    {c : Ctx α} (h : InDev c) (hn : L.contacts.has n = false) :
    steps env c (sDev L ms ds) (serContactToks X d.dim n k) =
      some (.contact, sDev { L with contacts := L.contacts.put n (rmcon X d.dim n k) } ms ds) := by
  unfold serContactToks
  rw [steps_append env (steps_begContact env L n ms ds k.region k.material h hn)]
  obtain ⟨c1, hc1, h1⟩ := steps_celems env L n ms ds d.dim k { region := k.region, material := k.material }
    (hf.cedges _ hk) (hf.ctris _ hk) rfl
  refine (steps_append env h1).trans ?_
  obtain ⟨c5, hc5, h5⟩ := steps_maps env .contact
    (fun a => sCon L n { (rmcon X d.dim n k : MCon α) with eqns := a } ms ds)
    (fun nm x => [.kw .begCEq, .word nm] ++ (cmdToks x ++ [.kw .endCEq])) meqn (.eqn .contact .idle) .eqn (X.ceqns n)
    (hf.ceqns _ hk) (fun e _ a c hc ha => steps_ceqn env L n ms ds e.1 e.2 _ ha hc) hc1
  refine (steps_append env (show steps env c1 _ (serEqnToks .contact (X.ceqns n)) = _ from h5)).trans ?_
  have h6 : ∀ r' : MCon α, step env (sCon L n r' ms ds) c5 (.kw .endContact) =
      .ok .contact (sDev { L with contacts := L.contacts.put n r' } ms ds) := by
    intro r'
    rw [step_inO env _ hc5 (by decide)]
    rfl
  simp only [steps, h6]
  rfl

theorem pairsOf_map (a b : List (List Nat)) (h : ¬ (a.isEmpty = true ∨ a.length ≠ b.length)) :
    pairsOf a b = a.zip b := by
  unfold pairsOf
  rw [if_pos]
  by_contra hc
  exact h (.inr hc)

theorem pairsOf_nil (a b : List (List Nat)) (h : a.isEmpty = true ∨ a.length ≠ b.length) : pairsOf a b = [] := by
  unfold pairsOf
  rcases h with h | h
  · rw [List.isEmpty_iff] at h; subst h; simp
  · rw [if_neg h]

/-- The elements of an interface. -/
theorem steps_ielems (dim : Nat) (b : Bool) (k : Ifc) (m : MIfc α)
    (he : ∀ l ∈ k.edges0 ++ k.edges1, l.length = 2 ∧ l.Pairwise (· < ·))
    (ht : ∀ l ∈ k.tris0 ++ k.tris1, l.length = 3 ∧ l.Pairwise (· < ·))
    (hm : m.elems0 = { material := [] } ∧ m.elems1 = { material := [] } ∧ m.pairs = []) :
    let byNodes : Bool := dim = 1 ∨ b = false
    let es := if byNodes = false ∧ dim = 2 then pairsOf k.edges0 k.edges1 else []
    let ts := if byNodes = false ∧ dim = 3 then pairsOf k.tris0 k.tris1 else []
    ∃ c', InO .iface c' ∧ steps env .iface (sIfc L n m ms ds) (partToks (ifcPart dim b k)) =
      some (c', sIfc L n { m with pairs := if byNodes then k.nodes0.zip k.nodes1 else []
                                  elems0 := { material := [], edges := es.map Prod.fst, tris := ts.map Prod.fst }
                                  elems1 := { material := [], edges := es.map Prod.snd, tris := ts.map Prod.snd } } ms ds) := by
  have hz : ∀ (q : Nat) (a b : List (List Nat)), (∀ l ∈ a ++ b, l.length = q ∧ l.Pairwise (· < ·)) → ∀ p ∈ a.zip b,
      (p.1.length = q ∧ p.1.Pairwise (· < ·)) ∧ p.2.length = q ∧ p.2.Pairwise (· < ·) := by
    intro q a b h p hp
    have := List.of_mem_zip hp
    exact ⟨h _ (by simp [this.1]), h _ (by simp [this.2])⟩
  dsimp only
  obtain ⟨r0, r1, e0, e1, ps, sols, eqns⟩ := m
  obtain ⟨rfl, rfl, rfl⟩ : e0 = { material := [] } ∧ e1 = { material := [] } ∧ ps = [] := hm
  by_cases h1 : dim = 1 ∨ b = false
  · refine ⟨_, .elems (e := .inode) rfl, ?_⟩
    have := steps_inodes env L n ms ds (k.nodes0.zip k.nodes1) ⟨r0, r1, { material := [] }, { material := [] }, [], sols, eqns⟩ rfl
    have e : decide (dim = 1 ∨ b = false) = true := by simpa using h1
    unfold ifcPart
    rw [if_pos h1, e]
    simpa [partToks] using this
  have e : decide (dim = 1 ∨ b = false) = false := by simpa using h1
  unfold ifcPart
  rw [if_neg h1, e]
  by_cases h2 : dim = 2
  · subst h2
    by_cases h3 : k.edges0.isEmpty = true ∨ k.edges0.length ≠ k.edges1.length
    · refine ⟨_, .base, ?_⟩
      rw [if_pos rfl, if_pos h3, pairsOf_nil _ _ h3]
      simp [partToks, steps, Owner.ctx]
    · refine ⟨_, .elems (e := .iedge) rfl, ?_⟩
      have := steps_iedges env L n ms ds (k.edges0.zip k.edges1) (hz 2 _ _ he) ⟨r0, r1, { material := [] }, { material := [] }, [], sols, eqns⟩ rfl rfl
      rw [if_pos rfl, if_neg h3, pairsOf_map _ _ h3]
      simpa [partToks] using this
  rw [if_neg h2]
  by_cases h4 : dim = 3
  · subst h4
    by_cases h3 : k.tris0.isEmpty = true ∨ k.tris0.length ≠ k.tris1.length
    · refine ⟨_, .base, ?_⟩
      rw [if_pos rfl, if_pos h3, pairsOf_nil _ _ h3]
      simp [partToks, steps, Owner.ctx]
    · refine ⟨_, .elems (e := .itri) rfl, ?_⟩
      have := steps_itris env L n ms ds (k.tris0.zip k.tris1) (hz 3 _ _ ht) ⟨r0, r1, { material := [] }, { material := [] }, [], sols, eqns⟩ rfl rfl
      rw [if_pos rfl, if_neg h3, pairsOf_map _ _ h3]
      simpa [partToks] using this
  · refine ⟨_, .base, ?_⟩
    simp [partToks, h2, h4, steps, Owner.ctx]

theorem steps_serIface (F : Fmt α) (d : Dev α) (X : Extra α) (hf : FileSer d X) (k : Ifc) (hk : (n, k) ∈ d.ifaces)
    {c : Ctx α} (h : InDev c) (hn : L.ifaces.has n = false) :
    steps env c (sDev L ms ds) (serIfaceToks F X d.dim n k) =
      some (.iface, sDev { L with ifaces := L.ifaces.put n (rmifc env F X d.dim n k) } ms ds) := by
  unfold serIfaceToks
  rw [steps_append env (steps_begIface env L n ms ds k.region0 k.region1 h hn)]
  obtain ⟨c1, hc1, h1⟩ := steps_ielems env L n ms ds d.dim (X.provided n) k { region0 := k.region0, region1 := k.region1 }
    (hf.iedges _ hk) (hf.itris _ hk) ⟨rfl, rfl, rfl⟩
  refine (steps_append env h1).trans ?_
  obtain ⟨c4, hc4, h4⟩ := steps_maps env .iface
    (fun a => sIfc L n { (rmifc env F X d.dim n k : MIfc α) with sols := a, eqns := [] } ms ds)
    (fun nm x => [.kw .begIfModel, .word nm] ++ (serToks F (.cmd x) ++ [.kw .endIfModel]))
    (fun x => mser env F .ifn (.cmd x)) (.model .ifn .idle) (.model rfl) (X.imodels n)
    (hf.imodels _ hk) (fun e _ a c hc ha => steps_imodel env L n ms ds F e.1 e.2 _ ha hc) hc1
  have e4 : serModelToks F .ifn ((X.imodels n).map fun e => (e.1, .cmd e.2)) =
      (X.imodels n).flatMap fun e => [.kw .begIfModel, .word e.1] ++ (serToks F (.cmd e.2) ++ [.kw .endIfModel]) := by
    unfold serModelToks
    rw [List.flatMap_map]
    rfl
  rw [e4]
  refine (steps_append env h4).trans ?_
  obtain ⟨c5, hc5, h5⟩ := steps_maps env .iface
    (fun a => sIfc L n { (rmifc env F X d.dim n k : MIfc α) with eqns := a } ms ds)
    (fun nm x => [.kw .begIfEq, .word nm] ++ (cmdToks x ++ [.kw .endIfEq])) meqn (.eqn .iface .idle) .eqn (X.ieqns n)
    (hf.ieqns _ hk) (fun e _ a c hc ha => steps_ieqn env L n ms ds e.1 e.2 _ ha hc) hc4
  refine (steps_append env (show steps env c4 _ (serEqnToks .iface (X.ieqns n)) = _ from h5)).trans ?_
  have h6 : ∀ r' : MIfc α, step env (sIfc L n r' ms ds) c5 (.kw .endIface) =
      .ok .iface (sDev { L with ifaces := L.ifaces.put n r' } ms ds) := by
    intro r'
    rw [step_inO env _ hc5 (by decide)]
    rfl
  simp only [steps, h6]
  rfl

/-- The tokens of a device without the last one. -/
def serPrefixToks (F : Fmt α) (n : Text) (d : Dev α) (X : Extra α) : List Tok :=
  [.kw .begDevice, .word n] ++ (coordToks F d.coords ++
    ((d.regions.flatMap fun e => serRegionToks F X d.dim e.1 e.2) ++
    ((d.contacts.flatMap fun e => serContactToks X d.dim e.1 e.2) ++
    (d.ifaces.flatMap fun e => serIfaceToks F X d.dim e.1 e.2))))

theorem serDeviceToks_prefix (F : Fmt α) (n : Text) (d : Dev α) (X : Extra α) :
    serDeviceToks F n d X = serPrefixToks F n d X ++ [.kw .endDevice] := by
  simp [serDeviceToks, serPrefixToks]

/-- A device, up to the action at its end. -/
theorem steps_serPrefix (F : Fmt α) (dn : Text) (d : Dev α) (X : Extra α) (hf : FileSer d X)
    (hms : dn ∉ ms) {c : Ctx α} (hc : c = .all ∨ c = .device) :
    ∃ c', InDev c' ∧ steps env c (sIdle ms ds) (serPrefixToks F dn d X) =
      some (c', sDev (rmloader env F dn d X) (dn :: ms) ds) := by
  have h0 : steps env c (sIdle ms ds) [.kw .begDevice, .word dn] =
      some (.device, sDev { name := dn } (dn :: ms) ds) := by
    have h1 : step env (sIdle ms ds) c (.kw .begDevice) = .ok (.hdr .begDevice []) (sIdle ms ds) := by
      rcases hc with rfl | rfl <;> rfl
    have h2 : step env (sIdle ms ds) (.hdr .begDevice []) (.word dn) =
        .ok .device (sDev { name := dn } (dn :: ms) ds) := by
      simp [step, stepN, accept, Kw.words, openSec, sIdle, sDev, hms]
    simp only [steps, h1, h2]
  unfold serPrefixToks
  obtain ⟨c1, hc1, h1⟩ := steps_sections env
    (fun a => sDev { name := dn, coords := (rmloader env F dn d X).coords, regions := a } (dn :: ms) ds)
    (serRegionToks F X d.dim) (rmreg env F X d.dim) .region d.regions hf.sr
    (fun e he a c hc ha => steps_serRegion env _ e.1 _ ds F d X hf e.2 he hc ha) .region .coords
  obtain ⟨c2, hc2, h2⟩ := steps_sections env
    (fun a => sDev { name := dn, coords := (rmloader env F dn d X).coords,
                     regions := (rmloader env F dn d X).regions, contacts := a } (dn :: ms) ds)
    (serContactToks X d.dim) (rmcon X d.dim) .contact d.contacts hf.sc
    (fun e he a c hc ha => steps_serContact env _ e.1 _ ds d X hf e.2 he hc ha) .contact hc1
  obtain ⟨c3, hc3, h3⟩ := steps_sections env
    (fun a => sDev { name := dn, coords := (rmloader env F dn d X).coords,
                     regions := (rmloader env F dn d X).regions, contacts := (rmloader env F dn d X).contacts,
                     ifaces := a } (dn :: ms) ds)
    (serIfaceToks F X d.dim) (rmifc env F X d.dim) .iface d.ifaces hf.si
    (fun e he a c hc ha => steps_serIface env _ e.1 _ ds F d X hf e.2 he hc ha) .iface hc2
  refine ⟨c3, hc3, ?_⟩
  rw [steps_append env h0, steps_append env (steps_coords env { name := dn } (dn :: ms) ds F d.coords rfl)]
  refine (steps_append env h1).trans ?_
  refine (steps_append env h2).trans ?_
  exact h3

end

end Verif.MeshIO
