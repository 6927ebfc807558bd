import Verif.MeshIO.RoundTrip

/-!
# What is the same after writing and loading
-/

namespace Verif.MeshIO

variable {α : Type}

/-- `get_node_model_values`, `get_edge_model_values`: the values of a model of a region. -/
def Dev.val (F : Fmt α) (d : Dev α) (rn : Text) (k : MK) (n : Text) : Option (List α) :=
  (d.regions.get rn).bind fun r => (SMap.get (r.models k) n).map (srcVals F d rn r k n)

/-- Every number of the device is read as it was before. -/
structure Numbers (env : Env α) (F : Fmt α) (d : Dev α) : Prop where
  coords : ∀ c ∈ d.coords, rho env F c.1 = c.1 ∧ rho env F c.2.1 = c.2.1 ∧ rho env F c.2.2 = c.2.2
  vals : ∀ rn k n v, (k = .node ∨ k = .edge) → d.val F rn k n = some v → ∀ x ∈ v, rho env F x = x

/-- The elements of contacts and interfaces are not given, and no built-in model was replaced. -/
structure Plain (env : Env α) (d : Dev α) : Prop where
  con : ∀ e ∈ d.contacts, e.2.edges = [] ∧ e.2.tris = []
  ifc : ∀ e ∈ d.ifaces, e.2.edges0 = [] ∧ e.2.edges1 = [] ∧ e.2.tris0 = [] ∧ e.2.tris1 = []
  builtin : ∀ e ∈ d.regions, ∀ k, (k = .node ∨ k = .edge) → ∀ m ∈ e.2.models k,
    m.1 ∈ env.bnames e.2.dim k → m.2 = .builtin

/-- The geometry is the same. -/
theorem rep_geo {env : Env α} {F : Fmt α} {d : Dev α} (hN : Numbers env F d) (hP : Plain env d) :
    (rep env F d).geo = d.geo := by
  have h1 : (d.coords.map fun c => (rho env F c.1, rho env F c.2.1, rho env F c.2.2)) = d.coords := by
    conv_rhs => rw [← List.map_id d.coords]
    refine List.map_congr_left fun c hc => ?_
    obtain ⟨a, b, e⟩ := hN.coords c hc
    rw [a, b, e]; rfl
  have h2 : (d.contacts.map fun e => (e.1, { e.2 with edges := [], tris := [] })) = d.contacts := by
    conv_rhs => rw [← List.map_id d.contacts]
    refine List.map_congr_left fun c hc => ?_
    obtain ⟨a, b⟩ := hP.con c hc
    obtain ⟨n, r, m, ns, es, ts⟩ := c
    simp only at a b
    subst a b; rfl
  have h3 : (d.ifaces.map fun e => (e.1, { e.2 with edges0 := [], edges1 := [], tris0 := [], tris1 := [] })) =
      d.ifaces := by
    conv_rhs => rw [← List.map_id d.ifaces]
    refine List.map_congr_left fun c hc => ?_
    obtain ⟨a, b, e, f⟩ := hP.ifc c hc
    obtain ⟨n, r, m, ns, es, ts, u, v, w⟩ := c
    simp only at a b e f
    subst a b e f; rfl
  simp only [Dev.geo, rep, h1, h2, h3, List.map_map]
  rfl

/-- **Every node model and every edge model has the same values after writing and loading**, and there are
no others. -/
theorem rep_val {env : Env α} {F : Fmt α} {d : Dev α} (hd : DevOK env d) (hN : Numbers env F d) (hP : Plain env d)
    (rn : Text) (k : MK) (hk : k = .node ∨ k = .edge) (n : Text) :
    (rep env F d).val F rn k n = d.val F rn k n := by
  unfold Dev.val
  have e1 : SMap.get (rep env F d).regions rn = (SMap.get d.regions rn).map (repReg env F d rn) :=
    SMap.get_map (repReg env F d) d.regions rn
  rw [e1]
  cases hr : SMap.get d.regions rn with
  | none => rfl
  | some r =>
    have hmem := SMap.mem_of_get hr
    have hrok := hd.reg _ hmem
    have hm : (repReg env F d rn r).models k = repModels env F d rn r k := by
      rcases hk with rfl | rfl <;> rfl
    have hsz : (repReg env F d rn r).size k = r.size k := by cases k <;> rfl
    simp only [Option.map_some, Option.bind_some]
    rw [hm]
    unfold repModels
    rw [SMap.get_map (fun n s => if n ∈ env.bnames r.dim k then Src.builtin
      else .data ((srcVals F d rn r k n s).map (rho env F)))]
    cases hs : SMap.get (r.models k) n with
    | none => rfl
    | some s =>
      simp only [Option.map_some, Option.some.injEq]
      have hms := SMap.mem_of_get hs
      by_cases hb : n ∈ env.bnames r.dim k
      · have := hP.builtin _ hmem k hk _ hms hb
        simp only at this
        subst this
        simp only [hb, if_true, srcVals, rep_geo hN hP]
      · simp only [hb, if_false]
        have hv : d.val F rn k n = some (srcVals F d rn r k n s) := by
          unfold Dev.val
          rw [hr, Option.bind_some, hs]; rfl
        conv_rhs => rw [← List.map_id (srcVals F d rn r k n s)]
        change List.map _ _ = _
        exact List.map_congr_left fun x hx => hN.vals rn k n _ hk hv x hx

/-- **Write and load give the same devices**: in a fresh session the load succeeds, the devices have the
same names, geometry and values. -/
theorem load_written_same {env : Env α} {F : Fmt α} {ds : Devs α} (hW : ∀ e ∈ ds, Writable F e.1 e.2)
    (hd : ∀ e ∈ ds, DevOK env e.2) (hs : SMap.Sorted ds) (hN : ∀ e ∈ ds, Numbers env F e.2)
    (hP : ∀ e ∈ ds, Plain env e.2) :
    (load env {} [] (writeDevices F ds)).1 = .ok ∧
    ∀ dn, match ds.get dn, (load env {} [] (writeDevices F ds)).2.1.devs.get dn with
      | none, none => True
      | some d, some d' => d'.geo = d.geo ∧
          ∀ rn k n, (k = .node ∨ k = .edge) → d'.val F rn k n = d.val F rn k n
      | _, _ => False := by
  obtain ⟨h1, h2⟩ := load_written_fresh hW hd hs
  refine ⟨h1, fun dn => ?_⟩
  rw [h2, SMap.get_map (fun _ d => rep env F d)]
  cases h : SMap.get ds dn with
  | none => trivial
  | some d =>
    have hm := SMap.mem_of_get h
    exact ⟨rep_geo (hN _ hm) (hP _ hm), fun rn k n hk => rep_val (hd _ hm) (hN _ hm) (hP _ hm) rn k hk n⟩

/-! ### Writing again -/

theorem rep_modelVals {env : Env α} {F : Fmt α} {d : Dev α} (hd : DevOK env d) (hN : Numbers env F d)
    (hP : Plain env d) {e : Text × Reg α} (he : e ∈ d.regions) {k : MK} (hk : k = .node ∨ k = .edge) :
    modelVals F (rep env F d) e.1 (repReg env F d e.1 e.2) k = modelVals F d e.1 e.2 k := by
  have hrok := hd.reg e he
  have hok : ModelsOK env e.2 k := by rcases hk with rfl | rfl; exacts [hrok.nm, hrok.em]
  have hm : (repReg env F d e.1 e.2).models k = repModels env F d e.1 e.2 k := by
    rcases hk with rfl | rfl <;> rfl
  have hget : d.regions.get e.1 = some e.2 := SMap.get_of_mem hd.regions.2 he
  have hget' : (rep env F d).regions.get e.1 = some (repReg env F d e.1 e.2) := by
    have : SMap.get (rep env F d).regions e.1 = (SMap.get d.regions e.1).map (repReg env F d e.1) :=
      SMap.get_map (repReg env F d) d.regions e.1
    rw [this, hget]; rfl
  have hs' : SMap.Sorted ((repReg env F d e.1 e.2).models k) := by
    rw [hm]
    exact SMap.sorted_map (fun n s => if n ∈ env.bnames e.2.dim k then Src.builtin
      else .data ((srcVals F d e.1 e.2 k n s).map (rho env F))) hok.sorted
  refine SMap.ext
    (SMap.sorted_map (fun n s => srcVals F (rep env F d) e.1 (repReg env F d e.1 e.2) k n s) hs')
    (SMap.sorted_map (fun n s => srcVals F d e.1 e.2 k n s) hok.sorted) fun x => ?_
  have h1 := rep_val hd hN hP e.1 k hk x
  unfold Dev.val at h1
  rw [hget, hget'] at h1
  unfold modelVals
  rw [SMap.get_map (fun n s => srcVals F (rep env F d) e.1 (repReg env F d e.1 e.2) k n s),
    SMap.get_map (fun n s => srcVals F d e.1 e.2 k n s)]
  exact h1

/-- **Writing the loaded device gives the same file.** -/
theorem write_rep {env : Env α} {F : Fmt α} {d : Dev α} (hd : DevOK env d) (hN : Numbers env F d)
    (hP : Plain env d) (dn : Text) : writeDevice F dn (rep env F d) = writeDevice F dn d := by
  have hg := rep_geo hN hP
  have hc : (rep env F d).coords = d.coords := by
    have := congrArg Dev.coords hg
    exact this
  have h1 : ((rep env F d).contacts.flatMap fun e => writeContact e.1 e.2) =
      d.contacts.flatMap fun e => writeContact e.1 e.2 := by
    have : (rep env F d).contacts = d.contacts := by
      have := congrArg Dev.contacts hg
      exact this
    rw [this]
  have h2 : ((rep env F d).ifaces.flatMap fun e => writeIface e.1 e.2) =
      d.ifaces.flatMap fun e => writeIface e.1 e.2 := by
    have : (rep env F d).ifaces = d.ifaces := by
      have := congrArg Dev.ifaces hg
      exact this
    rw [this]
  have h3 : ((rep env F d).regions.flatMap fun e => writeRegion F (rep env F d) e.1 e.2) =
      d.regions.flatMap fun e => writeRegion F d e.1 e.2 := by
    have : (rep env F d).regions = d.regions.map fun e => (e.1, repReg env F d e.1 e.2) := rfl
    rw [this, List.flatMap_map]
    refine List.flatMap_congr fun e he => ?_
    simp only [writeRegion, rep_modelVals hd hN hP he (.inl rfl), rep_modelVals hd hN hP he (.inr rfl)]
    rfl
  simp only [writeDevice, hc, h1, h2, h3]

end Verif.MeshIO
