import Verif.MeshIO.Restart

/-!
# Loading a restart file
-/

namespace Verif.MeshIO

variable {α : Type}

/-! ### Commands keep the meshes -/

theorem geo_get (devs : Devs α) (x : Text) : SMap.get (geo devs) x = (SMap.get devs x).map geoDev :=
  SMap.get_map (fun _ d => geoDev d) devs x

theorem geo_has {a b : Devs α} (h : geo a = geo b) (x : Text) : a.has x = b.has x := by
  rw [← SMap.get_isSome, ← SMap.get_isSome]
  have h1 := geo_get a x
  have h2 := geo_get b x
  rw [h] at h1
  rw [h1] at h2
  cases e : SMap.get a x <;> cases e' : SMap.get b x <;> simp [e, e'] at h2 <;> rfl

theorem sorted_keys {β γ : Type} {a : SMap Text β} {b : SMap Text γ} (h : a.map Prod.fst = b.map Prod.fst)
    (hb : SMap.Sorted b) : SMap.Sorted a := by
  unfold SMap.Sorted at *
  have h1 : (b.map Prod.fst).Pairwise (· < ·) := by rw [List.pairwise_map]; exact hb
  rw [← h, List.pairwise_map] at h1
  exact h1

theorem geo_keys (devs : Devs α) : (geo devs).map Prod.fst = devs.map Prod.fst := by simp [geo, Function.comp_def]

theorem geo_sorted {a b : Devs α} (h : geo a = geo b) (hb : SMap.Sorted b) : SMap.Sorted a :=
  sorted_keys (by rw [← geo_keys, h, geo_keys]) hb

theorem geo_runCmds {env : Env α} {cs : List Cmd} (h : Tame env cs) (st : Bool × Devs α) :
    geo (runCmds env cs st).2 = geo st.2 := by
  unfold runCmds
  induction cs generalizing st with
  | nil => rfl
  | cons c cs ih =>
    rw [List.foldl_cons, ih (fun x hx => h x (by simp [hx]))]
    exact h c (by simp) _

theorem geo_mod (devs : Devs α) (dn rn : Text) (f : Reg α → Reg α) (hf : ∀ r, bare (f r) = bare r) :
    geo (SMap.mod devs dn fun d => { d with regions := SMap.mod d.regions rn f }) = geo devs := by
  unfold geo SMap.mod
  rw [List.map_map]
  refine List.map_congr_left fun e _ => ?_
  simp only [Function.comp_apply]
  split
  · simp only [geoDev, SMap.mod, List.map_map]
    congr 2
    refine List.map_congr_left fun x _ => ?_
    simp only [Function.comp_apply]
    split
    · simp only [hf]
    · rfl
  · rfl

theorem SMap.mod_congr {κ β : Type} [LinearOrder κ] {m : SMap κ β} (hm : SMap.Sorted m) {k : κ} {v : β}
    (hv : SMap.get m k = some v) {f g : β → β} (h : f v = g v) : SMap.mod m k f = SMap.mod m k g := by
  unfold SMap.mod
  refine List.map_congr_left fun e he => ?_
  split
  · rename_i hk
    have := SMap.get_of_mem hm he
    rw [hk, hv] at this
    simp only [Option.some.injEq] at this
    rw [← this, h]
  · rfl

/-! ### The last pass -/

section
variable {env : Env α} {F : Fmt α} {dn : Text} {d : Dev α} {X : Extra α}

theorem finishRegion_restart (h : RestartOK env d X) {devs : Devs α} (hdevs : SMap.Sorted devs) {e : Text × Reg α}
    (he : e ∈ d.regions) {st : Bool × Devs α} (hg : geo st.2 = geo (devs.put dn (skeleton env F d))) :
    finishRegion env dn st e.1 (rmfull env F X e.1 e.2) = replayReg env F dn X st e.1 := by
  have hsk := SMap.put_sorted hdevs dn (skeleton env F d)
  have hst : SMap.Sorted st.2 := geo_sorted hg hsk
  have h1 : (SMap.get st.2 dn).map geoDev = some (geoDev (skeleton env F d)) := by
    rw [← geo_get, hg, geo_get, SMap.get_put, if_pos rfl]
    rfl
  obtain ⟨dv, hdv, hdv'⟩ := Option.map_eq_some_iff.1 h1
  have h2 : (dv.regions.map fun e => (e.1, bare e.2)) = (skeleton env F d).regions.map fun e => (e.1, bare e.2) :=
    congrArg Dev.regions hdv'
  have hks : (dv.regions.map Prod.fst) = (skeleton env F d).regions.map Prod.fst := by
    have := congrArg (List.map Prod.fst) h2
    simpa [Function.comp_def] using this
  have hsks : SMap.Sorted (skeleton env F d).regions := SMap.sorted_map (fun _ r => (bare r).defaults env) h.regions.2
  have hdvs : SMap.Sorted dv.regions := sorted_keys hks hsks
  have h3 : (SMap.get dv.regions e.1).map bare = some (bare e.2) := by
    have h4 := SMap.get_map (fun _ r => bare r) dv.regions e.1
    rw [← h4, h2, SMap.get_map (fun _ r => bare r)]
    have h5 := regions_get (env := env) (SMap.get_of_mem h.regions.2 he)
    have h6 : SMap.get (skeleton env F d).regions e.1 = some ((bare e.2).defaults env) := h5
    rw [h6]
    rfl
  obtain ⟨r, hr, hr'⟩ := Option.map_eq_some_iff.1 h3
  have hsize : ∀ k, r.size k = e.2.size k := by
    intro k
    have : ∀ r : Reg α, r.size k = (bare r).size k := by intro r; cases k <;> rfl
    rw [this r, this e.2, hr']
  have hdata : DataOK X e.1 r := by
    intro k hk m hm l hl
    rw [hsize]
    exact h.data e he k hk m hm l hl
  unfold finishRegion replayReg
  rw [hdv, Option.bind_some, hr]
  dsimp only
  have hsols : (rmfull env F X e.1 e.2).sols = rsols env F X e.1 := rfl
  have heqns : (rmfull env F X e.1 e.2).eqns = meqns (X.reqns e.1) := rfl
  rw [hsols, heqns, addSols_rsols env F X e.1 (h.models e he) (h.disjoint e he) hdata, regCmds_eq, runAll_eq]
  simp only [Bool.and_true]
  congr 2
  refine SMap.mod_congr hst hdv ?_
  congr 1
  exact SMap.mod_congr hdvs hr rfl

theorem geo_replayReg {st : Bool × Devs α} {rn : Text} (ht : Tame env (regCmds X rn)) :
    geo (replayReg env F dn X st rn).2 = geo st.2 := by
  unfold replayReg
  rw [geo_runCmds ht]
  exact geo_mod _ _ _ _ fun r => bare_restoreReg env F X rn r

theorem Tame.sub {cs cs' : List Cmd} (h : Tame env cs) (hs : ∀ c ∈ cs', c ∈ cs) : Tame env cs' :=
  fun c hc => h c (hs c hc)

theorem finish_restart (h : RestartOK env d X) {devs : Devs α} (hdevs : SMap.Sorted devs) :
    ∀ (l : SMap Text (Reg α)), (∀ e ∈ l, e ∈ d.regions) → (∀ e ∈ l, Tame env (regCmds X e.1)) → ∀ (st : Bool × Devs α),
    geo st.2 = geo (devs.put dn (skeleton env F d)) →
    (l.map fun e => (e.1, rmfull env F X e.1 e.2)).foldl (fun st e => finishRegion env dn st e.1 e.2) st =
      l.foldl (fun st e => replayReg env F dn X st e.1) st ∧
    geo (l.foldl (fun st e => replayReg env F dn X st e.1) st).2 = geo (devs.put dn (skeleton env F d)) := by
  intro l
  induction l with
  | nil => intro _ _ st hg; exact ⟨rfl, hg⟩
  | cons e l ih =>
    intro hl ht st hg
    simp only [List.map_cons, List.foldl_cons]
    rw [finishRegion_restart h hdevs (hl e (by simp)) hg]
    exact ih (fun x hx => hl x (by simp [hx])) (fun x hx => ht x (by simp [hx])) _
      (by rw [geo_replayReg (ht e (by simp)), hg])

/-- The mesh of the devices after a device was loaded. -/
theorem geo_replay (h : RestartOK env d X) (ht : Tame env (fileCmds d X)) {devs : Devs α} (hdevs : SMap.Sorted devs) :
    geo (replay env F dn d X devs).2 = geo (devs.put dn (skeleton env F d)) := by
  unfold replay
  rw [geo_runCmds (ht.sub fun c hc => by simp only [fileCmds, List.mem_append]; exact .inr hc),
    geo_runCmds (ht.sub fun c hc => by simp only [fileCmds, List.mem_append]; exact .inl (.inr hc))]
  exact (finish_restart (F := F) (dn := dn) h hdevs d.regions (fun _ h => h)
    (fun e he => ht.sub fun c hc => by
      simp only [fileCmds, List.mem_append, List.mem_flatMap]; exact .inl (.inl ⟨e, he, hc⟩)) _ rfl).2

theorem instantiate_restart (h : RestartOK env d X) (ht : Tame env (fileCmds d X)) {devs : Devs α}
    (hdevs : SMap.Sorted devs) (hn : devs.has dn = false) :
    instantiate env (rmdone env F dn d X) devs =
      (if (replay env F dn d X devs).1 then .ok else .fail, (replay env F dn d X devs).2) := by
  have hdim : (rmdone env F dn d X).dim1 = d.dim := by
    have h1 := h.regions.1
    have h2 := h.topo
    cases e : d.regions with
    | nil => exact absurd e h1
    | cons x l =>
      simp only [Loader.dim1, rmdone, e, List.map_cons]
      exact dim_rmfull (h2 x (by simp [e]))
  have hlen : (rmdone env F dn d X).coords.length = d.coords.length := by simp [rmdone, rmloader]
  have hrs : mkRegions env (rmdone env F dn d X).coords.length (rmdone env F dn d X).regions [] =
      (.ok, d.regions.map fun e => (e.1, (bare e.2).defaults env)) := by
    rw [hlen]
    have := mkRegions_restart (F := F) (X := X) d.regions [] h.regions.2 (by simp) h.topo
    simpa [rmdone] using this
  have hcs : mkContacts (d.regions.map fun e => (e.1, (bare e.2).defaults env)) (rmdone env F dn d X).contacts [] =
      (true, d.contacts) := by
    have := mkContacts_restart (d.regions.map fun e => (e.1, (bare e.2).defaults env)) (rmcon X d.dim) d.contacts []
      h.contacts (by simp) (fun e he => mkContact_restart h (h.con e he))
    simpa [rmdone, rmloader] using this
  have his : mkIfaces (d.regions.map fun e => (e.1, (bare e.2).defaults env)) (rmdone env F dn d X).ifaces [] =
      (true, d.ifaces) := by
    have := mkIfaces_restart (d.regions.map fun e => (e.1, (bare e.2).defaults env)) (rmifc env F X d.dim) d.ifaces []
      h.ifaces (by simp) (fun e he => mkIface_restart h (h.ifc e he))
    simpa [rmdone, rmloader] using this
  have hfin := (finish_restart (F := F) (dn := dn) h hdevs d.regions (fun _ h => h)
    (fun e he => ht.sub fun c hc => by
      simp only [fileCmds, List.mem_append, List.mem_flatMap]; exact .inl (.inl ⟨e, he, hc⟩))
    (true, devs.put dn (skeleton env F d)) rfl).1
  have hname : (rmdone env F dn d X).name = dn := rfl
  have hc1 : ((rmdone env F dn d X).ifaces.flatMap fun e => solCmds e.2.sols ++ eqnCmds e.2.eqns) =
      (d.ifaces.flatMap fun e => ifcCmds X e.1).map fun c => (c.1, cmdArgs c) := by
    simp only [rmdone, rmloader, List.flatMap_map, List.map_flatMap]
    congr 1
    funext e
    have e1 : (rmifc env F X d.dim e.1 e.2).sols = (X.imodels e.1).map fun e => (e.1, mser env F .ifn (.cmd e.2)) := rfl
    have e2 : (rmifc env F X d.dim e.1 e.2).eqns = meqns (X.ieqns e.1) := rfl
    rw [e1, e2, eqnCmds_meqns, ifcCmds, List.map_append]
    congr 1
    unfold solCmds
    rw [List.filter_eq_self.2 (by
      intro x hx
      obtain ⟨y, -, rfl⟩ := List.mem_map.1 hx
      rfl), List.map_map, List.map_map]
    rfl
  have hc2 : ((rmdone env F dn d X).contacts.flatMap fun e => eqnCmds e.2.eqns) =
      (d.contacts.flatMap fun e => conCmds X e.1).map fun c => (c.1, cmdArgs c) := by
    simp only [rmdone, rmloader, List.flatMap_map, List.map_flatMap]
    congr 1
    funext e
    have e2 : (rmcon X d.dim e.1 e.2 : MCon α).eqns = meqns (X.ceqns e.1) := rfl
    rw [e2, eqnCmds_meqns, conCmds]
  unfold instantiate
  rw [hname, hn, hdim, hrs]
  simp only [Bool.false_eq_true, if_false, ne_eq, not_true_eq_false, hcs, his, hc1, hc2, runAll_eq]
  have e0 : (rmdone env F dn d X).regions = d.regions.map fun e => (e.1, rmfull env F X e.1 e.2) := rfl
  rw [e0]
  have e1 : (Dev.mk d.dim (rmdone env F dn d X).coords (d.regions.map fun e => (e.1, (bare e.2).defaults env))
      d.contacts d.ifaces) = skeleton env F d := rfl
  rw [e1, hfin]
  rfl

theorem RestartOK.file (h : RestartOK env d X) : FileSer d X where
  edges := fun e he l hl => ⟨((h.topo e he).edges.2.2 l hl).1, ((h.topo e he).edges.2.2 l hl).2.1⟩
  tris := fun e he l hl => ⟨((h.topo e he).tris.2 l hl).1, ((h.topo e he).tris.2 l hl).2.1⟩
  tets := fun e he l hl => ⟨((h.topo e he).tets.2 l hl).1, ((h.topo e he).tets.2 l hl).2.1⟩
  models := h.models
  disjoint := h.disjoint
  reqns := h.reqns
  cedges := fun e he l hl => by
    obtain ⟨r, hr, hs⟩ := h.con e he
    have ht := h.topo _ (SMap.mem_of_get hr)
    have := ht.edges.2.2 l ((skin_decompose ht hs).2.1 l hl)
    exact ⟨this.1, this.2.1⟩
  ctris := fun e he l hl => by
    obtain ⟨r, hr, hs⟩ := h.con e he
    have ht := h.topo _ (SMap.mem_of_get hr)
    have := ht.tris.2 l ((skin_decompose ht hs).2.2.1 l hl)
    exact ⟨this.1, this.2.1⟩
  ceqns := h.ceqns
  iedges := fun e he l hl => by
    obtain ⟨r0, r1, hr0, hr1, hs⟩ := h.ifc e he
    split_ifs at hs
    · obtain ⟨-, -, -, h1, h2, -⟩ := hs
      simp [h1, h2] at hl
    · have ht0 := h.topo _ (SMap.mem_of_get hr0)
      have ht1 := h.topo _ (SMap.mem_of_get hr1)
      rcases List.mem_append.1 hl with hl | hl
      · have := ht0.edges.2.2 l ((skin_decompose ht0 hs.1).2.1 l hl)
        exact ⟨this.1, this.2.1⟩
      · have := ht1.edges.2.2 l ((skin_decompose ht1 hs.2.1).2.1 l hl)
        exact ⟨this.1, this.2.1⟩
  itris := fun e he l hl => by
    obtain ⟨r0, r1, hr0, hr1, hs⟩ := h.ifc e he
    split_ifs at hs
    · obtain ⟨-, -, -, -, -, h1, h2⟩ := hs
      simp [h1, h2] at hl
    · have ht0 := h.topo _ (SMap.mem_of_get hr0)
      have ht1 := h.topo _ (SMap.mem_of_get hr1)
      rcases List.mem_append.1 hl with hl | hl
      · have := ht0.tris.2 l ((skin_decompose ht0 hs.1).2.2.1 l hl)
        exact ⟨this.1, this.2.1⟩
      · have := ht1.tris.2 l ((skin_decompose ht1 hs.2.1).2.2.1 l hl)
        exact ⟨this.1, this.2.1⟩
  imodels := h.imodels
  ieqns := h.ieqns
  sr := h.regions.2
  sc := h.contacts
  si := h.ifaces

end

/-! ### The whole file -/

theorem parse_append (env : Env α) (fin : Stk) : ∀ (a b : List Tok) (l : List (Tok × Stk)) {c c' : Ctx α} {s s' : Sess α},
    l.map Prod.fst = a ++ b → steps env c s a = some (c', s') →
    ∃ l', l'.map Prod.fst = b ∧ parse env c s l fin = parse env c' s' l' fin
  | [], b, l, c, c', s, s', h, hs => by
    simp only [steps, Option.some.injEq, Prod.mk.injEq] at hs
    obtain ⟨rfl, rfl⟩ := hs
    exact ⟨l, h, rfl⟩
  | t :: a, b, [], c, c', s, s', h, hs => by simp at h
  | t :: a, b, (t', st) :: l, c, c', s, s', h, hs => by
    simp only [List.map_cons, List.cons_append, List.cons.injEq] at h
    obtain ⟨rfl, h⟩ := h
    simp only [steps] at hs
    cases e : step env s c t' with
    | ok c1 s1 =>
      rw [e] at hs
      obtain ⟨l', h1, h2⟩ := parse_append env fin a b l h hs
      refine ⟨l', h1, ?_⟩
      rw [parse, e]
      exact h2
    | _ => rw [e] at hs; simp at hs

/-- Devices, one after the other, until one fails. -/
def replayAll (env : Env α) (F : Fmt α) : SMap Text (Dev α × Extra α) → Devs α → Bool × Devs α
  | [], devs => (true, devs)
  | e :: ds, devs =>
    let r := replay env F e.1 e.2.1 e.2.2 devs
    if r.1 then replayAll env F ds r.2 else (false, r.2)

theorem parse_restart {env : Env α} {F : Fmt α} {fin : Stk} : ∀ (ds : SMap Text (Dev α × Extra α)),
    (∀ e ∈ ds, RestartOK env e.2.1 e.2.2 ∧ Tame env (fileCmds e.2.1 e.2.2)) → (ds.map Prod.fst).Nodup →
    ∀ {ms : List Text} {devs : Devs α}, SMap.Sorted devs → (∀ e ∈ ds, devs.has e.1 = false ∧ e.1 ∉ ms) →
    ∀ {c : Ctx α}, c = .all ∨ c = .device → ∀ (l : List (Tok × Stk)),
    l.map Prod.fst = (ds.flatMap fun e => serDeviceToks F e.1 e.2.1 e.2.2) →
    (parse env c (sIdle ms devs) l fin).1 = (if (replayAll env F ds devs).1 then .ok else .fail) ∧
    (parse env c (sIdle ms devs) l fin).2.1.devs = (replayAll env F ds devs).2 ∧
    (parse env c (sIdle ms devs) l fin).2.1.loader = none
  | [], _, _, ms, devs, _, _, c, hc, l, hl => by
    have : l = [] := by simpa using hl
    subst this
    have h6 : c.closedN 5 = true := by rcases hc with rfl | rfl <;> rfl
    simp only [parse, h6, if_true, replayAll]
    exact ⟨trivial, rfl, rfl⟩
  | e :: ds, h, hnd, ms, devs, hs, hn, c, hc, l, hl => by
    simp only [List.map_cons, List.nodup_cons] at hnd
    obtain ⟨h1, ht⟩ := h e (by simp)
    have he := hn e (by simp)
    obtain ⟨c1, hc1, h2⟩ := steps_serPrefix env ms devs F e.1 e.2.1 e.2.2 h1.file he.2 hc
    rw [List.flatMap_cons, serDeviceToks_prefix, List.append_assoc] at hl
    obtain ⟨l1, hl1, h3⟩ := parse_append env fin _ _ l hl h2
    rw [h3]
    obtain ⟨⟨t, st⟩, l2, rfl⟩ : ∃ x l2, l1 = x :: l2 := by
      cases l1 with
      | nil => simp at hl1
      | cons x l2 => exact ⟨x, l2, rfl⟩
    simp only [List.map_cons, List.cons_append, List.nil_append, List.cons.injEq] at hl1
    obtain ⟨rfl, hl2⟩ := hl1
    have hg := geo_replay (F := F) (dn := e.1) h1 ht hs
    have hsr : SMap.Sorted (replay env F e.1 e.2.1 e.2.2 devs).2 := geo_sorted hg (SMap.put_sorted hs _ _)
    have hstep : step env (sDev (rmloader env F e.1 e.2.1 e.2.2) (e.1 :: ms) devs) c1 (.kw .endDevice) =
        if (replay env F e.1 e.2.1 e.2.2 devs).1 then
          .ok .device (sIdle (e.1 :: ms) (replay env F e.1 e.2.1 e.2.2 devs).2)
        else .abort (sIdle (e.1 :: ms) (replay env F e.1 e.2.1 e.2.2 devs).2) := by
      rw [step_inDev env _ hc1 (by simp)]
      have : step env (sDev (rmloader env F e.1 e.2.1 e.2.2) (e.1 :: ms) devs) .device (.kw .endDevice) =
          endDevice env (sDev (rmloader env F e.1 e.2.1 e.2.2) (e.1 :: ms) devs) := rfl
      rw [this]
      simp only [endDevice, sDev, finalize_rmloader h1, if_true, instantiate_restart h1 ht hs he.1]
      cases (replay env F e.1 e.2.1 e.2.2 devs).1 <;> rfl
    rw [parse, hstep, replayAll]
    rcases Bool.eq_false_or_eq_true (replay env F e.1 e.2.1 e.2.2 devs).1 with hr | hr
    · rw [hr, if_pos rfl, if_pos rfl]
      refine parse_restart ds (fun x hx => h x (by simp [hx])) hnd.2 hsr ?_ (.inr rfl) l2 hl2
      intro x hx
      have hne : x.1 ≠ e.1 := fun h => hnd.1 (by rw [← h]; exact List.mem_map_of_mem hx)
      refine ⟨?_, by simp [hne, (hn x (by simp [hx])).2]⟩
      rw [geo_has hg, SMap.has_put, (hn x (by simp [hx])).1]
      simp [hne]
    · rw [hr, if_neg (by simp), if_neg (by simp)]
      exact ⟨rfl, rfl, rfl⟩

/-- **A restart file is loaded again**: `load_devices` on the text that `write_devices` wrote makes each
device with the same mesh, contacts and interfaces, restores the data of its models, and runs the commands
of its models and equations; it succeeds exactly when the last command of every device succeeds, and stops at
the first device where it does not. -/
theorem load_restart {env : Env α} {F : Fmt α} {ds : SMap Text (Dev α × Extra α)}
    (hW : ∀ e ∈ ds, SerWritable F e.1 e.2.1 e.2.2)
    (h : ∀ e ∈ ds, RestartOK env e.2.1 e.2.2 ∧ Tame env (fileCmds e.2.1 e.2.2)) (hs : SMap.Sorted ds)
    {ms : List Text} {devs : Devs α} (hdevs : SMap.Sorted devs) (hn : ∀ e ∈ ds, devs.has e.1 = false ∧ e.1 ∉ ms) :
    (load env (sIdle ms devs) [] (serDevices F ds)).1 = (if (replayAll env F ds devs).1 then .ok else .fail) ∧
    (load env (sIdle ms devs) [] (serDevices F ds)).2.1.devs = (replayAll env F ds devs).2 ∧
    (load env (sIdle ms devs) [] (serDevices F ds)).2.1.loader = none := by
  obtain ⟨h1, h2⟩ := lexes_serDevices hW [] trivial
  rw [List.append_nil] at h1 h2
  have h3 : (lex [] true []).1 = [] ∧ (lex [] true []).2 = [] := by
    constructor <;> rfl
  rw [h3.1, List.map_nil, List.append_nil] at h1
  obtain ⟨h4, h5, h6⟩ := parse_restart (F := F) (fin := (lex [] true (serDevices F ds)).2) ds h (SMap.keys_nodup hs)
    hdevs hn (c := .all) (.inl rfl) _ h1
  unfold load
  dsimp only
  cases hr : (replayAll env F ds devs).1 with
  | true =>
    rw [hr] at h4
    simp only [if_true] at h4
    rw [h4]
    exact ⟨rfl, h5, h6⟩
  | false =>
    rw [hr] at h4
    simp only [Bool.false_eq_true, if_false] at h4
    rw [h4]
    exact ⟨rfl, h5, h6⟩

end Verif.MeshIO
