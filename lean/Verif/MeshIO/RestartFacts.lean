import Verif.MeshIO.RestartRun

/-!
# What a restart file preserves
-/

namespace Verif.MeshIO

variable {α : Type}

/-! ### The mesh -/

/-- **The mesh is the same**: after the file of one device was loaded, whatever its commands returned, the
device has the dimension, regions, materials, nodes, edges, triangles, tetrahedra, contacts and interfaces
that it had, and its coordinates are those that were printed; the meshes of the other devices are as before. -/
theorem load_restart_mesh {env : Env α} {F : Fmt α} {dn : Text} {d : Dev α} {X : Extra α} (hW : SerWritable F dn d X)
    (h : RestartOK env d X) (ht : Tame env (fileCmds d X)) {ms : List Text} {devs : Devs α} (hdevs : SMap.Sorted devs)
    (hn : devs.has dn = false ∧ dn ∉ ms) :
    let devs' := (load env (sIdle ms devs) [] (serDevice F dn d X)).2.1.devs
    (∃ d', devs'.get dn = some d' ∧ d'.dim = d.dim ∧
      d'.coords = d.coords.map (fun c => (rho env F c.1, rho env F c.2.1, rho env F c.2.2)) ∧
      (d'.regions.map fun e => (e.1, bare e.2)) = (d.regions.map fun e => (e.1, bare e.2)) ∧
      d'.contacts = d.contacts ∧ d'.ifaces = d.ifaces) ∧
    ∀ x, x ≠ dn → (devs'.get x).map geoDev = (devs.get x).map geoDev := by
  have h0 := load_restart (env := env) (F := F) (ds := [(dn, d, X)]) (by simpa using hW) (by simpa using ⟨h, ht⟩)
    (by simp [SMap.Sorted]) hdevs (by simpa using hn)
  have e0 : serDevices F [(dn, d, X)] = serDevice F dn d X := by simp [serDevices]
  have e1 : (replayAll env F [(dn, d, X)] devs).2 = (replay env F dn d X devs).2 := by
    simp only [replayAll]
    split <;> rfl
  rw [e0, e1] at h0
  have hg := geo_replay (F := F) (dn := dn) h ht hdevs
  dsimp only
  rw [h0.2.1]
  constructor
  · have h1 : (SMap.get (replay env F dn d X devs).2 dn).map geoDev = some (geoDev (skeleton env F d)) := by
      rw [← geo_get, hg, geo_get, SMap.get_put, if_pos rfl]
      rfl
    obtain ⟨d', hd', he⟩ := Option.map_eq_some_iff.1 h1
    have g1 : (geoDev d').dim = (geoDev (skeleton env F d)).dim := by rw [he]
    have g2 : (geoDev d').coords = (geoDev (skeleton env F d)).coords := by rw [he]
    have g3 : (geoDev d').contacts = (geoDev (skeleton env F d)).contacts := by rw [he]
    have g4 : (geoDev d').ifaces = (geoDev (skeleton env F d)).ifaces := by rw [he]
    refine ⟨d', hd', g1, g2, ?_, g3, g4⟩
    have h2 : (d'.regions.map fun e => (e.1, bare e.2)) = (skeleton env F d).regions.map fun e => (e.1, bare e.2) :=
      congrArg Dev.regions he
    rw [h2]
    simp only [skeleton, List.map_map]
    rfl
  · intro x hx
    rw [← geo_get, hg, geo_get, SMap.get_put, if_neg hx]

/-! ### The values of models -/

/-- The model of that name and kind, of a region of a device. -/
def modelAt (devs : Devs α) (dn rn : Text) (k : MK) (n : Text) : Option (Src α) :=
  (devs.get dn).bind fun d => (d.regions.get rn).bind fun r => (r.models k).get n

theorem putNew_get (m : SMap Text (Src α)) (n : Text) (v : Option (Src α)) (x : Text) :
    SMap.get (putNew m n v) x = (SMap.get m x).or (if x = n then v else none) := by
  unfold putNew
  by_cases hh : SMap.has m n = true
  · rw [if_pos hh]
    by_cases hx : x = n
    · subst hx
      rw [if_pos rfl]
      have : (SMap.get m x).isSome = true := by rw [SMap.get_isSome]; exact hh
      obtain ⟨w, hw⟩ := Option.isSome_iff_exists.1 this
      simp [hw]
    · simp [hx]
  · rw [if_neg hh]
    have hn : SMap.get m n = none := SMap.get_none_iff.2 (by simpa using hh)
    cases v with
    | none => simp
    | some v =>
      dsimp only
      rw [SMap.get_put]
      by_cases hx : x = n
      · subst hx; simp [hn]
      · simp [hx]

theorem restoreK_get (env : Env α) (F : Fmt α) (l : SMap Text (MSer α)) (hl : SMap.Sorted l) : ∀ (m : SMap Text (Src α)) (x : Text),
    SMap.get (restoreK env F m l) x = (SMap.get m x).or ((SMap.get l x).bind (fileSrc env F)) := by
  induction l with
  | nil => intro m x; simp [restoreK, SMap.get]
  | cons e l ih =>
    obtain ⟨n, v⟩ := e
    obtain ⟨h1, h2⟩ := List.pairwise_cons.mp hl
    intro m x
    have := ih h2 (putNew m n (fileSrc env F v)) x
    simp only [restoreK, List.foldl_cons] at this ⊢
    rw [this, putNew_get, SMap.get_cons, Option.or_assoc]
    by_cases hx : n = x
    · subst hx
      rw [SMap.get_none_of_lt h1]
      simp
    · rw [if_neg hx, if_neg (Ne.symm hx), Option.none_or]

theorem restoreReg_models (env : Env α) (F : Fmt α) (X : Extra α) (rn : Text) (r : Reg α) {k : MK} (hk : k ≠ .ifn) :
    (restoreReg env F X rn r).models k = restoreK env F (r.models k) (X.models rn k) := by
  cases k <;> first | exact absurd rfl hk | rfl

theorem SMap.get_mod {κ β : Type} [LinearOrder κ] (m : SMap κ β) (k : κ) (f : β → β) (x : κ) :
    SMap.get (SMap.mod m k f) x = (SMap.get m x).map fun v => if x = k then f v else v := by
  have e : SMap.mod m k f = m.map fun e => (e.1, (fun a b => if a = k then f b else b) e.1 e.2) := by
    unfold SMap.mod
    refine List.map_congr_left fun e _ => ?_
    by_cases h : e.1 = k <;> simp [h]
  rw [e, SMap.get_map (fun a b => if a = k then f b else b)]

section
variable {env : Env α} {F : Fmt α} {dn : Text} {d : Dev α} {X : Extra α}

theorem modelAt_runCmds {cs : List Cmd} {rn : Text} {k : MK} {n : Text}
    (h : ∀ c ∈ cs, ∀ devs, modelAt (env.run c.1 (cmdArgs c) devs).2 dn rn k n = modelAt devs dn rn k n) (st : Bool × Devs α) :
    modelAt (runCmds env cs st).2 dn rn k n = modelAt st.2 dn rn k n := by
  unfold runCmds
  induction cs generalizing st with
  | nil => rfl
  | cons c cs ih =>
    rw [List.foldl_cons, ih (fun x hx => h x (by simp [hx]))]
    exact h c (by simp) _

theorem modelAt_restore (hX : ∀ rn k, SMap.Sorted (X.models rn k)) {rn rn' : Text} {k : MK} (hk : k ≠ .ifn) {n : Text} (devs : Devs α)
    (hex : ∃ d' r', devs.get dn = some d' ∧ d'.regions.get rn = some r') :
    modelAt (SMap.mod devs dn fun d => { d with regions := SMap.mod d.regions rn' (restoreReg env F X rn') }) dn rn k n =
      (modelAt devs dn rn k n).or (if rn = rn' then ((X.models rn k).get n).bind (fileSrc env F) else none) := by
  obtain ⟨d', r', h1, h2⟩ := hex
  unfold modelAt
  rw [SMap.get_mod, h1]
  simp only [Option.map_some, if_true, Option.bind_some]
  rw [SMap.get_mod, h2]
  simp only [Option.map_some, Option.bind_some]
  by_cases hr : rn = rn'
  · subst hr
    rw [if_pos rfl, if_pos rfl, restoreReg_models _ _ _ _ _ hk, restoreK_get _ _ _ (hX _ _)]
  · rw [if_neg hr, if_neg hr, Option.or_none]

/-- **Stored values are read back**: a model that the file has as a number or as data, and that is not one of the
models that every region has, has these values after the load, as they were printed, unless a command
in the file changes it. -/
theorem replay_keeps (h : RestartOK env d X) (hX : ∀ rn k, SMap.Sorted (X.models rn k)) (ht : Tame env (fileCmds d X)) {devs : Devs α} (hdevs : SMap.Sorted devs)
    {e : Text × Reg α} (he : e ∈ d.regions) {k : MK} (hk : k ≠ .ifn) {n : Text} {s : MSer α} {v : Src α}
    (hs : (X.models e.1 k).get n = some s) (hv : fileSrc env F s = some v) (hb : n ∉ env.bnames e.2.dim k)
    (hc : ∀ c ∈ fileCmds d X, ∀ devs, modelAt (env.run c.1 (cmdArgs c) devs).2 dn e.1 k n = modelAt devs dn e.1 k n) :
    modelAt (replay env F dn d X devs).2 dn e.1 k n = some v := by
  have hex : ∀ st : Bool × Devs α, geo st.2 = geo (devs.put dn (skeleton env F d)) →
      ∃ d' r', st.2.get dn = some d' ∧ d'.regions.get e.1 = some r' := by
    intro st hg
    have h1 : (SMap.get st.2 dn).map geoDev = some (geoDev (skeleton env F d)) := by
      rw [← geo_get, hg, geo_get, SMap.get_put, if_pos rfl]
      rfl
    obtain ⟨d', hd', he'⟩ := Option.map_eq_some_iff.1 h1
    have h2 : (d'.regions.map fun e => (e.1, bare e.2)) = (skeleton env F d).regions.map fun e => (e.1, bare e.2) :=
      congrArg Dev.regions he'
    have h3 : (SMap.get d'.regions e.1).map bare = some (bare e.2) := by
      have h4 := SMap.get_map (fun _ r => bare r) d'.regions e.1
      rw [← h4, h2, SMap.get_map (fun _ r => bare r)]
      have h6 : SMap.get (skeleton env F d).regions e.1 = some ((bare e.2).defaults env) :=
        regions_get (env := env) (SMap.get_of_mem h.regions.2 he)
      rw [h6]
      rfl
    obtain ⟨r', hr', -⟩ := Option.map_eq_some_iff.1 h3
    exact ⟨d', r', hd', hr'⟩
  have hreg : ∀ x ∈ d.regions, ∀ c ∈ regCmds X x.1, c ∈ fileCmds d X := by
    intro x hx c hc
    simp only [fileCmds, List.mem_append, List.mem_flatMap]
    exact .inl (.inl ⟨x, hx, hc⟩)
  -- the regions, one after the other
  have key : ∀ (l : SMap Text (Reg α)), (∀ x ∈ l, x ∈ d.regions) → ∀ st : Bool × Devs α,
      geo st.2 = geo (devs.put dn (skeleton env F d)) →
      modelAt (l.foldl (fun st e => replayReg env F dn X st e.1) st).2 dn e.1 k n =
        (modelAt st.2 dn e.1 k n).or (if e.1 ∈ l.map Prod.fst then some v else none) := by
    intro l
    induction l with
    | nil => intro _ st _; simp
    | cons x l ih =>
      intro hl st hg
      have hx := hl x (by simp)
      rw [List.foldl_cons, ih (fun y hy => hl y (by simp [hy])) _
        (by rw [geo_replayReg (ht.sub (hreg x hx)), hg])]
      have h1 : modelAt (replayReg env F dn X st x.1).2 dn e.1 k n =
          (modelAt st.2 dn e.1 k n).or (if e.1 = x.1 then some v else none) := by
        unfold replayReg
        rw [modelAt_runCmds fun c hc' => hc c (hreg x hx c hc'), modelAt_restore hX hk _ (hex st hg), hs, Option.bind_some, hv]
      rw [h1, Option.or_assoc]
      congr 1
      by_cases hxe : e.1 = x.1
      · simp [hxe]
      · rw [if_neg hxe, Option.none_or, List.map_cons]
        simp only [List.mem_cons, hxe, false_or]
  have h0 : modelAt (devs.put dn (skeleton env F d)) dn e.1 k n = none := by
    unfold modelAt
    rw [SMap.get_put, if_pos rfl]
    have h6 : SMap.get (skeleton env F d).regions e.1 = some ((bare e.2).defaults env) :=
      regions_get (env := env) (SMap.get_of_mem h.regions.2 he)
    simp only [Option.bind_some]
    rw [h6, Option.bind_some]
    have h7 : ((bare e.2).defaults env).models k = builtins env e.2.dim k := by
      cases k <;> first | exact absurd rfl hk | rfl
    rw [h7, builtins, SMap.get_foldl_const, if_neg hb]
    rfl
  unfold replay
  rw [modelAt_runCmds fun c hc' => hc c (by simp only [fileCmds, List.mem_append]; exact .inr hc'),
    modelAt_runCmds fun c hc' => hc c (by simp only [fileCmds, List.mem_append]; exact .inl (.inr hc')),
    key d.regions (fun _ h => h) _ rfl, h0, Option.none_or, if_pos (List.mem_map_of_mem he)]

/-! ### Devices without commands -/

/-- How a model without a command is written. -/
def toSer : Src α → MSer α
  | .builtin => .builtin
  | .unif x => .unif x
  | .data l => .data l

/-- A model after it was written and read. -/
def repSrc (env : Env α) (F : Fmt α) : Src α → Src α
  | .builtin => .builtin
  | .unif x => .unif (rho env F x)
  | .data l => .data (l.map (rho env F))

/-- A device whose models are data, written with all of them. -/
structure PlainSer (env : Env α) (d : Dev α) (X : Extra α) : Prop where
  models : ∀ e ∈ d.regions, ∀ k, k ≠ .ifn → X.models e.1 k = (e.2.models k).map fun m => (m.1, toSer m.2)
  builtins : ∀ e ∈ d.regions, ∀ k, k ≠ .ifn → ∀ n, n ∈ env.bnames e.2.dim k ↔ (e.2.models k).get n = some .builtin
  cmds : fileCmds d X = []

/-- The region with every number as it was printed and read. -/
def plainReg (env : Env α) (F : Fmt α) (r : Reg α) : Reg α :=
  { r with nm := r.nm.map fun m => (m.1, repSrc env F m.2), em := r.em.map fun m => (m.1, repSrc env F m.2)
           tm := r.tm.map fun m => (m.1, repSrc env F m.2), um := r.um.map fun m => (m.1, repSrc env F m.2) }

/-- The device with every number as it was printed and read. -/
def plainDev (env : Env α) (F : Fmt α) (d : Dev α) : Dev α :=
  { dim := d.dim
    coords := d.coords.map fun c => (rho env F c.1, rho env F c.2.1, rho env F c.2.2)
    regions := d.regions.map fun e => (e.1, plainReg env F e.2)
    contacts := d.contacts
    ifaces := d.ifaces }

theorem restoreK_sorted {l : SMap Text (MSer α)} : ∀ {m : SMap Text (Src α)}, SMap.Sorted m → SMap.Sorted (restoreK env F m l) := by
  induction l with
  | nil => intro m h; exact h
  | cons e l ih =>
    intro m h
    refine ih (m := putNew m e.1 (fileSrc env F e.2)) ?_
    unfold putNew
    split
    · exact h
    · cases fileSrc env F e.2 with
      | none => exact h
      | some v => exact SMap.put_sorted h _ _

theorem restoreReg_plain (h : RestartOK env d X) (hp : PlainSer env d X) {e : Text × Reg α} (he : e ∈ d.regions) :
    restoreReg env F X e.1 ((bare e.2).defaults env) = plainReg env F e.2 := by
  refine reg_ext rfl fun k hk => ?_
  rw [restoreReg_models _ _ _ _ _ hk]
  have h7 : ((bare e.2).defaults env).models k = Verif.MeshIO.builtins env e.2.dim k := by
    cases k <;> first | exact absurd rfl hk | rfl
  have h8 : (plainReg env F e.2).models k = (e.2.models k).map fun m => (m.1, repSrc env F m.2) := by
    cases k <;> first | exact absurd rfl hk | rfl
  have hsrt : SMap.Sorted (e.2.models k) := by
    refine sorted_keys ?_ (h.models e he k)
    rw [hp.models e he k hk, List.map_map]
    rfl
  rw [h7, h8]
  refine SMap.ext (restoreK_sorted (SMap.sorted_foldl_const _ _ List.Pairwise.nil))
    (SMap.sorted_map (fun _ v => repSrc env F v) hsrt) fun x => ?_
  rw [restoreK_get _ _ _ (h.models e he k), SMap.get_map (fun _ v => repSrc env F v), hp.models e he k hk,
    SMap.get_map (fun _ v => toSer v), Verif.MeshIO.builtins, SMap.get_foldl_const]
  have hb := hp.builtins e he k hk x
  by_cases hx : x ∈ env.bnames e.2.dim k
  · rw [if_pos hx, hb.1 hx]; rfl
  · rw [if_neg hx]
    have hne : (e.2.models k).get x ≠ some .builtin := fun hc => hx (hb.2 hc)
    cases hg : (e.2.models k).get x with
    | none => simp [SMap.get]
    | some v =>
      cases v with
      | builtin => exact absurd hg hne
      | unif y => simp [SMap.get, toSer, fileSrc, repSrc]
      | data l => simp [SMap.get, toSer, fileSrc, repSrc]

theorem foldl_mod (f : Text → Reg α → Reg α) (g : Text → Reg α → Reg α) : ∀ (l done : SMap Text (Reg α)), SMap.Sorted (done ++ l) →
    l.foldl (fun m e => SMap.mod m e.1 (f e.1)) ((done.map fun e => (e.1, f e.1 (g e.1 e.2))) ++ l.map fun e => (e.1, g e.1 e.2)) =
      (done ++ l).map fun e => (e.1, f e.1 (g e.1 e.2))
  | [], done, _ => by simp
  | e :: l, done, hs => by
    have hsrt : SMap.Sorted ((done.map fun e => (e.1, f e.1 (g e.1 e.2))) ++ (e.1, g e.1 e.2) :: l.map fun e => (e.1, g e.1 e.2)) :=
      sorted_keys (b := done ++ e :: l) (by simp [Function.comp_def]) hs
    have h1 := SMap.mod_mid hsrt (f e.1)
    simp only [List.map_cons, List.foldl_cons]
    rw [h1]
    have := foldl_mod f g l (done ++ [e]) (by simpa using hs)
    simpa using this

theorem replay_plain (h : RestartOK env d X) (hp : PlainSer env d X) {devs : Devs α} (hdevs : SMap.Sorted devs) :
    replay env F dn d X devs = (true, devs.put dn (plainDev env F d)) := by
  have hc := hp.cmds
  simp only [fileCmds, List.append_eq_nil_iff] at hc
  obtain ⟨⟨c1, c2⟩, c3⟩ := hc
  have hr : ∀ e ∈ d.regions, regCmds X e.1 = [] := by
    rw [List.flatMap_eq_nil_iff] at c1; exact c1
  have key : ∀ (l : SMap Text (Reg α)), (∀ x ∈ l, x ∈ d.regions) → ∀ dv : Dev α,
      l.foldl (fun st e => replayReg env F dn X st e.1) (true, devs.put dn dv) =
        (true, devs.put dn { dv with regions := l.foldl (fun m e => SMap.mod m e.1 (restoreReg env F X e.1)) dv.regions }) := by
    intro l
    induction l with
    | nil => intro _ dv; rfl
    | cons x l ih =>
      intro hl dv
      simp only [List.foldl_cons]
      have h1 : replayReg env F dn X (true, devs.put dn dv) x.1 =
          (true, devs.put dn { dv with regions := SMap.mod dv.regions x.1 (restoreReg env F X x.1) }) := by
        unfold replayReg
        rw [hr x (hl x (by simp)), SMap.mod_put hdevs]
        rfl
      rw [h1, ih fun y hy => hl y (by simp [hy])]
  unfold replay
  rw [c2, c3, key d.regions (fun _ h => h)]
  have e1 : d.regions.foldl (fun m e => SMap.mod m e.1 (restoreReg env F X e.1)) (skeleton env F d).regions =
      (plainDev env F d).regions := by
    have := foldl_mod (fun n => restoreReg env F X n) (fun _ r => (bare r).defaults env) d.regions [] (by simpa using h.regions.2)
    simp only [List.map_nil, List.nil_append] at this
    refine this.trans ?_
    refine List.map_congr_left fun e he => ?_
    rw [restoreReg_plain h hp he]
  rw [e1]
  rfl

/-- **A device whose models are data comes back**: all its models on nodes, edges, triangle edges and
tetrahedron edges have the values that they had, as they were printed. -/
theorem load_restart_plain (hW : SerWritable F dn d X)
    (h : RestartOK env d X) (hp : PlainSer env d X) {ms : List Text} {devs : Devs α} (hdevs : SMap.Sorted devs)
    (hn : devs.has dn = false ∧ dn ∉ ms) :
    (load env (sIdle ms devs) [] (serDevice F dn d X)).1 = .ok ∧
    (load env (sIdle ms devs) [] (serDevice F dn d X)).2.1.devs = devs.put dn (plainDev env F d) := by
  have ht : Tame env (fileCmds d X) := by rw [hp.cmds]; intro c hc; simp at hc
  have h0 := load_restart (env := env) (F := F) (ds := [(dn, d, X)]) (by simpa using hW) (by simpa using ⟨h, ht⟩)
    (by simp [SMap.Sorted]) hdevs (by simpa using hn)
  have e0 : serDevices F [(dn, d, X)] = serDevice F dn d X := by simp [serDevices]
  have e1 : replayAll env F [(dn, d, X)] devs = (true, devs.put dn (plainDev env F d)) := by
    simp only [replayAll, replay_plain h hp hdevs, if_true]
  rw [e0, e1] at h0
  exact ⟨h0.1, h0.2.1⟩

/-- **Printing all digits makes it exact**: when reading a printed number gives the number, the device is
the one that was written. -/
theorem plainDev_exact (h : ∀ x, rho env F x = x) : plainDev env F d = d := by
  have hr : ∀ v : Src α, repSrc env F v = v := by
    intro v
    cases v with
    | builtin => rfl
    | unif x => simp [repSrc, h]
    | data l => simp only [repSrc]; rw [show rho env F = id from funext h, List.map_id]
  have hm : ∀ m : SMap Text (Src α), (m.map fun m => (m.1, repSrc env F m.2)) = m := by
    intro m; simp [hr]
  have hR : ∀ r : Reg α, plainReg env F r = r := by
    intro r; simp only [plainReg, hm]
  obtain ⟨dim, coords, regions, contacts, ifaces⟩ := d
  simp [plainDev, h, hR]

end

end Verif.MeshIO
