import Verif.MeshIO.RestartGeom

/-!
# What `load_devices` does with the models and equations of a restart file
-/

namespace Verif.MeshIO

variable {α : Type}

/-! ### The specification: restore the data, then run the commands -/

/-- The values that the file has for a model, before commands are run: the numbers that were written; `0`
for a model that a command or another model sets. -/
def fileSrc (env : Env α) (F : Fmt α) : MSer α → Option (Src α)
  | .builtin => none
  | .parent _ => some (.unif env.zero)
  | .unif x => some (.unif (rho env F x))
  | .data l => some (.data (l.map (rho env F)))
  | .cmd _ => some (.unif env.zero)

/-- Add a model unless there is one of this name. -/
def putNew (m : SMap Text (Src α)) (n : Text) (v : Option (Src α)) : SMap Text (Src α) :=
  if m.has n then m else match v with
    | none => m
    | some v => m.put n v

/-- The models of one kind: those that are there, and those of the file. -/
def restoreK (env : Env α) (F : Fmt α) (m : SMap Text (Src α)) (l : SMap Text (MSer α)) : SMap Text (Src α) :=
  l.foldl (fun m e => putNew m e.1 (fileSrc env F e.2)) m

/-- The models of a region are restored. -/
def restoreReg (env : Env α) (F : Fmt α) (X : Extra α) (rn : Text) (r : Reg α) : Reg α :=
  { r with nm := restoreK env F r.nm (X.models rn .node), em := restoreK env F r.em (X.models rn .edge),
           tm := restoreK env F r.tm (X.models rn .tri), um := restoreK env F r.um (X.models rn .tet) }

/-- The models of a region, of all kinds, in the order of their names. -/
def merged (X : Extra α) (rn : Text) : SMap Text (MSer α) :=
  (X.models rn .node ++ X.models rn .edge ++ X.models rn .tri ++ X.models rn .tet).foldl (fun m e => m.put e.1 e.2) []

def MSer.cmd? : MSer α → Option Cmd
  | .cmd c => some c
  | _ => none

/-- The commands of a region: those of its models in the order of their names, and of its equations. -/
def regCmds (X : Extra α) (rn : Text) : List Cmd :=
  (merged X rn).filterMap (fun e => e.2.cmd?) ++ (X.reqns rn).map Prod.snd

/-- The commands of an interface. -/
def ifcCmds (X : Extra α) (n : Text) : List Cmd := (X.imodels n).map Prod.snd ++ (X.ieqns n).map Prod.snd

/-- The commands of a contact. -/
def conCmds (X : Extra α) (n : Text) : List Cmd := (X.ceqns n).map Prod.snd

/-- All commands in the file of a device. -/
def fileCmds (d : Dev α) (X : Extra α) : List Cmd :=
  (d.regions.flatMap fun e => regCmds X e.1) ++ (d.ifaces.flatMap fun e => ifcCmds X e.1) ++
    (d.contacts.flatMap fun e => conCmds X e.1)

/-- Commands, one after the other; the result is that of the last one. -/
def runCmds (env : Env α) (cs : List Cmd) (st : Bool × Devs α) : Bool × Devs α :=
  cs.foldl (fun st c => env.run c.1 (cmdArgs c) st.2) st

/-- The device before its models are restored. -/
def skeleton (env : Env α) (F : Fmt α) (d : Dev α) : Dev α :=
  { dim := d.dim
    coords := d.coords.map fun c => (rho env F c.1, rho env F c.2.1, rho env F c.2.2)
    regions := d.regions.map fun e => (e.1, (bare e.2).defaults env)
    contacts := d.contacts
    ifaces := d.ifaces }

/-- One region: its models are restored, then its commands are run. -/
def replayReg (env : Env α) (F : Fmt α) (dn : Text) (X : Extra α) (st : Bool × Devs α) (rn : Text) : Bool × Devs α :=
  runCmds env (regCmds X rn)
    (st.1, SMap.mod st.2 dn fun d => { d with regions := SMap.mod d.regions rn (restoreReg env F X rn) })

/-- The whole device: its regions, then the commands of its interfaces, then those of its contacts. -/
def replay (env : Env α) (F : Fmt α) (dn : Text) (d : Dev α) (X : Extra α) (devs : Devs α) : Bool × Devs α :=
  runCmds env (d.contacts.flatMap fun e => conCmds X e.1)
    (runCmds env (d.ifaces.flatMap fun e => ifcCmds X e.1)
      (d.regions.foldl (fun st e => replayReg env F dn X st e.1) (true, devs.put dn (skeleton env F d))))

/-! ### Solutions of a region -/

/-- The values of a solution. -/
def solSrc2 (env : Env α) (s : Sol α) : Option (Src α) :=
  match s.dt with
  | .builtin => none
  | .unif => some (.unif (s.uval.getD env.zero))
  | .data => some (.data s.vals)
  | _ => some (.unif env.zero)

theorem solSrc2_mser (env : Env α) (F : Fmt α) (k : MK) (m : MSer α) : solSrc2 env (mser env F k m) = fileSrc env F m := by
  cases m <;> rfl

/-- The solution has a value for every node, edge, ... -/
def SolOK (r : Reg α) (s : Sol α) : Prop := s.kind ≠ .ifn ∧ (s.dt = .data → s.vals.length = r.size s.kind)

def Reg.setModels (r : Reg α) (k : MK) (m : SMap Text (Src α)) : Reg α :=
  match k with
  | .node => { r with nm := m }
  | .edge => { r with em := m }
  | .tri => { r with tm := m }
  | .tet => { r with um := m }
  | .ifn => r

theorem addSol_spec (env : Env α) (r : Reg α) (n : Text) (s : Sol α) (h : SolOK r s) :
    addSol env r n s = (true, r.setModels s.kind (putNew (r.models s.kind) n (solSrc2 env s))) := by
  obtain ⟨k, dt, vals, uval, parent, cmd, args⟩ := s
  obtain ⟨h1, h2⟩ := h
  simp only at h1 h2
  unfold addSol putNew
  by_cases hh : (r.models k).has n = true
  · dsimp only
    rw [if_pos hh, if_pos hh]
    cases k <;> rfl
  · dsimp only
    rw [if_neg hh, if_neg hh]
    cases dt with
    | data =>
      simp only [h2 rfl, if_true, solSrc2]
      cases k <;> first | exact absurd rfl h1 | rfl
    | _ => cases k <;> first | exact absurd rfl h1 | rfl

theorem models_setModels (r : Reg α) (k k' : MK) (m : SMap Text (Src α)) (hk : k ≠ .ifn) :
    (r.setModels k m).models k' = if k' = k then m else r.models k' := by
  cases k <;> cases k' <;> first | exact absurd rfl hk | rfl

theorem size_setModels (r : Reg α) (k k' : MK) (m : SMap Text (Src α)) : (r.setModels k m).size k' = r.size k' := by
  cases k <;> cases k' <;> rfl

theorem bare_setModels (r : Reg α) (k : MK) (m : SMap Text (Src α)) : bare (r.setModels k m) = bare r := by
  cases k <;> rfl

theorem reg_ext {r r' : Reg α} (h : bare r = bare r') (hm : ∀ k, k ≠ .ifn → r.models k = r'.models k) : r = r' := by
  obtain ⟨a1, a2, a3, a4, a5, a6, a7, a8, a9, a10⟩ := r
  obtain ⟨b1, b2, b3, b4, b5, b6, b7, b8, b9, b10⟩ := r'
  have h1 := hm .node (by decide)
  have h2 := hm .edge (by decide)
  have h3 := hm .tri (by decide)
  have h4 := hm .tet (by decide)
  simp only [Reg.models] at h1 h2 h3 h4
  simp only [bare, Reg.mk.injEq, and_true] at h
  obtain ⟨rfl, rfl, rfl, rfl, rfl, rfl⟩ := h
  rw [h1, h2, h3, h4]

theorem addSols_all (env : Env α) (l : SMap Text (Sol α)) : ∀ (r : Reg α), (∀ e ∈ l, SolOK r e.2) →
    ∃ r', addSols env r l = (true, r') ∧ bare r' = bare r ∧ ∀ k, k ≠ .ifn →
      r'.models k = (l.filter fun e => e.2.kind = k).foldl (fun m e => putNew m e.1 (solSrc2 env e.2)) (r.models k) := by
  induction l with
  | nil => intro r _; exact ⟨r, rfl, rfl, fun _ _ => rfl⟩
  | cons e l ih =>
    obtain ⟨n, s⟩ := e
    intro r h
    have hs := h (n, s) (by simp)
    have h1 := addSol_spec env r n s hs
    obtain ⟨r', h2, h3, h4⟩ := ih (r.setModels s.kind (putNew (r.models s.kind) n (solSrc2 env s)))
      (fun e he => ⟨(h e (by simp [he])).1, by rw [size_setModels]; exact (h e (by simp [he])).2⟩)
    refine ⟨r', ?_, by rw [h3, bare_setModels], ?_⟩
    · simp only [addSols, h1, h2, Bool.and_self]
    · intro k hk
      rw [h4 k hk, models_setModels _ _ _ _ hs.1, List.filter_cons]
      by_cases hkk : k = s.kind
      · subst hkk
        simp
      · simp [hkk, Ne.symm hkk]

/-! ### The solutions that the file has -/

theorem putSers_sorted (env : Env α) (F : Fmt α) (k : MK) (l : SMap Text (MSer α)) {m : SMap Text (Sol α)}
    (h : SMap.Sorted m) : SMap.Sorted (putSers env F k m l) := by
  induction l generalizing m with
  | nil => exact h
  | cons e l ih => exact ih (SMap.put_sorted h _ _)

theorem putSers_get (env : Env α) (F : Fmt α) (k : MK) (l : SMap Text (MSer α)) (hl : SMap.Sorted l)
    (m : SMap Text (Sol α)) (x : Text) :
    SMap.get (putSers env F k m l) x = ((SMap.get l x).map (mser env F k)).or (SMap.get m x) := by
  induction l generalizing m with
  | nil => simp [putSers, SMap.get]
  | cons e l ih =>
    obtain ⟨n, v⟩ := e
    obtain ⟨h1, h2⟩ := List.pairwise_cons.mp hl
    have := ih h2 (SMap.put m n (mser env F k v))
    simp only [putSers, List.foldl_cons] at this ⊢
    rw [this, SMap.get_cons, SMap.get_put]
    by_cases hx : n = x
    · subst hx
      rw [SMap.get_none_of_lt h1]
      simp
    · rw [if_neg hx, if_neg (Ne.symm hx)]

theorem SMap.get_filter {κ β : Type} [LinearOrder κ] {m : SMap κ β} (hm : SMap.Sorted m) (p : β → Bool) (x : κ) :
    SMap.get (m.filter fun e => p e.2) x = (SMap.get m x).filter p := by
  induction m with
  | nil => rfl
  | cons e m ih =>
    obtain ⟨n, v⟩ := e
    obtain ⟨h1, h2⟩ := List.pairwise_cons.mp hm
    rw [List.filter_cons, SMap.get_cons]
    by_cases hx : n = x
    · subst hx
      rw [if_pos rfl]
      by_cases hp : p v = true
      · simp [hp, SMap.get_cons, Option.filter]
      · have hp' : p v = false := by simpa using hp
        have : SMap.get m n = none := SMap.get_none_of_lt h1
        simp only [hp', Bool.false_eq_true, if_false]
        rw [ih h2, this]
        simp [Option.filter, hp']
    · rw [if_neg hx]
      split
      · rw [SMap.get_cons, if_neg hx, ih h2]
      · exact ih h2

section
variable (env : Env α) (F : Fmt α) (X : Extra α) (rn : Text)

theorem rsols_sorted : SMap.Sorted (rsols env F X rn) :=
  putSers_sorted _ _ _ _ (putSers_sorted _ _ _ _ (putSers_sorted _ _ _ _ (putSers_sorted _ _ _ _ List.Pairwise.nil)))

theorem rsols_get (hm : ∀ k, SMap.Sorted (X.models rn k)) (x : Text) : SMap.get (rsols env F X rn) x =
    ((SMap.get (X.models rn .tet) x).map (mser env F .tet)).or (((SMap.get (X.models rn .tri) x).map (mser env F .tri)).or
    (((SMap.get (X.models rn .edge) x).map (mser env F .edge)).or ((SMap.get (X.models rn .node) x).map (mser env F .node)))) := by
  unfold rsols
  rw [putSers_get _ _ _ _ (hm _), putSers_get _ _ _ _ (hm _), putSers_get _ _ _ _ (hm _), putSers_get _ _ _ _ (hm _)]
  simp [SMap.get]

theorem mser_kind (k : MK) (m : MSer α) : (mser env F k m).kind = k := by cases m <;> rfl

theorem rsols_filter (hm : ∀ k, SMap.Sorted (X.models rn k))
    (hd : ∀ k k', k ≠ k' → ∀ x, (X.models rn k).has x = true → (X.models rn k').has x = false) {k : MK} (hk : k ≠ .ifn) :
    (rsols env F X rn).filter (fun e => e.2.kind = k) = (X.models rn k).map fun e => (e.1, mser env F k e.2) := by
  have hs := rsols_sorted env F X rn
  refine SMap.ext (List.Pairwise.sublist (List.filter_sublist ..) hs) (SMap.sorted_map (fun _ v => mser env F k v) (hm k)) fun x => ?_
  have h1 := SMap.get_filter hs (fun s : Sol α => decide (s.kind = k)) x
  rw [h1, SMap.get_map (fun _ v => mser env F k v), rsols_get env F X rn hm]
  have hn : ∀ k k' v, k ≠ k' → SMap.get (X.models rn k) x = some v → SMap.get (X.models rn k') x = none := by
    intro k k' v h h'
    exact SMap.get_none_iff.2 (hd k k' h x (by rw [← SMap.get_isSome, h']; rfl))
  have key : ∀ k', k' ≠ .ifn → ∀ v, SMap.get (X.models rn k') x = some v →
      Option.filter (fun s : Sol α => decide (s.kind = k)) (some (mser env F k' v)) =
        (SMap.get (X.models rn k) x).map (mser env F k) := by
    intro k' _ v hv
    by_cases hkk : k' = k
    · subst hkk; simp [Option.filter, mser_kind, hv]
    · rw [hn k' k v hkk hv]; simp [Option.filter, mser_kind, hkk]
  cases e1 : SMap.get (X.models rn .tet) x with
  | some v => simpa using key .tet (by decide) v e1
  | none =>
    cases e2 : SMap.get (X.models rn .tri) x with
    | some v => simpa using key .tri (by decide) v e2
    | none =>
      cases e3 : SMap.get (X.models rn .edge) x with
      | some v => simpa using key .edge (by decide) v e3
      | none =>
        cases e4 : SMap.get (X.models rn .node) x with
        | some v => simpa using key .node (by decide) v e4
        | none =>
          have : SMap.get (X.models rn k) x = none := by
            cases k <;> first | assumption | exact absurd rfl hk
          simp [this]

/-- The data in the file have the sizes of the region. -/
def DataOK (r : Reg α) : Prop := ∀ k, k ≠ .ifn → ∀ e ∈ X.models rn k, ∀ l, e.2 = .data l → l.length = r.size k

theorem rsols_ok (hm : ∀ k, SMap.Sorted (X.models rn k)) {r : Reg α} (hr : DataOK X rn r) :
    ∀ e ∈ rsols env F X rn, SolOK r e.2 := by
  intro e he
  have h1 := SMap.get_of_mem (rsols_sorted env F X rn) he
  rw [rsols_get env F X rn hm] at h1
  have key : ∀ k, k ≠ .ifn → ∀ v, SMap.get (X.models rn k) e.1 = some v → mser env F k v = e.2 → SolOK r e.2 := by
    intro k hk v hv hv'
    rw [← hv']
    refine ⟨by rw [mser_kind]; exact hk, fun hd => ?_⟩
    rw [mser_kind]
    cases v with
    | data l =>
      have := hr k hk _ (SMap.mem_of_get hv) l rfl
      simpa [mser] using this
    | _ => simp [mser] at hd
  cases e1 : SMap.get (X.models rn .tet) e.1 with
  | some v => rw [e1] at h1; exact key .tet (by decide) v e1 (by simpa using h1)
  | none =>
    cases e2 : SMap.get (X.models rn .tri) e.1 with
    | some v => rw [e1, e2] at h1; exact key .tri (by decide) v e2 (by simpa using h1)
    | none =>
      cases e3 : SMap.get (X.models rn .edge) e.1 with
      | some v => rw [e1, e2, e3] at h1; exact key .edge (by decide) v e3 (by simpa using h1)
      | none =>
        cases e4 : SMap.get (X.models rn .node) e.1 with
        | some v => rw [e1, e2, e3, e4] at h1; exact key .node (by decide) v e4 (by simpa using h1)
        | none => rw [e1, e2, e3, e4] at h1; simp at h1

theorem bare_restoreReg (r : Reg α) : bare (restoreReg env F X rn r) = bare r := rfl

/-- The models of the region are restored. -/
theorem addSols_rsols (hm : ∀ k, SMap.Sorted (X.models rn k))
    (hd : ∀ k k', k ≠ k' → ∀ x, (X.models rn k).has x = true → (X.models rn k').has x = false) {r : Reg α}
    (hr : DataOK X rn r) : addSols env r (rsols env F X rn) = (true, restoreReg env F X rn r) := by
  obtain ⟨r', h1, h2, h3⟩ := addSols_all env (rsols env F X rn) r (rsols_ok env F X rn hm hr)
  rw [h1]
  congr 1
  refine reg_ext (by rw [h2]; rfl) fun k hk => ?_
  rw [h3 k hk, rsols_filter env F X rn hm hd hk, List.foldl_map]
  simp only [solSrc2_mser]
  cases k <;> first | exact absurd rfl hk | rfl

/-! ### The commands -/

theorem SMap.map_put {κ β γ : Type} [LinearOrder κ] (f : β → γ) (m : SMap κ β) (k : κ) (v : β) :
    (SMap.put m k v).map (fun e => (e.1, f e.2)) = SMap.put (m.map fun e => (e.1, f e.2)) k (f v) := by
  induction m with
  | nil => rfl
  | cons e m ih =>
    obtain ⟨k', v'⟩ := e
    simp only [SMap.put, List.map_cons]
    split_ifs
    · simp
    · simp
    · simp [ih]

def solCmd? (s : Sol α) : Option (Text × List (Text × Val α)) := if s.dt = .command then some (s.cmd, s.args) else none

theorem solCmds_eq (s : SMap Text (Sol α)) : solCmds s = (s.map fun e => (e.1, solCmd? e.2)).filterMap Prod.snd := by
  unfold solCmds solCmd?
  induction s with
  | nil => rfl
  | cons e s ih =>
    simp only [List.filter_cons, List.map_cons, List.filterMap_cons]
    by_cases h : e.2.dt = .command
    · simp [h, ih]
    · simp [h, ih]

theorem solCmd_mser (k : MK) (m : MSer α) : solCmd? (mser env F k m) = m.cmd?.map fun c => (c.1, cmdArgs c) := by
  cases m <;> rfl

theorem putSers_cmds (k : MK) (l : SMap Text (MSer α)) : ∀ (m : SMap Text (Sol α)) (m' : SMap Text (MSer α)),
    (m.map fun e => (e.1, solCmd? e.2)) = (m'.map fun e => (e.1, e.2.cmd?.map fun c => (c.1, (cmdArgs c : List (Text × Val α))))) →
    ((putSers env F k m l).map fun e => (e.1, solCmd? e.2)) =
      ((l.foldl (fun m e => SMap.put m e.1 e.2) m').map fun e => (e.1, e.2.cmd?.map fun c => (c.1, cmdArgs c))) := by
  induction l with
  | nil => intro m m' h; exact h
  | cons e l ih =>
    intro m m' h
    refine ih _ _ ?_
    rw [SMap.map_put solCmd?, SMap.map_put (fun v : MSer α => v.cmd?.map fun c => (c.1, (cmdArgs c : List (Text × Val α)))), h,
      solCmd_mser]

theorem solCmds_rsols : solCmds (rsols env F X rn) =
    ((merged X rn).filterMap fun e => e.2.cmd?).map fun c => (c.1, cmdArgs c) := by
  have h : ((rsols env F X rn).map fun e => (e.1, solCmd? e.2)) =
      ((merged X rn).map fun e => (e.1, e.2.cmd?.map fun c => (c.1, (cmdArgs c : List (Text × Val α))))) := by
    unfold rsols merged
    rw [List.foldl_append, List.foldl_append, List.foldl_append]
    exact putSers_cmds env F _ _ _ _ (putSers_cmds env F _ _ _ _ (putSers_cmds env F _ _ _ _ (putSers_cmds env F _ _ _ _ rfl)))
  rw [solCmds_eq, h, List.filterMap_map, List.map_filterMap]
  rfl

theorem runAll_eq (cs : List Cmd) (st : Bool × Devs α) :
    runAll env (cs.map fun c => (c.1, cmdArgs c)) st = runCmds env cs st := by
  unfold runCmds
  induction cs generalizing st with
  | nil => rfl
  | cons c cs ih => simp only [List.map_cons, runAll, List.foldl_cons]; exact ih _

theorem eqnCmds_meqns (l : SMap Text Cmd) :
    eqnCmds (meqns l : SMap Text (Eqn α)) = (l.map Prod.snd).map fun c => (c.1, cmdArgs c) := by
  simp [eqnCmds, meqns, meqn, Function.comp_def]

theorem regCmds_eq : solCmds (rsols env F X rn) ++ eqnCmds (meqns (X.reqns rn)) =
    (regCmds X rn).map fun c => (c.1, cmdArgs c) := by
  rw [solCmds_rsols, eqnCmds_meqns, regCmds, List.map_append]

end

end Verif.MeshIO
