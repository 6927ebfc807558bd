import Verif.MeshIO.RestartWrite

/-!
# Reading the tokens of a restart file
-/

namespace Verif.MeshIO

variable {α : Type}

/-! ### What the file describes -/

/-- The arguments of a command that is read. -/
def cmdArgs (c : Cmd) : List (Text × Val α) := c.2.map fun a => (a.1, .str a.2)

/-- The solution that a model is read as. -/
def mser (env : Env α) (F : Fmt α) (k : MK) : MSer α → Sol α
  | .builtin => { kind := k, dt := .builtin }
  | .parent p => { kind := k, dt := .parent, parent := p }
  | .unif x => { kind := k, dt := .unif, uval := some (env.atof (F.fmt x)) }
  | .data l => { kind := k, dt := .data, vals := l.map fun x => env.atof (F.fmt x) }
  | .cmd c => { kind := k, dt := .command, cmd := c.1, args := cmdArgs c }

/-- The equation that a command is read as. -/
def meqn (c : Cmd) : Eqn α := { cmd := c.1, args := cmdArgs c }

/-- Models put one after the other. -/
def putSers (env : Env α) (F : Fmt α) (k : MK) (m : SMap Text (Sol α)) (l : SMap Text (MSer α)) : SMap Text (Sol α) :=
  l.foldl (fun m e => m.put e.1 (mser env F k e.2)) m

/-- All models of a region. -/
def rsols (env : Env α) (F : Fmt α) (X : Extra α) (rn : Text) : SMap Text (Sol α) :=
  putSers env F .tet (putSers env F .tri (putSers env F .edge (putSers env F .node [] (X.models rn .node))
    (X.models rn .edge)) (X.models rn .tri)) (X.models rn .tet)

/-- All equations of a region, contact or interface. -/
def meqns (l : SMap Text Cmd) : SMap Text (Eqn α) := l.map fun e => (e.1, meqn e.2)

/-- The region that the file describes. -/
def rmreg (env : Env α) (F : Fmt α) (X : Extra α) (dim : Nat) (rn : Text) (r : Reg α) : MReg α :=
  { material := r.material, nodes := r.nodes
    edges := if dim = 1 then r.edges else []
    tris := if dim = 2 then r.tris else []
    tets := if dim = 3 then r.tets else []
    sols := rsols env F X rn
    eqns := meqns (X.reqns rn) }

/-- The contact that the file describes. -/
def rmcon (X : Extra α) (dim : Nat) (n : Text) (c : Con) : MCon α :=
  { region := c.region, material := c.material
    elems := { material := []
               nodes := if dim = 1 then c.nodes else []
               edges := if dim = 2 then c.edges else []
               tris := if dim = 3 then c.tris else [] }
    eqns := meqns (X.ceqns n) }

/-- The pairs of elements that are written for an interface. -/
def pairsOf (a b : List (List Nat)) : List (List Nat × List Nat) := if a.length = b.length then a.zip b else []

/-- The interface that the file describes. -/
def rmifc (env : Env α) (F : Fmt α) (X : Extra α) (dim : Nat) (n : Text) (i : Ifc) : MIfc α :=
  let byNodes : Bool := dim = 1 ∨ X.provided n = false
  let es := if byNodes = false ∧ dim = 2 then pairsOf i.edges0 i.edges1 else []
  let ts := if byNodes = false ∧ dim = 3 then pairsOf i.tris0 i.tris1 else []
  { region0 := i.region0, region1 := i.region1
    pairs := if byNodes then i.nodes0.zip i.nodes1 else []
    elems0 := { material := [], edges := es.map Prod.fst, tris := ts.map Prod.fst }
    elems1 := { material := [], edges := es.map Prod.snd, tris := ts.map Prod.snd }
    sols := (X.imodels n).map fun e => (e.1, mser env F .ifn (.cmd e.2))
    eqns := meqns (X.ieqns n) }

/-- The mesh that the file describes. -/
def rmloader (env : Env α) (F : Fmt α) (dn : Text) (d : Dev α) (X : Extra α) : Loader α :=
  { name := dn
    coords := d.coords.map fun c => (env.atof (F.fmt c.1), env.atof (F.fmt c.2.1), env.atof (F.fmt c.2.2))
    regions := d.regions.map fun e => (e.1, rmreg env F X d.dim e.1 e.2)
    contacts := d.contacts.map fun e => (e.1, rmcon X d.dim e.1 e.2)
    ifaces := d.ifaces.map fun e => (e.1, rmifc env F X d.dim e.1 e.2) }

/-! ### Sections that are closed by the next keyword -/

def MK.owner : MK → Owner
  | .ifn => .iface
  | _ => .region

/-- Between the sections of a region, contact or interface. -/
inductive InO (o : Owner) : Ctx α → Prop
  | base : InO o o.ctx
  | elems {e : Elem} (h : e.owner = o) : InO o (.elems e [])
  | model {k : MK} (h : k.owner = o) : InO o (.model k .idle)
  | eqn : InO o (.eqn o .idle)

/-- The keywords that may follow. -/
def Owner.next : Owner → List Kw
  | .region => [.begNodeModel, .begEdgeModel, .begTriModel, .begTetModel, .begREq, .endRegion]
  | .contact => [.begCEq, .endContact]
  | .iface => [.begIfModel, .begIfEq, .endIface]

theorem step_inO (env : Env α) (s : Sess α) {o : Owner} {c : Ctx α} (h : InO o c) {k : Kw} (hk : k ∈ o.next) :
    step env s c (.kw k) = step env s o.ctx (.kw k) := by
  cases h with
  | base => rfl
  | @elems e h =>
    cases e <;> simp only [Elem.owner] at h <;> subst h <;>
      simp only [Owner.next, List.mem_cons, List.not_mem_nil, or_false] at hk <;>
      (first
        | (rcases hk with rfl | rfl | rfl | rfl | rfl | rfl)
        | (rcases hk with rfl | rfl | rfl)
        | (rcases hk with rfl | rfl)) <;> rfl
  | @model k' h =>
    cases k' <;> simp only [MK.owner] at h <;> subst h <;>
      simp only [Owner.next, List.mem_cons, List.not_mem_nil, or_false] at hk <;>
      (first
        | (rcases hk with rfl | rfl | rfl | rfl | rfl | rfl)
        | (rcases hk with rfl | rfl | rfl)) <;> rfl
  | eqn =>
    cases o <;>
      simp only [Owner.next, List.mem_cons, List.not_mem_nil, or_false] at hk <;>
      (first
        | (rcases hk with rfl | rfl | rfl | rfl | rfl | rfl)
        | (rcases hk with rfl | rfl | rfl)
        | (rcases hk with rfl | rfl)) <;> rfl

/-! ### Models and equations -/

section
variable (env : Env α)

theorem steps_margs (s : Sess α) (k : MK) (nm : Text) (as : List (Text × Text)) : ∀ v : Sol α,
    steps env (.model k .cmd) { s with sol := some (nm, v) } (as.flatMap fun a => [Tok.opt a.1, Tok.word a.2]) =
      some (.model k .cmd, { s with sol := some (nm, { v with args := v.args ++ as.map fun a => (a.1, .str a.2) }) }) := by
  induction as with
  | nil => intro v; simp [steps]
  | cons a as ih =>
    intro v
    have h1 : steps env (.model k .cmd) { s with sol := some (nm, v) } [Tok.opt a.1, Tok.word a.2] =
      some (.model k .cmd, { s with sol := some (nm, { v with args := v.args ++ [(a.1, .str a.2)] }) }) := rfl
    rw [List.flatMap_cons, steps_append env h1, ih]
    simp

theorem steps_eargs (s : Sess α) (o : Owner) (nm : Text) (as : List (Text × Text)) : ∀ v : Eqn α,
    steps env (.eqn o .cmd) { s with eqn := some (nm, v) } (as.flatMap fun a => [Tok.opt a.1, Tok.word a.2]) =
      some (.eqn o .cmd, { s with eqn := some (nm, { v with args := v.args ++ as.map fun a => (a.1, .str a.2) }) }) := by
  induction as with
  | nil => intro v; simp [steps]
  | cons a as ih =>
    intro v
    have h1 : steps env (.eqn o .cmd) { s with eqn := some (nm, v) } [Tok.opt a.1, Tok.word a.2] =
      some (.eqn o .cmd, { s with eqn := some (nm, { v with args := v.args ++ [(a.1, .str a.2)] }) }) := rfl
    rw [List.flatMap_cons, steps_append env h1, ih]
    simp

/-- The text of a model, after its header. -/
theorem steps_ser (F : Fmt α) (s : Sess α) (k : MK) (nm : Text) (m : MSer α) (hk : k = .ifn → ∃ c, m = .cmd c) :
    ∃ u, (u = .idle ∨ u = .data ∨ u = .eol) ∧
    steps env (.model k .idle) { s with sol := some (nm, { kind := k }) } (serToks F m) =
      some (.model k u, { s with sol := some (nm, mser env F k m) }) := by
  cases m with
  | builtin =>
    refine ⟨.idle, .inl rfl, ?_⟩
    cases k <;> first | rfl | (obtain ⟨c, hc⟩ := hk rfl; exact absurd hc (by simp))
  | parent p =>
    refine ⟨.idle, .inl rfl, ?_⟩
    cases k <;> first | rfl | (obtain ⟨c, hc⟩ := hk rfl; exact absurd hc (by simp))
  | unif x =>
    refine ⟨.idle, .inl rfl, ?_⟩
    cases k <;> first | rfl | (obtain ⟨c, hc⟩ := hk rfl; exact absurd hc (by simp))
  | data l =>
    refine ⟨.data, .inr (.inl rfl), ?_⟩
    have hk' : k ≠ .ifn := by rintro rfl; obtain ⟨c, hc⟩ := hk rfl; exact absurd hc (by simp)
    have h1 : step env { s with sol := some (nm, { kind := k }) } (.model k .idle) (.kw .data) =
        .ok (.model k .data) { s with sol := some (nm, { kind := k, dt := .data }) } := by
      cases k <;> first | rfl | exact absurd rfl hk'
    have h3 : ∀ (vals : List α) (v : Sol α),
        steps env (.model k .data) { s with sol := some (nm, v) } (vals.map fun x => Tok.float (F.fmt x)) =
        some (.model k .data, { s with sol := some (nm, { v with vals := v.vals ++ vals.map fun x => env.atof (F.fmt x) }) }) := by
      intro vals
      induction vals with
      | nil => intro v; simp [steps]
      | cons x xs ih =>
        intro v
        have : step env { s with sol := some (nm, v) } (.model k .data) (.float (F.fmt x)) =
          .ok (.model k .data) { s with sol := some (nm, { v with vals := v.vals ++ [env.atof (F.fmt x)] }) } := by rfl
        simp only [List.map_cons, steps, this, ih]
        simp
    simp only [serToks, steps, h1]
    rw [h3]
    simp [mser]
  | cmd c =>
    refine ⟨.eol, .inr (.inr rfl), ?_⟩
    have h1 : steps env (.model k .idle) { s with sol := some (nm, { kind := k }) } [.command, .word c.1] =
      some (.model k .cmd, { s with sol := some (nm, { kind := k, dt := .command, cmd := c.1 }) }) := by
      cases k <;> rfl
    have e : serToks F (.cmd c) = [.command, .word c.1] ++ ((c.2.flatMap fun a => [Tok.opt a.1, Tok.word a.2]) ++ [.eol]) := by
      simp [serToks, cmdToks]
    rw [e, steps_append env h1, steps_append env (steps_margs env s k nm c.2 _)]
    rfl

/-- The text of an equation, after its header. -/
theorem steps_eqn (s : Sess α) (o : Owner) (nm : Text) (c : Cmd) :
    steps env (.eqn o .idle) { s with eqn := some (nm, {}) } (cmdToks c) =
      some (.eqn o .eol, { s with eqn := some (nm, meqn c) }) := by
  have h1 : steps env (.eqn o .idle) { s with eqn := some (nm, {}) } [.command, .word c.1] =
      some (.eqn o .cmd, { s with eqn := some (nm, { cmd := c.1 }) }) := by
    cases o <;> rfl
  have e : cmdToks c = [.command, .word c.1] ++ ((c.2.flatMap fun a => [Tok.opt a.1, Tok.word a.2]) ++ [.eol]) := by
    simp [cmdToks]
  rw [e, steps_append env h1, steps_append env (steps_eargs env s o nm c.2 _)]
  rfl

variable (L : Loader α) (n : Text) (ms : List Text) (ds : Devs α)

/-- One model of a region. -/
theorem steps_rmodel (F : Fmt α) (k : MK) (hk : k.owner = .region) (nm : Text) (m : MSer α) (r : MReg α)
    (hn : r.sols.has nm = false) {c : Ctx α} (h : InO .region c) :
    steps env c (sReg L n r ms ds) ([.kw k.beg, .word nm] ++ (serToks F m ++ [.kw k.fin])) =
      some (.model k .idle, sReg L n { r with sols := r.sols.put nm (mser env F k m) } ms ds) := by
  have hk' : k ≠ .ifn := by rintro rfl; simp [MK.owner] at hk
  have h1 : step env (sReg L n r ms ds) c (.kw k.beg) = .ok (.hdr k.beg []) (sReg L n r ms ds) := by
    rw [step_inO env _ h (by cases k <;> first | exact absurd rfl hk' | decide)]
    cases k <;> first | exact absurd rfl hk' | rfl
  have h2 : step env (sReg L n r ms ds) (.hdr k.beg []) (.word nm) =
      .ok (.model k .idle) { sReg L n r ms ds with sol := some (nm, { kind := k }) } := by
    cases k <;> first | exact absurd rfl hk' | simp [step, stepN, accept, Kw.words, MK.beg, openSec, newSol, sReg, hn]
  have h12 : steps env c (sReg L n r ms ds) [.kw k.beg, .word nm] =
      some (.model k .idle, { sReg L n r ms ds with sol := some (nm, { kind := k }) }) := by
    simp only [steps, h1, h2]
  obtain ⟨u, hu, h3⟩ := steps_ser env F (sReg L n r ms ds) k nm m fun h => absurd h hk'
  rw [steps_append env h12, steps_append env h3]
  rcases hu with rfl | rfl | rfl <;> cases k <;> first | exact absurd rfl hk' | rfl

/-- One model of an interface. -/
theorem steps_imodel (F : Fmt α) (nm : Text) (x : Cmd) (r : MIfc α)
    (hn : r.sols.has nm = false) {c : Ctx α} (h : InO .iface c) :
    steps env c (sIfc L n r ms ds) ([.kw .begIfModel, .word nm] ++ (serToks F (.cmd x) ++ [.kw .endIfModel])) =
      some (.model .ifn .idle, sIfc L n { r with sols := r.sols.put nm (mser env F .ifn (.cmd x)) } ms ds) := by
  have h1 : step env (sIfc L n r ms ds) c (.kw .begIfModel) = .ok (.hdr .begIfModel []) (sIfc L n r ms ds) := by
    rw [step_inO env _ h (by decide)]
    rfl
  have h2 : step env (sIfc L n r ms ds) (.hdr .begIfModel []) (.word nm) =
      .ok (.model .ifn .idle) { sIfc L n r ms ds with sol := some (nm, { kind := .ifn }) } := by
    simp [step, stepN, accept, Kw.words, openSec, newSol, sIfc, hn]
  have h12 : steps env c (sIfc L n r ms ds) [.kw .begIfModel, .word nm] =
      some (.model .ifn .idle, { sIfc L n r ms ds with sol := some (nm, { kind := .ifn }) }) := by
    simp only [steps, h1, h2]
  obtain ⟨u, hu, h3⟩ := steps_ser env F (sIfc L n r ms ds) .ifn nm (.cmd x) fun _ => ⟨x, rfl⟩
  rw [steps_append env h12, steps_append env h3]
  rcases hu with rfl | rfl | rfl <;> rfl

theorem steps_rmodels (F : Fmt α) (k : MK) (hk : k.owner = .region) (l : SMap Text (MSer α)) (hl : (l.map Prod.fst).Nodup) :
    ∀ (r : MReg α), (∀ e ∈ l, r.sols.has e.1 = false) → ∀ {c : Ctx α}, InO .region c →
    ∃ c', InO .region c' ∧ steps env c (sReg L n r ms ds) (serModelToks F k l) =
      some (c', sReg L n { r with sols := putSers env F k r.sols l } ms ds) := by
  induction l with
  | nil => intro r _ c h; exact ⟨c, h, rfl⟩
  | cons m l ih =>
    intro r hr c h
    have h1 := steps_rmodel env L n ms ds F k hk m.1 m.2 r (hr m (by simp)) h
    simp only [List.map_cons, List.nodup_cons] at hl
    obtain ⟨c', hc', h2⟩ := ih hl.2 { r with sols := r.sols.put m.1 (mser env F k m.2) }
      (fun e he => has_put (fun h => hl.1 (by rw [h]; exact List.mem_map_of_mem he)) (hr e (by simp [he])))
      (c := .model k .idle) (.model hk)
    refine ⟨c', hc', ?_⟩
    have e1 : serModelToks F k (m :: l) = ([.kw k.beg, .word m.1] ++ (serToks F m.2 ++ [.kw k.fin])) ++ serModelToks F k l := by
      rw [serModelToks, List.flatMap_cons]; rfl
    rw [e1, steps_append env h1, h2]
    rfl

/-- Sections, one for each entry of a map, that append to a map. -/
theorem steps_maps {β γ : Type} (o : Owner) (S : SMap Text γ → Sess α) (toks : Text → β → List Tok) (g : β → γ)
    (cx : Ctx α) (hcx : InO o cx) (m : SMap Text β) (hm : SMap.Sorted m)
    (hstep : ∀ e ∈ m, ∀ (a : SMap Text γ) (c : Ctx α), InO o c → a.has e.1 = false →
      steps env c (S a) (toks e.1 e.2) = some (cx, S (a.put e.1 (g e.2)))) :
    ∀ {c : Ctx α}, InO o c → ∃ c', InO o c' ∧ steps env c (S []) (m.flatMap fun e => toks e.1 e.2) =
      some (c', S (m.map fun e => (e.1, g e.2))) := by
  have key : ∀ (m : SMap Text β) (a : SMap Text γ), SMap.Sorted m → (∀ x ∈ a, ∀ e ∈ m, x.1 < e.1) →
      (∀ e ∈ m, ∀ (a : SMap Text γ) (c : Ctx α), InO o c → a.has e.1 = false →
        steps env c (S a) (toks e.1 e.2) = some (cx, S (a.put e.1 (g e.2)))) →
      ∀ {c : Ctx α}, InO o c → ∃ c', InO o c' ∧ steps env c (S a) (m.flatMap fun e => toks e.1 e.2) =
        some (c', S (a ++ m.map fun e => (e.1, g e.2))) := by
    intro m
    induction m with
    | nil => intro a _ _ _ c hc; exact ⟨c, hc, by simp [steps]⟩
    | cons e m ih =>
      intro a hm ha hst c hc
      have hm' := List.pairwise_cons.1 hm
      have hlt : ∀ x ∈ a, x.1 < e.1 := fun x hx => ha x hx e (by simp)
      have h1 := hst e (by simp) a c hc (SMap.has_false_of_lt hlt)
      rw [SMap.put_last hlt] at h1
      obtain ⟨c', hc', h2⟩ := ih (a ++ [(e.1, g e.2)]) hm'.2
        (by
          intro x hx y hy
          rcases List.mem_append.1 hx with hx | hx
          · exact ha x hx y (by simp [hy])
          · simp only [List.mem_singleton] at hx
            subst hx
            exact hm'.1 y hy)
        (fun x hx => hst x (by simp [hx])) hcx
      refine ⟨c', hc', ?_⟩
      simp only [List.flatMap_cons]
      rw [steps_append env h1, h2]
      simp
  intro c hc
  simpa using key m [] hm (by simp) hstep hc

theorem steps_reqn (nm : Text) (x : Cmd) (r : MReg α) (hn : r.eqns.has nm = false) {c : Ctx α} (h : InO .region c) :
    steps env c (sReg L n r ms ds) ([.kw .begREq, .word nm] ++ (cmdToks x ++ [.kw .endREq])) =
      some (.eqn .region .idle, sReg L n { r with eqns := r.eqns.put nm (meqn x) } ms ds) := by
  have h1 : step env (sReg L n r ms ds) c (.kw .begREq) = .ok (.hdr .begREq []) (sReg L n r ms ds) := by
    rw [step_inO env _ h (by decide)]
    rfl
  have h2 : step env (sReg L n r ms ds) (.hdr .begREq []) (.word nm) =
      .ok (.eqn .region .idle) { sReg L n r ms ds with eqn := some (nm, {}) } := by
    simp [step, stepN, accept, Kw.words, openSec, newEqn, sReg, hn]
  have h12 : steps env c (sReg L n r ms ds) [.kw .begREq, .word nm] =
      some (.eqn .region .idle, { sReg L n r ms ds with eqn := some (nm, {}) }) := by
    simp only [steps, h1, h2]
  rw [steps_append env h12, steps_append env (steps_eqn env (sReg L n r ms ds) .region nm x)]
  rfl

theorem steps_ceqn (nm : Text) (x : Cmd) (r : MCon α) (hn : r.eqns.has nm = false) {c : Ctx α} (h : InO .contact c) :
    steps env c (sCon L n r ms ds) ([.kw .begCEq, .word nm] ++ (cmdToks x ++ [.kw .endCEq])) =
      some (.eqn .contact .idle, sCon L n { r with eqns := r.eqns.put nm (meqn x) } ms ds) := by
  have h1 : step env (sCon L n r ms ds) c (.kw .begCEq) = .ok (.hdr .begCEq []) (sCon L n r ms ds) := by
    rw [step_inO env _ h (by decide)]
    rfl
  have h2 : step env (sCon L n r ms ds) (.hdr .begCEq []) (.word nm) =
      .ok (.eqn .contact .idle) { sCon L n r ms ds with eqn := some (nm, {}) } := by
    simp [step, stepN, accept, Kw.words, openSec, newEqn, sCon, hn]
  have h12 : steps env c (sCon L n r ms ds) [.kw .begCEq, .word nm] =
      some (.eqn .contact .idle, { sCon L n r ms ds with eqn := some (nm, {}) }) := by
    simp only [steps, h1, h2]
  rw [steps_append env h12, steps_append env (steps_eqn env (sCon L n r ms ds) .contact nm x)]
  rfl

theorem steps_ieqn (nm : Text) (x : Cmd) (r : MIfc α) (hn : r.eqns.has nm = false) {c : Ctx α} (h : InO .iface c) :
    steps env c (sIfc L n r ms ds) ([.kw .begIfEq, .word nm] ++ (cmdToks x ++ [.kw .endIfEq])) =
      some (.eqn .iface .idle, sIfc L n { r with eqns := r.eqns.put nm (meqn x) } ms ds) := by
  have h1 : step env (sIfc L n r ms ds) c (.kw .begIfEq) = .ok (.hdr .begIfEq []) (sIfc L n r ms ds) := by
    rw [step_inO env _ h (by decide)]
    rfl
  have h2 : step env (sIfc L n r ms ds) (.hdr .begIfEq []) (.word nm) =
      .ok (.eqn .iface .idle) { sIfc L n r ms ds with eqn := some (nm, {}) } := by
    simp [step, stepN, accept, Kw.words, openSec, newEqn, sIfc, hn]
  have h12 : steps env c (sIfc L n r ms ds) [.kw .begIfEq, .word nm] =
      some (.eqn .iface .idle, { sIfc L n r ms ds with eqn := some (nm, {}) }) := by
    simp only [steps, h1, h2]
  rw [steps_append env h12, steps_append env (steps_eqn env (sIfc L n r ms ds) .iface nm x)]
  rfl

/-! ### Elements of contacts and interfaces -/

theorem steps_cedges (ls : List (List Nat)) (hls : ∀ l ∈ ls, l.length = 2 ∧ l.Pairwise (· < ·)) (r : MCon α)
    (hr : r.elems.edges = []) :
    steps env .contact (sCon L n r ms ds) (elemToks .begEdge .endEdge ls) =
      some (.elems .cedge [], sCon L n { r with elems := { r.elems with edges := ls } } ms ds) := by
  rw [steps_elems env (fun r => sCon L n r ms ds) .begEdge .endEdge .cedge
    (fun r x => { r with elems := { r.elems with edges := r.elems.edges ++ [x] } }) _ (fun l hl => (hls l hl).1) _ r _ rfl]
  · have : ∀ (l : List (List Nat)) (r : MCon α),
        l.foldl (fun (r : MCon α) x => { r with elems := { r.elems with edges := r.elems.edges ++ [x] } }) r =
          { r with elems := { r.elems with edges := r.elems.edges ++ l } } := by
      intro l
      induction l with
      | nil => intro r; simp
      | cons a l ih => intro r; simp only [List.foldl_cons, ih]; simp
    rw [this, hr, List.nil_append]
  · intro b l hl
    obtain ⟨h1, h2⟩ := hls l hl
    match l, h1, h2 with
    | [a, b], _, h2 =>
      simp only [addElem, mkElem_of_lt h2]; rfl
  · simp [step, stepN, accept, Ctx.opens, openElems, openElems.go, sCon, hr]

theorem steps_ctris (ls : List (List Nat)) (hls : ∀ l ∈ ls, l.length = 3 ∧ l.Pairwise (· < ·)) (r : MCon α)
    (hr : r.elems.tris = []) :
    steps env .contact (sCon L n r ms ds) (elemToks .begTri .endTri ls) =
      some (.elems .ctri [], sCon L n { r with elems := { r.elems with tris := ls } } ms ds) := by
  rw [steps_elems env (fun r => sCon L n r ms ds) .begTri .endTri .ctri
    (fun r x => { r with elems := { r.elems with tris := r.elems.tris ++ [x] } }) _ (fun l hl => (hls l hl).1) _ r _ rfl]
  · have : ∀ (l : List (List Nat)) (r : MCon α),
        l.foldl (fun (r : MCon α) x => { r with elems := { r.elems with tris := r.elems.tris ++ [x] } }) r =
          { r with elems := { r.elems with tris := r.elems.tris ++ l } } := by
      intro l
      induction l with
      | nil => intro r; simp
      | cons a l ih => intro r; simp only [List.foldl_cons, ih]; simp
    rw [this, hr, List.nil_append]
  · intro b l hl
    obtain ⟨h1, h2⟩ := hls l hl
    match l, h1, h2 with
    | [a, b, c], _, h2 =>
      simp only [addElem, mkElem_of_lt h2]; rfl
  · simp [step, stepN, accept, Ctx.opens, openElems, openElems.go, sCon, hr]

theorem steps_iedges (ls : List (List Nat × List Nat)) (hls : ∀ l ∈ ls, (l.1.length = 2 ∧ l.1.Pairwise (· < ·)) ∧
      l.2.length = 2 ∧ l.2.Pairwise (· < ·)) (r : MIfc α)
    (hr : r.elems0.edges = []) (hr1 : r.elems1.edges = []) :
    steps env .iface (sIfc L n r ms ds) (elemToks .begEdge .endEdge (ls.map fun p => p.1 ++ p.2)) =
      some (.elems .iedge [], sIfc L n { r with elems0 := { r.elems0 with edges := ls.map Prod.fst },
                                                elems1 := { r.elems1 with edges := ls.map Prod.snd } } ms ds) := by
  rw [steps_elems env (fun r => sIfc L n r ms ds) .begEdge .endEdge .iedge
    (fun r x => { r with elems0 := { r.elems0 with edges := r.elems0.edges ++ [x.take 2] },
                         elems1 := { r.elems1 with edges := r.elems1.edges ++ [x.drop 2] } }) _ _ _ r _ rfl]
  · have : ∀ (l : List (List Nat × List Nat)), (∀ p ∈ l, p.1.length = 2) → ∀ (r : MIfc α),
        (l.map fun p => p.1 ++ p.2).foldl (fun (r : MIfc α) x =>
          { r with elems0 := { r.elems0 with edges := r.elems0.edges ++ [x.take 2] },
                   elems1 := { r.elems1 with edges := r.elems1.edges ++ [x.drop 2] } }) r =
          { r with elems0 := { r.elems0 with edges := r.elems0.edges ++ l.map Prod.fst },
                   elems1 := { r.elems1 with edges := r.elems1.edges ++ l.map Prod.snd } } := by
      intro l
      induction l with
      | nil => intro _ r; simp
      | cons a l ih =>
        intro h r
        simp only [List.map_cons, List.foldl_cons]
        rw [ih fun p hp => h p (by simp [hp]), ← h a (by simp), List.take_left, List.drop_left]
        simp
    rw [this ls fun p hp => (hls p hp).1.1, hr, hr1, List.nil_append, List.nil_append]
  · intro l hl
    obtain ⟨p, hp, rfl⟩ := List.mem_map.1 hl
    simp [(hls p hp).1.1, (hls p hp).2.1, Elem.arity]
  · intro b l hl
    obtain ⟨p, hp, rfl⟩ := List.mem_map.1 hl
    obtain ⟨⟨h1, h2⟩, h3, h4⟩ := hls p hp
    obtain ⟨p, q⟩ := p
    match p, q, h1, h2, h3, h4 with
    | [a, b], [c, d], _, h2, _, h4 =>
      have : ([a, b] ++ [c, d] : List Nat) = [a, b, c, d] := rfl
      simp only [this, addElem, mkElem_of_lt h2, mkElem_of_lt h4]; rfl
  · simp [step, stepN, accept, Ctx.opens, openElems, openElems.go, sIfc, hr]

theorem steps_itris (ls : List (List Nat × List Nat)) (hls : ∀ l ∈ ls, (l.1.length = 3 ∧ l.1.Pairwise (· < ·)) ∧
      l.2.length = 3 ∧ l.2.Pairwise (· < ·)) (r : MIfc α)
    (hr : r.elems0.tris = []) (hr1 : r.elems1.tris = []) :
    steps env .iface (sIfc L n r ms ds) (elemToks .begTri .endTri (ls.map fun p => p.1 ++ p.2)) =
      some (.elems .itri [], sIfc L n { r with elems0 := { r.elems0 with tris := ls.map Prod.fst },
                                               elems1 := { r.elems1 with tris := ls.map Prod.snd } } ms ds) := by
  rw [steps_elems env (fun r => sIfc L n r ms ds) .begTri .endTri .itri
    (fun r x => { r with elems0 := { r.elems0 with tris := r.elems0.tris ++ [x.take 3] },
                         elems1 := { r.elems1 with tris := r.elems1.tris ++ [x.drop 3] } }) _ _ _ r _ rfl]
  · have : ∀ (l : List (List Nat × List Nat)), (∀ p ∈ l, p.1.length = 3) → ∀ (r : MIfc α),
        (l.map fun p => p.1 ++ p.2).foldl (fun (r : MIfc α) x =>
          { r with elems0 := { r.elems0 with tris := r.elems0.tris ++ [x.take 3] },
                   elems1 := { r.elems1 with tris := r.elems1.tris ++ [x.drop 3] } }) r =
          { r with elems0 := { r.elems0 with tris := r.elems0.tris ++ l.map Prod.fst },
                   elems1 := { r.elems1 with tris := r.elems1.tris ++ l.map Prod.snd } } := by
      intro l
      induction l with
      | nil => intro _ r; simp
      | cons a l ih =>
        intro h r
        simp only [List.map_cons, List.foldl_cons]
        rw [ih fun p hp => h p (by simp [hp]), ← h a (by simp), List.take_left, List.drop_left]
        simp
    rw [this ls fun p hp => (hls p hp).1.1, hr, hr1, List.nil_append, List.nil_append]
  · intro l hl
    obtain ⟨p, hp, rfl⟩ := List.mem_map.1 hl
    simp [(hls p hp).1.1, (hls p hp).2.1, Elem.arity]
  · intro b l hl
    obtain ⟨p, hp, rfl⟩ := List.mem_map.1 hl
    obtain ⟨⟨h1, h2⟩, h3, h4⟩ := hls p hp
    obtain ⟨p, q⟩ := p
    match p, q, h1, h2, h3, h4 with
    | [a, b, c], [d, e, f], _, h2, _, h4 =>
      have : ([a, b, c] ++ [d, e, f] : List Nat) = [a, b, c, d, e, f] := rfl
      simp only [this, addElem, mkElem_of_lt h2, mkElem_of_lt h4]; rfl
  · simp [step, stepN, accept, Ctx.opens, openElems, openElems.go, sIfc, hr]

end

end Verif.MeshIO
