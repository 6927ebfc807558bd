import Verif.MeshIO.RestartFacts
import Verif.MeshIO.Example

/-!
# A device whose restart file is read back

Two triangles with an interface of one edge, two contacts of one edge; data on nodes and edges; then the same
with a command for a model, an equation, a contact equation and an interface equation.
-/

namespace Verif.MeshIO.Example

def rdev : Dev Bool :=
  { dev with
    contacts := [(t "gate", { region := t "oxide", material := t "metal", nodes := [1, 2], edges := [[1, 2]] }),
                 (t "top", { region := t "bulk", material := t "metal", nodes := [0, 1], edges := [[0, 1]] })]
    ifaces := [(t "int", { region0 := t "bulk", region1 := t "oxide", nodes0 := [1, 2], nodes1 := [0, 1]
                           edges0 := [[1, 2]], edges1 := [[0, 1]] })] }

/-- All models as data. -/
def X : Extra Bool where
  models _ k := match k with
    | .node => [(t "NodeVolume", .builtin), (t "Potential", .data [false, true, true])]
    | .edge => [(t "Current", .unif true), (t "EdgeLength", .builtin)]
    | .tri => [(t "ElementEdgeCouple", .builtin)]
    | _ => []

theorem rregions_mem {e : Text × Reg Bool} (h : e ∈ rdev.regions) :
    e = (t "bulk", reg (t "Si") [0, 1, 2]) ∨ e = (t "oxide", reg (t "SiO2") [1, 2, 3]) := regions_mem h

theorem rcontacts_mem {e : Text × Con} (h : e ∈ rdev.contacts) :
    e = (t "gate", { region := t "oxide", material := t "metal", nodes := [1, 2], edges := [[1, 2]] }) ∨
    e = (t "top", { region := t "bulk", material := t "metal", nodes := [0, 1], edges := [[0, 1]] }) := by
  simpa [rdev] using h

theorem facesTri : FacesOf 2 [[0, 1, 2]] [[0, 1], [0, 2], [1, 2]] := by
  refine ⟨by decide, fun e => ?_⟩
  simp only [List.mem_singleton, exists_eq_left]
  have h := faces3 (a := 0) (b := 1) (c := 2) (by decide) e
  rwa [show [mkElem [0, 1], mkElem [0, 2], mkElem [1, 2]] = [[0, 1], [0, 2], [1, 2]] by
    rw [mkElem_of_lt (by decide), mkElem_of_lt (by decide), mkElem_of_lt (by decide)]] at h

theorem topoOK (m : Text) (ns : List Nat) (h1 : ns.length = 3) (h2 : ∀ i ∈ ns, i < 4) :
    TopoOK env rdev.coords.length 2 (reg m ns) where
  hdim := rfl
  nodes := ⟨by rintro h; rw [show ns = [] from h] at h1; simp at h1, by simp [reg, h1, rdev, dev], h2⟩
  edges := (regOK m ns h1 h2).edges
  tris := by
    refine ⟨by simp [reg], ?_⟩
    simp [reg, IsElem, h1]
  tets := by simp [reg]
  top := .inr (.inl ⟨rfl, by simp [reg], rfl, facesTri⟩)
  topo := rfl

/-- One edge and its two nodes. -/
theorem skin {r : Reg Bool} {a b : Nat} (hab : a < b) (h : [a, b] ∈ r.edges) : SkinOK 2 r [a, b] [[a, b]] [] :=
  .inr (.inl ⟨rfl, rfl, by simpa using h, by simpa using hab, by simp⟩)

theorem restartOK : RestartOK env rdev X where
  coords := by simp [rdev, dev]
  regions := ⟨by simp [rdev, dev], by simp only [SMap.Sorted, rdev, dev]; decide⟩
  topo := fun e he => by
    rcases rregions_mem he with rfl | rfl
    · exact topoOK _ _ rfl (by decide)
    · exact topoOK _ _ rfl (by decide)
  models := fun e _ k => by cases k <;> simp only [SMap.Sorted, X] <;> decide
  disjoint := fun e _ k k' hk x hx => by
    cases k <;> cases k' <;> first
      | exact absurd rfl hk
      | rfl
      | (simp only [X, SMap.has, List.any_cons, List.any_nil, Bool.or_false, Bool.or_eq_true, decide_eq_true_eq] at hx ⊢
         first
          | (rcases hx with rfl | rfl <;> decide)
          | (subst hx; decide)
          | (exact absurd hx (by decide)))
  data := fun e he k hk m hm l hl => by
    rcases rregions_mem he with rfl | rfl <;> cases k <;>
      simp only [X, List.mem_cons, List.not_mem_nil, or_false] at hm <;>
      first
        | (rcases hm with rfl | rfl <;> first | (cases hl; rfl) | (exact absurd hl (by simp)))
        | (subst hm; exact absurd hl (by simp))
        | exact hm.elim
  reqns := fun _ _ => List.Pairwise.nil
  contacts := by simp only [SMap.Sorted, rdev]; decide
  con := fun e he => by
    rcases rcontacts_mem he with rfl | rfl
    · exact ⟨reg (t "SiO2") [1, 2, 3], rfl, skin (by decide) (by simp [reg])⟩
    · exact ⟨reg (t "Si") [0, 1, 2], rfl, skin (by decide) (by simp [reg])⟩
  ceqns := fun _ _ => List.Pairwise.nil
  ifaces := by simp [SMap.Sorted, rdev]
  ifc := fun e he => by
    have : e = _ := List.mem_singleton.1 he
    subst this
    refine ⟨reg (t "Si") [0, 1, 2], reg (t "SiO2") [1, 2, 3], rfl, rfl, ?_⟩
    rw [if_neg (by simp [rdev, dev, X])]
    exact ⟨skin (by decide) (by simp [reg]), skin (by decide) (by simp [reg]), fun _ => rfl, fun _ => rfl⟩
  imodels := fun _ _ => List.Pairwise.nil
  ieqns := fun _ _ => List.Pairwise.nil

theorem xmodels_ok (rn : Text) (k : MK) : ∀ m ∈ X.models rn k, '"' ∉ m.1 ∧ SerOK F m.2 := by
  intro m hm
  cases k <;> simp only [X, List.mem_cons, List.not_mem_nil, or_false] at hm <;>
    first
      | (rcases hm with rfl | rfl <;> refine ⟨by decide, ?_⟩ <;> first | trivial | exact fun _ _ => sci _ | exact sci _)
      | (subst hm; exact ⟨by decide, trivial⟩)
      | exact hm.elim

theorem serWritable : SerWritable F (t "mos") rdev X where
  name := by decide
  coords := fun _ _ => ⟨sci _, sci _, sci _⟩
  rnames := fun e he => by rcases rregions_mem he with rfl | rfl <;> decide
  elems := fun e he => by rcases rregions_mem he with rfl | rfl <;> decide
  models := fun e _ k => xmodels_ok e.1 k
  reqns := fun _ _ m hm => by simp [X] at hm
  cnames := fun e he => by rcases rcontacts_mem he with rfl | rfl <;> decide
  celems := fun e he => by rcases rcontacts_mem he with rfl | rfl <;> decide
  ceqns := fun _ _ m hm => by simp [X] at hm
  inames := fun e he => by
    have : e = _ := List.mem_singleton.1 he
    subst this; decide
  ielems := fun e he => by
    have : e = _ := List.mem_singleton.1 he
    subst this; decide
  imodels := fun _ _ m hm => by simp [X] at hm
  ieqns := fun _ _ m hm => by simp [X] at hm

theorem plainX : MeshIO.PlainSer env rdev X where
  models := fun e he k hk => by
    rcases rregions_mem he with rfl | rfl <;> cases k <;> first | rfl | exact absurd rfl hk
  builtins := fun e he k hk n => by
    rcases rregions_mem he with rfl | rfl <;> cases k <;> first
      | exact absurd rfl hk
      | (simp only [env, reg, Reg.models, SMap.get, List.mem_singleton, List.not_mem_nil]
         simp only [List.find?_cons, List.find?_nil]
         first
          | (by_cases h1 : n = t "NodeVolume"
             · subst h1; simp
             · by_cases h2 : n = t "Potential"
               · subst h2; simp [t]
               · simp [h1, h2, Ne.symm h1, Ne.symm h2])
          | (by_cases h1 : n = t "EdgeLength"
             · subst h1; simp [t]
             · by_cases h2 : n = t "Current"
               · subst h2; simp [t]
               · simp [h1, h2, Ne.symm h1, Ne.symm h2])
          | (by_cases h1 : n = t "ElementEdgeCouple"
             · subst h1; simp
             · simp [h1, Ne.symm h1])
          | simp)
  cmds := by
    have h : ∀ rn, regCmds X rn = [] := by
      intro rn
      unfold regCmds merged
      simp only [X]
      decide
    have h2 : ∀ n, ifcCmds X n = [] := fun _ => rfl
    have h3 : ∀ n, conCmds X n = [] := fun _ => rfl
    simp [fileCmds, h, h2, h3]

/-- The restart file of this device gives it back, with its data. -/
theorem example_restart : (load env {} [] (serDevice F (t "mos") rdev X)).1 = .ok ∧
    (load env {} [] (serDevice F (t "mos") rdev X)).2.1.devs = [(t "mos", rdev)] := by
  have h := load_restart_plain (env := env) (F := F) serWritable restartOK plainX (ms := []) (devs := [])
    List.Pairwise.nil (by simp [SMap.has])
  rw [plainDev_exact rho_id] at h
  have e : SMap.put ([] : Devs Bool) (t "mos") rdev = [(t "mos", rdev)] := rfl
  have e2 : ({} : Sess Bool) = sIdle [] [] := rfl
  rw [e] at h
  rw [e2]
  exact h

/-! ### The same device with commands -/

/-- `node_model`, `equation`, `contact_equation`, `interface_equation`; the node model has the command that makes it. -/
def mcmd : Cmd := (t "node_model", [(t "device", t "mos"), (t "region", t "bulk"), (t "name", t "Rho"), (t "equation", t "-Potential")])

def ecmd : Cmd := (t "equation", [(t "device", t "mos"), (t "region", t "bulk"), (t "name", t "Poisson")])

def XC : Extra Bool where
  models rn k := match k with
    | .node => X.models rn .node ++ [(t "Rho", .cmd mcmd)]
    | k => X.models rn k
  reqns _ := [(t "Poisson", ecmd)]

/-- `node_model` stores `1` on every node of the region of this device, `equation` does nothing. -/
def envC : Env Bool :=
  { env with run := fun c _ ds => (true, if c = t "node_model" then
      SMap.mod ds (t "mos") fun d => { d with regions := SMap.mod d.regions (t "bulk") fun r =>
        { r with nm := r.nm.put (t "Rho") (.unif true) } }
      else ds) }

theorem xcmodels_ok (rn : Text) (k : MK) : ∀ m ∈ XC.models rn k, '"' ∉ m.1 ∧ SerOK F m.2 := by
  intro m hm
  have hc : CmdOK mcmd := ⟨⟨_, _, rfl, by decide, by decide⟩, fun a ha => by
    simp only [mcmd, List.mem_cons, List.not_mem_nil, or_false] at ha
    rcases ha with rfl | rfl | rfl | rfl <;> exact ⟨⟨_, _, rfl, by decide, by decide⟩, by decide⟩⟩
  cases k with
  | node =>
    rcases List.mem_append.1 hm with h | h
    · exact xmodels_ok rn .node m h
    · rw [List.mem_singleton.1 h]; exact ⟨by decide, hc⟩
  | edge => exact xmodels_ok rn .edge m hm
  | tri => exact xmodels_ok rn .tri m hm
  | tet => exact xmodels_ok rn .tet m hm
  | ifn => exact xmodels_ok rn .ifn m hm

theorem serWritableC : SerWritable F (t "mos") rdev XC :=
  { serWritable with
    models := fun e _ k => xcmodels_ok e.1 k
    reqns := fun _ _ m hm => by
      rw [List.mem_singleton.1 hm]
      exact ⟨by decide, ⟨⟨_, _, rfl, by decide, by decide⟩, fun a ha => by
        simp only [ecmd, List.mem_cons, List.not_mem_nil, or_false] at ha
        rcases ha with rfl | rfl | rfl <;> exact ⟨⟨_, _, rfl, by decide, by decide⟩, by decide⟩⟩⟩
    ceqns := fun _ _ m hm => by simp [XC] at hm
    imodels := fun _ _ m hm => by simp [XC] at hm
    ieqns := fun _ _ m hm => by simp [XC] at hm }

theorem restartOKC : RestartOK envC rdev XC :=
  { restartOK with
    topo := fun e he => { restartOK.topo e he with topo := rfl }
    models := fun e _ k => by cases k <;> simp only [SMap.Sorted, XC, X] <;> decide
    disjoint := fun e _ k k' hk x hx => by
      cases k <;> cases k' <;> first
        | exact absurd rfl hk
        | rfl
        | (simp only [XC, X, SMap.has, List.any_append, List.any_cons, List.any_nil, Bool.or_false, Bool.or_eq_true, decide_eq_true_eq] at hx ⊢
           first
            | (rcases hx with (rfl | rfl) | rfl <;> decide)
            | (rcases hx with rfl | rfl <;> decide)
            | (subst hx; decide)
            | (exact absurd hx (by decide)))
    data := fun e he k hk m hm l hl => by
      cases k with
      | node =>
        rcases List.mem_append.1 hm with h | h
        · exact restartOK.data e he .node hk m h l hl
        · rw [List.mem_singleton.1 h] at hl; simp at hl
      | edge => exact restartOK.data e he .edge hk m hm l hl
      | tri => exact restartOK.data e he .tri hk m hm l hl
      | tet => exact restartOK.data e he .tet hk m hm l hl
      | ifn => exact absurd rfl hk
    reqns := fun _ _ => by simp [XC, SMap.Sorted]
    ceqns := fun _ _ => List.Pairwise.nil
    imodels := fun _ _ => List.Pairwise.nil
    ieqns := fun _ _ => List.Pairwise.nil }

theorem geo_mod (ds : Devs Bool) (n : Text) (f : Dev Bool → Dev Bool) (hf : ∀ d, geoDev (f d) = geoDev d) :
    geo (SMap.mod ds n f) = geo ds := by
  simp only [geo, SMap.mod, List.map_map]
  refine List.map_congr_left fun e _ => ?_
  simp only [Function.comp]
  split <;> simp [hf]

theorem tameC (cs : List Cmd) : Tame envC cs := by
  intro c _ ds
  simp only [envC]
  split
  · refine geo_mod _ _ _ fun d => ?_
    simp only [geoDev, SMap.mod, List.map_map]
    congr 1
    refine List.map_congr_left fun e _ => ?_
    simp only [Function.comp]
    split <;> rfl
  · rfl

/-- After the load, the data are those of the file although the commands were run. -/
theorem example_replay : modelAt (replay envC F (t "mos") rdev XC []).2 (t "mos") (t "bulk") .node (t "Potential") =
    some (.data [false, true, true]) := by
  have hX : ∀ rn k, SMap.Sorted (XC.models rn k) := fun rn k => by
    cases k <;> simp only [SMap.Sorted, XC, X] <;> decide
  refine replay_keeps (e := (t "bulk", reg (t "Si") [0, 1, 2])) restartOKC hX (tameC _) List.Pairwise.nil (by simp [rdev, dev])
    (by decide) (s := .data [false, true, true]) rfl rfl (by decide) ?_
  intro c _ ds
  unfold modelAt
  simp only [envC]
  split
  · rw [SMap.get_mod]
    cases h : SMap.get ds (t "mos") with
    | none => rfl
    | some d =>
      simp only [Option.map_some, if_true, Option.bind_some]
      rw [SMap.get_mod]
      cases h2 : SMap.get d.regions (t "bulk") with
      | none => rfl
      | some r =>
        simp only [Option.map_some, if_true, Option.bind_some, Reg.models]
        rw [SMap.get_put, if_neg (by decide)]
  · rfl

example : SMap.Sorted ([] : Devs Bool) ∧ SMap.has ([] : Devs Bool) (t "mos") = false ∧ t "mos" ∉ ([] : List Text) := by
  simp [SMap.Sorted, SMap.has]

end Verif.MeshIO.Example
