import Verif.MeshIO.Exact

/-!
# A device that meets the conditions

Two triangles with an interface between them, two contacts, models of all kinds. Numbers are 0 and 1.
-/

namespace Verif.MeshIO.Example

def t (s : String) : Text := s.toList

/-- Printed with 15 digits after the point, as the writer does. -/
def F : Fmt Bool where
  fmt x := if x then t "1.000000000000000e+00" else t "0.000000000000000e+00"
  bval _ _ _ _ := [true, false, true]

def env : Env Bool where
  atof x := x = t "1.000000000000000e+00"
  ofInt i := i ≠ 0
  zero := false
  topoOK _ _ _ _ _ := true
  bnames _ k := match k with
    | .node => [t "NodeVolume"]
    | .edge => [t "EdgeLength"]
    | .tri => [t "ElementEdgeCouple"]
    | _ => []
  run _ _ d := (false, d)

/-- A region with one triangle. -/
def reg (m : Text) (ns : List Nat) : Reg Bool :=
  { material := m, dim := 2, nodes := ns, edges := [[0, 1], [0, 2], [1, 2]], tris := [[0, 1, 2]]
    nm := [(t "NodeVolume", .builtin), (t "Potential", .data [false, true, true])]
    em := [(t "Current", .unif true), (t "EdgeLength", .builtin)]
    tm := [(t "ElementEdgeCouple", .builtin)] }

def dev : Dev Bool :=
  { dim := 2
    coords := [(false, false, false), (true, false, false), (false, true, false), (true, true, false)]
    regions := [(t "bulk", reg (t "Si") [0, 1, 2]), (t "oxide", reg (t "SiO2") [1, 2, 3])]
    contacts := [(t "gate", { region := t "oxide", material := t "metal", nodes := [2] }),
                 (t "top", { region := t "bulk", material := t "metal", nodes := [0, 1] })]
    ifaces := [(t "int", { region0 := t "bulk", region1 := t "oxide", nodes0 := [1, 2], nodes1 := [0, 1] })] }

def devs : Devs Bool := [(t "mos", dev)]

theorem sci (x : Bool) : Sci (F.fmt x) := by
  cases x
  · exact ⟨by decide, '0', _, rfl, .inl rfl⟩
  · exact ⟨by decide, '1', _, rfl, .inl rfl⟩

theorem rho_id (x : Bool) : rho env F x = x := by cases x <;> decide

theorem regions_mem {e : Text × Reg Bool} (h : e ∈ dev.regions) :
    e = (t "bulk", reg (t "Si") [0, 1, 2]) ∨ e = (t "oxide", reg (t "SiO2") [1, 2, 3]) := by
  simpa [dev] using h

theorem contacts_mem {e : Text × Con} (h : e ∈ dev.contacts) :
    e = (t "gate", { region := t "oxide", material := t "metal", nodes := [2] }) ∨
    e = (t "top", { region := t "bulk", material := t "metal", nodes := [0, 1] }) := by
  simpa [dev] using h

theorem writable : Writable F (t "mos") dev where
  name := by decide
  coords := fun _ _ => ⟨sci _, sci _, sci _⟩
  rnames := fun e he => by rcases regions_mem he with rfl | rfl <;> decide
  elems := fun e he => by rcases regions_mem he with rfl | rfl <;> decide
  mnames := fun e he => by
    rcases regions_mem he with rfl | rfl <;> simp [reg, t]
  mvals := fun _ _ => ⟨fun _ _ _ _ => sci _, fun _ _ _ _ => sci _⟩
  cnames := fun e he => by rcases contacts_mem he with rfl | rfl <;> decide
  inames := fun e he => by
    have : e = _ := List.mem_singleton.1 he
    subst this; decide

theorem regOK (m : Text) (ns : List Nat) (h1 : ns.length = 3) (h2 : ∀ i ∈ ns, i < 4) :
    RegOK env dev.coords.length 2 (reg m ns) where
  dim := rfl
  dimElems := by simp [reg]
  nodes := ⟨by rintro h; rw [show ns = [] from h] at h1; simp at h1, by simp [reg, h1, dev], h2⟩
  edges := by
    refine ⟨by simp [reg], by simp only [reg]; decide, ?_⟩
    simp [reg, IsElem, h1]
  tris := by
    refine ⟨by simp [reg], by simp [reg], ?_⟩
    simp [reg, IsElem, h1]
  tets := by simp [reg]
  topo := rfl
  nm := by
    refine ⟨?_, by simp [env, reg, Reg.models, SMap.has], ?_, ?_⟩
    · simp only [SMap.Sorted, reg, Reg.models]; decide
    · simp [reg, Reg.models, env]
    · simp [reg, Reg.models, Reg.size, h1]
  em := by
    refine ⟨?_, by simp [env, reg, Reg.models, SMap.has], ?_, ?_⟩
    · simp only [SMap.Sorted, reg, Reg.models]; decide
    · simp [reg, Reg.models, env]
    · simp [reg, Reg.models]
  disjoint := by
    intro n hn
    simp only [reg, SMap.has, List.any_cons, List.any_nil, Bool.or_false, Bool.or_eq_true, decide_eq_true_eq] at hn ⊢
    rcases hn with rfl | rfl <;> decide

theorem devOK : DevOK env dev where
  coords := by simp [dev]
  regions := ⟨by simp [dev], by simp only [SMap.Sorted, dev]; decide⟩
  reg := fun e he => by
    rcases regions_mem he with rfl | rfl
    · exact regOK _ _ rfl (by decide)
    · exact regOK _ _ rfl (by decide)
  contacts := by simp only [SMap.Sorted, dev]; decide
  con := fun e he => by
    rcases contacts_mem he with rfl | rfl
    · exact ⟨reg (t "SiO2") [1, 2, 3], rfl, by decide⟩
    · exact ⟨reg (t "Si") [0, 1, 2], rfl, by decide⟩
  ifaces := by simp [SMap.Sorted, dev]
  ifc := fun e he => by
    have : e = _ := List.mem_singleton.1 he
    subst this
    exact ⟨rfl, ⟨reg (t "Si") [0, 1, 2], rfl, by decide⟩, ⟨reg (t "SiO2") [1, 2, 3], rfl, by decide⟩⟩

theorem numbers : Numbers env F dev where
  coords := fun _ _ => ⟨rho_id _, rho_id _, rho_id _⟩
  vals := fun _ _ _ _ _ _ x _ => rho_id x

theorem plain : Plain env dev where
  con := fun e he => by rcases contacts_mem he with rfl | rfl <;> exact ⟨rfl, rfl⟩
  ifc := fun e he => by
    have : e = _ := List.mem_singleton.1 he
    subst this; exact ⟨rfl, rfl, rfl, rfl⟩
  builtin := fun e he k hk m hm hb => by
    rcases regions_mem he with rfl | rfl <;> rcases hk with rfl | rfl <;>
      simp only [reg, Reg.models, List.mem_cons, List.not_mem_nil, or_false] at hm <;>
      rcases hm with rfl | rfl <;> first | rfl | (exfalso; revert hb; decide)

/-- The file of this device is read back. -/
theorem example_load : (load env {} [] (writeDevices F devs)).1 = .ok ∧
    (load env {} [] (writeDevices F devs)).2.1.devs = [(t "mos", rep env F dev)] :=
  load_written_fresh (by simpa [devs] using writable) (by simpa [devs] using devOK) (by simp [SMap.Sorted, devs])

example : (rep env F dev).val F (t "bulk") .node (t "Potential") = some [false, true, true] := by
  rw [rep_val devOK numbers plain _ _ (.inl rfl)]
  rfl

/-! ### A model that replaces a built-in model is lost -/

/-- The same device after `node_solution`/`set_node_values` on the name `NodeVolume`. -/
def dev' : Dev Bool :=
  { dev with regions := [(t "bulk", { reg (t "Si") [0, 1, 2] with
      nm := [(t "NodeVolume", .data [false, false, false]), (t "Potential", .data [false, true, true])] }),
      (t "oxide", reg (t "SiO2") [1, 2, 3])] }

theorem devOK' : DevOK env dev' where
  coords := by simp [dev', dev]
  regions := ⟨by simp [dev'], by simp only [SMap.Sorted, dev']; decide⟩
  reg := fun e he => by
    have h1 := regOK (t "Si") [0, 1, 2] rfl (by decide)
    simp only [dev', List.mem_cons, List.not_mem_nil, or_false] at he
    rcases he with rfl | rfl
    · refine { h1 with nm := ⟨?_, ?_, ?_, ?_⟩, em := ⟨h1.em.sorted, h1.em.builtins, h1.em.only, h1.em.size⟩, disjoint := ?_ }
      · simp only [SMap.Sorted, Reg.models]; decide
      · simp [env, Reg.models, SMap.has]
      · simp [Reg.models]
      · simp only [Reg.models, Reg.size, reg, List.mem_cons, Prod.mk.injEq, Src.data.injEq, List.not_mem_nil, or_false]
        rintro n l (⟨-, rfl⟩ | ⟨-, rfl⟩) <;> rfl
      · intro n hn
        simp only [reg, SMap.has, List.any_cons, List.any_nil, Bool.or_false, Bool.or_eq_true, decide_eq_true_eq] at hn ⊢
        rcases hn with rfl | rfl <;> decide
    · exact regOK _ _ rfl (by decide)
  contacts := by simp only [SMap.Sorted, dev', dev]; decide
  con := fun e he => by
    rcases contacts_mem he with rfl | rfl
    · exact ⟨reg (t "SiO2") [1, 2, 3], rfl, by decide⟩
    · exact ⟨_, rfl, by decide⟩
  ifaces := by simp [SMap.Sorted, dev', dev]
  ifc := fun e he => by
    have : e = _ := List.mem_singleton.1 he
    subst this
    exact ⟨rfl, ⟨_, rfl, by decide⟩, ⟨reg (t "SiO2") [1, 2, 3], rfl, by decide⟩⟩

theorem writable' : Writable F (t "mos") dev' where
  name := by decide
  coords := fun _ _ => ⟨sci _, sci _, sci _⟩
  rnames := fun e he => by
    simp only [dev', List.mem_cons, List.not_mem_nil, or_false] at he
    rcases he with rfl | rfl <;> decide
  elems := fun e he => by
    simp only [dev', List.mem_cons, List.not_mem_nil, or_false] at he
    rcases he with rfl | rfl <;> decide
  mnames := fun e he => by
    simp only [dev', List.mem_cons, List.not_mem_nil, or_false] at he
    rcases he with rfl | rfl <;> simp [reg, t]
  mvals := fun _ _ => ⟨fun _ _ _ _ => sci _, fun _ _ _ _ => sci _⟩
  cnames := fun e he => by rcases contacts_mem he with rfl | rfl <;> decide
  inames := fun e he => by
    have : e = _ := List.mem_singleton.1 he
    subst this; decide

/-- The values of `NodeVolume` that the user had set are not what is loaded. -/
theorem replaced_builtin_lost :
    (load env {} [] (writeDevices F [(t "mos", dev')])).1 = .ok ∧
    dev'.val F (t "bulk") .node (t "NodeVolume") = some [false, false, false] ∧
    ((load env {} [] (writeDevices F [(t "mos", dev')])).2.1.devs.get (t "mos")).bind
      (fun d => d.val F (t "bulk") .node (t "NodeVolume")) = some [true, false, true] := by
  obtain ⟨h1, h2⟩ := load_written_fresh (env := env) (F := F) (ds := [(t "mos", dev')])
    (by simpa using writable') (by simpa using devOK') (by simp [SMap.Sorted])
  refine ⟨h1, rfl, ?_⟩
  rw [h2]
  rfl

end Verif.MeshIO.Example
