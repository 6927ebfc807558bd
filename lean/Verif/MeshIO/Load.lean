import Verif.MeshIO.Lex
import Verif.MeshIO.SMap

/-!
# The mesh that a file describes and the device made of it

`MeshLoaderStructs.hh`, `MeshLoaderStructs.cc`, `DevsimLoader.cc`. A mesh element (edge, triangle,
tetrahedron) is the increasing list of its node indices, as the constructors of `MeshEdge`,
`MeshTriangle` and `MeshTetrahedron` order them (`MeshLoaderStructs.hh:208-216`, `256-268`,
`322-336`); their `operator<` is the lexicographic order.
-/

namespace Verif.MeshIO

variable {α : Type}

/-- Arguments of a `COMMAND` line (`DevsimParser.y:872-884`). -/
inductive Val (α : Type)
  | float (x : α)
  | int (i : Int)
  | str (s : Text)

/-- `Solution::ModelType` (`MeshLoaderStructs.hh:54`) -/
inductive MK
  | node | edge | tri | tet | ifn
deriving DecidableEq, Repr

/-- `Solution::DataType` (`MeshLoaderStructs.hh:55`) -/
inductive DT
  | undef | builtin | parent | unif | data | command
deriving DecidableEq, Repr

/-- `dsMesh::Solution` (`MeshLoaderStructs.hh:52-148`). The capacity that is reserved is left out. -/
structure Sol (α : Type) where
  kind : MK
  dt : DT := .undef
  vals : List α := []
  uval : Option α := none
  parent : Text := []
  cmd : Text := []
  args : List (Text × Val α) := []

/-- `dsMesh::Equation` (`MeshLoaderStructs.hh:150-180`) -/
structure Eqn (α : Type) where
  cmd : Text := []
  args : List (Text × Val α) := []

/-- `dsMesh::MeshRegion` (`MeshLoaderStructs.hh:380-500`) -/
structure MReg (α : Type) where
  material : Text
  nodes : List Nat := []
  edges : List (List Nat) := []
  tris : List (List Nat) := []
  tets : List (List Nat) := []
  sols : SMap Text (Sol α) := []
  eqns : SMap Text (Eqn α) := []

/-- `dsMesh::MeshContact` (`MeshLoaderStructs.hh:650-740`): its elements are those of a region. -/
structure MCon (α : Type) where
  region : Text
  material : Text
  elems : MReg α := { material := [] }
  eqns : SMap Text (Eqn α) := []

/-- `dsMesh::MeshInterface` (`MeshLoaderStructs.hh:530-648`) -/
structure MIfc (α : Type) where
  region0 : Text
  region1 : Text
  elems0 : MReg α := { material := [] }
  elems1 : MReg α := { material := [] }
  pairs : List (Nat × Nat) := []
  sols : SMap Text (Sol α) := []
  eqns : SMap Text (Eqn α) := []

/-- `dsMesh::DevsimLoader` (`DevsimLoader.hh:22-98`) -/
structure Loader (α : Type) where
  name : Text
  coords : List (α × α × α) := []
  regions : SMap Text (MReg α) := []
  contacts : SMap Text (MCon α) := []
  ifaces : SMap Text (MIfc α) := []

/-- A model of a region, as far as the loader makes it: one of the models of `CreateDefaultModels`, a
constant, or values. -/
inductive Src (α : Type)
  | builtin
  | unif (x : α)
  | data (l : List α)

/-- A region of a device. -/
structure Reg (α : Type) where
  material : Text
  dim : Nat
  nodes : List Nat
  edges : List (List Nat) := []
  tris : List (List Nat) := []
  tets : List (List Nat) := []
  nm : SMap Text (Src α) := []
  em : SMap Text (Src α) := []
  tm : SMap Text (Src α) := []
  um : SMap Text (Src α) := []

/-- A contact of a device. -/
structure Con where
  region : Text
  material : Text
  nodes : List Nat
  edges : List (List Nat) := []
  tris : List (List Nat) := []

/-- An interface of a device. -/
structure Ifc where
  region0 : Text
  region1 : Text
  nodes0 : List Nat
  nodes1 : List Nat
  edges0 : List (List Nat) := []
  edges1 : List (List Nat) := []
  tris0 : List (List Nat) := []
  tris1 : List (List Nat) := []

/-- A device. -/
structure Dev (α : Type) where
  dim : Nat
  coords : List (α × α × α)
  regions : SMap Text (Reg α) := []
  contacts : SMap Text Con := []
  ifaces : SMap Text Ifc := []

/-- `GlobalData::GetDeviceList` -/
abbrev Devs (α : Type) := SMap Text (Dev α)

/-- What the model does not describe: reading numbers, the checks of `Region::FinalizeMesh`, the names
of the models made by `CreateDefaultModels`, and the commands in a file. -/
structure Env (α : Type) where
  /-- `atof` of a number in the file -/
  atof : Text → α
  /-- conversion of an `int` to `double` -/
  ofInt : Int → α
  /-- `0.0` -/
  zero : α
  /-- `Region::FinalizeMesh` finds no topological error (`Region.cc:737-780`) -/
  topoOK : Nat → Nat → List (List Nat) → List (List Nat) → List (List Nat) → Bool
  /-- names of the models of `CreateDefaultModels` for a region of the given dimension -/
  bnames : Nat → MK → List Text
  /-- `Interpreter::RunInternalCommand` -/
  run : Text → List (Text × Val α) → Devs α → Bool × Devs α

/-! ### Decomposition into lower elements -/

/-- The constructors of mesh elements. -/
def mkElem (l : List Nat) : List Nat := l.mergeSort (· ≤ ·)

/-- `MeshRegion::DecomposeAndUniquify` (`MeshLoaderStructs.cc:32-79`) -/
def MReg.decompose (r : MReg α) : MReg α :=
  let tris := if !r.tets.isEmpty && r.tris.isEmpty then
      sortUniq (r.tets.flatMap fun t => match t with
        | [a, b, c, d] => [mkElem [a, b, c], mkElem [a, b, d], mkElem [a, c, d], mkElem [b, c, d]]
        | _ => [])
    else r.tris
  let edges := if !tris.isEmpty && r.edges.isEmpty then
      sortUniq (tris.flatMap fun t => match t with
        | [a, b, c] => [mkElem [a, b], mkElem [a, c], mkElem [b, c]]
        | _ => [])
    else r.edges
  let nodes := if !edges.isEmpty && r.nodes.isEmpty then sortUniq edges.flatten else r.nodes
  { r with tris := tris, edges := edges, nodes := nodes }

/-- `createRegion` (`DevsimLoader.cc:155-168`): the dimension of a region. -/
def MReg.dim (r : MReg α) : Nat := if !r.tets.isEmpty then 3 else if !r.tris.isEmpty then 2 else 1

/-! ### `Finalize_` -/

/-- The checks of one region (`DevsimLoader.cc:1031-1146`), after its decomposition. -/
def MReg.check (ncoords dim : Nat) (r : MReg α) : Bool :=
  r.dim = dim &&
  !r.nodes.isEmpty && r.nodes.length ≤ ncoords && r.nodes.all (· < ncoords) &&
  !r.edges.isEmpty && r.edges.all (fun e => e.all (· < r.nodes.length)) &&
  r.tris.all (fun t => t.all (· < r.nodes.length))

/-- The dimension of the first region, before its decomposition (`DevsimLoader.cc:1010-1027`). -/
def Loader.dim0 (L : Loader α) : Nat :=
  match L.regions with
  | [] => 0
  | (_, r) :: _ => if !r.tets.isEmpty then 3 else if !r.tris.isEmpty then 2
    else if !r.edges.isEmpty then 1 else 0

/-- `DevsimLoader::Finalize_` (`DevsimLoader.cc:968-1158`): the result, and the mesh with its regions
decomposed. -/
def Loader.finalize (L : Loader α) : Bool × Loader α :=
  let rs := L.regions.map fun e => (e.1, e.2.decompose)
  (!L.coords.isEmpty && !L.regions.isEmpty &&
    rs.all (fun e => e.2.check L.coords.length L.dim0), { L with regions := rs })

/-! ### `Instantiate_` -/

/-- How a load ends: success, failure reported through the return value, or an exception of
`dsAssert`. -/
inductive Out
  | ok | fail | throw
deriving DecidableEq, Repr

/-- A region without models (`DevsimLoader.cc:143-224`): `processNodes`, `processEdges`,
`processTriangles`, `processTetrahedra`. -/
def MReg.topo (r : MReg α) : Reg α :=
  { material := r.material
    dim := r.dim
    nodes := r.nodes
    edges := sortUniq r.edges
    tris := sortUniq r.tris
    tets := if r.dim = 3 then sortUniq r.tets else [] }

/-- The assertions of `createRegion`. -/
def Reg.asserts (env : Env α) (ncoords : Nat) (r : Reg α) : Bool :=
  r.nodes.all (· < ncoords) && r.edges.all (fun e => e.all (· < r.nodes.length)) &&
  r.tris.all (fun e => e.all (· < r.nodes.length)) &&
  r.tets.all (fun e => e.all (· < r.nodes.length)) &&
  env.topoOK r.dim r.nodes.length r.edges r.tris r.tets

/-- The models of `CreateDefaultModels`. -/
def builtins (env : Env α) (dim : Nat) (k : MK) : SMap Text (Src α) :=
  (env.bnames dim k).foldl (fun m n => m.put n .builtin) []

/-- `CreateDefaultModels` (`DevsimLoader.cc:223`) -/
def Reg.defaults (env : Env α) (r : Reg α) : Reg α :=
  { r with nm := builtins env r.dim .node, em := builtins env r.dim .edge,
           tm := builtins env r.dim .tri, um := builtins env r.dim .tet }

/-- The regions of a device (`DevsimLoader.cc:430-449`): the first region that fails an assertion is
left without models and ends the load. -/
def mkRegions (env : Env α) (ncoords : Nat) : SMap Text (MReg α) → SMap Text (Reg α) → Out × SMap Text (Reg α)
  | [], acc => (.ok, acc)
  | (n, r) :: rs, acc =>
    if r.topo.asserts env ncoords then mkRegions env ncoords rs (acc.put n (r.topo.defaults env))
    else (.throw, acc.put n r.topo)

/-- `Region::FindEdge`, `Region::FindTriangle` (`Region.cc:1615-1668`): the first element that contains
the given nodes. -/
def findElem (l : List (List Nat)) (ns : List Nat) : Option (List Nat) :=
  l.find? fun e => ns.all (· ∈ e)

/-- `GetTriangles`, `GetEdges` (`DevsimLoader.cc:247-316`): the elements of the region that are named;
elements that it does not have are dropped. -/
def getElems (nnodes : Nat) (l : List (List Nat)) (es : List (List Nat)) : List (List Nat) :=
  es.filterMap fun ns => if ns.all (· < nnodes) then findElem l ns else none

/-- One contact (`DevsimLoader.cc:459-516`). -/
def mkContact (regions : SMap Text (Reg α)) (c : MCon α) : Option Con :=
  match regions.get c.region with
  | none => none
  | some r =>
    let e := c.elems.decompose
    if e.nodes.all (· < r.nodes.length) then
      some { region := c.region, material := c.material, nodes := e.nodes,
             edges := getElems r.nodes.length r.edges e.edges,
             tris := getElems r.nodes.length r.tris e.tris }
    else none

def mkContacts (regions : SMap Text (Reg α)) : SMap Text (MCon α) → SMap Text Con → Bool × SMap Text Con
  | [], acc => (true, acc)
  | (n, c) :: cs, acc => match mkContact regions c with
    | none => (false, acc)
    | some c' => mkContacts regions cs (acc.put n c')

/-- One interface (`DevsimLoader.cc:535-632`). When no node pairs are given, the nodes of the two sides
are those of the given elements, in the order of their indices in the regions; the pairs that
`FixNodePairs` finds are put into the mesh and not used. -/
def mkIface (regions : SMap Text (Reg α)) (c : MIfc α) : Option Ifc :=
  match regions.get c.region0, regions.get c.region1 with
  | some r0, some r1 =>
    let e0 := c.elems0.decompose
    let e1 := c.elems1.decompose
    if c.pairs.all (fun p => p.1 < r0.nodes.length && p.2 < r1.nodes.length) then
      some { region0 := c.region0, region1 := c.region1
             nodes0 := if c.pairs.isEmpty then e0.nodes.filter (· < r0.nodes.length) else c.pairs.map Prod.fst
             nodes1 := if c.pairs.isEmpty then e1.nodes.filter (· < r1.nodes.length) else c.pairs.map Prod.snd
             edges0 := getElems r0.nodes.length r0.edges e0.edges
             edges1 := getElems r1.nodes.length r1.edges e1.edges
             tris0 := getElems r0.nodes.length r0.tris e0.tris
             tris1 := getElems r1.nodes.length r1.tris e1.tris }
    else none
  | _, _ => none

def mkIfaces (regions : SMap Text (Reg α)) : SMap Text (MIfc α) → SMap Text Ifc → Bool × SMap Text Ifc
  | [], acc => (true, acc)
  | (n, c) :: cs, acc => match mkIface regions c with
    | none => (false, acc)
    | some c' => mkIfaces regions cs (acc.put n c')

/-- The models of one kind. -/
def Reg.models (r : Reg α) : MK → SMap Text (Src α)
  | .node => r.nm
  | .edge => r.em
  | .tri => r.tm
  | .tet => r.um
  | .ifn => []

/-- `Region::GetNumberNodes`, ... : the number of values of a model. -/
def Reg.size (r : Reg α) : MK → Nat
  | .node => r.nodes.length
  | .edge => r.edges.length
  | .tri => 3 * r.tris.length
  | .tet => 6 * r.tets.length
  | .ifn => 0

def Reg.setModel (r : Reg α) (k : MK) (n : Text) (v : Src α) : Reg α :=
  match k with
  | .node => { r with nm := r.nm.put n v }
  | .edge => { r with em := r.em.put n v }
  | .tri => { r with tm := r.tm.put n v }
  | .tet => { r with um := r.um.put n v }
  | .ifn => r

/-- One solution of a region (`DevsimLoader.cc:662-805`): a model that exists is kept; otherwise a model
with the given data, or `0.0` everywhere, is made. `false` when the number of values is wrong. -/
def addSol (env : Env α) (r : Reg α) (n : Text) (s : Sol α) : Bool × Reg α :=
  if (r.models s.kind).has n then (true, r)
  else match s.dt with
  | .builtin => (true, r)
  | .unif => (true, r.setModel s.kind n (.unif (s.uval.getD env.zero)))
  | .data => if s.vals.length = r.size s.kind then (true, r.setModel s.kind n (.data s.vals))
    else (false, r.setModel s.kind n (.unif env.zero))
  | _ => (true, r.setModel s.kind n (.unif env.zero))

/-- All solutions of a region, in the order of their names. -/
def addSols (env : Env α) (r : Reg α) : SMap Text (Sol α) → Bool × Reg α
  | [] => (true, r)
  | (n, s) :: ss =>
    let a := addSol env r n s
    let b := addSols env a.2 ss
    (a.1 && b.1, b.2)

/-- Commands, in order: the value of the last one is the result (`ret = RunCommand(...)`,
`DevsimLoader.cc:818`, `838`), whatever the result was before. -/
def runAll (env : Env α) : List (Text × List (Text × Val α)) → Bool × Devs α → Bool × Devs α
  | [], st => st
  | (c, a) :: cs, st => runAll env cs (env.run c a st.2)

/-- The commands of the solutions of type `COMMAND`. -/
def solCmds (s : SMap Text (Sol α)) : List (Text × List (Text × Val α)) :=
  (s.filter fun e => e.2.dt = .command).map fun e => (e.2.cmd, e.2.args)

def eqnCmds (s : SMap Text (Eqn α)) : List (Text × List (Text × Val α)) := s.map fun e => (e.2.cmd, e.2.args)

/-- One region in the last pass (`DevsimLoader.cc:640-846`): solutions, their commands, equations. -/
def finishRegion (env : Env α) (dname : Text) (st : Bool × Devs α) (n : Text) (m : MReg α) : Bool × Devs α :=
  match (st.2.get dname).bind fun d => d.regions.get n with
  | none => (false, st.2)
  | some r =>
    let a := addSols env r m.sols
    let devs := SMap.mod st.2 dname fun d => { d with regions := SMap.mod d.regions n fun _ => a.2 }
    runAll env (solCmds m.sols ++ eqnCmds m.eqns) (st.1 && a.1, devs)

/-- The dimension of the device: that of its first region (`DevsimLoader.cc:436-447`). -/
def Loader.dim1 (L : Loader α) : Nat := match L.regions with
  | [] => 1
  | (_, r) :: _ => r.dim

/-- `DevsimLoader::Instantiate_` (`DevsimLoader.cc:381-965`). The interface node models, which are
created with the value 0 before the commands run, are left out. -/
def instantiate (env : Env α) (L : Loader α) (devs : Devs α) : Out × Devs α :=
  if devs.has L.name then (.fail, devs)
  else
    let dim := L.dim1
    let rs := mkRegions env L.coords.length L.regions []
    let dev : Dev α := { dim := dim, coords := L.coords, regions := rs.2 }
    if rs.1 ≠ .ok then (rs.1, devs.put L.name dev)
    else
      let cs := mkContacts rs.2 L.contacts []
      if cs.1 = false then (.fail, devs.put L.name { dev with contacts := cs.2 })
      else
        let is := mkIfaces rs.2 L.ifaces []
        if is.1 = false then (.fail, devs.put L.name { dev with contacts := cs.2, ifaces := is.2 })
        else
          let st := L.regions.foldl (fun st e => finishRegion env L.name st e.1 e.2)
            (true, devs.put L.name { dev with contacts := cs.2, ifaces := is.2 })
          let st := runAll env (L.ifaces.flatMap fun e => solCmds e.2.sols ++ eqnCmds e.2.eqns) st
          let st := runAll env (L.contacts.flatMap fun e => eqnCmds e.2.eqns) st
          (if st.1 then .ok else .fail, st.2)

end Verif.MeshIO
