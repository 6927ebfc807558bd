import Verif.Mesh.Device
import Verif.Mesh2d.Commands
import Verif.EqCmd.Model

/-!
# The life of a mesh: the commands on meshes and devices (`src/commands/MeshingCommands.cc`, `src/meshing/{Mesh,MeshKeeper,Mesh1d,Mesh2d}.cc`)

Simplifications: the arguments of the commands have passed the option processing (C58): texts are texts and numbers are real numbers; messages are
not modelled, only whether a command is done, refused, or fails while it works; of a Gmsh mesh (`create_gmsh_mesh`) only that it is there.
What `Finalize_` and `Instantiate_` do is asked of an *engine*; `Standard` says which functions of the areas Mesh and Mesh2d it uses.
-/

namespace Verif.Msh
open Verif
open Verif.Mesh (Res Mesh1d)
open Verif.EqCmd (sortedKeys)

/-- `points`, `regions`, `contacts`, `interfaces` of `Mesh1d.hh` -/
structure One where
  lines : List Mesh.Line := []
  regions : List Mesh.RegionDef := []
  contacts : List Mesh.ContactDef := []
  interfaces : List Mesh.InterfaceDef := []

/-- the classes derived from `Mesh` -/
inductive Body
  | one (m : One)
  | two (m : Mesh2d.Mesh2)
  | gmsh

/-- what `Finalize_` has made -/
inductive Fin
  | one (m : Mesh1d)
  | two (l : MeshIO.Loader ℝ)
  | gmsh

/-- a device -/
inductive DevR
  | one (d : Mesh.Dev)
  | two (d : MeshIO.Dev ℝ)
  | other

/-- `Finalize_` (after so many failed tries on this mesh; with the name and what the mesh was told) and `Instantiate_` (with the name of the device:
whether it succeeds, and the device it leaves in the list of devices: both versions put it there before the work is done) -/
structure Engine where
  fin : Nat → String → Body → Res Fin
  inst : Fin → String → Bool × DevR

/-- `Mesh1d::Finalize_`, `Mesh2d::Finalize_` on a mesh that is finalized for the first time (a failed try leaves positions and tags behind in one
dimension, F41, F147, and sorted lines in two), and the two `Instantiate_` -/
structure Standard (E : Engine) : Prop where
  one : ∃ fuel order, (∀ l, (order l).Perm l) ∧ ∀ n o, E.fin 0 n (.one o) =
    match Mesh.finalize fuel order o.lines o.regions o.contacts o.interfaces with
    | .ok m => .ok (.one m)
    | .error => .error
    | .assertion => .assertion
    | .unfinished => .unfinished
  two : ∃ fuel sort, Mesh2d.IsSort sort ∧ ∀ n m, E.fin 0 n (.two m) =
    match Mesh2d.finalize fuel sort n.toList m with
    | .ok l => .ok (.two l)
    | .error => .error
    | .assertion => .assertion
    | .unfinished => .unfinished
  inst_one : ∀ m d D, Mesh.instantiate m = some D → E.inst (.one m) d = (true, .one D)
  inst_two : ∃ env : MeshIO.Env ℝ, (∀ k es ts, Mesh2d.topo2 es ts = true → env.topoOK 2 k es ts [] = true) ∧
    ∀ l d D, (MeshIO.instantiate env { l with name := d.toList } []).2.get d.toList = some D →
    E.inst (.two l) d = (decide ((MeshIO.instantiate env { l with name := d.toList } []).1 = .ok), .two D)

/-- `Mesh.hh`: the mesh, `finalized` (with what was made), and how often `Finalize_` has failed -/
structure Msh where
  body : Body
  fin : Option Fin
  tries : Nat

/-- `MeshKeeper::meshList`, `GlobalData::deviceList` -/
structure World where
  meshes : FMap String Msh
  devs : FMap String DevR

inductive Kind
  | one | two | gmsh
deriving DecidableEq

/-- the commands; `create .gmsh` is `create_gmsh_mesh` -/
inductive Cmd
  | create (k : Kind) (m : String)
  | finalize (m : String)
  | delete (m : String)
  | line (m tag : String) (pos ns ps : ℝ)
  | region (m name material tag1 tag2 : String)
  | contact (m name material tag : String)
  | interface (m name tag : String)
  | add2 (m : String) (c : Mesh2d.Cmd)
  | device (m d : String)
  | deleteDevice (d : String)

/-- done; refused before anything is done; or failed at work (`Finalize_`, `Instantiate_`: by a message or by an assertion, which throws) -/
inductive Ans
  | ok | refused | failed
deriving DecidableEq

def empty : Kind → Body
  | .one => .one {}
  | .two => .two {}
  | .gmsh => .gmsh

/-- `create1dMeshCmd`, `MeshingCommands.cc` 37-78, `meshCannotExist`, `MeshKeeper::AddMesh` -/
def create (W : World) (k : Kind) (m : String) : World × Ans :=
  if m = "" then (W, .refused)
  else if W.meshes.has m then (W, .refused)
  else ({ W with meshes := W.meshes.set m ⟨empty k, none, 0⟩ }, .ok)

/-- `meshMustNotBeFinalized`, `CheckFunctions.cc` 99-121 -/
def open? (W : World) (m : String) : Option Msh :=
  if m = "" then none
  else match W.meshes.get m with
    | some x => if x.fin.isSome then none else some x
    | none => none

/-- `finalizeMeshCmd`, `MeshingCommands.cc` 80-114, `Mesh::Finalize`, `Mesh.cc` 50-64 -/
def finalize (E : Engine) (W : World) (m : String) : World × Ans :=
  match open? W m with
  | none => (W, .refused)
  | some x =>
    match E.fin x.tries m x.body with
    | .ok f => ({ W with meshes := W.meshes.set m { x with fin := some f } }, .ok)
    | _ => ({ W with meshes := W.meshes.set m { x with tries := x.tries + 1 } }, .failed)

/-- `deleteMeshCmd`, `MeshingCommands.cc` 116-151, `MeshKeeper::DeleteMesh` -/
def delete (W : World) (m : String) : World × Ans :=
  if m = "" then (W, .refused)
  else if W.meshes.has m then ({ W with meshes := W.meshes.erase m }, .ok)
  else (W, .refused)

/-- `getMeshListCmd`, `MeshingCommands.cc` 153-176 -/
def meshList (W : World) : List String := sortedKeys W.meshes
/-- `getDeviceListCmd` -/
def deviceList (W : World) : List String := sortedKeys W.devs

/-- a `dynamic_cast` to `Mesh1dPtr`, and a `push_back` on the mesh -/
def onOne (W : World) (m : String) (f : One → One) : World × Ans :=
  match open? W m with
  | some ⟨.one o, fin, t⟩ => ({ W with meshes := W.meshes.set m ⟨.one (f o), fin, t⟩ }, .ok)
  | _ => (W, .refused)

/-- `add1dMeshLineCmd`, `MeshingCommands.cc` 178-237, `mustBePositive` -/
noncomputable def addLine (W : World) (m tag : String) (pos ns ps : ℝ) : World × Ans :=
  match Mesh.mkLine pos ps ns tag with
  | none => (W, .refused)
  | some l => onOne W m fun o => { o with lines := o.lines ++ [l] }

/-- `add1dRegionCmd`, `MeshingCommands.cc` 530-579 -/
def addRegion (W : World) (m n mat t1 t2 : String) : World × Ans :=
  if n = "" ∨ mat = "" ∨ t1 = "" ∨ t2 = "" then (W, .refused)
  else onOne W m fun o => { o with regions := o.regions ++ [⟨n, mat, t1, t2⟩] }

/-- `add1dContactCmd`, `MeshingCommands.cc` 356-402 -/
def addContact (W : World) (m n mat t : String) : World × Ans :=
  if n = "" ∨ mat = "" ∨ t = "" then (W, .refused)
  else onOne W m fun o => { o with contacts := o.contacts ++ [⟨n, mat, t⟩] }

/-- `add1dInterfaceCmd`, `MeshingCommands.cc` 308-354 -/
def addInterface (W : World) (m n t : String) : World × Ans :=
  if n = "" ∨ t = "" then (W, .refused)
  else onOne W m fun o => { o with interfaces := o.interfaces ++ [⟨n, t⟩] }

/-- the four `add_2d_...` commands, `MeshingCommands.cc` 239-306, 404-528, 581-637 -/
noncomputable def add2 (W : World) (m : String) (c : Mesh2d.Cmd) : World × Ans :=
  match open? W m with
  | some ⟨.two b, fin, t⟩ =>
    match Mesh2d.step b c with
    | some b' => ({ W with meshes := W.meshes.set m ⟨.two b', fin, t⟩ }, .ok)
    | none => (W, .refused)
  | _ => (W, .refused)

/-- `createDeviceCmd`, `MeshingCommands.cc` 639-680, `meshMustBeFinalized`, `mustNotBeValidDevice`, `Mesh::Instantiate`, `Mesh.cc` 34-48 -/
def device (E : Engine) (W : World) (m d : String) : World × Ans :=
  if m = "" ∨ d = "" then (W, .refused)
  else match W.meshes.get m with
    | none => (W, .refused)
    | some x =>
      match x.fin with
      | none => (W, .refused)
      | some f =>
        if W.devs.has d then (W, .refused)
        else
          let r := E.inst f d
          ({ W with devs := W.devs.set d r.2 }, if r.1 then .ok else .failed)

/-- `deleteDeviceCmd`, `MeshingCommands.cc` 682-716, `mustBeValidDevice`, `GlobalData::DeleteDevice` -/
def deleteDevice (W : World) (d : String) : World × Ans :=
  if d = "" then (W, .refused)
  else if W.devs.has d then ({ W with devs := W.devs.erase d }, .ok)
  else (W, .refused)

noncomputable def step (E : Engine) (W : World) : Cmd → World × Ans
  | .create k m => create W k m
  | .finalize m => finalize E W m
  | .delete m => delete W m
  | .line m tag pos ns ps => addLine W m tag pos ns ps
  | .region m n mat t1 t2 => addRegion W m n mat t1 t2
  | .contact m n mat t => addContact W m n mat t
  | .interface m n t => addInterface W m n t
  | .add2 m c => add2 W m c
  | .device m d => device E W m d
  | .deleteDevice d => deleteDevice W d

/-- the program after a script, with the history: the commands and their answers, newest first -/
noncomputable def run (E : Engine) : World → List (Cmd × Ans) → List Cmd → World × List (Cmd × Ans)
  | W, h, [] => (W, h)
  | W, h, c :: cs => run E (step E W c).1 ((c, (step E W c).2) :: h) cs

noncomputable def start (E : Engine) (cs : List Cmd) : World × List (Cmd × Ans) := run E ⟨[], []⟩ [] cs

end Verif.Msh
