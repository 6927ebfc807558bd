import Verif.Geom.Finalize

/-!
# Contacts and interfaces: their elements, and the commands that make them

`Contact.cc`, `Interface.cc`, `Device.cc`, `MeshingCommands.cc:1132-1317`, `GeometryCommands.cc:241-421`.

Pointers to nodes and elements are their numbers in the region. Where the program reads beyond the end of a vector, uses a
null pointer or fails an assertion, the model has `none` (`crash` for commands).
-/

namespace Verif.Bnd
open Verif.Geom

/-! ### Tables of a region -/

/-- `GetEdgeToTriangleList()[i]`: made only when there are triangles (`Region.cc:749-755`). -/
def edgeRow (m : Mesh) (i : ℕ) : Option (List ℕ) := if m.tris = [] then none else (tables m).edgeTri[i]?

/-- `GetTriangleToTetrahedronList()[t]`: made only when there are tetrahedra (`Region.cc:757-775`). -/
def tetRow (m : Mesh) (t : ℕ) : Option (List ℕ) := if m.tets = [] then none else (tables m).triTet[t]?

/-- The numbers of the edges in `GetTriangleToEdgeList()[t]`; `none` also for a null pointer. -/
def sideRow (m : Mesh) (t : ℕ) : Option (List ℕ) := ((tables m).triEdge[t]?).bind fun l => l.mapM id

/-! ### Finding elements by nodes -/

/-- The loop over the edges (`Contact.cc:181-198`, `Interface.cc:237-255`) or triangles (`Contact.cc:226-248`,
`Interface.cc:316-340`): those in one element only with all their nodes among the given. -/
def pick (row : ℕ → Option (List ℕ)) (nodes : List ℕ) : List (Elem × ℕ) → Option (List ℕ)
  | [] => some []
  | (e, i) :: l =>
    match row i, pick row nodes l with
    | some r, some x => some (if r.length ≠ 1 then x else if e.all (nodes.contains ·) then i :: x else x)
    | _, _ => none

/-- In two dimensions (`Contact.cc:163-198`). -/
def findEdges (m : Mesh) (nodes : List ℕ) : Option (List ℕ) := pick (edgeRow m) nodes m.edges.zipIdx

/-- The edges of triangles, as a `std::set` of numbers (`Contact.cc:241-253`). The numbers are those of edges. -/
def sides (m : Mesh) (ts : List ℕ) : Option (List ℕ) :=
  (ts.mapM (sideRow m)).map fun ls => (List.range m.edges.length).filter fun i => ls.flatten.contains i

/-- `FindTriangles` for one region (`Contact.cc:201-254`): edges and triangles. -/
def findTriangles (m : Mesh) (nodes : List ℕ) : Option (List ℕ × List ℕ) :=
  match pick (tetRow m) nodes m.tris.zipIdx with
  | none => none
  | some ts => (sides m ts).map fun es => (es, ts)

/-! ### Contacts -/

/-- A contact (`Contact.hh`): region, nodes, and the elements that are stored. -/
structure Con where
  region : String
  nodes : List ℕ
  material : String
  edges : List ℕ := []
  tris : List ℕ := []
deriving DecidableEq, Repr

/-- `Contact::FindTriangles` (`Contact.cc:201-254`) -/
def Con.findTris (m : Mesh) (c : Con) : Option Con := (findTriangles m c.nodes).map fun p => { c with edges := p.1, tris := p.2 }

/-- `Contact::FindEdges` (`Contact.cc:146-199`) -/
def Con.findEdgs (m : Mesh) (c : Con) : Option Con :=
  if m.dim = 1 then some c
  else if m.dim = 3 then c.findTris m
  else (findEdges m c.nodes).map fun l => { c with edges := l }

/-- `Contact::GetEdges` (`Contact.cc:256-263`): the contact afterwards, its edges are the result. -/
def Con.getEdges (m : Mesh) (c : Con) : Option Con := if c.edges = [] then c.findEdgs m else some c

/-- `Contact::GetTriangles` (`Contact.cc:265-272`) -/
def Con.getTris (m : Mesh) (c : Con) : Option Con := if c.tris = [] then c.findTris m else some c

/-! ### Interfaces -/

/-- An interface (`Interface.hh`): both sides. -/
structure Itf where
  region0 : String
  region1 : String
  nodes0 : List ℕ
  nodes1 : List ℕ
  edges0 : List ℕ := []
  edges1 : List ℕ := []
  tris0 : List ℕ := []
  tris1 : List ℕ := []
  provided : Bool := false
deriving DecidableEq, Repr

/-- `Interface::FindTriangles` (`Interface.cc:275-377`) -/
def Itf.findTris (m0 m1 : Mesh) (f : Itf) : Option Itf :=
  if m0.dim ≠ m1.dim then none
  else match findTriangles m0 f.nodes0, findTriangles m1 f.nodes1 with
    | some p0, some p1 => some { f with edges0 := p0.1, tris0 := p0.2, edges1 := p1.1, tris1 := p1.2, provided := false }
    | _, _ => none

/-- `Interface::FindEdges` (`Interface.cc:193-273`) -/
def Itf.findEdgs (m0 m1 : Mesh) (f : Itf) : Option Itf :=
  if m0.dim ≠ m1.dim then none
  else if m0.dim = 1 then some f
  else if m0.dim = 3 then f.findTris m0 m1
  else match findEdges m0 f.nodes0, findEdges m1 f.nodes1 with
    | some l0, some l1 => some { f with edges0 := l0, edges1 := l1, provided := false }
    | _, _ => none

/-- `GetEdges0`, `GetEdges1`, `GetTriangles0`, `GetTriangles1` (`Interface.cc:379-413`) -/
def Itf.getEdges0 (m0 m1 : Mesh) (f : Itf) : Option Itf := if f.edges0 = [] then f.findEdgs m0 m1 else some f
def Itf.getEdges1 (m0 m1 : Mesh) (f : Itf) : Option Itf := if f.edges1 = [] then f.findEdgs m0 m1 else some f
def Itf.getTris0 (m0 m1 : Mesh) (f : Itf) : Option Itf := if f.tris0 = [] then f.findTris m0 m1 else some f
def Itf.getTris1 (m0 m1 : Mesh) (f : Itf) : Option Itf := if f.tris1 = [] then f.findTris m0 m1 else some f

/-- What a loader does with the elements of its file (`DevsimLoader.cc:624-626`, `GmshLoader.cc:692-694`):
`AddTriangles`, then `AddEdges` (`Interface.cc:460-479`). -/
def Itf.load (f : Itf) (t0 t1 e0 e1 : List ℕ) : Itf := { f with tris0 := t0, tris1 := t1, edges0 := e0, edges1 := e1, provided := true }

/-! ### Devices and commands -/

/-- A device: dimension, regions, contacts and interfaces by name; the number of the coordinate of a node. -/
structure Dev where
  dim : ℕ
  regions : String → Option Mesh
  contacts : String → Option Con
  interfaces : String → Option Itf

inductive Res
  | ok (d : Dev)
  | error
  | crash

def put {α : Type} (f : String → Option α) (n : String) (a : α) : String → Option α := fun k => if k = n then some a else f k

/-- `Device::AddContact` (`Device.cc:79-143`): an assertion, then the contact is entered. (Warnings and the table of contacts at
coordinates are left out.) -/
def Dev.addContact (d : Dev) (n : String) (c : Con) : Res :=
  match d.contacts n with
  | some _ => .crash
  | none => .ok { d with contacts := put d.contacts n c }

/-- `Device::AddInterface` (`Device.cc:145-213`) -/
def Dev.addInterface (d : Dev) (n : String) (f : Itf) : Res :=
  match d.interfaces n with
  | some _ => .crash
  | none => if f.nodes0.length ≠ f.nodes1.length then .crash else .ok { d with interfaces := put d.interfaces n f }

/-- `create_contact_from_interface` (`MeshingCommands.cc:1132-1202`) on a device: names of the new contact, its material, the region
and the interface. The interface is changed when its elements have to be found. -/
def Dev.contactFromInterface (d : Dev) (name material region interface : String) : Res :=
  if name = "" ∨ material = "" then .error
  else match d.regions region, d.interfaces interface with
    | some _, some f =>
      match d.contacts name with
      | some _ => .error
      | none =>
        match d.regions f.region0, d.regions f.region1 with
        | some m0, some m1 =>
          if f.region0 = region then
            match f.getTris0 m0 m1 with
            | none => .crash
            | some f1 =>
              match f1.getEdges0 m0 m1 with
              | none => .crash
              | some f2 => Dev.addContact { d with interfaces := put d.interfaces interface f2 } name
                  { region := region, nodes := f.nodes0, material := material, tris := f1.tris0, edges := f2.edges0 }
          else if f.region1 = region then
            match f.getTris1 m0 m1 with
            | none => .crash
            | some f1 =>
              match f1.getEdges1 m0 m1 with
              | none => .crash
              | some f2 => Dev.addContact { d with interfaces := put d.interfaces interface f2 } name
                  { region := region, nodes := f.nodes1, material := material, tris := f1.tris1, edges := f2.edges1 }
          else .error
        | _, _ => .crash
    | _, _ => .error

/-- `create_interface_from_nodes` (`MeshingCommands.cc:1204-1315`); the lists of nodes are those that could be converted. -/
def Dev.interfaceFromNodes (d : Dev) (name region0 region1 : String) (nodes0 nodes1 : List ℕ) : Res :=
  if name = "" then .error
  else match d.regions region0, d.regions region1 with
    | some m0, some m1 =>
      if (nodes0 = [] ∨ nodes1 = []) ∨ nodes0.length ≠ nodes1.length then .error
      else if ¬ (nodes0.all (· < m0.n) ∧ nodes1.all (· < m1.n)) then .error
      else d.addInterface name { region0 := region0, region1 := region1, nodes0 := nodes0, nodes1 := nodes1 }
    | _, _ => .error

/-- `get_element_node_list` for a contact (`GeometryCommands.cc:293-318`): the elements, and the contact afterwards. -/
def Con.elements (m : Mesh) (c : Con) : Option (Con × List Elem) :=
  if m.dim = 3 then (c.getTris m).map fun c => (c, c.tris.map fun t => m.tris.getD t [])
  else if m.dim = 2 then (c.getEdges m).map fun c => (c, c.edges.map fun t => m.edges.getD t [])
  else some (c, if c.nodes = [] then [] else [c.nodes])

/-- What is written of an interface in a file (`DevsimRestartWriter.cc:326-369`): pairs of nodes, or pairs of elements. -/
inductive Written
  | nodes (l : List (ℕ × ℕ))
  | elems (l : List (ℕ × ℕ))
  | nothing
deriving DecidableEq, Repr

def Itf.write (dim : ℕ) (m0 m1 : Mesh) (f : Itf) : Option (Itf × Written) :=
  if dim = 1 ∨ f.provided = false then some (f, .nodes (f.nodes0.zip f.nodes1))
  else if dim = 2 then
    match f.getEdges0 m0 m1 with
    | none => none
    | some f1 => match f1.getEdges1 m0 m1 with
      | none => none
      | some f2 => some (f2, if f2.edges0 ≠ [] ∧ f2.edges0.length = f2.edges1.length then .elems (f2.edges0.zip f2.edges1) else .nothing)
  else
    match f.getTris0 m0 m1 with
    | none => none
    | some f1 => match f1.getTris1 m0 m1 with
      | none => none
      | some f2 => some (f2, if f2.tris0 ≠ [] ∧ f2.tris0.length = f2.tris1.length then .elems (f2.tris0.zip f2.tris1) else .nothing)

end Verif.Bnd
