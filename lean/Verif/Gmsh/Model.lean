import Verif.MeshIO.Load
import Verif.MeshIO.LexLemmas

/-!
# Meshes made by Gmsh

`GmshLoader.hh`, `GmshLoader.cc`, `MeshLoaderUtility.cc`, `GmshReader.cc` and the commands
`create_gmsh_mesh`, `add_gmsh_region`, `add_gmsh_contact`, `add_gmsh_interface`, `finalize_mesh`,
`create_device` (`MeshingCommands.cc`). Mesh elements are increasing lists of coordinate indices, as in
`Verif.MeshIO`. Messages are left out; the verdict of a command is kept.
-/

namespace Verif.Gmsh
open Verif.MeshIO

variable {α : Type}

/-- How a command ends: success, an error that it reports, an exception of `dsAssert`, or undefined
behaviour of the program (a null pointer is followed, or a vector is read past its end). -/
inductive Res
  | ok | fail | throw | crash
deriving DecidableEq, Repr

/-- `dsMesh::GmshElement` (`GmshLoader.hh:30-41`): `POINT` 0, `LINE` 1, `TRIANGLE` 2, `TETRAHEDRON` 3, and the
physical number. The number of the element is not used. The node indices are kept as `size_t`, as the constructors of
the mesh elements take them. -/
structure Elem where
  ty : Nat
  phys : Nat
  nodes : List Nat
deriving DecidableEq, Repr

/-- `dsMesh::Shapes` (`MeshLoaderUtility.hh:19-40`) -/
structure Shapes where
  pts : List Nat := []
  lines : List (List Nat) := []
  tris : List (List Nat) := []
  tets : List (List Nat) := []

/-- `dsMesh::GmshRegionInfo` (`GmshLoader.hh:65-81`) -/
structure RInfo where
  pnames : List Text := []
  material : Text := []
deriving DecidableEq

/-- `dsMesh::GmshContactInfo` (`GmshLoader.hh:54-62`) -/
structure CInfo where
  pnames : List Text := []
  region : Text := []
  material : Text := []
deriving DecidableEq

/-- `dsMesh::GmshInterfaceInfo` (`GmshLoader.hh:44-52`) -/
structure IInfo where
  pnames : List Text := []
  region0 : Text := []
  region1 : Text := []
deriving DecidableEq

/-- `dsMesh::GmshLoader` (`GmshLoader.hh:83-197`, `GmshLoader.cc:130-133`) -/
structure Gmsh (α : Type) where
  phys : Nat → SMap Nat Text := fun _ => []
  coords : List (Nat × (α × α × α)) := []
  elems : List Elem := []
  contacts : SMap Text CInfo := []
  ifaces : SMap Text IInfo := []
  regions : SMap Text RInfo := []
  shapes : SMap Text Shapes := []
  dim : Nat := 0
  maxIdx : Nat := 0
  finalized : Bool := false

/-! ### The description of a mesh -/

/-- `AddPhysicalName` (`GmshLoader.hh:99-102`) -/
def Gmsh.addPhys (G : Gmsh α) (d i : Nat) (n : Text) : Gmsh α :=
  { G with phys := fun d' => if d' = d then (G.phys d').put i n else G.phys d' }

/-- `AddCoordinate` (`GmshLoader.hh:113-121`) -/
def Gmsh.addCoord (G : Gmsh α) (i : Nat) (c : α × α × α) : Gmsh α :=
  { G with coords := G.coords ++ [(i, c)], maxIdx := if i > G.maxIdx then i else G.maxIdx }

/-- `AddElement` (`GmshLoader.hh:124-127`) -/
def Gmsh.addElem (G : Gmsh α) (e : Elem) : Gmsh α := { G with elems := G.elems ++ [e] }

/-- `MapPhysicalNameToContact` (`GmshLoader.hh:129-141`) -/
def Gmsh.mapContact (G : Gmsh α) (p c r m : Text) : Gmsh α :=
  let i := (G.contacts.get c).getD {}
  let i := if p ≠ [] then { i with pnames := i.pnames ++ [p] } else i
  let i := if r ≠ [] then { i with region := r, material := m } else i
  if p ≠ [] ∨ r ≠ [] then { G with contacts := G.contacts.put c i } else G

/-- `MapPhysicalNameToInterface` (`GmshLoader.hh:143-157`) -/
def Gmsh.mapIface (G : Gmsh α) (p n r0 r1 : Text) : Gmsh α :=
  let i := (G.ifaces.get n).getD {}
  let i := if p ≠ [] then { i with pnames := i.pnames ++ [p] } else i
  let i := if r0 ≠ [] then { i with region0 := r0 } else i
  let i := if r1 ≠ [] then { i with region1 := r1 } else i
  if p ≠ [] ∨ r0 ≠ [] ∨ r1 ≠ [] then { G with ifaces := G.ifaces.put n i } else G

/-- `MapPhysicalNameToRegion` (`GmshLoader.hh:159-169`) -/
def Gmsh.mapRegion (G : Gmsh α) (p r m : Text) : Gmsh α :=
  let i := (G.regions.get r).getD {}
  let i := if p ≠ [] then { i with pnames := i.pnames ++ [p] } else i
  let i := if m ≠ [] then { i with material := m } else i
  if p ≠ [] ∨ m ≠ [] then { G with regions := G.regions.put r i } else G

/-- The commands that describe a mesh. -/
inductive Cmd
  | region (gmsh name mat : Text)
  | contact (gmsh name region mat : Text)
  | iface (gmsh name region0 region1 : Text)

/-- `addGmshRegionCmd`, `addGmshContactCmd`, `addGmshInterfaceCmd` (`MeshingCommands.cc:984-1126`) on a mesh that exists
and is a Gmsh mesh: it must not be finalized, and no option may be empty. -/
def step (G : Gmsh α) : Cmd → Option (Gmsh α)
  | .region g n m => if G.finalized ∨ n = [] ∨ g = [] ∨ m = [] then none else some (G.mapRegion g n m)
  | .contact g n r m => if G.finalized ∨ n = [] ∨ m = [] ∨ g = [] ∨ r = [] then none else some (G.mapContact g n r m)
  | .iface g n r0 r1 => if G.finalized ∨ n = [] ∨ g = [] ∨ r0 = [] ∨ r1 = [] then none else some (G.mapIface g n r0 r1)

/-- A sequence of commands, all of which succeed. -/
def run (G : Gmsh α) : List Cmd → Option (Gmsh α)
  | [] => some G
  | c :: cs => (step G c).bind fun G => run G cs

/-! ### `create_gmsh_mesh` with lists -/

/-- `node_indexes[i] = elements[...]` (`GmshReader.cc:119`), a conversion of `size_t` to `int`, and the conversion back
to `size_t` by the constructors of mesh elements (`MeshLoaderStructs.hh:187`, `208`, `256`, `322`). -/
def narrow (n : Nat) : Nat :=
  let k := n % 4294967296
  if k < 2147483648 then k else k + 18446744069414584320

/-- The loop over the elements (`GmshReader.cc:52-126`); `dims` is `physical_dimensions`. A list whose last element lacks
its last node passes the check in line 86 and is read past its end in line 119. -/
def loadElems (np : Nat) : List Nat → SMap Nat Nat → Gmsh α → Res × SMap Nat Nat × Gmsh α
  | [], dims, G => (.ok, dims, G)
  | t :: rest, dims, G =>
    let ty := narrow t
    if ty > 3 then (.fail, dims, G)
    else if rest.length < ty + 1 then (.fail, dims, G)
    else match rest with
    | [] => (.fail, dims, G)
    | p :: rest =>
      if p > np then (.fail, dims, G)
      else if (dims.get p).getD ty ≠ ty then (.fail, dims, G)
      else if rest.length < ty + 1 then (.crash, dims, G)
      else loadElems np (rest.drop (ty + 1)) (if dims.has p then dims else dims.put p ty)
        (G.addElem { ty := ty, phys := p, nodes := (rest.take (ty + 1)).map narrow })
termination_by l => l.length
decreasing_by simp only [List.length_drop, List.length_cons]; omega

/-- The loop over the physical names (`GmshReader.cc:136-151`), from the name with index `i` on. -/
def loadNames (dims : SMap Nat Nat) : Nat → List Text → Gmsh α → Res × Gmsh α
  | _, [], G => (.ok, G)
  | i, n :: ns, G => match dims.get i with
    | some d => loadNames dims (i + 1) ns (G.addPhys d i n)
    | none => (.fail, G)

/-- The loop over the coordinates (`GmshReader.cc:40-43`), from the index `i` on. -/
def loadCoords : Nat → List α → Gmsh α → Gmsh α
  | i, x :: y :: z :: cs, G => loadCoords (i + 1) cs (G.addCoord i (x, y, z))
  | _, _, G => G

/-- `LoadMeshesFromArgs` (`GmshReader.cc:25-154`). The mesh is put into the list of meshes before anything is read, so
that it is there after a failure. -/
def loadArgs (coords : List α) (pnames : List Text) (els : List Nat) : Res × Gmsh α :=
  if coords.length % 3 ≠ 0 then (.fail, {})
  else
    let G := loadCoords 0 coords {}
    let r := loadElems pnames.length els [] G
    if r.1 ≠ .ok then (r.1, r.2.2)
    else loadNames r.2.1 0 pnames r.2.2

/-! ### `finalize_mesh` -/

/-- `Shapes::AddShape` (`MeshLoaderUtility.cc:72-95`) -/
def Shapes.add (s : Shapes) (e : Elem) : Shapes :=
  match e.ty with
  | 0 => { s with pts := s.pts ++ e.nodes.take 1 }
  | 1 => { s with lines := s.lines ++ [mkElem (e.nodes.take 2)] }
  | 2 => { s with tris := s.tris ++ [mkElem (e.nodes.take 3)] }
  | 3 => { s with tets := s.tets ++ [mkElem (e.nodes.take 4)] }
  | _ => s

/-- The triangles of a tetrahedron (`MeshLoaderUtility.cc:23-35`). -/
def tetTris : List Nat → List (List Nat)
  | [a, b, c, d] => [mkElem [a, b, c], mkElem [a, b, d], mkElem [a, c, d], mkElem [b, c, d]]
  | _ => []

/-- The lines of a triangle (`MeshLoaderUtility.cc:41-51`). -/
def triLines : List Nat → List (List Nat)
  | [a, b, c] => [mkElem [a, b], mkElem [a, c], mkElem [b, c]]
  | _ => []

/-- `Shapes::DecomposeAndUniquify` (`MeshLoaderUtility.cc:17-70`) -/
def Shapes.decompose (s : Shapes) : Shapes :=
  let tets := sortUniq s.tets
  let tris := sortUniq (s.tris ++ tets.flatMap tetTris)
  let lines := sortUniq (s.lines ++ tris.flatMap triLines)
  let pts := sortUniq (s.pts ++ lines.flatten)
  { pts := pts, lines := lines, tris := tris, tets := tets }

/-- `Shapes::GetDimension` (`MeshLoaderUtility.cc:97-119`) -/
def Shapes.dim (s : Shapes) : Nat :=
  if !s.tets.isEmpty then 3 else if !s.tris.isEmpty then 2 else if !s.lines.isEmpty then 1 else 0

/-- `Shapes::GetNumberOfTypes` (`MeshLoaderUtility.cc:121-146`) -/
def Shapes.numTypes (s : Shapes) : Nat :=
  (if !s.tets.isEmpty then 1 else 0) + (if !s.tris.isEmpty then 1 else 0) + (if !s.lines.isEmpty then 1 else 0) +
    (if !s.pts.isEmpty then 1 else 0)

/-- The name of the physical group of an element (`GmshLoader.cc:728-743`): the name that was given for its dimension and
number, or the number. -/
def Gmsh.groupName (G : Gmsh α) (e : Elem) : Text := ((G.phys e.ty).get e.phys).getD (showNat e.phys)

/-- The groups (`GmshLoader.cc:724-746`). -/
def Gmsh.groups (G : Gmsh α) : SMap Text Shapes :=
  G.elems.foldl (fun m e => m.put (G.groupName e) (((m.get (G.groupName e)).getD {}).add e)) G.shapes

/-- `GmshLoader::Finalize_` (`GmshLoader.cc:717-782`), `Mesh::Finalize` (`Mesh.cc:51-66`) -/
def Gmsh.finalize (G : Gmsh α) : Bool × Gmsh α :=
  if G.finalized then (false, G)
  else
    let m := G.groups
    let ok := m.all fun e => e.2.numTypes = 1
    let dim := m.foldl (fun d e => if e.2.numTypes ≠ 1 then d else if e.2.dim > d then e.2.dim else d) G.dim
    (ok, { G with shapes := m.map fun e => (e.1, e.2.decompose)
                  dim := dim
                  finalized := ok })

/-! ### `create_device` -/

/-- `GetUniqueNodesFromPhysicalNames`, ..., `GetUniqueEdgesFromPhysicalNames` (`GmshLoader.cc:148-226`). A name that no
group has stands for an empty group; that the code enters the empty group into its map is left out. -/
def Gmsh.uniq {β : Type} [LinearOrder β] (G : Gmsh α) (sel : Shapes → List β) (ps : List Text) : List β :=
  sortUniq (ps.flatMap fun p => sel ((G.shapes.get p).getD {}))

/-- `coordinate_list` (`GmshLoader.cc:245-255`): which coordinate of the device has a given index in the mesh. A later
coordinate replaces an earlier one with the same index. -/
def Gmsh.pos (G : Gmsh α) : Nat → Option Nat :=
  G.coords.zipIdx.foldl (fun f c => fun i => if i = c.1.1 then some c.2 else f i) fun _ => none

/-- The place of a node in its region (`Region::SetNodeIndexes`, `Region.cc:306-318`). -/
def loc (ids : List Nat) (e : List Nat) : List Nat := e.map fun i => ids.idxOf i

/-- A region of the device (`GmshLoader.cc:262-343`), and the mesh indices of its nodes (`RegionNameToNodeMap`). The
result is `false` when `dsAssert` throws (`GmshLoader.cc:40-42`, `59-63`, `80-87`, `105-113`, or in
`Region::FinalizeMesh`). -/
def mkRegion (env : Env α) (G : Gmsh α) (ri : RInfo) : Bool × List Nat × Reg α :=
  let ids := G.uniq (·.pts) ri.pnames
  let r : Reg α := { material := ri.material, dim := G.dim, nodes := [] }
  if ids.all (fun i => i < G.maxIdx + 1 && (G.pos i).isSome) then
    let r := { r with nodes := ids.map fun i => (G.pos i).getD 0 }
    let tets := if G.dim = 3 then G.uniq (·.tets) ri.pnames else []
    let tris := if G.dim ≥ 2 then G.uniq (·.tris) ri.pnames else []
    let lines := G.uniq (·.lines) ri.pnames
    let on := fun (e : List Nat) => e.all (· ∈ ids)
    if tets.all on && tris.all on && lines.all on then
      let r := { r with tets := tets.map (loc ids), tris := tris.map (loc ids), edges := lines.map (loc ids) }
      if env.topoOK r.dim r.nodes.length r.edges r.tris r.tets then (true, ids, r.defaults env) else (false, ids, r)
    else (false, ids, r)
  else (false, ids, r)

/-- All regions; the first one that throws ends the command. -/
def mkRegions (env : Env α) (G : Gmsh α) :
    SMap Text RInfo → SMap Text (List Nat × Reg α) → Bool × SMap Text (List Nat × Reg α)
  | [], acc => (true, acc)
  | (n, ri) :: rs, acc =>
    let r := mkRegion env G ri
    if r.1 then mkRegions env G rs (acc.put n r.2) else (false, acc.put n r.2)

/-- What becomes of a contact or an interface: it is made, it is left out, or the program is lost. -/
inductive Made (β : Type)
  | made (b : β)
  | skip
  | crash

/-- The dimension of the group of a contact (`GmshLoader.cc:381-396`) or of an interface (`GmshLoader.cc:570-585`). -/
def dimOK (dim : Nat) (tris lines : List (List Nat)) : Bool :=
  if dim = 2 && !tris.isEmpty then false else if dim = 1 && !lines.isEmpty then false else true

/-- One contact (`GmshLoader.cc:353-492`). A node that is not on the region is reported and left out; then the edges and
triangles are looked up, and a null pointer (`nodeList[...]`, lines 463-464, 476-478) is followed in `Region::FindEdge`
and `Region::FindTriangle`. `FindTriangle` reads a list that a region without triangles does not have
(`Region.cc:749-755`, `1643-1645`). -/
def mkContact (G : Gmsh α) (regs : SMap Text (List Nat × Reg α)) (ci : CInfo) : Bool × Made Con :=
  match regs.get ci.region with
  | none => (false, .skip)
  | some (ids, r) =>
    let ns := G.uniq (·.pts) ci.pnames
    let es := G.uniq (·.lines) ci.pnames
    let ts := G.uniq (·.tris) ci.pnames
    let ok := dimOK G.dim ts es && ns.all (· ∈ ids)
    let ns := ns.filter (· ∈ ids)
    let on := fun (e : List Nat) => e.all (· ∈ ids)
    if ns.isEmpty then (false, .skip)
    else if es.all on && ts.all on && (ts.isEmpty || !r.tris.isEmpty) then
      (ok, .made { region := ci.region, material := ci.material, nodes := loc ids ns,
                   edges := es.filterMap fun e => findElem r.edges (loc ids e),
                   tris := ts.filterMap fun e => findElem r.tris (loc ids e) })
    else (ok, .crash)

/-- Two elements, one in each region; dropped unless both exist. -/
def findBoth (l0 l1 : List (List Nat)) (ids0 ids1 : List Nat) (e : List Nat) : Option (List Nat × List Nat) :=
  match findElem l0 (loc ids0 e), findElem l1 (loc ids1 e) with
  | some a, some b => some (a, b)
  | _, _ => none

/-- One interface (`GmshLoader.cc:502-699`). -/
def mkIface (G : Gmsh α) (regs : SMap Text (List Nat × Reg α)) (ii : IInfo) : Bool × Made Ifc :=
  match regs.get ii.region0, regs.get ii.region1 with
  | some (ids0, r0), some (ids1, r1) =>
    let ns := G.uniq (·.pts) ii.pnames
    let es := G.uniq (·.lines) ii.pnames
    let ts := G.uniq (·.tris) ii.pnames
    let on := fun (i : Nat) => i ∈ ids0 && i ∈ ids1
    let ok := dimOK G.dim ts es && ns.all on
    let ns := ns.filter on
    if ns.isEmpty then (false, .skip)
    else if es.all (·.all on) && ts.all (·.all on) && (ts.isEmpty || (!r0.tris.isEmpty && !r1.tris.isEmpty)) then
      let es := es.filterMap (findBoth r0.edges r1.edges ids0 ids1)
      let ts := ts.filterMap (findBoth r0.tris r1.tris ids0 ids1)
      (ok, .made { region0 := ii.region0, region1 := ii.region1, nodes0 := loc ids0 ns, nodes1 := loc ids1 ns,
                   edges0 := es.map Prod.fst, edges1 := es.map Prod.snd,
                   tris0 := ts.map Prod.fst, tris1 := ts.map Prod.snd })
    else (ok, .crash)
  | _, _ => (false, .skip)

/-- All contacts, or all interfaces: an error does not end the loop. -/
def mkAll {ι β : Type} (f : ι → Bool × Made β) : SMap Text ι → Res × SMap Text β → Res × SMap Text β
  | [], st => st
  | (n, i) :: is, st =>
    let r := f i
    match r.2 with
    | .crash => (.crash, st.2)
    | .skip => mkAll f is (.fail, st.2)
    | .made b => mkAll f is (if r.1 then st.1 else .fail, st.2.put n b)

/-- `GmshLoader::Instantiate_` (`GmshLoader.cc:228-714`), `Mesh::Instantiate` (`Mesh.cc:35-49`). What is left after a
crash has no meaning. -/
def instantiate (env : Env α) (G : Gmsh α) (name : Text) (devs : Devs α) : Res × Devs α :=
  if !G.finalized then (.fail, devs)
  else if devs.has name then (.fail, devs)
  else
    let rs := mkRegions env G G.regions []
    let dev : Dev α := { dim := G.dim, coords := G.coords.map Prod.snd, regions := rs.2.map fun e => (e.1, e.2.2) }
    if !rs.1 then (.throw, devs.put name dev)
    else
      let cs := mkAll (mkContact G rs.2) G.contacts (.ok, [])
      let dev := { dev with contacts := cs.2 }
      if cs.1 = .crash then (.crash, devs.put name dev)
      else
        let is := mkAll (mkIface G rs.2) G.ifaces (cs.1, [])
        (is.1, devs.put name { dev with ifaces := is.2 })

end Verif.Gmsh
