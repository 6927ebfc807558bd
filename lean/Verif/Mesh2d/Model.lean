import Verif.Mesh.Model1d
import Verif.MeshIO.Load

/-!
# Two-dimensional meshes: model (`src/meshing/{Mesh2d,Mesh2dStructs}.cc`, `src/commands/MeshingCommands.cc`)

`double` is ℝ.  A mesh is handed to the loader of `Verif.MeshIO.Load`, which makes the device.
-/

namespace Verif.Mesh2d
open Classical Verif.MeshIO
open Verif.Mesh (getPoints Res)

/-- `MeshLine2d`, `Mesh2dStructs.hh:73-116`. -/
structure Line where
  pos : ℝ
  ps : ℝ
  ns : ℝ

/-- `BoundingBox`, `Mesh2dStructs.hh:16-68`. -/
structure Box where
  x0 : ℝ
  x1 : ℝ
  y0 : ℝ
  y1 : ℝ
  bloat : ℝ

/-- The constructor of `BoundingBox`, `Mesh2dStructs.hh:19-31`. -/
noncomputable def mkBox (x0 x1 y0 y1 b : ℝ) : Box :=
  ⟨if x0 > x1 then x1 else x0, if x0 > x1 then x0 else x1,
   if y0 > y1 then y1 else y0, if y0 > y1 then y0 else y1, b⟩

/-- `BoundingBox::IsPointInside`, `Mesh2dStructs.hh:34-42`. -/
def Box.inside (b : Box) (x y : ℝ) : Prop :=
  x > b.x0 - b.bloat ∧ x < b.x1 + b.bloat ∧ y > b.y0 - b.bloat ∧ y < b.y1 + b.bloat

/-- `InsideBoundingBox`, `Mesh2dStructs.cc:54-66`. -/
def insideBoxes (bs : List Box) (x y : ℝ) : Prop := ∃ b ∈ bs, b.inside x y

/-- `MeshRegion2d`, without its name. -/
structure RegDef where
  material : Text
  boxes : List Box

/-- `MeshContact2d`, without its name. -/
structure ConDef where
  material : Text
  region : Text
  boxes : List Box

/-- `MeshInterface2d`, without its name. -/
structure IfcDef where
  region0 : Text
  region1 : Text
  boxes : List Box

/-- `Mesh2d`, `Mesh2d.hh:70-86`.  A map (`regions`) together with the order in which its entries were made
(`regionOrder`) is one list of entries in that order. -/
structure Mesh2 where
  xlines : List Line := []
  ylines : List Line := []
  regions : List (Text × RegDef) := []
  contacts : List (Text × ConDef) := []
  ifaces : List (Text × IfcDef) := []

/-! ### Commands -/

/-- Changing the entry of a name. -/
def setEntry {β : Type} (l : List (Text × β)) (n : Text) (f : β → β) : List (Text × β) :=
  l.map fun e => if e.1 = n then (e.1, f e.2) else e

/-- `AddRegion`, `Mesh2d.cc:417-439`, for an object with the boxes of `r`: the mesh, and whether the object is now
the one in the mesh. -/
def addRegion (m : Mesh2) (n : Text) (r : RegDef) : Mesh2 × Bool :=
  if n ∈ m.regions.map Prod.fst then
    ({ m with regions := setEntry m.regions n fun o => { o with boxes := o.boxes ++ r.boxes } }, false)
  else ({ m with regions := m.regions ++ [(n, r)] }, true)

/-- `AddContact`, `Mesh2d.cc:467-490`. -/
def addContact (m : Mesh2) (n : Text) (c : ConDef) : Mesh2 × Bool :=
  if n ∈ m.contacts.map Prod.fst then
    ({ m with contacts := setEntry m.contacts n fun o => { o with boxes := o.boxes ++ c.boxes } }, false)
  else ({ m with contacts := m.contacts ++ [(n, c)] }, true)

/-- `AddInterface`, `Mesh2d.cc:441-465`. -/
def addIface (m : Mesh2) (n : Text) (c : IfcDef) : Mesh2 × Bool :=
  if n ∈ m.ifaces.map Prod.fst then
    ({ m with ifaces := setEntry m.ifaces n fun o => { o with boxes := o.boxes ++ c.boxes } }, false)
  else ({ m with ifaces := m.ifaces ++ [(n, c)] }, true)

/-- `dir` of `add_2d_mesh_line`. -/
inductive Dir
  | x | y | other
deriving DecidableEq

/-- The commands that describe a mesh, with their numbers; `xl`, `xh`, `yl`, `yh`, `bloat` have their values
or their defaults. -/
inductive Cmd
  | line (dir : Dir) (pos ps ns : ℝ)
  | region (name material : Text) (xl xh yl yh bloat : ℝ)
  | contact (name material region : Text) (xl xh yl yh bloat : ℝ)
  | iface (name region0 region1 : Text) (xl xh yl yh bloat : ℝ)

/-- `add2dMeshLineCmd`, `add2dRegionCmd`, `add2dContactCmd`, `add2dInterfaceCmd`, `MeshingCommands.cc:239-306`,
`404-528`, `581-637`: `none` if the command is refused.  The object is given to the mesh before it gets its box, so a box
goes to the mesh only if the object was new.  That the mesh exists, is two-dimensional and is not finalized is not
modelled. -/
noncomputable def step (m : Mesh2) : Cmd → Option Mesh2
  | .line d pos ps ns =>
    if ps ≤ 0 then none
    else
      let l : Line := ⟨pos, ps, if ns ≤ 0 then ps else ns⟩
      match d with
      | .x => some { m with xlines := m.xlines ++ [l] }
      | .y => some { m with ylines := m.ylines ++ [l] }
      | .other => none
  | .region n mat xl xh yl yh b =>
    if n = [] ∨ mat = [] then none
    else
      let r := addRegion m n ⟨mat, []⟩
      let bb := mkBox xl xh yl yh b
      some (if r.2 then { r.1 with regions := setEntry r.1.regions n fun o => { o with boxes := o.boxes ++ [bb] } }
            else r.1)
  | .contact n mat reg xl xh yl yh b =>
    if n = [] ∨ mat = [] ∨ reg = [] then none
    else
      let r := addContact m n ⟨mat, reg, []⟩
      let bb := mkBox xl xh yl yh b
      some (if r.2 then { r.1 with contacts := setEntry r.1.contacts n fun o => { o with boxes := o.boxes ++ [bb] } }
            else r.1)
  | .iface n r0 r1 xl xh yl yh b =>
    if n = [] ∨ r0 = [] ∨ r1 = [] then none
    else if r0 = r1 then none
    else
      let r := addIface m n ⟨r0, r1, []⟩
      let bb := mkBox xl xh yl yh b
      some (if r.2 then { r.1 with ifaces := setEntry r.1.ifaces n fun o => { o with boxes := o.boxes ++ [bb] } }
            else r.1)

/-- A script: a refused command leaves the mesh as it was. -/
noncomputable def script (m : Mesh2) : List Cmd → Mesh2
  | [] => m
  | c :: cs => script ((step m c).getD m) cs

/-! ### Positions -/

/-- The loop over the sorted lines, `Mesh2d.cc:117-140`: a line at the position of the line before it is left out. -/
noncomputable def dropEqual : Line → List Line → List Line
  | _, [] => []
  | p, l :: ls => if l.pos = p.pos then dropEqual l ls else l :: dropEqual l ls

/-- `Mesh2d.cc:97-145`. -/
noncomputable def unique : List Line → List Line
  | [] => []
  | a :: as => a :: dropEqual a as

/-- The loop of `GetLocations`, `Mesh2d.cc:50-66`: the positions after the line `a`. -/
noncomputable def locLoop (fuel : Nat) : Line → List Line → Res (List ℝ)
  | _, [] => .ok []
  | a, b :: bs =>
    if ¬ a.pos < b.pos then .assertion
    else match getPoints fuel a.pos b.pos a.ps b.ns with
      | none => .unfinished
      | some pts =>
        match locLoop fuel b bs with
        | .ok l => .ok (pts.tail ++ l)
        | r => r

/-- `GetLocations`, `Mesh2d.cc:40-68`. -/
noncomputable def locations (fuel : Nat) : List Line → Res (List ℝ)
  | [] => .assertion
  | a :: as =>
    match locLoop fuel a as with
    | .ok l => .ok (a.pos :: l)
    | r => r

/-! ### Grid -/

/-- `Mesh2d.cc:174-190`. -/
def gridCoords (xs ys : List ℝ) : List (ℝ × ℝ × ℝ) := xs.flatMap fun x => ys.map fun y => (x, y, 0)

/-- The two triangles of a cell, `Mesh2d.cc:195-201`; the constructor of `MeshTriangle` sorts the corners. -/
def cellTris (numy i j : Nat) : List (List Nat) :=
  let ul := i * numy + j
  let ur := (i + 1) * numy + j
  let ll := i * numy + (j + 1)
  let lr := (i + 1) * numy + (j + 1)
  [mkElem [ul, ur, ll], mkElem [ur, lr, ll]]

/-- `Mesh2d.cc:191-205`. -/
def gridTris (numx numy : Nat) : List (List Nat) :=
  (List.range (numx - 1)).flatMap fun i => (List.range (numy - 1)).flatMap fun j => cellTris numy i j

/-- `FindRegion`, `Mesh2d.cc:70-84`: the loop ends with the last region that contains the point. -/
noncomputable def findRegion (regions : List (Text × RegDef)) (x y : ℝ) : Option (Text × RegDef) :=
  regions.foldl (fun acc e => if insideBoxes e.2.boxes x y then some e else acc) none

/-- `coordinates[i]`. -/
noncomputable def at_ (coords : List (ℝ × ℝ × ℝ)) (i : Nat) : ℝ × ℝ × ℝ := coords.getD i (0, 0, 0)

/-- The loader and the tables of `Finalize_`: `CoordinateToNode` (`none` is `-1`), `MaxNodeIndex`, `nodesAtCoordinate`. -/
structure St where
  L : Loader ℝ
  cn : Text → Nat → Option Nat
  mni : Text → Nat
  cnt : Nat → Nat

/-- `Mesh2d.cc:254-273`: a node for the coordinate `i`, unless the region has one. -/
def addNode (n : Text) (s : St) (i : Nat) : St :=
  match s.cn n i with
  | some _ => s
  | none =>
    { L := { s.L with regions := SMap.mod s.L.regions n fun r => { r with nodes := r.nodes ++ [i] } }
      cn := fun n' i' => if n' = n ∧ i' = i then some (s.mni n) else s.cn n' i'
      mni := fun n' => if n' = n then s.mni n + 1 else s.mni n'
      cnt := fun i' => if i' = i then s.cnt i + 1 else s.cnt i' }

/-- `Mesh2d.cc:275-282`. -/
def addElems (n : Text) (s : St) (i0 i1 i2 : Nat) : St :=
  let n0 := (s.cn n i0).getD 0
  let n1 := (s.cn n i1).getD 0
  let n2 := (s.cn n i2).getD 0
  { s with L := { s.L with regions := SMap.mod s.L.regions n fun r =>
      { r with edges := r.edges ++ [mkElem [n0, n1], mkElem [n1, n2], mkElem [n2, n0]]
               tris := r.tris ++ [mkElem [n0, n1, n2]] } } }

/-- `Mesh2d.cc:237-245`. -/
def addMeshRegion (n mat : Text) (s : St) : St :=
  if s.L.regions.has n then s
  else { s with L := { s.L with regions := s.L.regions.put n { material := mat } } }

/-- The centre of a triangle, `Mesh2d.cc:229-233`. -/
noncomputable def centre (p q r : ℝ × ℝ × ℝ) : ℝ × ℝ := ((p.1 + q.1 + r.1) / 3, (p.2.1 + q.2.1 + r.2.1) / 3)

/-- One triangle, `Mesh2d.cc:222-296`. -/
noncomputable def addTri (coords : List (ℝ × ℝ × ℝ)) (regions : List (Text × RegDef)) (s : St) (t : List Nat) : St :=
  match t with
  | [i0, i1, i2] =>
    let c := centre (at_ coords i0) (at_ coords i1) (at_ coords i2)
    match findRegion regions c.1 c.2 with
    | none => s
    | some (n, d) => addElems n (addNode n (addNode n (addNode n (addMeshRegion n d.material s) i0) i1) i2) i0 i1 i2
  | _ => s

/-! ### Contacts and interfaces -/

/-- The loop over the contacts, `Mesh2d.cc:307-345`: the loader, and `found`. -/
noncomputable def tryContacts (coords : List (ℝ × ℝ × ℝ)) (known : Text → Prop) (cn : Text → Nat → Option Nat) (i : Nat) :
    List (Text × ConDef) → Loader ℝ → Loader ℝ × Bool
  | [], L => (L, false)
  | (n, c) :: cs, L =>
    if ¬ insideBoxes c.boxes (at_ coords i).1 (at_ coords i).2.1 then tryContacts coords known cn i cs L
    else
      let L := if L.contacts.has n then L
        else { L with contacts := L.contacts.put n { region := c.region, material := c.material } }
      match (if known c.region then cn c.region i else none) with
      | some k =>
        ({ L with contacts := SMap.mod L.contacts n fun o =>
            { o with elems := { o.elems with nodes := o.elems.nodes ++ [k] } } }, true)
      | none => tryContacts coords known cn i cs L

/-- The loop over the interfaces, `Mesh2d.cc:348-387`. -/
noncomputable def tryIfaces (coords : List (ℝ × ℝ × ℝ)) (known : Text → Prop) (cn : Text → Nat → Option Nat) (i : Nat) :
    List (Text × IfcDef) → Loader ℝ → Loader ℝ
  | [], L => L
  | (n, c) :: cs, L =>
    if ¬ insideBoxes c.boxes (at_ coords i).1 (at_ coords i).2.1 then tryIfaces coords known cn i cs L
    else
      let L := if L.ifaces.has n then L
        else { L with ifaces := L.ifaces.put n { region0 := c.region0, region1 := c.region1 } }
      match (if known c.region0 ∧ known c.region1 then (cn c.region0 i, cn c.region1 i) else (none, none)) with
      | (some k0, some k1) => { L with ifaces := SMap.mod L.ifaces n fun o => { o with pairs := o.pairs ++ [(k0, k1)] } }
      | _ => tryIfaces coords known cn i cs L

/-- One coordinate, `Mesh2d.cc:299-390`. -/
noncomputable def placeCoord (m : Mesh2) (coords : List (ℝ × ℝ × ℝ)) (s : St) (L : Loader ℝ) (i : Nat) : Loader ℝ :=
  if s.cnt i > 1 then
    let known := fun r => r ∈ m.regions.map Prod.fst
    let c := tryContacts coords known s.cn i m.contacts L
    if c.2 then c.1 else tryIfaces coords known s.cn i m.ifaces c.1
  else L

/-- The tables at the beginning, `Mesh2d.cc:211-220`. -/
def initial (name : Text) (coords : List (ℝ × ℝ × ℝ)) : St :=
  { L := { name := name, coords := coords }, cn := fun _ _ => none, mni := fun _ => 0, cnt := fun _ => 0 }

/-- From the positions to the loader, `Mesh2d.cc:170-390`. -/
noncomputable def build (name : Text) (m : Mesh2) (xs ys : List ℝ) : Loader ℝ :=
  let coords := gridCoords xs ys
  let s := (gridTris xs.length ys.length).foldl (addTri coords m.regions) (initial name coords)
  (List.range coords.length).foldl (placeCoord m coords s) s.L

/-- `Finalize_`, `Mesh2d.cc:86-403`: the mesh in the loader.  `sort` is `std::sort` of the lines by position; the
standard does not say in which order it leaves lines of equal position. -/
noncomputable def finalize (fuel : Nat) (sort : List Line → List Line) (name : Text) (m : Mesh2) : Res (Loader ℝ) :=
  let xl := unique (sort m.xlines)
  let yl := unique (sort m.ylines)
  if xl.length < 2 ∨ yl.length < 2 then .error
  else match locations fuel xl, locations fuel yl with
    | .ok xs, .ok ys =>
      let r := (build name m xs ys).finalize
      if r.1 then .ok r.2 else .error
    | .unfinished, _ => .unfinished
    | .ok _, .unfinished => .unfinished
    | _, _ => .assertion

end Verif.Mesh2d
