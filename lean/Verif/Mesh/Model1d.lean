import Mathlib.Data.Real.Basic

/-!
# One-dimensional meshes: model (`src/meshing/{Mesh1d,Mesh1dStructs,MeshUtil,Mesh}.cc`, `src/commands/MeshingCommands.cc`)

`double` is ℝ.  The loops of `MeshUtil.cc` have a step budget (`fuel`); `none` is "not finished within the budget", and
`points_terminate` shows that a budget that suffices exists.
-/

namespace Verif.Mesh
open Classical

/-- `tolerance`, `MeshUtil.cc` 18. -/
noncomputable def tol : ℝ := 1e-10

/-- The loop of `equidistance`, `MeshUtil.cc` 20-36: the points pushed after `x`. -/
noncomputable def equiLoop (xh sl : ℝ) : Nat → ℝ → Option (List ℝ)
  | 0, _ => none
  | fuel + 1, x =>
    if x < xh then
      let x' := if x + sl > xh - tol then xh else x + sl
      (equiLoop xh sl fuel x').map fun l => x' :: l
    else some []

/-- `equidistance`. -/
noncomputable def equidistance (fuel : Nat) (xl xh sl : ℝ) : Option (List ℝ) :=
  (equiLoop xh sl fuel xl).map fun l => xl :: l

/-- The loop of `variable`, `MeshUtil.cc` 38-68; `ret.back()` is the `x` of the previous round. -/
noncomputable def varLoop (xh sl sh r : ℝ) : Nat → Nat → ℝ → Option (List ℝ)
  | 0, _, _ => none
  | fuel + 1, i, x =>
    if x < xh then
      let x' := x + sl * r ^ i
      if x' > xh - tol then
        (varLoop xh sl sh r fuel (i + 1) xh).map fun l => (if x < xh - sh then [xh - sh] else []) ++ xh :: l
      else (varLoop xh sl sh r fuel (i + 1) x').map fun l => x' :: l
    else some []

/-- `variable`. -/
noncomputable def variable_ (fuel : Nat) (xl xh sl sh : ℝ) : Option (List ℝ) :=
  let L := xh - xl
  let r := (L - sl) / (L - sh)
  (varLoop xh sl sh r fuel 0 xl).map fun l => xl :: l

/-- `getPoints`, `MeshUtil.cc` 70-101, after its assertion `xl < xh`. -/
noncomputable def getPoints (fuel : Nat) (xl xh sl sh : ℝ) : Option (List ℝ) :=
  if |sh - sl| / sh < tol then equidistance fuel xl xh sl
  else if xl + sl > xh - sh then equidistance fuel xl xh (xh - xl)
  else variable_ fuel xl xh sl sh

/-- `MeshLine1d`, `Mesh1dStructs.hh` 14-52. -/
structure Line where
  pos : ℝ
  ps : ℝ
  ns : ℝ
  tag : String

/-- `add1dMeshLineCmd`, `MeshingCommands.cc` 178-237: `none` if the spacing is refused; `ns` defaults to `ps`. -/
noncomputable def mkLine (pos ps ns : ℝ) (tag : String) : Option Line :=
  if ps ≤ 0 then none else some ⟨pos, ps, if ns ≤ 0 then ps else ns, tag⟩

/-- `MeshRegion1d`. -/
structure RegionDef where
  name : String
  material : String
  tag0 : String
  tag1 : String
deriving DecidableEq

/-- `MeshInterface1d`. -/
structure InterfaceDef where
  name : String
  tag : String
deriving DecidableEq

/-- `MeshContact1d`. -/
structure ContactDef where
  name : String
  material : String
  tag : String
deriving DecidableEq

/-- A region after `sortTags`: `index0 < index1`. -/
structure RegionIx where
  name : String
  material : String
  i0 : Nat
  i1 : Nat
deriving DecidableEq

/-- `locations` and `tagsToIndices`. -/
structure Layout where
  locations : List ℝ
  tags : List (String × Nat)

/-- `tagsToIndices.find`. -/
def Layout.find (l : Layout) (t : String) : Option Nat := l.tags.lookup t

/-- How a command ends: a value, an error message, an assertion or (only for too small a budget) not at all. -/
inductive Res (α : Type)
  | ok (a : α)
  | error
  | assertion
  | unfinished

/-- Entering a tag at the position `pos` of the list, `Mesh1d.cc` 66-73, 91-104. -/
def addTag (l : Layout) (t : String) (pos : Nat) : Res Layout :=
  if t = "" then .ok l
  else if (l.find t).isSome ∨ ∃ p ∈ l.tags, p.2 = pos then .assertion
  else .ok { l with tags := (t, pos) :: l.tags }

/-- The loop of `SetLocationsAndTags`, `Mesh1d.cc` 77-109. -/
noncomputable def placeLoop (fuel : Nat) : Line → List Line → Layout → Res Layout
  | _, [], l => .ok l
  | a, b :: bs, l =>
    if ¬ a.pos < b.pos then .assertion
    else match getPoints fuel a.pos b.pos a.ps b.ns with
      | none => .unfinished
      | some pts =>
        match addTag { l with locations := l.locations ++ pts.tail } b.tag ((l.locations ++ pts.tail).length - 1) with
        | .ok l' => placeLoop fuel b bs l'
        | r => r

/-- `sort(points)`: by position.  `std::sort` does not say in which order it leaves lines of equal position; then the
assertion of `getPoints` stops in any order. -/
noncomputable def sortLines (ls : List Line) : List Line := ls.mergeSort fun a b => decide (a.pos ≤ b.pos)

/-- `SetLocationsAndTags`, `Mesh1d.cc` 52-110.  `l0` is what the members `locations` and `tagsToIndices` hold before the
call: nothing, unless an earlier `finalize_mesh` of this mesh has failed. -/
noncomputable def placeOn (fuel : Nat) (l0 : Layout) (lines : List Line) : Res Layout :=
  match sortLines lines with
  | [] => .assertion
  | a :: as =>
    match addTag { l0 with locations := l0.locations ++ [a.pos] } a.tag 0 with
    | .ok l => placeLoop fuel a as l
    | r => r

/-- The first call. -/
noncomputable def place (fuel : Nat) (lines : List Line) : Res Layout := placeOn fuel ⟨[], []⟩ lines

/-- `sortTags`, `Mesh1dStructs.cc` 56-74. -/
def sortTags (l : Layout) (r : RegionDef) : Option RegionIx :=
  match l.find r.tag0, l.find r.tag1 with
  | some a, some b => if a = b then none else some ⟨r.name, r.material, min a b, max a b⟩
  | _, _ => none

/-- All regions, `Mesh1d.cc` 327-330. -/
def sortAllTags (l : Layout) : List RegionDef → Option (List RegionIx)
  | [] => some []
  | r :: rs =>
    match sortTags l r, sortAllTags l rs with
    | some x, some xs => some (x :: xs)
    | _, _ => none

/-- The contact check, `Mesh1d.cc` 135-169: the positions of the two contacts. -/
def checkContacts (l : Layout) : List ContactDef → Res (Nat × Nat)
  | [c0, c1] =>
    match l.find c0.tag, l.find c1.tag with
    | some p0, some p1 =>
      if p0 = p1 then .error
      else if (p0 = 0 ∧ p1 = l.locations.length - 1) ∨ (p1 = 0 ∧ p0 = l.locations.length - 1) then .ok (p0, p1)
      else .error
    | _, _ => .assertion
  | _ => .error

/-- The interface check, `Mesh1d.cc` 178-219: `indexToInterfaceIndex` (here with the interface instead of its number). -/
def checkInterfaces (l : Layout) : List InterfaceDef → List String → List (Nat × InterfaceDef) → Option (List (Nat × InterfaceDef))
  | [], _, m => some m
  | i :: is, names, m =>
    if i.name ∈ names then none
    else match l.find i.tag with
      | none => none
      | some k => if (m.lookup k).isSome then none else checkInterfaces l is (i.name :: names) ((k, i) :: m)

/-- The region check, `Mesh1d.cc` 227-257: `cpos` at the end. -/
def checkRegions (m : List (Nat × InterfaceDef)) (last : Nat) : List RegionIx → Nat → Option Nat
  | [], cpos => some cpos
  | r :: rs, cpos =>
    if cpos ≠ r.i0 then none
    else if r.i1 ≠ last ∧ (m.lookup r.i1).isNone then none
    else checkRegions m last rs r.i1

/-- A finalized mesh. -/
structure Mesh1d where
  layout : Layout
  regions : List RegionIx
  contacts : List ContactDef
  interfaces : List (Nat × InterfaceDef)

/-- `Finalize_`, `Mesh1d.cc` 309-345 with `SanityCheckingAndSetInterfaceIndices`, 126-307. `order` is what `std::sort`
with the comparison `RegionSort` (`Mesh1d.cc` 115-123) makes of the regions.  That comparison is not a strict weak order
(a region is less than itself), so the standard does not say what `std::sort` does: the model allows any `order`. -/
noncomputable def finalize (fuel : Nat) (order : List RegionIx → List RegionIx) (lines : List Line)
    (regions : List RegionDef) (contacts : List ContactDef) (interfaces : List InterfaceDef) : Res Mesh1d :=
  if lines.length < 2 then .error
  else match place fuel lines with
    | .ok l =>
      match sortAllTags l regions with
      | none => .assertion
      | some rs0 =>
        let rs := order rs0
        match checkContacts l contacts with
        | .ok _ =>
          match checkInterfaces l interfaces [] [] with
          | none => .error
          | some m =>
            match checkRegions m (l.locations.length - 1) rs 0 with
            | none => .error
            | some cpos =>
              if cpos ≠ l.locations.length - 1 ∧ rs ≠ [] then .error
              else if (m.lookup 0).isSome ∨ (m.lookup (l.locations.length - 1)).isSome then .error
              else if rs = [] then .error
              else if ∃ i < l.locations.length, (m.lookup i).isSome ∧ ∀ r ∈ rs, r.i0 ≠ i then .error
              else .ok ⟨l, rs, contacts, m⟩
        | .error => .error
        | .assertion => .assertion
        | .unfinished => .unfinished
    | .error => .error
    | .assertion => .assertion
    | .unfinished => .unfinished

/-! ### The device that is created -/

/-- A region of the device: name, material, coordinates of the nodes, edges as pairs of node numbers. -/
structure DevRegion where
  name : String
  material : String
  coords : List ℝ
  edges : List (Nat × Nat)

/-- The nodes and edges of a region, `Mesh1d.cc` 391-423. -/
noncomputable def buildRegion (l : Layout) (r : RegionIx) : DevRegion :=
  ⟨r.name, r.material, (List.range (r.i1 + 1 - r.i0)).map fun ni => l.locations.getD (r.i0 + ni) 0,
    (List.range (r.i1 - r.i0)).map fun k => (k, k + 1)⟩

/-- A contact of the device: name, number of the region, node. `Mesh1d.cc` 428-457. -/
structure DevContact where
  name : String
  material : String
  region : Nat
  node : Nat

/-- An interface of the device: name, numbers of the regions, nodes. `Mesh1d.cc` 459-476. -/
structure DevInterface where
  name : String
  region0 : Nat
  node0 : Nat
  region1 : Nat
  node1 : Nat

/-- The number of the last node of a region. -/
def RegionIx.lastNode (r : RegionIx) : Nat := r.i1 - r.i0

/-- `Mesh1d.cc` 428-457; `none` is a failed assertion. -/
def buildContact (M : Mesh1d) (c : ContactDef) : Option DevContact :=
  match M.layout.find c.tag with
  | none => none
  | some 0 => some ⟨c.name, c.material, 0, 0⟩
  | some (_ + 1) => some ⟨c.name, c.material, M.regions.length - 1, ((M.regions.getLast?).map RegionIx.lastNode).getD 0⟩

/-- `Mesh1d.cc` 459-476, for the regions from number `i` on; `prev` is the region before. -/
def buildInterfaces (m : List (Nat × InterfaceDef)) : Nat → RegionIx → List RegionIx → Option (List DevInterface)
  | _, _, [] => some []
  | i, prev, r :: rs =>
    match m.lookup prev.i1, buildInterfaces m (i + 1) r rs with
    | some d, some t => some (⟨d.name, i - 1, prev.lastNode, i, 0⟩ :: t)
    | _, _ => none

/-- The device. -/
structure Dev where
  regions : List DevRegion
  contacts : List DevContact
  interfaces : List DevInterface

/-- All contacts. -/
def buildContacts (M : Mesh1d) : List ContactDef → Option (List DevContact)
  | [] => some []
  | c :: cs =>
    match buildContact M c, buildContacts M cs with
    | some x, some xs => some (x :: xs)
    | _, _ => none

/-- `Instantiate_`, `Mesh1d.cc` 366-480. -/
noncomputable def instantiate (M : Mesh1d) : Option Dev :=
  match buildContacts M M.contacts, M.regions with
  | some cs, r :: rs =>
    match buildInterfaces M.interfaces 1 r rs with
    | some is => some ⟨M.regions.map (buildRegion M.layout), cs, is⟩
    | none => none
  | _, _ => none

end Verif.Mesh
