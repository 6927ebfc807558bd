import Verif.Geom.Surface
import Mathlib.Data.Prod.Lex
import Mathlib.Data.List.Sort
import Mathlib.Analysis.Real.Pi.Bounds

/-!
# Cylindrical coordinates

`src/GeomModels/TriangleCylindricalNodeVolume.cc`, `CylindricalNodeVolume.cc`, `CylindricalEdgeNodeVolume.cc`,
`TriangleCylindricalEdgeCouple.cc`, `CylindricalEdgeCouple.cc`, `CylindricalSurfaceArea.cc`. Real numbers; the parameters
`raxis_variable` and `raxis_zero` are arguments (when one of them is missing or wrong the program stops with a fatal error).
-/

namespace Verif.Cyl
open Verif.Geom Finset

/-- `raxis_variable` -/
inductive Axis
  | x
  | y
deriving DecidableEq, Repr

/-- The distance from the axis, with a sign (`TriangleCylindricalNodeVolume.cc:194-203`). -/
def radius (ax : Axis) (r0 : ℝ) (p : V3) : ℝ :=
  match ax with
  | .x => p.x - r0
  | .y => p.y - r0

/-- The coordinate along the axis. -/
def height (ax : Axis) (p : V3) : ℝ :=
  match ax with
  | .x => p.y
  | .y => p.x

/-- A pair of height and radius; pairs are compared as `std::pair`, first by height. -/
abbrev Pt := ℝ ×ₗ ℝ

def pt (z r : ℝ) : Pt := toLex (z, r)
def Pt.z (p : Pt) : ℝ := (ofLex p).1
def Pt.r (p : Pt) : ℝ := (ofLex p).2

/-- `calcCylindricalTriangleVolumeFlat` (`TriangleCylindricalNodeVolume.cc:112-126`) -/
noncomputable def flat (r0 z0 r1 z1 r2 : ℝ) : ℝ :=
  (|(r2 - r0) ^ 2 - (r1 - r0) ^ 2| * |z1 - z0| / 3 + |r2 - r1| * r0 * |z1 - z0|) * Real.pi

/-- After sorting (`TriangleCylindricalNodeVolume.cc:136-161`). -/
noncomputable def sortedVolume (a b c : Pt) : ℝ :=
  open Classical in
  if a.z = b.z then flat c.r c.z a.r a.z b.r
  else if b.z = c.z then flat a.r a.z b.r b.z c.r
  else
    let r3 := (b.z - a.z) * (c.r - a.r) / (c.z - a.z) + a.r
    flat a.r a.z b.r b.z r3 + flat c.r c.z b.r b.z r3

/-- `calcCylindricalTriangleVolume` (`TriangleCylindricalNodeVolume.cc:129-164`): `std::sort`, then the volume. -/
noncomputable def triVolume (l : List Pt) : ℝ :=
  match l.insertionSort (· ≤ ·) with
  | [a, b, c] => sortedVolume a b c
  | _ => 0

/-- Height and radius of a position. -/
def place (ax : Axis) (r0 : ℝ) (p : V3) : Pt := pt (height ax p) (radius ax r0 p)

/-- `ElementCylindricalNodeVolume@en0` (`k = 0`) and `@en1` (`k = 1`) (`TriangleCylindricalNodeVolume.cc:168-256`): the volume
swept by the triangle of a node of edge `j`, the center of triangle `t` and the mid point of the edge. -/
noncomputable def elementNodeVolume (eps : ℝ) (m : Mesh) (pos : Pos) (ax : Axis) (r0 : ℝ) (k t j : ℕ) : ℝ :=
  triVolume [place ax r0 (pos (edgeNode m (triangleEdge m t j) k)), place ax r0 (triangleCenter eps m pos t),
    place ax r0 (edgeCenter m pos (triangleEdge m t j))]

/-- `CylindricalNodeVolume` (`CylindricalNodeVolume.cc:37-88`): the loop over the edges, for the entry of node `v`. -/
noncomputable def nodeVolume (eps : ℝ) (m : Mesh) (pos : Pos) (ax : Axis) (r0 : ℝ) (v : ℕ) : ℝ :=
  (List.range m.edges.length).foldl (fun nv i =>
    let nv := if edgeNode m i 0 = v then nv + onEdges (tables m) (elementNodeVolume eps m pos ax r0 0) i else nv
    if edgeNode m i 1 = v then nv + onEdges (tables m) (elementNodeVolume eps m pos ax r0 1) i else nv) 0

/-- `CylindricalEdgeNodeVolume@n0` and `@n1` (`CylindricalEdgeNodeVolume.cc:37-77`): the values that the two models have at the end.
The last statement, `SetValues(nv)`, stores a vector of zeros, one for each node, in the first. -/
noncomputable def edgeNodeVolumes (eps : ℝ) (m : Mesh) (pos : Pos) (ax : Axis) (r0 : ℝ) : List ℝ × List ℝ :=
  let nv : List ℝ := List.replicate m.n 0
  let n1 := (List.range m.edges.length).map (onEdges (tables m) (elementNodeVolume eps m pos ax r0 1))
  (nv, n1)

/-- `ElementCylindricalEdgeCouple` (`TriangleCylindricalEdgeCouple.cc:95-150`) -/
noncomputable def elementEdgeCouple (eps : ℝ) (m : Mesh) (pos : Pos) (ax : Axis) (r0 : ℝ) (t j : ℕ) : ℝ :=
  |Real.pi * (radius ax r0 (triangleCenter eps m pos t) + radius ax r0 (edgeCenter m pos (triangleEdge m t j))) *
    V3.mag (V3.sub (edgeCenter m pos (triangleEdge m t j)) (triangleCenter eps m pos t))|

/-- `CylindricalEdgeCouple` (`CylindricalEdgeCouple.cc:55-62`) -/
noncomputable def edgeCouple (eps : ℝ) (m : Mesh) (pos : Pos) (ax : Axis) (r0 : ℝ) (i : ℕ) : ℝ :=
  onEdges (tables m) (elementEdgeCouple eps m pos ax r0) i

/-- One edge in `CalcAreasOnEdges` (`CylindricalSurfaceArea.cc:84-119`). (The normals of `Acc` are not used.) -/
noncomputable def processEdge (m : Mesh) (pos : Pos) (ax : Axis) (r0 : ℝ) (A : Acc) (i : ℕ) : Acc :=
  let p0 := pos (edgeNode m i 0)
  let p1 := pos (edgeNode m i 1)
  let vmag := V3.mag (V3.smul (V3.sub p1 p0) (1 / 2))
  let ra := radius ax r0 p0
  let rb := radius ax r0 p1
  let rm := 1 / 2 * (ra + rb)
  (A.add (edgeNode m i 0) ⟨0, 0, 0⟩ (Real.pi * |rm + ra| * vmag)).add (edgeNode m i 1) ⟨0, 0, 0⟩ (Real.pi * |rb + rm| * vmag)

/-- `CylindricalSurfaceArea` (`CylindricalSurfaceArea.cc:67-122`) for the edges of the contacts and interfaces of the region. -/
noncomputable def surfaceArea (m : Mesh) (pos : Pos) (ax : Axis) (r0 : ℝ) (l : List ℕ) (v : ℕ) : ℝ :=
  (visitOnce (processEdge m pos ax r0) l Acc.init).area v

end Verif.Cyl
