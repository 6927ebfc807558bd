import Verif.Fields.Examples
/-!
# `vector_element_model`: the vector of a model on the edges of the elements

`createVectorElementModelCmd`, `ModelCommands.cc` 1676-1772; `VectorTriangleEdgeModel.cc` 18-70, `VectorTetrahedronEdgeModel.cc`
18-74; `TriangleElementField.cc` 127-141, `TetrahedronElementField.cc` (the same for tetrahedra). The computation on one
element is that of area Fields (`elementField`, `elementField3`), on the values of the element model in place of those of an
edge model; what its `thread_local` variables held before element `t` is `s t`, which is anything.
-/
namespace Verif.Vec

open Verif.Geom Verif.Fields

/-- The loop over the `k` edges of element `t`, `VectorTriangleEdgeModel.cc` 54-58: `evx[3*i + j] = v[j].Getx()`. -/
def fill (k t : Nat) (f : V3 → ℝ) (r : List V3) (a : List ℝ) : List ℝ :=
  (List.range k).foldl (fun a j => a.set (k * t + j) (f (r.getD j ⟨0, 0, 0⟩))) a

/-- One turn of the loop over the elements, `VectorTriangleEdgeModel.cc` 50-59, `VectorTetrahedronEdgeModel.cc` 53-64. -/
def turn (k : Nat) (field : Nat → Option (List V3)) (a : List ℝ × List ℝ × List ℝ) (t : Nat) :
    Option (List ℝ × List ℝ × List ℝ) := do
  let r ← field t
  pure (fill k t V3.x r a.1, fill k t V3.y r a.2.1, fill k t V3.z r a.2.2)

/-- The loop over the `n` elements, `VectorTriangleEdgeModel.cc` 45-59, `VectorTetrahedronEdgeModel.cc` 47-64. -/
def loop (k n : Nat) (field : Nat → Option (List V3)) : Option (List ℝ × List ℝ × List ℝ) :=
  (List.range n).foldlM (turn k field) (List.replicate (k * n) 0, List.replicate (k * n) 0, List.replicate (k * n) 0)

/-- `VectorTriangleEdgeModel::calcTriangleEdgeScalarValues`, `VectorTriangleEdgeModel.cc` 31-63: the values of `_x` and `_y`
from those of the element model (`ev`) and of `ElementEdgeCouple` (`couple t j` for edge `j` of triangle `t`). -/
noncomputable def vector2 (m : Mesh) (pos : Pos) (couple : Nat → Nat → ℝ) (ev : Nat → ℝ) (s : Nat → Pairs) :
    Option (List ℝ × List ℝ) :=
  (loop 3 m.tris.length fun t => elementField m pos t (couple t) (fun j => ev (3 * t + j)) (s t)).map
    fun a => (a.1, a.2.1)

/-- `VectorTetrahedronEdgeModel::calcTetrahedronEdgeScalarValues`, `VectorTetrahedronEdgeModel.cc` 32-69. -/
noncomputable def vector3 (m : Mesh) (pos : Pos) (ev : Nat → ℝ) (s : Nat → Nat → Nat → V3) :
    Option (List ℝ × List ℝ × List ℝ) :=
  loop 6 m.tets.length fun t => elementField3 m pos t (fun j => ev (6 * t + j)) (s t)

/-- `createVectorElementModelCmd`, `ModelCommands.cc` 1719-1772: the names of the models that are made, or `none` if it is
refused. -/
def command (dim : Nat) (have2 have3 : String → Bool) (name : String) : Option (List String) :=
  if dim = 1 then none
  else if dim = 2 then (if have2 name then some [name ++ "_x", name ++ "_y"] else none)
  else if dim = 3 then (if have3 name then some [name ++ "_x", name ++ "_y", name ++ "_z"] else none)
  else none

end Verif.Vec
