import Mathlib.Algebra.Field.Basic
import Mathlib.Data.List.Basic

/-!
# Assembly of bulk, contact and interface equations

Models `src/Equation/Equation.cc`, `src/AutoEquation/ExprEquation.cc`,
`src/Equation/ContactEquation.cc`, `src/AutoEquation/ExprContactEquation.cc`,
`src/Equation/InterfaceEquation.cc`, `src/AutoEquation/InterfaceExprEquation.cc` and the loading
functions of `src/math/Newton.cc`.

Simplifications, used throughout:
* a model is an array of values, given as a function from indices; whether it exists is an `Option`;
  evaluation of models and caching is the subject of other areas (C15, C40);
* numbers are elements of a commutative ring `K` (later `ℝ`): no rounding;
* nodes of a region are their indices; an edge is the pair (head, tail) of node indices;
* `none` as a result stands for a FATAL error message (which throws), a failed `dsAssert` or a null pointer
  dereference: in each case no matrix is produced.
-/

namespace Verif.Assembly

/-- What an element-edge loop sees of one (element) edge: the index into the scalar data, the head and the
tail of the edge and the nodes opposite to it (none for a plain edge, one for a triangle, two for a
tetrahedron). `Equation.cc` 448-459, 482-497, 518-535, 657-691, 736-786. -/
structure Site where
  idx : Nat
  n0 : Nat
  n1 : Nat
  opp : List Nat
deriving DecidableEq, Repr

/-- The parts of a region that the assembly reads (`src/Geometry/Region.hh`): number of nodes, dimension,
base equation number, edges, for each triangle its edges (`GetTriangleToEdgeList`) and nodes, for each
tetrahedron its `EdgeData` (edge and `nodeopp`), the variable list, the variable→equation table, the
equation→index table (`GetEquationIndex`, `size_t(-1)` = `none`) and the names of the geometry models. -/
structure Topo where
  numNodes : Nat
  dim : Nat
  base : Nat
  edges : List (Nat × Nat)
  tris : List (List (Nat × Nat) × List Nat)
  tets : List (List ((Nat × Nat) × (Nat × Nat)))
  vars : List String
  eqOfVar : String → String
  eqIndex : String → Option Nat
  nodeVolume : String
  edgeCouple : String
  edgeNode0Volume : String
  edgeNode1Volume : String
  elementEdgeCouple : String
  elementNode0Volume : String
  elementNode1Volume : String

/-- The model tables of a region (`GetNodeModel`, `GetEdgeModel`, `GetTriangleEdgeModel`,
`GetTetrahedronEdgeModel`). -/
structure Tables (K : Type) where
  node : String → Option (Nat → K)
  edge : String → Option (Nat → K)
  tri : String → Option (Nat → K)
  tet : String → Option (Nat → K)

/-- `dsMathEnum::WhatToLoad` (`src/math/MathEnum.hh`). -/
inductive What | perm | matrixOnly | rhs | matrixAndRhs
deriving DecidableEq, Repr

/-- `(w == RHS) || (w == MATRIXANDRHS)`. -/
def What.doRhs : What → Bool
  | .rhs => true
  | .matrixAndRhs => true
  | _ => false

/-- `(w == MATRIXONLY) || (w == MATRIXANDRHS)`. -/
def What.doMat : What → Bool
  | .matrixOnly => true
  | .matrixAndRhs => true
  | _ => false

/-- `dsMathEnum::TimeMode`. -/
inductive TimeMode | dc | time
deriving DecidableEq, Repr

/-- A `RealRowColVal`: row, column, value (`src/math/MatrixEntries.hh`). -/
abbrev MEntry (K : Type) := Nat × Nat × K
/-- An `RHSEntryVec` element: row, value. -/
abbrev VEntry (K : Type) := Nat × K

/-- `Region::GetEquationNumber`, `src/Geometry/Region.cc` 1251-1259. -/
def Topo.num (g : Topo) (eq node : Nat) : Nat := g.base + eq * g.numNodes + node

/-- Edges of the region with their index: the loop of `EdgeAssembleRHS`, `Equation.cc` 447-452. -/
def Topo.edgeSites (g : Topo) : List Site :=
  g.edges.zipIdx.map fun (e, i) => ⟨i, e.1, e.2, []⟩

/-- Triangle edges: `Equation.cc` 481-497 and 655-681 (`node2 = tnl[j]`, index `3*i+j`). -/
def Topo.triSites (g : Topo) : List Site :=
  g.tris.zipIdx.flatMap fun (t, i) =>
    t.1.zipIdx.map fun (e, j) => ⟨3 * i + j, e.1, e.2, [t.2.getD j 0]⟩

/-- Tetrahedron edges: `Equation.cc` 517-535 and 736-768 (`nodeopp[0]`, `nodeopp[1]`, index `6*i+j`). -/
def Topo.tetSites (g : Topo) : List Site :=
  g.tets.zipIdx.flatMap fun (t, i) =>
    t.zipIdx.map fun (e, j) => ⟨6 * i + j, e.1.1, e.1.2, [e.2.1, e.2.2]⟩

/-- One kind of element edges together with the suffixes of its derivative models. -/
structure Shape where
  sites : List Site
  /-- suffix for head, tail -/
  s0 : String
  s1 : String
  /-- suffixes for the opposite nodes -/
  sopp : List String

/-- `Equation.cc` 985-988: `@n0`, `@n1`. -/
def edgeShape (g : Topo) : Shape := ⟨g.edgeSites, "@n0", "@n1", []⟩
/-- `Equation.cc` 1078-1084: `@en0` .. `@en2`. -/
def triShape (g : Topo) : Shape := ⟨g.triSites, "@en0", "@en1", ["@en2"]⟩
/-- `Equation.cc` 1172-1180: `@en0` .. `@en3`. -/
def tetShape (g : Topo) : Shape := ⟨g.tetSites, "@en0", "@en1", ["@en2", "@en3"]⟩

/-- `Equation::GetDerivativeModelName`, `Equation.cc` 1299-1305. -/
def derName (model var : String) : String := model ++ ":" ++ var

/-- A loop over a list which appends to the result and stops on an error. -/
def collect {α β : Type} : List α → (α → Option (List β)) → Option (List β)
  | [], _ => some []
  | a :: as, f =>
    match f a with
    | none => none
    | some l =>
      match collect as f with
      | none => none
      | some r => some (l ++ r)

section
variable {K : Type} [CommRing K]

/-- `times_equal_model` of a copy of one model with the other: pointwise product (C13). -/
def times (a b : Nat → K) : Nat → K := fun i => a i * b i

/-! ## Bulk equations (`Equation.cc`, `ExprEquation.cc`) -/

/-- `EdgeAssembleRHS`, `TriangleEdgeAssembleRHS`, `TetrahedronEdgeAssembleRHS`: `Equation.cc` 436-540. -/
def siteRHS (g : Topo) (eq : Nat) (sites : List Site) (flux : Nat → K) (n0s n1s : K) : List (VEntry K) :=
  sites.flatMap fun s =>
    [(g.num eq s.n0, n0s * flux s.idx), (g.num eq s.n1, n1s * flux s.idx)]

/-- `UnSymmetricEdgeAssembleJacobian`, `UnSymmetricTriangleEdgeAssembleJacobian`,
`UnSymmetricTetrahedronEdgeAssembleJacobian`: `Equation.cc` 588-787. `d0`, `d1`, `dopp` are `eder0`,
`eder1`, and the rest. -/
def siteJacobian (g : Topo) (eq eqv : Nat) (sites : List Site) (d0 d1 : Nat → K) (dopp : List (Nat → K))
    (n0s n1s : K) : List (MEntry K) :=
  sites.flatMap fun s =>
    [(g.num eq s.n0, g.num eqv s.n0, n0s * d0 s.idx),
     (g.num eq s.n1, g.num eqv s.n1, n1s * d1 s.idx),
     (g.num eq s.n0, g.num eqv s.n1, n0s * d1 s.idx),
     (g.num eq s.n1, g.num eqv s.n0, n1s * d0 s.idx)] ++
    (s.opp.zip dopp).flatMap fun (o, d) =>
      [(g.num eq s.n0, g.num eqv o, n0s * d s.idx),
       (g.num eq s.n1, g.num eqv o, n1s * d s.idx)]

/-- All of a list of options, or nothing. -/
def allSome {α : Type} : List (Option α) → Option (List α)
  | [] => some []
  | none :: _ => none
  | some a :: r => (allSome r).map (a :: ·)

/-- The derivative models of one variable in `EdgeCoupleAssemble` and the two element variants:
`Equation.cc` 976-1022, 1071-1116, 1164-1247. If all derivative models with respect to the variable are
missing the variable is skipped, if only some are missing the error is fatal. -/
def coupleVar (g : Topo) (sh : Shape) (tbl : String → Option (Nat → K)) (name model : String)
    (ec : Nat → K) (n0s n1s : K) (var : String) : Option (List (MEntry K)) :=
  let e0 := tbl (derName model var ++ sh.s0)
  let e1 := tbl (derName model var ++ sh.s1)
  let eo := sh.sopp.map fun s => tbl (derName model var ++ s)
  if e0.isNone && e1.isNone && eo.all (·.isNone) then some []
  else
    match e0, e1, allSome eo with
    | some d0, some d1, some dopp =>
      match g.eqIndex name, g.eqIndex (g.eqOfVar var) with
      | some eq, some eqv =>
        some (siteJacobian g eq eqv sh.sites (times d0 ec) (times d1 ec)
          (dopp.map fun d => times d ec) n0s n1s)
      | _, _ => none
    | _, _, _ => none

/-- `EdgeCoupleAssemble`, `TriangleEdgeCoupleAssemble`, `TetrahedronEdgeCoupleAssemble`:
`Equation.cc` 934-1257. -/
def coupleAssemble (g : Topo) (sh : Shape) (tbl : String → Option (Nat → K)) (name model couple : String)
    (n0s n1s : K) (w : What) : Option (List (MEntry K) × List (VEntry K)) := do
  let ef ← tbl model
  let ec ← tbl couple
  let v ← if w.doRhs then
      (g.eqIndex name).map fun eq => siteRHS g eq sh.sites (times ef ec) n0s n1s
    else some []
  let m ← if w.doMat then
      collect g.vars (coupleVar g sh tbl name model ec n0s n1s)
    else some []
  return (m, v)

/-- `NodeAssembleRHS`, `Equation.cc` 790-814. -/
def nodeRHS (g : Topo) (eq : Nat) (nrhs : Nat → K) : List (VEntry K) :=
  (List.range g.numNodes).map fun i => (g.num eq i, nrhs i)

/-- `NodeAssembleJacobian`, `Equation.cc` 816-847. -/
def nodeJacobian (g : Topo) (eq eqv : Nat) (nder : Nat → K) : List (MEntry K) :=
  (List.range g.numNodes).map fun i => (g.num eq i, g.num eqv i, nder i)

/-- The derivative model of one variable in `NodeVolumeAssemble`, `Equation.cc` 901-919. -/
def nodeVar (g : Topo) (tbl : String → Option (Nat → K)) (name model : String) (nvol : Nat → K)
    (var : String) : Option (List (MEntry K)) :=
  match tbl (derName model var) with
  | none => some []
  | some ndm =>
    match g.eqIndex name, g.eqIndex (g.eqOfVar var) with
    | some eq, some eqv => some (nodeJacobian g eq eqv (times nvol ndm))
    | _, _ => none

/-- `NodeVolumeAssemble`, `Equation.cc` 849-932. -/
def nodeVolumeAssemble (g : Topo) (T : Tables K) (name model : String) (w : What) :
    Option (List (MEntry K) × List (VEntry K)) := do
  let nm ← T.node model
  let nvol ← T.node g.nodeVolume
  let v ← if w.doRhs then
      (g.eqIndex name).map fun eq => nodeRHS g eq (times nvol nm)
    else some []
  let m ← if w.doMat then
      collect g.vars (nodeVar g T.node name model nvol)
    else some []
  return (m, v)

/-- Two assembly steps, one after the other. -/
def andThen {α β : Type} (a b : Option (List α × List β)) : Option (List α × List β) :=
  match a, b with
  | some (m, v), some (m', v') => some (m ++ m', v ++ v')
  | _, _ => none

/-- An assembly step which is done only when a condition holds. -/
def whenA {α β : Type} (c : Bool) (a : Option (List α × List β)) : Option (List α × List β) :=
  if c then a else some ([], [])

/-- `EdgeCoupleAssemble(model, m, v, w)`, `Equation.cc` 885-891. -/
def edgeCoupleAssemble (g : Topo) (T : Tables K) (name model : String) (w : What) :=
  coupleAssemble g (edgeShape g) T.edge name model g.edgeCouple (1 : K) (-1) w

/-- `EdgeNodeVolumeAssemble`, `Equation.cc` 893-909. -/
def edgeNodeVolumeAssemble (g : Topo) (T : Tables K) (name model : String) (w : What) :=
  if g.edgeNode0Volume = g.edgeNode1Volume then
    coupleAssemble g (edgeShape g) T.edge name model g.edgeNode0Volume (1 : K) 1 w
  else
    andThen (coupleAssemble g (edgeShape g) T.edge name model g.edgeNode0Volume (1 : K) 0 w)
      (coupleAssemble g (edgeShape g) T.edge name model g.edgeNode1Volume (0 : K) 1 w)

/-- `ElementEdgeCoupleAssemble`, `Equation.cc` 1259-1274. -/
def elementEdgeCoupleAssemble (g : Topo) (T : Tables K) (name model : String) (w : What) :
    Option (List (MEntry K) × List (VEntry K)) :=
  if g.dim = 2 then coupleAssemble g (triShape g) T.tri name model g.elementEdgeCouple (1 : K) (-1) w
  else if g.dim = 3 then coupleAssemble g (tetShape g) T.tet name model g.elementEdgeCouple (1 : K) (-1) w
  else some ([], [])

/-- `ElementNodeVolumeAssemble`, `Equation.cc` 1276-1313. -/
def elementNodeVolumeAssemble (g : Topo) (T : Tables K) (name v0 v1 : String) (w : What) :
    Option (List (MEntry K) × List (VEntry K)) :=
  let go (sh : Shape) (tbl : String → Option (Nat → K)) :=
    if g.elementNode0Volume = g.elementNode1Volume ∧ v0 = v1 then
      coupleAssemble g sh tbl name v0 g.elementNode0Volume (1 : K) 1 w
    else
      andThen (coupleAssemble g sh tbl name v0 g.elementNode0Volume (1 : K) 0 w)
        (coupleAssemble g sh tbl name v1 g.elementNode1Volume (0 : K) 1 w)
  if g.dim = 2 then go (triShape g) T.tri
  else if g.dim = 3 then go (tetShape g) T.tet
  else some ([], [])

/-- The model names of an `equation` command (`ExprEquation`, `src/AutoEquation/ExprEquation.hh`). -/
structure EqSpec where
  name : String
  nodeModel : String
  edgeModel : String
  edgeVolumeModel : String
  elementModel : String
  volumeNode0Model : String
  volumeNode1Model : String
  timeNodeModel : String

/-- `ExprEquation::DerivedAssemble`, `ExprEquation.cc` 41-92. -/
def exprAssemble (g : Topo) (T : Tables K) (e : EqSpec) (w : What) (t : TimeMode) :
    Option (List (MEntry K) × List (VEntry K)) :=
  match t with
  | .dc =>
    andThen
      (whenA (e.edgeModel ≠ "")
        (andThen (edgeCoupleAssemble g T e.name e.edgeModel w)
          (whenA (e.edgeVolumeModel ≠ "") (edgeNodeVolumeAssemble g T e.name e.edgeVolumeModel w))))
      (andThen (whenA (e.nodeModel ≠ "") (nodeVolumeAssemble g T e.name e.nodeModel w))
        (andThen (whenA (e.elementModel ≠ "") (elementEdgeCoupleAssemble g T e.name e.elementModel w))
          (whenA (e.volumeNode0Model ≠ "" || e.volumeNode1Model ≠ "")
            (elementNodeVolumeAssemble g T e.name e.volumeNode0Model e.volumeNode1Model w))))
  | .time => whenA (e.timeNodeModel ≠ "") (nodeVolumeAssemble g T e.name e.timeNodeModel w)

/-- `Region::Assemble` (`src/Geometry/Region.cc`): every equation of the region. -/
def regionAssemble (g : Topo) (T : Tables K) (es : List EqSpec) (w : What) (t : TimeMode) :
    Option (List (MEntry K) × List (VEntry K)) :=
  es.foldr (fun e acc => andThen (exprAssemble g T e w t) acc) (some ([], []))

end
end Verif.Assembly
