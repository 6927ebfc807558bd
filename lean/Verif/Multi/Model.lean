import Mathlib.Data.List.Basic
import Mathlib.Logic.Function.Basic

/-!
Model of the groups of models that one command creates and that are computed together: the first model of the group
(the *producer*) computes all of them, the others (*sub models*) ask the producer.

* `/repo/src/models/EdgeSubModel.cc:38-85`, `/repo/src/models/TriangleEdgeSubModel.cc:38-85`,
  `/repo/src/models/TetrahedronEdgeSubModel.cc` (the same code), `/repo/src/models/NodeSolution.cc:36-66`
* producers that keep weak pointers and recreate a deleted output: `/repo/src/models/EdgeFromNodeModel.cc:36-82`,
  `/repo/src/GeomModels/AverageEdgeModel.cc:58-230`
* producers that look their outputs up by name: `/repo/src/models/TriangleEdgeFromEdgeModel.cc:28-66`,
  `TriangleEdgeFromEdgeModelDerivative.cc`, `TriangleEdgeFromNodeModel.cc`, `TriangleEdgePairFromEdgeModel.cc`,
  `VectorTriangleEdgeModel.cc` and the same for tetrahedra
* producers that skip an output that is gone: `/repo/src/GeomModels/UnitVec.cc:28-68`,
  `/repo/src/GeomModels/InterfaceNormal.cc:29-202`
* producers that use the weak pointer without asking: `/repo/src/GeomModels/VectorGradient.cc:37-264`,
  `/repo/src/GeomModels/CylindricalEdgeNodeVolume.cc:22-64`, `/repo/src/GeomModels/NodePosition.cc:26-60`
* `/repo/src/Geometry/Region.cc:832-1118` (tables, callbacks), `/repo/src/models/ModelFactory.hh:12-22`,
  `/repo/src/models/EdgeModel.cc:65-102, 269-325` (CalculateValues, SetValues, MarkOld)

Simplifications: the four tables of a region are one table whose entries carry the kind (a name has one kind at a time,
C17); inputs of a producer are looked up by name only; the values of a model are one element of `V`; the function of a
producer (geometry, averages, fields) is any function; floating point exceptions are left out; one precision.
-/

namespace Verif.Multi

inductive Kind where
  | node | edge | triangle | tetrahedron
deriving DecidableEq

/-- How a producer finds its outputs when it computes:
`byName` TriangleEdgeFromEdgeModel.cc:42-43, 65; `revive` EdgeFromNodeModel.cc:62-81; `guard` UnitVec.cc:60-67;
`raw` VectorGradient.cc:190. -/
inductive Policy where
  | byName | revive | guard | raw
deriving DecidableEq

/-- `leaf`: a solution without parent (NodeSolution.cc:18-24, EdgeSubModel.cc:22-26); `prod`: a model computed from
the models `ins`, which also computes the models `outs` (`f vs 0` is its own value, `f vs (j+1)` that of the output
`j`); `sub`: a model computed by the object `parent`, whose name is remembered until the parent was replaced
(EdgeSubModel.hh: parentModel, parentModelName). -/
inductive Dfn (N V : Type) where
  | leaf
  | prod (pol : Policy) (ins outs : List N) (f : List V → Nat → V)
  | sub (parent : Nat) (pname : Option N)

/-- A model object (EdgeModel.hh: name, uptodate, model_data); `kid j` is the weak pointer of a producer to its
output `j` (EdgeFromNodeModel.hh: node1EdgeModel, VectorGradient.hh: yfield_, zfield_). -/
structure Obj (N V : Type) where
  name : N
  kind : Kind
  dfn : Dfn N V
  utd : Bool
  val : V
  kid : Nat → Option Nat

/-- Region.hh: the tables of models (`tab`: name to object), DependencyMap (`deps`: pairs model, model it depends
on); `heap` holds the objects, `next` is the number of objects created. -/
structure St (N V : Type) where
  heap : Nat → Obj N V
  next : Nat
  tab : N → Option Nat
  deps : List (N × N)

/-- What a command gives back: a value, an error, or the end of the program (a null pointer is used). -/
inductive Res (α : Type) where
  | ok (v : α)
  | error
  | crash
deriving DecidableEq

variable {N V : Type} [DecidableEq N]

def setObj (s : St N V) (i : Nat) (o : Obj N V) : St N V := { s with heap := Function.update s.heap i o }

/-- The weak pointer to the object `i` is not expired: the tables hold the only lasting reference to a model. -/
def alive (s : St N V) (i : Nat) : Bool := s.tab (s.heap i).name = some i

/-- `lock()` of the weak pointer of the producer `i` to its output `j`: the object, unless it is gone or was never
set. -/
def lock (s : St N V) (i j : Nat) : Option Nat := ((s.heap i).kid j).filter (alive s)

/-- Region.cc:1063-1112: IsUpToDate of the model with this name. -/
def utdName (s : St N V) (n : N) : Bool :=
  match s.tab n with
  | some i => (s.heap i).utd
  | none => false

/-- EdgeModel.cc:318 -/
def clearUtd (s : St N V) (n : N) : St N V :=
  match s.tab n with
  | some i => setObj s i { s.heap i with utd := false }
  | none => s

/-- Region.cc:1048-1061: the models having a registered dependency on `x`. -/
def dependents (s : St N V) (x : N) : List N := (s.deps.filter (fun p => p.2 = x)).map Prod.fst

/-- The loop Region.cc:1063-1112, `rec` is the call of SignalCallbacks made by MarkOld. -/
def signalLoop (rec : St N V → N → St N V) : St N V → List N → St N V
  | s, [] => s
  | s, n :: l => signalLoop rec (if utdName s n then rec (clearUtd s n) n else s) l

/-- Region.cc:1042-1115 SignalCallbacks; the fuel is the depth of the recursion. -/
def signal : Nat → St N V → N → St N V
  | 0, s, _ => s
  | k + 1, s, x => signalLoop (signal k) s (dependents s x)

/-- More than the number of models that can be notified (`signal_spec`). -/
def enough (s : St N V) : Nat := s.deps.length + 1

/-- EdgeModel.cc:80 `uptodate = true` after the calculation. -/
def markUtd (s : St N V) (i : Nat) : St N V := setObj s i { s.heap i with utd := true }

/-- EdgeModel.cc:275-290 SetValues: store, MarkOld (`uptodate = false`, signal), `uptodate = true`. -/
def setValues (s : St N V) (i : Nat) (v : V) : St N V :=
  let s1 := setObj s i { s.heap i with val := v, utd := false }
  markUtd (signal (enough s1) s1 (s.heap i).name) i

/-- Region.cc:884-1030 Add*Model: a model of the same kind is replaced, a model of another kind is a fatal error
(`none`). -/
def addModel (s : St N V) (o : Obj N V) : Option (St N V) :=
  let new : St N V := { s with heap := Function.update s.heap s.next o, next := s.next + 1,
                               tab := Function.update s.tab o.name (some s.next) }
  match s.tab o.name with
  | none => some new
  | some i => if (s.heap i).kind = o.kind then some new else none

/-- Region.cc:1035-1038 RegisterCallback. -/
def register (s : St N V) (n d : N) : St N V :=
  { s with deps := if (n, d) ∈ s.deps then s.deps else (n, d) :: s.deps }

/-- Creation of one output `c` of the producer `i` named `q` (EdgeSubModel.cc:28-46 with ModelFactory.hh:16-20: the
object, AddEdgeModel, RegisterCallback), the pointer of the producer to it is set. -/
def addSub (zero : V) (s : St N V) (i j : Nat) (q c : N) (kind : Kind) : Option (St N V) :=
  match addModel s { name := c, kind := kind, dfn := .sub i (some q), utd := false, val := zero, kid := fun _ => none } with
  | none => none
  | some s1 =>
    let s2 := register s1 c q
    some (setObj s2 i { s2.heap i with kid := Function.update (s2.heap i).kid j (some s.next) })

/-- The lookups a producer makes before it reads its inputs.  `byName`: each output must exist
(TriangleEdgeFromEdgeModel.cc:42-43); `revive`: a missing output is created again, an output that is another object
than the one known is a fatal error (EdgeFromNodeModel.cc:62-75). -/
def prepare (zero : V) (pol : Policy) (i : Nat) (q : N) (kind : Kind) : Nat → St N V → List N → St N V × Bool
  | _, s, [] => (s, true)
  | j, s, c :: outs =>
    match pol with
    | .byName =>
      match s.tab c with
      | some ci => if (s.heap ci).kind = kind then prepare zero pol i q kind (j + 1) s outs else (s, false)
      | none => (s, false)
    | .revive =>
      match s.tab c with
      | some ci =>
        if (s.heap ci).kind = kind ∧ (lock s i j).isSome then prepare zero pol i q kind (j + 1) s outs
        else (s, false)
      | none =>
        match addSub zero s i j q c kind with
        | some s1 => prepare zero pol i q kind (j + 1) s1 outs
        | none => (s, false)
    | .guard => (s, true)
    | .raw => (s, true)

/-- SetValues of the outputs; `none`: a null pointer is used (VectorGradient.cc:190).  TriangleEdgeFromEdgeModel.cc:66
writes to the model that has the name of the output. -/
def store (pol : Policy) (i : Nat) (w : Nat → V) : Nat → St N V → List N → Option (St N V)
  | _, s, [] => some s
  | j, s, c :: outs =>
    match pol with
    | .byName =>
      match s.tab c with
      | some ci => store pol i w (j + 1) (setValues s ci (w (j + 1))) outs
      | none => none
    | .guard =>
      match lock s i j with
      | some ci => store pol i w (j + 1) (setValues s ci (w (j + 1))) outs
      | none => store pol i w (j + 1) s outs
    | _ =>
      match lock s i j with
      | some ci => store pol i w (j + 1) (setValues s ci (w (j + 1))) outs
      | none => none

/-- Reading of the inputs in turn. -/
def readList (rd : St N V → N → St N V × Res V) : St N V → List N → St N V × Res (List V)
  | s, [] => (s, .ok [])
  | s, n :: l =>
    match rd s n with
    | (s1, .ok v) =>
      match readList rd s1 l with
      | (s2, .ok vs) => (s2, .ok (v :: vs))
      | (s2, .error) => (s2, .error)
      | (s2, .crash) => (s2, .crash)
    | (s1, .error) => (s1, .error)
    | (s1, .crash) => (s1, .crash)

/-- EdgeModel.cc:65-102: CalculateValues and GetScalarValues of the object `i`.  The fuel is the depth of the
recursion (`read_spec`: it is sufficient). -/
def read (zero : V) : Nat → St N V → Nat → St N V × Res V
  | 0, s, _ => (s, .error)
  | k + 1, s, i =>
    if (s.heap i).utd then (s, .ok (s.heap i).val) else
    match (s.heap i).dfn with
    | .leaf => (markUtd s i, .ok (s.heap i).val)
    | .sub _ none => (markUtd s i, .ok (s.heap i).val)                        -- EdgeSubModel.cc:64: no parent any more
    | .sub p (some q) =>
      if alive s p then                                                       -- EdgeSubModel.cc:67-70
        match read zero k s p with
        | (s1, .ok _) => (markUtd s1 i, .ok (s1.heap i).val)
        | (s1, .error) => (s1, .error)
        | (s1, .crash) => (s1, .crash)
      else if (s.tab q).isSome then                                           -- EdgeSubModel.cc:71-76
        (setObj s i { s.heap i with dfn := .sub p none, utd := true }, .ok (s.heap i).val)
      else (s, .error)                                                        -- EdgeSubModel.cc:77-80
    | .prod pol ins outs f =>
      if ins.all (fun n => (s.tab n).isSome) then                             -- EdgeFromNodeModel.cc:53-60
        match prepare zero pol i (s.heap i).name (s.heap i).kind 0 s outs with
        | (s1, false) => (s1, .error)
        | (s1, true) =>
          match readList (fun s n => match s.tab n with
                                     | some j => read zero k s j
                                     | none => (s, .error)) s1 ins with
          | (s2, .ok vs) =>
            match store pol i (f vs) 0 (setValues s2 i (f vs 0)) outs with
            | some s3 => (markUtd s3 i, .ok (s3.heap i).val)
            | none => (s2, .crash)
          | (s2, .error) => (s2, .error)
          | (s2, .crash) => (s2, .crash)
      else (s, .error)

/-- The outputs of a new producer are created one after the other (TriangleEdgeFromEdgeModelDerivative.cc:46-52); a
fatal error leaves the ones created before. -/
def addSubs (zero : V) (i : Nat) (q : N) (kind : Kind) : Nat → St N V → List N → St N V × Bool
  | _, s, [] => (s, true)
  | j, s, c :: outs =>
    match addSub zero s i j q c kind with
    | some s1 => addSubs zero i q kind (j + 1) s1 outs
    | none => (s, false)

def registerAll (s : St N V) (n : N) : List N → St N V
  | [] => s
  | d :: l => registerAll (register s n d) n l

inductive Op (N V : Type) where
  | leaf (n : N) (kind : Kind)                                                         -- node_solution, edge_solution
  | group (n : N) (kind : Kind) (pol : Policy) (ins outs : List N) (f : List V → Nat → V)
  | set (n : N) (v : V)                                                                -- set_edge_values
  | get (n : N)                                                                        -- get_edge_model_values
  | delete (n : N)                                                                     -- delete_edge_model

/-- One command.  `leaf`: ModelCommands.cc:80-155; `group`: ModelCommands.cc:596-700, 1768-1905 (the inputs must exist;
the order of registering and of creating outputs differs between the classes, which only matters after a fatal error);
`set`: ModelCommands.cc:871-1100; `get`: 1370-1480; `delete`: Region.cc:832-882. -/
def step (zero : V) (fuel : Nat) (s : St N V) : Op N V → St N V × Res (Option V)
  | .leaf n kind =>
    match addModel s { name := n, kind := kind, dfn := .leaf, utd := false, val := zero, kid := fun _ => none } with
    | some s1 => (s1, .ok none)
    | none => (s, .error)
  | .group n kind pol ins outs f =>
    if ins.all (fun m => (s.tab m).isSome) then
      match addModel s { name := n, kind := kind, dfn := .prod pol ins outs f, utd := false, val := zero,
                         kid := fun _ => none } with
      | none => (s, .error)
      | some s1 =>
        match addSubs zero s.next n kind 0 (registerAll s1 n ins) outs with
        | (s2, true) => (s2, .ok none)
        | (s2, false) => (s2, .error)
    else (s, .error)
  | .set n v =>
    match s.tab n with
    | some i => (setValues s i v, .ok none)
    | none => (s, .error)
  | .get n =>
    match s.tab n with
    | some i =>
      match read zero fuel s i with
      | (s1, .ok v) => (s1, .ok (some v))
      | (s1, .error) => (s1, .error)
      | (s1, .crash) => (s1, .crash)
    | none => (s, .error)
  | .delete n =>
    match s.tab n with
    | some _ =>
      let s1 : St N V := { s with deps := s.deps.filter (fun p => p.1 ≠ n), tab := Function.update s.tab n none }
      (signal (enough s1) s1 n, .ok none)
    | none => (s, .error)

/-- A new region. -/
def init [Inhabited N] (zero : V) : St N V :=
  { heap := fun _ => { name := default, kind := .node, dfn := .leaf, utd := false, val := zero, kid := fun _ => none },
    next := 0, tab := fun _ => none, deps := [] }

end Verif.Multi
