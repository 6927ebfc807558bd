/-
Model of the model tables of a region, the dependency callbacks and lazy evaluation.

Modelled code
* `/repo/src/Geometry/Region.cc:832-1035` (Delete*Model, Add*Model), `1040-1118` (RegisterCallback,
  UnregisterCallback, SignalCallbacks)
* `/repo/src/models/NodeModel.cc:54-58` (init), `87-120` (CalculateValues), `134-184` (SetValues), `216-225` (MarkOld).
  Edge, triangle edge and tetrahedron edge models have the same code (EdgeModel.cc, TriangleEdgeModel.cc,
  TetrahedronEdgeModel.cc).
* `/repo/src/AutoEquation/NodeExprModel.cc:31-128` (RegisterModels, calcNodeScalarValues)
* `/repo/src/AutoEquation/ModelExprEval.cc:84-232` (EvaluateModelType, EvaluateVariableType)
* `/repo/src/models/NodeSolution.cc:40-70`

Simplifications: a model's array of values is one abstract value of type `V`; an expression is the list of
names it references together with an arbitrary function of their values; the order in which `std::map`
visits names is the (arbitrary) order of the association list `deps`; interface models and the
`@en0`/`@n0` alias fallback are not included; there are no node solutions with a parent.
-/
namespace Verif.Deps

inductive Kind where
  | node | edge | tri | tet
  deriving DecidableEq, Repr

/-- A reference in an expression: resolved when the expression is parsed (MODEL_OBJ or VARIABLE_OBJ). -/
inductive Ref (N : Type) where
  | model (n : N)
  | par (n : N)
  deriving DecidableEq, Repr

def Ref.name {N : Type} : Ref N → N
  | .model n => n
  | .par n => n

/-- How a model gets its values: `sol` is a node solution / edge model from data whose values are only set from outside
(NodeSolution.cc:50-70 does nothing without a parent); `expr` is an expression model. -/
inductive Dfn (N V : Type) where
  | sol
  | expr (refs : List (Ref N)) (f : List V → V)

/-- The data members `uptodate` and `model_data` of a model object. -/
structure M (N V : Type) where
  dfn : Dfn N V
  utd : Bool
  val : V

/-- Region.hh: `nodeModels`, `edgeModels`, `triangleEdgeModels`, `tetrahedronEdgeModels`, `DependencyMap`;
`par` is the parameter value the region sees (GlobalData). -/
structure St (N V : Type) where
  tab : Kind → N → Option (M N V)
  deps : List (N × List N)
  par : N → V

variable {N V : Type} [DecidableEq N]

/-- Region.cc:1074-1114, ModelExprEval.cc:97-152: tables are searched in the order node, edge, triangle edge,
tetrahedron edge. -/
def findKind (s : St N V) (n : N) : Option Kind :=
  if (s.tab .node n).isSome then some .node
  else if (s.tab .edge n).isSome then some .edge
  else if (s.tab .tri n).isSome then some .tri
  else if (s.tab .tet n).isSome then some .tet
  else none

def find (s : St N V) (n : N) : Option (M N V) :=
  match findKind s n with
  | some k => s.tab k n
  | none => none

def setTab (s : St N V) (k : Kind) (n : N) (m : Option (M N V)) : St N V :=
  { s with tab := fun k' n' => if k' = k ∧ n' = n then m else s.tab k' n' }

/-- Modify the data members of the model found under a name. -/
def modify (s : St N V) (n : N) (g : M N V → M N V) : St N V :=
  match findKind s n with
  | some k => setTab s k n ((s.tab k n).map g)
  | none => s

def isUtd (s : St N V) (n : N) : Bool :=
  match find s n with
  | some m => m.utd
  | none => false

/-- Region.cc:1052-1061: the names having a registered dependency on `x`. -/
def dependents (s : St N V) (x : N) : List N :=
  (s.deps.filter (fun p => p.2.contains x)).map Prod.fst

/-- NodeModel.cc:218: `uptodate = false`. -/
def clearUtd (s : St N V) (n : N) : St N V := modify s n (fun m => { m with utd := false })

/-- The loop Region.cc:1063-1115 over the names to be notified; `rec` is the recursive call of SignalCallbacks
made by MarkOld (NodeModel.cc:216-220). -/
def signalLoop (rec : St N V → N → Option (St N V)) : St N V → List N → Option (St N V)
  | s, [] => some s
  | s, n :: l =>
    if isUtd s n then
      match rec (clearUtd s n) n with
      | some s' => signalLoop rec s' l
      | none => none
    else signalLoop rec s l

/-- Region.cc:1046-1118: SignalCallbacks; `none`: recursion deeper than `fuel`. -/
def signal : Nat → St N V → N → Option (St N V)
  | 0, _, _ => none
  | fuel + 1, s, x => signalLoop (signal fuel) s (dependents s x)

/-- A recursion depth that always suffices (proved in `signal_terminates`). -/
def enough (s : St N V) : Nat := s.deps.length + 1

/-- SignalCallbacks with the recursion depth it needs. -/
def signalAll (s : St N V) (x : N) : St N V := (signal (enough s) s x).getD s

/-- NodeModel.cc:134-184: SetValues: store, MarkOld (which signals), `uptodate = true`. -/
def setValues (s : St N V) (n : N) (v : V) : St N V :=
  let s := modify s n (fun m => { m with val := v })
  let s := signalAll (clearUtd s n) n
  modify s n (fun m => { m with utd := true })

/-- Result of evaluating: a value, a cyclic dependency error (ModelExprEval.cc:99-105; the whole evaluation is then
invalid and fatal, NodeExprModel.cc:119-127), or fuel exhausted (never happens, `read_fuel`). -/
inductive Res (V : Type) where
  | ok (v : V)
  | cyclic
  | fuel
  deriving Repr

/-- Evaluate the references of an expression from left to right. -/
def evalRefs (zero : V) (read : St N V → N → St N V × Res V) (path : List N) :
    St N V → List (Ref N) → St N V × (List V ⊕ Res V)
  | s, [] => (s, .inl [])
  | s, r :: rs =>
    match r with
    | .par p =>
      match evalRefs zero read path s rs with
      | (s', .inl vs) => (s', .inl (s.par p :: vs))
      | (s', .inr e) => (s', .inr e)
    | .model n =>
      match find s n with
      | none =>                                       -- ModelExprEval.cc:153-159: missing model is 0.0
        match evalRefs zero read path s rs with
        | (s', .inl vs) => (s', .inl (zero :: vs))
        | (s', .inr e) => (s', .inr e)
      | some _ =>
        if path.contains n then (s, .inr .cyclic)     -- IsInProcess
        else
          match read s n with
          | (s', .ok v) =>
            match evalRefs zero read path s' rs with
            | (s'', .inl vs) => (s'', .inl (v :: vs))
            | (s'', .inr e) => (s'', .inr e)
          | (s', e) => (s', .inr e)

/-- NodeModel.cc:87-133: GetScalarValues / CalculateValues of an existing model.  `path` is the set of models whose
`inprocess` flag is set. -/
def read (zero : V) : Nat → List N → St N V → N → St N V × Res V
  | 0, _, s, _ => (s, .fuel)
  | fuel + 1, path, s, n =>
    match find s n with
    | none => (s, .ok zero)
    | some m =>
      if m.utd then (s, .ok m.val)
      else
        match m.dfn with
        | .sol => (modify s n (fun m => { m with utd := true }), .ok m.val)
        | .expr refs f =>
          match evalRefs zero (read zero fuel (n :: path)) (n :: path) s refs with
          | (s', .inl vs) => (setValues s' n (f vs), .ok (f vs))
          | (s', .inr e) => (s', e)

/-! ### commands -/

/-- Region.cc:884-1035: Add*Model.  `none` is the FATAL error "cannot replace ... of the same name". -/
def addModel (s : St N V) (k : Kind) (n : N) (m : M N V) : Option (St N V) :=
  if (s.tab k n).isSome then some (setTab s k n (some m))
  else if (findKind s n).isSome then none
  else some (setTab s k n (some m))

/-- Region.cc:1040-1043 `DependencyMap[mod].insert(dep)`. -/
def register (s : St N V) (n d : N) : St N V :=
  if s.deps.any (fun p => p.1 = n) then
    { s with deps := s.deps.map (fun p => if p.1 = n then (p.1, if p.2.contains d then p.2 else d :: p.2) else p) }
  else { s with deps := (n, [d]) :: s.deps }

/-- names registered by derived_init: NodeExprModel.cc:37-71 -/
def Dfn.names : Dfn N V → List N
  | .sol => []
  | .expr refs _ => refs.map Ref.name

/-- NodeModel.cc:54-58: creation of a model object: not up to date, values 0. -/
def define (zero : V) (s : St N V) (k : Kind) (n : N) (d : Dfn N V) : Option (St N V) :=
  match addModel s k n { dfn := d, utd := false, val := zero } with
  | none => none
  | some s' => some (d.names.foldl (fun s x => register s n x) s')

/-- Region.cc:1045-1053 -/
def unregister (s : St N V) (n : N) : St N V :=
  { s with deps := s.deps.filter (fun p => p.1 ≠ n) }

/-- Region.cc:832-882 -/
def delete (s : St N V) (k : Kind) (n : N) : St N V :=
  if (s.tab k n).isSome then signalAll (setTab (unregister s n) k n none) n else s

/-- GlobalData.cc: the parameter value changes, then `SignalCallbacks(p)` on the region. -/
def setPar (s : St N V) (p : N) (v : V) : St N V :=
  signalAll { s with par := fun q => if q = p then v else s.par q } p

inductive Op (N V : Type) where
  | setPar (p : N) (v : V)
  | setValues (n : N) (v : V)
  | define (k : Kind) (n : N) (d : Dfn N V)
  | delete (k : Kind) (n : N)
  | read (n : N)

def init (zero : V) : St N V := { tab := fun _ _ => none, deps := [], par := fun _ => zero }

/-- One command.  A FATAL error leaves the state as it is. `fuel` bounds the evaluation depth. -/
def step (zero : V) (fuel : Nat) (s : St N V) : Op N V → St N V
  | .setPar p v => setPar s p v
  | .setValues n v => match find s n with
    | some _ => setValues s n v
    | none => s
  | .define k n d => (define zero s k n d).getD s
  | .delete k n => delete s k n
  | .read n => (read zero fuel [] s n).1

def run (zero : V) (fuel : Nat) (s : St N V) (ops : List (Op N V)) : St N V :=
  ops.foldl (step zero fuel) s

end Verif.Deps
