import Verif.Util.FMap
/-
Model of the circuit node table (Circuit/data/NodeKeeper.cc, CircuitNode.hh, InstanceModel.cc), the constructors of the
circuit elements and the circuit commands (commands/CircuitCommands.cc).

`N` is the type of names; what the code does with the text of a name is kept in `Names`: the two ground names "0" and
"GND", the name `name + ".I"` of the branch unknown of a source or inductor (never one of the ground names), and the
element kind decided by the first letter.  `K` is the type of solution names ("dcop", "ssac_real", ...).  `V` is the value type.
`size_t(-1)` as a node number is `none`.

Simplifications: `NodeTable_` is iterated in insertion order here and in alphabetical order in the code (nothing below
depends on which); the numbers are below the range of `size_t`; log output and argument parsing are left out; the value and
`acreal`/`acimag` of an element are in `Elements.lean`.
-/
namespace Verif.Circuit
open Verif

/-- CircuitNode.hh:18-23 -/
inductive NodeType | default | mna | internal | ground
deriving DecidableEq, Repr
/-- CircuitNode.hh:16 -/
inductive UpdateType | default | logdamp | positive
deriving DecidableEq, Repr
/-- CircuitNode.hh:25-73; `number = none` is `size_t(-1)`; CircuitNode.cc:15 starts with number 0 -/
structure Node where
  ty : NodeType
  ut : UpdateType
  number : Option Nat
deriving DecidableEq, Repr

/-- the element kinds of CircuitCommands.cc:210-254 -/
inductive ElemKind | V | I | C | L | R
deriving DecidableEq, Repr

/-- what the code does with the text of names -/
structure Names (N : Type) where
  zero : N
  gnd : N
  internal : N → N
  kind : N → Option ElemKind
  zero_ne_gnd : zero ≠ gnd
  internal_ne_zero : ∀ n, internal n ≠ zero
  internal_ne_gnd : ∀ n, internal n ≠ gnd

/-- an element holds `CircuitNodePtr`s; a pointer is represented by the key of the node in `NodeTable_` (entries are never
replaced: NodeKeeper.cc:64-79) -/
structure Elem (N : Type) where
  kind : ElemKind
  top : N
  bot : N
  branch : Option N
deriving DecidableEq, Repr

/-- NodeKeeper.hh:104-119 and InstanceKeeper's `instMod_`; `sols` maps a key to a null pointer (`none`) or a vector -/
structure St (N K V : Type) where
  table : FMap N Node
  aliases : FMap N N
  sols : FMap K (Option (List V))
  nNodes : Nat
  locked : Bool
  minEq : Nat
  elems : FMap N (Elem N)

variable {N K V : Type} [DecidableEq N] [DecidableEq K]

/-- a fresh NodeKeeper and InstanceKeeper (NodeKeeper.hh:107-112) -/
def St.init : St N K V := ⟨[], [], [], 0, false, 0, []⟩

/-- NodeKeeper::AddNode, NodeKeeper.cc:52-80; the flag says that an exception was thrown (FATAL, OutputStream.cc:67-71) -/
def addNode (st : St N K V) (n : N) (ty : NodeType) (ut : UpdateType) : St N K V × Bool :=
  if st.locked then (st, true)
  else if st.table.has n then (st, false)
  else ({ st with table := st.table.set n ⟨ty, ut, some 0⟩ }, false)

/-- the alias step shared by GetIndexNumber (NodeKeeper.cc:206-210) and IsCircuitNode (NodeKeeper.cc:501-505) -/
def resolve (st : St N K V) (n : N) : N := (st.aliases.get n).getD n

/-- NodeKeeper::IsCircuitNode, NodeKeeper.cc:499-508 -/
def isNode (st : St N K V) (n : N) : Bool := st.table.has (resolve st n)

/-- NodeKeeper::GetIndexNumber, NodeKeeper.cc:204-222 -/
def index (st : St N K V) (n : N) : Option Nat := (st.table.get (resolve st n)).bind Node.number

/-- NodeKeeper::AddNodeAlias, NodeKeeper.cc:82-108 -/
def addAlias (st : St N K V) (al n : N) : St N K V × Bool :=
  if ¬ st.table.has n then (st, true)
  else if st.table.has al then (st, true)
  else ({ st with aliases := st.aliases.set al n }, false)

/-- sequencing: an exception ends the command -/
def andThen (r : St N K V × Bool) (f : St N K V → St N K V × Bool) : St N K V × Bool :=
  if r.2 then r else f r.1

/-- one half of AddGroundNode -/
def ensureGround (st : St N K V) (n : N) : St N K V × Bool :=
  if isNode st n then (st, false) else addNode st n .ground .default

/-- AddGroundNode, CircuitCommands.cc:31-43 -/
def addGround (nm : Names N) (st : St N K V) : St N K V × Bool :=
  andThen (ensureGround st nm.zero) (fun st => ensureGround st nm.gnd)

/-- CreateNode, CircuitCommands.cc:45-55 -/
def createNode (nm : Names N) (st : St N K V) (n : N) (ut : UpdateType) : St N K V × Bool :=
  andThen (addGround nm st) (fun st => if isNode st n then (st, false) else addNode st n .default ut)

/-- addCircuitNodeCmd, CircuitCommands.cc:118-141, after the options have been accepted; the update type that the user asked
for is not passed on: `CreateNode(name, CircuitUpdateType::DEFAULT)`, line 132 -/
def addCircuitNodeCmd (nm : Names N) (st : St N K V) (n : N) (_ut : UpdateType) : St N K V × Bool :=
  andThen (addGround nm st) (fun st => if isNode st n then (st, true) else createNode nm st n .default)

/-- the branch unknown made by the constructor: IdealVoltage.cc:49 (MNA), IdealInductor.cc:9 (INTERNAL) -/
def branchNode (nm : Names N) (k : ElemKind) (e : N) : Option (N × NodeType) :=
  match k with
  | .V => some (nm.internal e, .mna)
  | .L => some (nm.internal e, .internal)
  | _ => none

/-- the element constructors (IdealResistor.cc:4-12, IdealCapacitor.cc:4-12, IdealInductor.cc:4-13, IdealVoltage.cc:36-55,
IdealCurrent.cc:13-30) followed by InstanceKeeper::addInstanceModel (InstanceKeeper.cc:44-55), which asserts that the name
is new -/
def construct (nm : Names N) (k : ElemKind) (st : St N K V) (e n1 n2 : N) : St N K V × Bool :=
  andThen (addNode st n1 .default .default) fun st =>
  andThen (addNode st n2 .default .default) fun st =>
  andThen (match branchNode nm k e with
    | some (b, ty) => addNode st b ty .default
    | none => (st, false)) fun st =>
  if st.elems.has e then (st, true)
  else ({ st with elems := st.elems.set e ⟨k, n1, n2, (branchNode nm k e).map Prod.fst⟩ }, false)

/-- circuitElementCmd, CircuitCommands.cc:200-260 -/
def elementCmd (nm : Names N) (st : St N K V) (e n1 n2 : N) : St N K V × Bool :=
  andThen (createNode nm st n1 .default) fun st =>
  andThen (createNode nm st n2 .default) fun st =>
  match nm.kind e with
  | none => (st, true)
  | some k => construct nm k st e n1 n2

/-- circuitNodeAliasCmd, CircuitCommands.cc:358-416 -/
def aliasCmd (nm : Names N) (st : St N K V) (n al : N) : St N K V × Bool :=
  andThen (addGround nm st) fun st =>
  if ¬ isNode st n then (st, true)
  else if isNode st al then (st, true)
  else addAlias st al n

/-- the loop of NodeKeeper::SetNodeNumbers, NodeKeeper.cc:158-176 -/
def numberLoop : Nat → FMap N Node → FMap N Node × Nat
  | i, [] => ([], i)
  | i, (n, nd) :: t =>
    if nd.ty = .ground then
      let r := numberLoop i t
      ((n, { nd with number := none }) :: r.1, r.2)
    else
      let r := numberLoop (i + 1) t
      ((n, { nd with number := some i }) :: r.1, r.2)

/-- NodeKeeper::SetNodeNumbers, NodeKeeper.cc:147-190 (the assertion that there is a ground node is the flag) -/
def setNodeNumbers (st : St N K V) (start : Nat) : St N K V × Bool :=
  let r := numberLoop 0 st.table
  ({ st with table := r.1, nNodes := r.2, minEq := start }, !(st.table.any (fun p => p.2.ty = .ground)))

/-- NodeKeeper::CreateSolution, NodeKeeper.cc:247-275: the lock is taken and the (null) entry is made before the assertion
that there are nodes -/
def createSolution [Zero V] (st : St N K V) (k : K) : St N K V × Bool :=
  if st.nNodes = 0 then ({ st with locked := true, sols := st.sols.set k none }, true)
  else ({ st with locked := true, sols := st.sols.set k (some (List.replicate st.nNodes 0)) }, false)

/-- NodeKeeper::InitializeSolution, NodeKeeper.cc:279-285 -/
def initializeSolution [Zero V] (st : St N K V) (k : K) : St N K V × Bool :=
  if st.sols.has k then (st, false) else createSolution st k

/-- writing an analysis result into solution `k`: the asserts of UpdateSolution/CopySolution (NodeKeeper.cc:310-314, 415-420)
and then arbitrary new values -/
def writeSolution (st : St N K V) (k : K) (vals : Nat → V) : St N K V × Bool :=
  match st.sols.get k with
  | some (some v) => ({ st with sols := st.sols.set k (some ((List.range v.length).map vals)) }, false)
  | _ => (st, true)

/-- the circuit part of an analysis, Newton.cc:107-123 and 616-626 (also 521-530, 1157-1168): number the unknowns from
`start`, make sure that the solutions exist, then write them.  Nothing happens when there are no nodes. -/
def solveCmd [Zero V] (st : St N K V) (start : Nat) (ks : List (K × (Nat → V))) : St N K V × Bool :=
  if st.table = [] then (st, false)
  else
    andThen (setNodeNumbers st start) fun st =>
    andThen (ks.foldl (fun r k => andThen r (fun st => initializeSolution st k.1)) (st, false)) fun st =>
    ks.foldl (fun r k => andThen r (fun st => writeSolution st k.1 k.2)) (st, false)

/-- NodeKeeper::GetNodeValue, NodeKeeper.cc:517-532 (`none`: an assertion or a null pointer) -/
def getValue [Zero V] (st : St N K V) (k : K) (n : N) : Option V :=
  match st.sols.get k with
  | none => some 0
  | some sol =>
    match index st n with
    | none => some 0
    | some i => sol.bind (fun v => v[i]?)

/-- NodeKeeper::SetNodeValue, NodeKeeper.cc:545-556 -/
def setValue (st : St N K V) (k : K) (n : N) (x : V) : St N K V × Bool :=
  match st.sols.get k with
  | none => (st, false)
  | some sol =>
    match index st n with
    | none => (st, false)
    | some i =>
      match sol with
      | none => (st, true)
      | some v => if i < v.length then ({ st with sols := st.sols.set k (some (v.set i x)) }, false) else (st, true)

/-- set_circuit_node_value, CircuitCommands.cc:485-540 -/
def setValueCmd (nm : Names N) (st : St N K V) (k : K) (n : N) (x : V) : St N K V × Bool :=
  andThen (addGround nm st) fun st =>
  if isNode st n ∧ st.sols.has k then setValue st k n x else (st, true)

/-- the circuit commands; `query` stands for get_circuit_node_list, get_circuit_solution_list and get_circuit_node_value, which
all begin with AddGroundNode (CircuitCommands.cc:420, 459, 487) -/
inductive Cmd (N K V : Type)
  | addNode (n : N) (ut : UpdateType)
  | element (e n1 n2 : N)
  | alias (n al : N)
  | setVal (k : K) (n : N) (x : V)
  | query
  | solve (start : Nat) (ks : List (K × (Nat → V)))
  | deleteCircuit

/-- one command; the flag says that the command reported an error -/
def step [Zero V] (nm : Names N) (st : St N K V) : Cmd N K V → St N K V × Bool
  | .addNode n ut => addCircuitNodeCmd nm st n ut
  | .element e n1 n2 => elementCmd nm st e n1 n2
  | .alias n al => aliasCmd nm st n al
  | .setVal k n x => setValueCmd nm st k n x
  | .query => addGround nm st
  | .solve start ks => solveCmd st start ks
  | .deleteCircuit => (St.init, false)

/-- a session -/
def run [Zero V] (nm : Names N) (st : St N K V) (cs : List (Cmd N K V)) : St N K V :=
  cs.foldl (fun st c => (step nm st c).1) st

end Verif.Circuit
