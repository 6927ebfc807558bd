import Verif.Deps.Props
import Verif.PyArg.Options

/-!
# The commands that set and show the values of models (`src/commands/ModelCommands.cc` 871-1680, `src/commands/Validate.cc`)

On top of the tables of a region (`Verif.Deps`) and the options of commands (`Verif.PyArg`).  A double is its bit pattern.

Simplifications: the program without `DEVSIM_EXTENDED_PRECISION` (only `decide`, the choice of the values, has both); data models (`NodeSolution`, `EdgeSubModel`, `TriangleEdgeSubModel`, `TetrahedronEdgeSubModel`) have no parent model;
a failed evaluation (exception) is `fatal`, without its text.
-/

namespace Verif.SetVals

open Verif.Deps (Kind Dfn)
open Verif.PyArg (F64 Py Lib Opt OptError Check)

/-- the values of a model: one number everywhere (`IsUniform`, ModelDataHolder.hh) or an array -/
inductive Arr where
  | all (x : F64)
  | arr (l : List F64)
deriving DecidableEq

/-- `GetScalarValues<double>`, NodeModel.cc 116-126, with `ModelDataHolder::expand_uniform`: the values of a model with `len` places -/
def Arr.toList (len : Nat) : Arr → List F64
  | .all x => List.replicate len x
  | .arr l => l

abbrev zero : Arr := .all 0

/-- `Region`: the tables of its models, the number of values of a model of each kind (`GetNumberNodes()`, `GetNumberEdges()`,
`3 * GetNumberTriangles()`, `6 * GetNumberTetrahedrons()`) and the nodes (edges) of the contact of a contact model (`GetContactIndexes`,
NodeModel.cc 177-190, EdgeModel.cc) -/
structure Reg where
  st : Deps.St String Arr
  count : Kind → Nat
  contact : Kind → String → Option (List Nat)

/-- `Device`: dimension and regions -/
structure Dev where
  dim : Nat
  region : String → Option Reg

/-- `GlobalData`: the devices -/
abbrev World := String → Option Dev

/-- What a command answers: nothing (`None`), an error with its text, an exception, a list of numbers, nothing after printing the numbers, a
list of names, or an error about the options. -/
inductive Res where
  | empty
  | err (m : String)
  | fatal
  | list (l : List F64)
  | printed (l : List F64)
  | names (l : List String)
  | badArgs (e : OptError)
deriving DecidableEq

/-! ### Which values are set -/

/-- what the model that is to be set is: `NodeSolution<double>`, `NodeSolution<float128>` (`EdgeSubModel`, …), or anything else -/
inductive Target where
  | sol
  | sol128
  | other
deriving DecidableEq

inductive Decision (E : Type) where
  | refuse (m : String)
  | set (l : List F64)
  | set128 (l : List E)
deriving DecidableEq

/-- `vdata.IsList()`, `vdata.GetDoubleList(values)`, ModelCommands.cc 904-923: the values of the option, empty if they are no numbers.  The
messages about "values" and "init_from" given together and about values that are no numbers are put in `errorString`, which line 928
overwrites: they have no effect. -/
def given (L : Lib) (v : Py) : List F64 :=
  if (PyArg.listOf v).isSome then (PyArg.getDoubleList L v).getD [] else []

/-- The choice of the values and the end of the command, ModelCommands.cc 962-974 (likewise 992-1004, 1027-1039, 1056-1068) and 1072-1102:
`initVals`, `initVals128` are the values of the model named by `init_from`; `b128`: DEVSIM_EXTENDED_PRECISION is defined. -/
def decide {E : Type} (b128 : Bool) (t : Target) (exist initExist : Bool) (name init : String) (given initVals : List F64) (initVals128 : List E)
    (expected : Nat) : Decision E :=
  let values := if initExist = true ∧ t = .sol then initVals else given
  let values128 : List E := if initExist = true ∧ t = .sol128 then initVals128 else []
  if exist = false then .refuse ("Model " ++ name ++ " does not exist\n")
  else if init ≠ "" ∧ initExist = false then .refuse ("-init_from " ++ init ++ " does not exist\n")
  else if values.length = expected then .set values
  else if b128 = true ∧ values128.length = expected then .set128 values128
  else .refuse "wrong number of elements\n"

/-! ### Commands on a region -/

/-- `GetScalarValues` of the model found under the name (a table lookup finds the same model: a name has one kind, C17) -/
def readVals (F : Nat) (r : Reg) (k : Kind) (n : String) : Reg × Option (List F64) :=
  match Deps.read zero F [] r.st n with
  | (s, .ok v) => ({ r with st := s }, some (v.toList (r.count k)))
  | (s, _) => ({ r with st := s }, none)

/-- `set_indexes`, ModelDataHolder.cc 189-262: zero outside the contact -/
def masked (len : Nat) (ix : List Nat) (v : Nat → F64) : List F64 :=
  (List.range len).map fun i => if i ∈ ix then v i else 0

/-- `SetValues(vector)`, NodeModel.cc 136-152, EdgeModel.cc 276-291, TriangleEdgeModel.cc, TetrahedronEdgeModel.cc 103-109 -/
def storeList (r : Reg) (k : Kind) (n : String) (l : List F64) : Reg :=
  { r with st := Deps.setValues r.st n (match r.contact k n with
      | some ix => .arr (masked (r.count k) ix fun i => l.getD i 0)
      | none => .arr l) }

/-- `SetValues(value)`, NodeModel.cc 160-175 -/
def storeAll (r : Reg) (k : Kind) (n : String) (x : F64) : Reg :=
  { r with st := Deps.setValues r.st n (match r.contact k n with
      | some ix => .arr (masked (r.count k) ix fun _ => x)
      | none => .all x) }

/-- `dynamic_pointer_cast<NodeSolution<double>>` and so on -/
def isData (m : Deps.M String Arr) : Bool :=
  match m.dfn with
  | .sol => true
  | .expr _ _ => false

/-- `set_node_values`, `set_edge_values` and `set_element_values` from line 936 on, for the table `k`; 962-966: `init_from` is evaluated
only for a data model -/
def setValuesR (F : Nat) (r : Reg) (k : Kind) (name init : String) (vals : List F64) : Reg × Res :=
  let exist := (r.st.tab k name).isSome
  let initExist := (r.st.tab k init).isSome
  let t : Target := match r.st.tab k name with
    | some m => if isData m then .sol else .other
    | none => .other
  let p : Reg × Option (List F64) := if initExist = true ∧ t = .sol then readVals F r k init else (r, some [])
  match p.2 with
  | none => (p.1, .fatal)
  | some iv => match decide (E := Empty) false t exist initExist name init vals iv [] (r.count k) with
    | .refuse m => (p.1, .err m)
    | .set l => (storeList p.1 k name l, .empty)
    | .set128 _ => (p.1, .err "")

/-- `set_node_value` from line 1143 on -/
def setOneR (F : Nat) (r : Reg) (name : String) (index : Int) (x : F64) : Reg × Res :=
  if (r.st.tab .node name).isNone then (r, .err ("Model " ++ name ++ " does not exist\n"))
  else if index < -1 ∨ (index ≠ -1 ∧ (r.count .node : Int) ≤ index) then
    (r, .err ("-index " ++ toString index ++ " does not exist\n"))
  else if index = -1 then (storeAll r .node name x, .empty)
  else
    -- NodeModel.cc 195-220
    match readVals F r .node name with
    | (r', none) => (r', .fatal)
    | (r', some l) => match r.contact .node name with
      | some _ => (storeAll r' .node name x, .empty)
      | none => (storeList r' .node name (l.set index.toNat x), .empty)

/-- what the message calls a model: `"Node Model"` (1237), `"Edge Model"` (1325), `"Element Edge Model"` (1430) -/
def label : Kind → String
  | .node => "Node Model"
  | .edge => "Edge Model"
  | _ => "Element Edge Model"

/-- `get_node_model_values`, `get_edge_model_values`, `get_element_model_values` and `SetListAsResult` 1179-1197 -/
def getR (F : Nat) (r : Reg) (k : Kind) (name : String) : Reg × Res :=
  if (r.st.tab k name).isNone then (r, .err (label k ++ " " ++ name ++ " does not exist\n"))
  else match readVals F r k name with
    | (r', none) => (r', .fatal)
    | (r', some l) => (r', if l = [] then .err (label k ++ " " ++ name ++ " is empty\n") else .list l)

/-- `print_node_values`, `print_edge_values`, `print_element_values` -/
def printR (F : Nat) (r : Reg) (k : Kind) (name : String) : Reg × Res :=
  if (r.st.tab k name).isNone then (r, .err (label k ++ " " ++ name ++ " does not exist\n"))
  else match readVals F r k name with
    | (r', none) => (r', .fatal)
    | (r', some l) => (r', .printed l)

/-- `delete_node_model`, `delete_edge_model`, `delete_element_model` -/
def deleteR (r : Reg) (k : Kind) (name : String) : Reg × Res :=
  if (r.st.tab k name).isNone then (r, .err (label k ++ " " ++ name ++ " does not exist\n"))
  else ({ r with st := Deps.delete r.st k name }, .empty)

/-! ### Commands on the program -/

/-- `ValidateDeviceAndRegion`, Validate.cc 60-83 -/
def validate (W : World) (d r : String) : Except String (Dev × Reg) :=
  match W d with
  | none => .error ("on Region \"" ++ r ++ "\" on Device \"" ++ d ++ "\" does not exist.\n")
  | some dev => match dev.region r with
    | none => .error ("on Region \"" ++ r ++ "\" on Device \"" ++ d ++ "\" does not exist.\n")
    | some reg => .ok (dev, reg)

/-- the region after the command -/
def put (W : World) (d r : String) (reg : Reg) : World := fun d' =>
  if d' = d then (W d).map fun dev => { dev with region := fun r' => if r' = r then some reg else dev.region r' } else W d'

/-- `stringCannotBeEmpty`, CheckFunctions.cc 36-51 -/
def notEmpty (L : Lib) : Check := fun n h => match h n with
  | some v => PyArg.getString L v ≠ ""
  | none => false

/-- `mustBeValidDevice`, CheckFunctions.cc 147-167 -/
def validDevice (L : Lib) (W : World) : Check := fun n h => match h n with
  | some v => PyArg.getString L v ≠ "" ∧ (W (PyArg.getString L v)).isSome
  | none => false

/-- the options of `print_node_values` and the like, ModelCommands.cc 1207-1213 -/
def nameOpts (L : Lib) (W : World) : List Opt :=
  [⟨"device", "", .string, true, some (validDevice L W)⟩, ⟨"region", "", .string, true, some (notEmpty L)⟩,
   ⟨"name", "", .string, true, some (notEmpty L)⟩]

/-- the options of `set_node_values`, ModelCommands.cc 879-887 -/
def valuesOpts (L : Lib) (W : World) : List Opt :=
  nameOpts L W ++ [⟨"init_from", "", .string, false, none⟩, ⟨"values", "", .list, false, none⟩]

/-- the options of `set_node_value`, ModelCommands.cc 1111-1119 -/
def valueOpts (L : Lib) (W : World) : List Opt :=
  nameOpts L W ++ [⟨"index", "-1", .integer, false, none⟩, ⟨"value", "0.0", .float, true, none⟩]

/-- which tables a command works on: nodes, edges, or the elements of a device of that dimension -/
inductive On where
  | nodes
  | edges
  | elements
deriving DecidableEq

/-- `GetStringOption`, with the empty text for the failed assertion on a name that is no option -/
def str (L : Lib) (opts : List Opt) (sel : List (String × Py)) (n : String) : String :=
  (PyArg.stringOption L opts sel n).getD ""

/-- `setNodeValuesCmd`, ModelCommands.cc 871-1103 -/
def setValuesCmd (L : Lib) (F : Nat) (on : On) (W : World) (kw : List (String × Py)) : World × Res :=
  match PyArg.processOptions L (valuesOpts L W) kw with
  | .error e => (W, .badArgs e)
  | .ok sel =>
    let s := str L (valuesOpts L W) sel
    let vals := match PyArg.holder (valuesOpts L W) sel "values" with
      | some v => given L v
      | none => []
    match validate W (s "device") (s "region") with
    | .error m => (W, .err m)
    | .ok (dev, reg) =>
      let go (k : Kind) : World × Res :=
        let q := setValuesR F reg k (s "name") (s "init_from") vals
        (put W (s "device") (s "region") q.1, q.2)
      match on with
      | .nodes => go .node
      | .edges => go .edge
      | .elements =>
        if dev.dim = 1 then (W, .err ("1D not supported for set_element_values\nModel " ++ s "name" ++ " does not exist\n"))
        else if dev.dim = 2 then go .tri
        else if dev.dim = 3 then go .tet
        else (W, .err ("Model " ++ s "name" ++ " does not exist\n"))

/-- `setNodeValueCmd`, ModelCommands.cc 1106-1176; `maxD`, `minD`: `MAXDOUBLE`, `-MAXDOUBLE` -/
def setOneCmd (L : Lib) (maxD minD : F64) (F : Nat) (W : World) (kw : List (String × Py)) : World × Res :=
  match PyArg.processOptions L (valueOpts L W) kw with
  | .error e => (W, .badArgs e)
  | .ok sel =>
    let s := str L (valueOpts L W) sel
    match validate W (s "device") (s "region") with
    | .error m => (W, .err m)
    | .ok (_, reg) =>
      let q := setOneR F reg (s "name") ((PyArg.integerOption L (valueOpts L W) sel "index").getD 0)
        ((PyArg.doubleOption L maxD minD (valueOpts L W) sel "value").getD 0)
      (put W (s "device") (s "region") q.1, q.2)

/-- the three things done with the values of a model -/
inductive Show where
  | print
  | get
  | delete
deriving DecidableEq

def showR (F : Nat) (what : Show) (r : Reg) (k : Kind) (name : String) : Reg × Res :=
  match what with
  | .print => printR F r k name
  | .get => getR F r k name
  | .delete => deleteR r k name

/-- `printNodeValuesCmd` 1199-1283, `printEdgeValuesCmd` 1285-1368, `printElementEdgeValuesCmd` 1370-1498 -/
def showCmd (L : Lib) (F : Nat) (on : On) (what : Show) (W : World) (kw : List (String × Py)) : World × Res :=
  match PyArg.processOptions L (nameOpts L W) kw with
  | .error e => (W, .badArgs e)
  | .ok sel =>
    let s := str L (nameOpts L W) sel
    match validate W (s "device") (s "region") with
    | .error m => (W, .err m)
    | .ok (dev, reg) =>
      let go (k : Kind) : World × Res :=
        let q := showR F what reg k (s "name")
        (put W (s "device") (s "region") q.1, q.2)
      match on with
      | .nodes => go .node
      | .edges => go .edge
      | .elements =>
        if dev.dim = 2 then go .tri
        else if dev.dim = 3 then go .tet
        else (W, .err ("Element Edge Model " ++ s "name" ++ " does not exist\n"))

/-- `getNodeModelListCmd` after the checks, ModelCommands.cc 1610-1633: `keys` are the names in the tables.  With elements in one dimension
no result is set: `return_code_` stays 0, which is an error, and `error_string_` is empty (CommandHandler.cc 13-18, PythonCommands.cc). -/
def listR (on : On) (dim : Nat) (keys : Kind → List String) : Res :=
  match on with
  | .nodes => .names (keys .node)
  | .edges => .names (keys .edge)
  | .elements => if dim = 2 then .names (keys .tri) else if dim = 3 then .names (keys .tet) else .err ""

/-! ### Histories of a region -/

/-- What happens to a region: the commands above, models being defined (any of the commands that create models) and parameters being set. -/
inductive Call where
  | setValues (k : Kind) (name init : String) (vals : List F64)
  | setOne (name : String) (index : Int) (x : F64)
  | «show» (what : Show) (k : Kind) (name : String)
  | define (k : Kind) (name : String) (d : Dfn String Arr)
  | setPar (p : String) (v : Arr)

def step (F : Nat) (r : Reg) : Call → Reg × Res
  | .setValues k n i l => setValuesR F r k n i l
  | .setOne n i x => setOneR F r n i x
  | .show w k n => showR F w r k n
  | .define k n d => match Deps.define zero r.st k n d with
    | some s => ({ r with st := s }, .empty)
    | none => (r, .fatal)
  | .setPar p v => ({ r with st := Deps.setPar r.st p v }, .empty)

/-- the answers of a history, and the region after it -/
def run (F : Nat) : Reg → List Call → Reg × List Res
  | r, [] => (r, [])
  | r, c :: cs => let p := step F r c; let q := run F p.1 cs; (q.1, p.2 :: q.2)

end Verif.SetVals
