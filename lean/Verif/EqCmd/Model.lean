import Verif.Equations.Registry
import Verif.SetVals.Cmds
import Mathlib.Data.List.Sort

/-!
# The equation commands (`src/commands/EquationCommands.cc`, `src/AutoEquation`, `src/Geometry/{Region,Contact,Interface}.cc`)

Equations of regions, contacts and interfaces as the commands create, list, tell and delete them, on top of the tables of a region
(`Verif.Equations.Registry`).

Simplifications: a device, region, contact or interface is found under the name it has itself; the models of a region and of an interface are only
asked for existence; messages of level INFO are not modelled; row numbers do not wrap as `int`. `custom_equation` is not modelled.
-/

namespace Verif.EqCmd

open Verif.PyArg (Py Lib Opt OptError Check)
open Verif.SetVals (notEmpty)

/-- `EquationEnum::UpdateType`, `Equation.hh` 75, with `UpdateTypeString`, `Equation.cc` 41-45 -/
inductive UpdateType | default | logdamp | positive
deriving DecidableEq

def UpdateType.text : UpdateType → String
  | .default => "default"
  | .logdamp => "log_damp"
  | .positive => "positive"

/-- `ExprEquation` with its base class, `ExprEquation.cc` 25-39, `Equation.cc` 112-115 -/
structure BulkEq where
  name : String
  var : String
  update : UpdateType
  node : String
  edge : String
  edgeVol : String
  element : String
  vol0 : String
  vol1 : String
  time : String

/-- the constructor with its arguments in their order, `ExprEquation.cc` 25-39 -/
def exprEquation (eqname var nmodel emodel evmodel eemodel eev0model eev1model tdnmodel : String) (ut : UpdateType) : BulkEq :=
  { name := eqname, var := var, update := ut, node := nmodel, edge := emodel, edgeVol := evmodel, element := eemodel, vol0 := eev0model,
    vol1 := eev1model, time := tdnmodel }

/-- `ExprEquation::GetCommandOptions_Impl`, `ExprEquation.cc` 131-145 -/
def BulkEq.options (e : BulkEq) (device region : String) : List (String × String) :=
  [("device", device), ("region", region), ("name", e.name), ("variable_name", e.var), ("variable_update", e.update.text), ("node_model", e.node),
   ("edge_model", e.edge), ("edge_volume_model", e.edgeVol), ("element_model", e.element), ("volume_node0_model", e.vol0),
   ("volume_node1_model", e.vol1), ("time_node_model", e.time)]

/-- `ExprContactEquation` with its base class, `ExprContactEquation.cc` 20-56, `ContactEquation.cc` 80-83 -/
structure ContactEq where
  name : String
  circuit : String
  nodeI : String
  edgeI : String
  edgeVolI : String
  elementI : String
  vol0 : String
  vol1 : String
  nodeC : String
  edgeC : String
  elementC : String
  nodeQ : String
  edgeQ : String
  elementQ : String

/-- the constructor, `ExprContactEquation.cc` 20-56 -/
def exprContactEquation (eq cnode nmi emi evmi eemi eevmi0 eevmi1 nmc emc eemc nmq emq eemq : String) : ContactEq :=
  { name := eq, circuit := cnode, nodeI := nmi, edgeI := emi, edgeVolI := evmi, elementI := eemi, vol0 := eevmi0, vol1 := eevmi1, nodeC := nmc,
    edgeC := emc, elementC := eemc, nodeQ := nmq, edgeQ := emq, elementQ := eemq }

/-- `ExprContactEquation::GetCommandOptions_Impl`, `ExprContactEquation.cc` 233-251 -/
def ContactEq.options (e : ContactEq) (device contact : String) : List (String × String) :=
  [("device", device), ("contact", contact), ("name", e.name), ("edge_charge_model", e.edgeQ), ("edge_current_model", e.edgeC),
   ("edge_model", e.edgeI), ("edge_volume_model", e.edgeVolI), ("element_charge_model", e.elementQ), ("element_current_model", e.elementC),
   ("element_model", e.elementI), ("volume_node0_model", e.vol0), ("volume_node1_model", e.vol1), ("node_charge_model", e.nodeQ),
   ("node_current_model", e.nodeC), ("node_model", e.nodeI), ("circuit_node", e.circuit)]

/-- `InterfaceExprEquationEnum::EquationType`, `InterfaceExprEquation.hh` 29, `InterfaceExprEquation.cc` 26-32 -/
inductive IfType | unknown | continuous | fluxterm | hybrid
deriving DecidableEq

def IfType.text : IfType → String
  | .unknown => "unknown"
  | .continuous => "continuous"
  | .fluxterm => "fluxterm"
  | .hybrid => "hybrid"

/-- `InterfaceExprEquation` with its base class, `InterfaceExprEquation.cc` 34-45, `InterfaceEquation.cc` 27-38 -/
structure IfEq where
  name : String
  name0 : String
  name1 : String
  model : String
  type : IfType

/-- the constructors: an empty name of a side is the name of the equation -/
def interfaceExprEquation (eqname eqname0 eqname1 inmodel : String) (et : IfType) : IfEq :=
  { name := eqname, name0 := if eqname0 = "" then eqname else eqname0, name1 := if eqname1 = "" then eqname else eqname1, model := inmodel,
    type := et }

/-- `InterfaceExprEquation::GetCommandOptions_Impl`, `InterfaceExprEquation.cc` 116-125 -/
def IfEq.options (e : IfEq) (device interface : String) : List (String × String) :=
  [("device", device), ("interface", interface), ("name", e.name), ("name0", e.name0), ("name1", e.name1), ("interface_model", e.model),
   ("type", e.type.text)]

/-- a region: the tables of `Region.hh`, the base equation number of the last solve, the nodes, the models there are -/
structure Reg where
  eqs : FMap String BulkEq
  idx : FMap String Nat
  var : FMap String String
  num : Nat
  base : Option Nat
  numNodes : Nat
  hasNode : String → Bool
  hasEdge : String → Bool

/-- a contact: `contactEquationPtrMap`, `Contact.hh` -/
structure Ctc where
  eqs : FMap String ContactEq

/-- an interface: `interfaceEquationList`, `Interface.hh`, and its models -/
structure Ifc where
  eqs : FMap String IfEq
  hasModel : String → Bool

structure Dev where
  region : String → Option Reg
  contact : String → Option Ctc
  interface : String → Option Ifc

abbrev World := String → Option Dev

/-- what a command answers; `raised`: a message of level FATAL or a failed assertion -/
inductive Res
  | badArgs (e : OptError)
  | err (m : String)
  | raised
  | empty
  | names (l : List String)
  | map (l : List (String × String))
  | numbers (l : List Nat)

/-! ### The tables -/

/-- `Region::AddEquation`, `Region.cc` 1126-1188 (an equation of a command is a new object); `none`: the FATAL error -/
def Reg.add (r : Reg) (e : BulkEq) : Option Reg :=
  match r.eqs.get e.name with
  | some oe =>
    let var := if oe.var ≠ e.var then (r.var.erase e.var).set e.var e.name else r.var
    some { r with var := var, eqs := r.eqs.set e.name e }
  | none =>
    if r.var.has e.var then none
    else
      let a := r.eqs.length
      let eqs := r.eqs.set e.name e
      some { r with eqs := eqs, idx := r.idx.set e.name a, var := r.var.set e.var e.name, num := eqs.length }

/-- `Region::DeleteEquation`, `Region.cc` 1191-1216, of the equation found under the name; `none`: a failed assertion -/
def Reg.delete (r : Reg) (e : BulkEq) : Option Reg :=
  if r.eqs.has e.name = false then none
  else
    match r.idx.get e.name with
    | none => none
    | some a =>
      if r.var.has e.var = false then none
      else
        let eqs := r.eqs.erase e.name
        some { r with eqs := eqs, idx := Equations.shift a (r.idx.erase e.name), var := r.var.erase e.var, num := eqs.length }

/-- `GetKeys` of a `std::map`, `CommandHandler.hh` 103: the keys in their order -/
def sortedKeys {V : Type} (m : FMap String V) : List String := m.keys.insertionSort (· ≤ ·)

/-- the loop of `getEquationListCmd`, `EquationCommands.cc` 181-189; `none`: the failed assertion -/
def place (idx : FMap String Nat) : List String → List String → Option (List String)
  | [], out => some out
  | s :: ss, out =>
    match idx.get s with
    | none => none
    | some i => if i < out.length ∧ out.getD i "" = "" then place idx ss (out.set i s) else none

/-- `getEquationListCmd`, `EquationCommands.cc` 181-190 -/
def Reg.list (r : Reg) : Res :=
  match place r.idx (sortedKeys r.eqs) (List.replicate (sortedKeys r.eqs).length "") with
  | some l => .names l
  | none => .raised

/-! ### The commands on the texts of their options -/

def onRegion (d r : String) : String := "on Region \"" ++ r ++ "\" on Device \"" ++ d ++ "\""
def onContact (d c : String) : String := "on Contact \"" ++ c ++ "\" on Device \"" ++ d ++ "\""
def onInterface (d i : String) : String := "on Interface \"" ++ i ++ "\" on Device \"" ++ d ++ "\""

/-- `ValidateDeviceAndRegion` and its likes, `Validate.cc` 60-140 -/
def region? (W : World) (d r : String) : Option Reg := (W d).bind fun dev => dev.region r
def contact? (W : World) (d c : String) : Option Ctc := (W d).bind fun dev => dev.contact c
def interface? (W : World) (d i : String) : Option Ifc := (W d).bind fun dev => dev.interface i

/-- the program after a command on a region, a contact, an interface -/
def putRegion (W : World) (d r : String) (x : Reg) : World := fun d' =>
  if d' = d then (W d).map fun dev => { dev with region := fun r' => if r' = r then some x else dev.region r' } else W d'
def putContact (W : World) (d c : String) (x : Ctc) : World := fun d' =>
  if d' = d then (W d).map fun dev => { dev with contact := fun c' => if c' = c then some x else dev.contact c' } else W d'
def putInterface (W : World) (d i : String) (x : Ifc) : World := fun d' =>
  if d' = d then (W d).map fun dev => { dev with interface := fun i' => if i' = i then some x else dev.interface i' } else W d'

/-- `ValidateOptionalNodeModelName`, `ValidateOptionalEdgeModelName`, `Validate.cc` 199-265 -/
def optionalNode (r : Reg) (d rn m : String) : String :=
  if m = "" ∨ r.hasNode m = true then "" else "-node_model \"" ++ m ++ "\"" ++ onRegion d rn ++ " does not exist\n"
def optionalEdge (r : Reg) (d rn m : String) : String :=
  if m = "" ∨ r.hasEdge m = true then "" else "-edge_model \"" ++ m ++ "\" " ++ onRegion d rn ++ " does not exist\n"

/-- the update type, `EquationCommands.cc` 96-116 -/
def updateType (s : String) : Option UpdateType :=
  if s = "default" then some .default else if s = "log_damp" then some .logdamp else if s = "positive" then some .positive else none

/-- `createEquationCmd`, `EquationCommands.cc` 71-137 -/
def createEquation (W : World) (g : String → String) : World × Res :=
  let d := g "device"
  let rn := g "region"
  match region? W d rn with
  | none => (W, .err (onRegion d rn ++ " does not exist.\n"))
  | some r =>
    let errors := optionalNode r d rn (g "node_model") ++ optionalNode r d rn (g "time_node_model") ++ optionalEdge r d rn (g "edge_model") ++
      optionalEdge r d rn (g "edge_volume_model")
    match updateType (g "variable_update") with
    | none => (W, .err (errors ++ "-variable_update passed invalid option, \"" ++ g "variable_update" ++
        "\".  Valid options: \"default\", \"log_damp\", \"positive\".\n"))
    | some ut =>
      if errors ≠ "" then (W, .err errors)
      else
        match r.add (exprEquation (g "name") (g "variable_name") (g "node_model") (g "edge_model") (g "edge_volume_model") (g "element_model")
            (g "volume_node0_model") (g "volume_node1_model") (g "time_node_model") ut) with
        | none => (W, .raised)
        | some r' => (putRegion W d rn r', .empty)

/-- `getEquationListCmd`, `EquationCommands.cc` 164-191 -/
def equationList (W : World) (g : String → String) : World × Res :=
  match region? W (g "device") (g "region") with
  | none => (W, .err (onRegion (g "device") (g "region") ++ " does not exist.\n"))
  | some r => (W, r.list)

/-- `deleteEquationCmd`, `EquationCommands.cc` 216-257, for `delete_equation` (`del`) and `get_equation_command` -/
def deleteEquation (del : Bool) (W : World) (g : String → String) : World × Res :=
  let d := g "device"
  let rn := g "region"
  match region? W d rn with
  | none => (W, .raised)
  | some r =>
    match r.eqs.get (g "name") with
    | none => (W, .err ("Equation " ++ g "name" ++ " does not exist\n"))
    | some e =>
      if del then
        match r.delete e with
        | none => (W, .raised)
        | some r' => (putRegion W d rn r', .empty)
      else (W, .map (e.options d rn))

/-- `getEquationNumbersCmd`, `EquationCommands.cc` 734-798 -/
def equationNumbers (W : World) (g : String → String) : World × Res :=
  let v := g "variable"
  let e := g "equation"
  if v = "" ∧ e = "" then (W, .err "-variable and -equation cannot both be unspecified\n")
  else if v ≠ "" ∧ e ≠ "" then (W, .err "-variable and -equation cannot both be specified\n")
  else
    match region? W (g "device") (g "region") with
    | none => (W, .err (onRegion (g "device") (g "region") ++ " does not exist.\n"))
    | some r =>
      let en := if v ≠ "" then (r.var.get v).getD "" else e
      if en = "" then (W, .err "")
      else
        match r.idx.get en with
        | none => (W, .err ("Could not find equation index for " ++ en ++ "\n"))
        | some i =>
          if r.numNodes = 0 then (W, .numbers [])
          else if ¬ i < r.num then (W, .raised)
          else
            match r.base with
            | none => (W, .raised)
            | some b => (W, .numbers ((List.range r.numNodes).map fun k => b + i * r.numNodes + k))

/-- `createContactEquationCmd`, `EquationCommands.cc` 508-571: nothing but the contact is checked -/
def createContactEquation (W : World) (g : String → String) : World × Res :=
  let d := g "device"
  let cn := g "contact"
  match contact? W d cn with
  | none => (W, .raised)
  | some c =>
    let e := exprContactEquation (g "name") (g "circuit_node") (g "node_model") (g "edge_model") (g "edge_volume_model") (g "element_model")
      (g "volume_node0_model") (g "volume_node1_model") (g "node_current_model") (g "edge_current_model") (g "element_current_model")
      (g "node_charge_model") (g "edge_charge_model") (g "element_charge_model")
    (putContact W d cn { c with eqs := c.eqs.set e.name e }, .empty)

/-- `getContactEquationListCmd`, `EquationCommands.cc` 597-615 -/
def contactEquationList (W : World) (g : String → String) : World × Res :=
  match contact? W (g "device") (g "contact") with
  | none => (W, .err (onContact (g "device") (g "contact") ++ " does not exist.\n"))
  | some c => (W, .names (sortedKeys c.eqs))

/-- `deleteContactEquationCmd`, `EquationCommands.cc` 640-674 -/
def deleteContactEquation (del : Bool) (W : World) (g : String → String) : World × Res :=
  let d := g "device"
  let cn := g "contact"
  match contact? W d cn with
  | none => (W, .raised)
  | some c =>
    match c.eqs.get (g "name") with
    | none => (W, .err ("Contact Equation " ++ g "name" ++ " does not exist\n"))
    | some e =>
      if del then (putContact W d cn { c with eqs := c.eqs.erase e.name }, .empty)
      else (W, .map (e.options d cn))

/-- the type, `EquationCommands.cc` 311-331 -/
def ifType (s : String) : IfType :=
  if s = "continuous" then .continuous else if s = "fluxterm" then .fluxterm else if s = "hybrid" then .hybrid else .unknown

/-- `ValidateInterfaceNodeModelName`, `Validate.cc` 267-290: here the name is not optional -/
def interfaceModel (i : Ifc) (d inm m : String) : String :=
  if m = "" then "-interface_model cannot be an empty string " ++ onInterface d inm ++ "\n"
  else if i.hasModel m = true then "" else "-interface_model \"" ++ m ++ "\"" ++ onInterface d inm ++ " does not exist\n"

/-- `createInterfaceEquationCmd`, `EquationCommands.cc` 287-358 -/
def createInterfaceEquation (W : World) (g : String → String) : World × Res :=
  let d := g "device"
  let inm := g "interface"
  match interface? W d inm with
  | none => (W, .err (onInterface d inm ++ " does not exist.\n"))
  | some i =>
    let errors := interfaceModel i d inm (g "interface_model") ++
      (if ifType (g "type") = .unknown then "-type must be specified as \"continuous\", \"fluxterm\", or \"hybrid\"\n" else "")
    if errors ≠ "" then (W, .err errors)
    else
      let e := interfaceExprEquation (g "name") (g "name0") (g "name1") (g "interface_model") (ifType (g "type"))
      (putInterface W d inm { i with eqs := i.eqs.set e.name e }, .empty)

/-- `getInterfaceEquationListCmd`, `EquationCommands.cc` 383-400 -/
def interfaceEquationList (W : World) (g : String → String) : World × Res :=
  match interface? W (g "device") (g "interface") with
  | none => (W, .err (onInterface (g "device") (g "interface") ++ " does not exist.\n"))
  | some i => (W, .names (sortedKeys i.eqs))

/-- `deleteInterfaceEquationCmd`, `EquationCommands.cc` 422-463 -/
def deleteInterfaceEquation (del : Bool) (W : World) (g : String → String) : World × Res :=
  let d := g "device"
  let inm := g "interface"
  match interface? W d inm with
  | none => (W, .raised)
  | some i =>
    match i.eqs.get (g "name") with
    | none => (W, .err ("Interface Equation " ++ g "name" ++ " does not exist\n"))
    | some e =>
      if del then (putInterface W d inm { i with eqs := i.eqs.erase e.name }, .empty)
      else (W, .map (e.options d inm))

/-! ### The commands with their keywords -/

inductive Cmd
  | equation | equationList | deleteEquation | equationCommand | equationNumbers
  | contactEquation | contactEquationList | deleteContactEquation | contactEquationCommand
  | interfaceEquation | interfaceEquationList | deleteInterfaceEquation | interfaceEquationCommand
deriving DecidableEq

/-- what a command does with good options -/
def act : Cmd → World → (String → String) → World × Res
  | .equation => createEquation
  | .equationList => equationList
  | .deleteEquation => deleteEquation true
  | .equationCommand => deleteEquation false
  | .equationNumbers => equationNumbers
  | .contactEquation => createContactEquation
  | .contactEquationList => contactEquationList
  | .deleteContactEquation => deleteContactEquation true
  | .contactEquationCommand => deleteContactEquation false
  | .interfaceEquation => createInterfaceEquation
  | .interfaceEquationList => interfaceEquationList
  | .deleteInterfaceEquation => deleteInterfaceEquation true
  | .interfaceEquationCommand => deleteInterfaceEquation false

/-- the text of an option in a check -/
def held (L : Lib) (h : String → Option Py) (n : String) : String := ((h n).map (PyArg.getString L)).getD ""

/-- `mustBeValidDevice`, `mustBeValidRegion`, `mustBeValidContact`, `mustBeValidInterface`, `CheckFunctions.cc` 147-261 -/
def validDevice (L : Lib) (W : World) : Check := fun n h => held L h n ≠ "" ∧ (W (held L h n)).isSome
def validRegion (L : Lib) (W : World) : Check := fun n h =>
  held L h "device" ≠ "" ∧ held L h n ≠ "" ∧ (region? W (held L h "device") (held L h n)).isSome
def validContact (L : Lib) (W : World) : Check := fun n h =>
  held L h "device" ≠ "" ∧ held L h n ≠ "" ∧ (contact? W (held L h "device") (held L h n)).isSome
def validInterface (L : Lib) (W : World) : Check := fun n h =>
  held L h "device" ≠ "" ∧ held L h n ≠ "" ∧ (interface? W (held L h "device") (held L h n)).isSome

/-- an optional text -/
def text (n : String) (default : String := "") : Opt := ⟨n, default, .string, false, none⟩

def onRegionOpts (L : Lib) (W : World) : List Opt :=
  [⟨"device", "", .string, true, some (validDevice L W)⟩, ⟨"region", "", .string, true, some (validRegion L W)⟩]
def onContactOpts (L : Lib) (W : World) : List Opt :=
  [⟨"device", "", .string, true, some (validDevice L W)⟩, ⟨"contact", "", .string, true, some (validContact L W)⟩]
def onInterfaceOpts (L : Lib) (W : World) : List Opt :=
  [⟨"device", "", .string, true, some (validDevice L W)⟩, ⟨"interface", "", .string, true, some (validInterface L W)⟩]
def nameOpt (L : Lib) : Opt := ⟨"name", "", .string, true, some (notEmpty L)⟩

/-- the options, `EquationCommands.cc` 44-60, 148-153, 202-208, 268-280, 371-376, 411-417, 477-499, 585-590, 628-634, 723-730 -/
def opts (L : Lib) (W : World) : Cmd → List Opt
  | .equation => onRegionOpts L W ++ [nameOpt L, ⟨"variable_name", "", .string, true, some (notEmpty L)⟩, text "node_model", text "edge_model",
      text "edge_volume_model", text "element_model", text "volume_node0_model", text "volume_node1_model", text "time_node_model",
      text "variable_update" "default"]
  | .equationList => onRegionOpts L W
  | .deleteEquation => onRegionOpts L W ++ [nameOpt L]
  | .equationCommand => onRegionOpts L W ++ [nameOpt L]
  | .equationNumbers => onRegionOpts L W ++ [text "variable", text "equation"]
  | .contactEquation => onContactOpts L W ++ [nameOpt L, text "node_model", text "edge_model", text "edge_volume_model", text "element_model",
      text "volume_node0_model", text "volume_node1_model", text "node_current_model", text "edge_current_model", text "element_current_model",
      text "node_charge_model", text "edge_charge_model", text "element_charge_model", text "circuit_node"]
  | .contactEquationList => onContactOpts L W
  | .deleteContactEquation => onContactOpts L W ++ [nameOpt L]
  | .contactEquationCommand => onContactOpts L W ++ [nameOpt L]
  | .interfaceEquation => onInterfaceOpts L W ++ [nameOpt L, ⟨"type", "", .string, true, some (notEmpty L)⟩, text "interface_model", text "name0",
      text "name1"]
  | .interfaceEquationList => onInterfaceOpts L W
  | .deleteInterfaceEquation => onInterfaceOpts L W ++ [nameOpt L]
  | .interfaceEquationCommand => onInterfaceOpts L W ++ [nameOpt L]

/-- a command, for example `EquationCommands.cc` 62-69 -/
def run (L : Lib) (W : World) (c : Cmd) (kw : List (String × Py)) : World × Res :=
  match PyArg.processOptions L (opts L W c) kw with
  | .error e => (W, .badArgs e)
  | .ok sel => act c W (fun n => (PyArg.stringOption L (opts L W c) sel n).getD "")

end Verif.EqCmd
