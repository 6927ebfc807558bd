import Verif.Params.Props
import Verif.EqCmd.Lemmas

/-!
# Materials, parameters and the lists of what there is (`src/commands/MaterialCommands.cc`, `src/commands/GeometryCommands.cc`)

Simplifications: devices are found under the name they have; a device comes with its regions, contacts and interfaces and keeps them until it is
deleted; of a region only the material and the names of its node and edge models are kept, the latter with the contact they are displayed on; of the
marking of a model as old only the call is recorded (what is marked in turn is C01's matter); messages of level INFO are not modelled.
-/

namespace Verif.Mat
open Verif
open Verif.PyArg (Py Lib Opt OptError Check)
open Verif.SetVals (notEmpty)
open Verif.EqCmd (sortedKeys onRegion onContact held text)

/-- `Region.hh`: `materialName`, `nodeModels`, `edgeModels`; a model with the contact it is displayed on, `NodeModel.hh` 97 -/
structure Reg where
  material : String
  models : List (String × Option String)

/-- `Contact.hh`: `region`, `materialName` -/
structure Ctc where
  region : String
  material : String

/-- `Interface.hh`: the names of `region0`, `region1` -/
structure Ifc where
  region0 : String
  region1 : String

/-- `Device.hh`: `dimension`, `regionList`, `contactList`, `interfaceList` -/
structure Dev where
  dim : Nat
  regions : FMap String Reg
  contacts : FMap String Ctc
  interfaces : FMap String Ifc

/-- the program: `deviceList` and the parameters of `GlobalData.hh`; `marks`: the calls of `MarkOld`, newest first -/
structure World where
  devs : FMap String Dev
  params : Params.DB String String String Py
  marks : List (String × String × String)

/-- what a command answers; `silent`: the command returns without an answer -/
inductive Res
  | badArgs (e : OptError)
  | err (m : String)
  | empty
  | object (v : Py)
  | text (s : String)
  | number (n : Nat)
  | names (l : List String)
  | silent

inductive Cmd
  | setParameter | getParameter | parameterList | setMaterial | getMaterial | dimension
  | deviceList | regionList | interfaceList | contactList
deriving DecidableEq

/-- `onInterfaceonDevice` as in `ValidateDeviceAndInterface`, `Validate.cc` 136-161 -/
def noInterface (d i : String) : String := "Interface \"" ++ i ++ "\" on Device \"" ++ d ++ "\" does not exist."
/-- `ValidateDevice`, `Validate.cc` 38-55 -/
def noDevice (d : String) : String := "Device \"" ++ d ++ "\" does not exist."

/-- `ValidateDeviceAndRegion`, `Validate.cc` 57-83: the message about the device is replaced -/
def region? (W : World) (d r : String) : Option Reg := (W.devs.get d).bind fun dev => dev.regions.get r
/-- `ValidateDeviceAndContact`, `Validate.cc` 85-111 -/
def contact? (W : World) (d c : String) : Option Ctc := (W.devs.get d).bind fun dev => dev.contacts.get c
def interface? (W : World) (d i : String) : Option Ifc := (W.devs.get d).bind fun dev => dev.interfaces.get i

/-- what the names given lead to: `dev`, `reg`, `contact` of `getParameterCmd` -/
structure Found where
  dev : Option Dev
  reg : Option Reg
  contact : Option Ctc

/-- `MaterialCommands.cc` 126-159: the error message, and what was found. `ValidateDeviceAndRegion` is assigned to `errorString`, not appended. -/
def find (W : World) (d r c : String) : String × Found :=
  let e := if r ≠ "" ∧ c ≠ "" then "region and contact cannot be specified at same time\n" else ""
  if r ≠ "" ∨ c ≠ "" then
    if d ≠ "" then
      if r ≠ "" then
        match region? W d r with
        | some reg => ("", ⟨W.devs.get d, some reg, none⟩)
        | none => (onRegion d r ++ " does not exist.\n", ⟨W.devs.get d, none, none⟩)
      else
        match contact? W d c with
        | some ctc => ("", ⟨W.devs.get d, none, some ctc⟩)
        | none => (onContact d c ++ " does not exist.\n", ⟨W.devs.get d, none, none⟩)
    else (e ++ "device must be specified when region is specified\n", ⟨none, none, none⟩)
  else if d ≠ "" then
    match W.devs.get d with
    | some dev => ("", ⟨some dev, none, none⟩)
    | none => (noDevice d, ⟨none, none, none⟩)
  else ("", ⟨none, none, none⟩)

/-- `get_parameter`, `MaterialCommands.cc` 167-199 -/
def getParameter (W : World) (d r n : String) : Res :=
  let v :=
    if d ≠ "" then
      if r ≠ "" then Params.getRegion W.params d r n else Params.getDevice W.params d n
    else Params.getGlobal W.params n
  match v with
  | some v => .object v
  | none => .err ("Cannot find parameter \"" ++ n ++ "\"\n")

/-- the keys of a `std::map` in their order -/
def inOrder (l : List String) : List String := l.insertionSort (· ≤ ·)

/-- `get_parameter_list`, `MaterialCommands.cc` 200-219 -/
def parameterList (W : World) (d r : String) : List String :=
  if r ≠ "" then inOrder (Params.listRegion W.params d r)
  else if d ≠ "" then inOrder (Params.listDevice W.params d)
  else inOrder (Params.listGlobal W.params)

/-- `set_parameter`, `MaterialCommands.cc` 220-242 -/
def setParameter (W : World) (d r n : String) (v : Py) : World :=
  if d ≠ "" then
    if r ≠ "" then { W with params := (Params.addRegion W.params d r n v).1 } else { W with params := (Params.addDevice W.params d n v).1 }
  else { W with params := (Params.addGlobal W.params n v).1 }

/-- `Region::SetMaterial`, `Region.cc` 1505-1508 -/
def setRegionMaterial (W : World) (d r m : String) (dev : Dev) (reg : Reg) : World :=
  { W with devs := W.devs.set d { dev with regions := dev.regions.set r { reg with material := m } } }

/-- the models of the region of a contact that are displayed on it, `Contact.cc` 66-82 -/
def displayed (dev : Dev) (ctc : Ctc) (c : String) : List String :=
  match dev.regions.get ctc.region with
  | some reg => (reg.models.filter fun m => m.2 = some c).map (·.1)
  | none => []

/-- `Contact::SetMaterial`, `Contact.cc` 61-84 -/
def setContactMaterial (W : World) (d c m : String) (dev : Dev) (ctc : Ctc) : World :=
  { W with
    devs := W.devs.set d { dev with contacts := dev.contacts.set c { ctc with material := m } }
    marks := ((displayed dev ctc c).map fun x => (d, ctc.region, x)).reverse ++ W.marks }

/-- `set_material`, `MaterialCommands.cc` 244-257; `reg`, `contact` are pointers into the device found -/
def setMaterial (W : World) (d r c m : String) (f : Found) : World :=
  match f.dev with
  | none => W
  | some dev =>
    match f.reg, f.contact with
    | some reg, _ => setRegionMaterial W d r m dev reg
    | none, some ctc => setContactMaterial W d c m dev ctc
    | none, none => W

/-- `get_material`, `MaterialCommands.cc` 258-271 -/
def getMaterial (f : Found) : String :=
  match f.reg, f.contact with
  | some reg, _ => reg.material
  | none, some ctc => ctc.material
  | none, none => ""

/-- `getRegionListCmd`, `GeometryCommands.cc` 135-197 -/
def regionList (W : World) (d c i : String) : Res :=
  match W.devs.get d with
  | none => .silent
  | some dev =>
    if c ≠ "" ∧ i ≠ "" then .err "Cannot specify both interface and contact\n"
    else if c ≠ "" then
      match contact? W d c with
      | none => .err (onContact d c ++ " does not exist.\n")
      | some ctc => .names [ctc.region]
    else if i ≠ "" then
      match interface? W d i with
      | none => .err (noInterface d i)
      | some ifc => .names [ifc.region0, ifc.region1]
    else .names (sortedKeys dev.regions)

/-- `GeometryCommands.cc` 198-208 -/
def interfaceList (W : World) (d : String) : Res :=
  match W.devs.get d with
  | none => .silent
  | some dev => .names (sortedKeys dev.interfaces)
def contactList (W : World) (d : String) : Res :=
  match W.devs.get d with
  | none => .silent
  | some dev => .names (sortedKeys dev.contacts)

/-- the commands on the texts `g` of their options and the object `v` given as `value`: `getParameterCmd`, `MaterialCommands.cc` 101-280 (where
`region` is read unless the command is `get_dimension`, `contact` only for the material), `getDeviceListCmd`, `getRegionListCmd` -/
def command (W : World) (c : Cmd) (g : String → String) (v : Py) : World × Res :=
  let d := g "device"
  let r := if c = .dimension then "" else g "region"
  let k := if c = .getMaterial ∨ c = .setMaterial then g "contact" else ""
  let p := find W d r k
  match c with
  | .deviceList => (W, .names (sortedKeys W.devs))
  | .regionList => (W, regionList W d (g "contact") (g "interface"))
  | .interfaceList => (W, interfaceList W d)
  | .contactList => (W, contactList W d)
  | .getParameter => if p.1 ≠ "" then (W, .err p.1) else (W, getParameter W d r (g "name"))
  | .parameterList => if p.1 ≠ "" then (W, .err p.1) else (W, .names (parameterList W d r))
  | .setParameter => if p.1 ≠ "" then (W, .err p.1) else (setParameter W d r (g "name") v, .empty)
  | .setMaterial => if p.1 ≠ "" then (W, .err p.1) else (setMaterial W d r k (g "material") p.2, .empty)
  | .getMaterial => if p.1 ≠ "" then (W, .err p.1) else (W, .text (getMaterial p.2))
  | .dimension => if p.1 ≠ "" then (W, .err p.1) else
      match p.2.dev with
      | some dev => (W, .number dev.dim)
      | none => (W, .silent)

/-- a device is made (by the mesh or restart commands); a name that is taken is refused, `GlobalData.cc` 52-68 -/
def create (W : World) (d : String) (dev : Dev) : World :=
  if W.devs.has d then W
  else { W with devs := W.devs.set d dev, params := { W.params with devices := W.params.devices.set d dev.regions.keys } }

/-- `GlobalData::DeleteDevice`, `GlobalData.cc` 70-93 -/
def delete (W : World) (d : String) : World :=
  if W.devs.has d then { W with devs := W.devs.erase d, params := Params.deleteDevice W.params d } else W

/-! ### The keywords -/

/-- `mustBeValidDevice`, `CheckFunctions.cc` 147-165 -/
def validDevice (L : Lib) (W : World) : Check := fun n h => held L h n ≠ "" ∧ (W.devs.get (held L h n)).isSome
/-- `mustBeSpecifiedIfRegionSpecified`, `CheckFunctions.cc` 263-276 -/
def ifRegion (L : Lib) : Check := fun n h => ¬ (held L h n = "" ∧ held L h "region" ≠ "")

/-- the options, `MaterialCommands.cc` 42-99, `GeometryCommands.cc` 67-69, 106-123 -/
def opts (L : Lib) (W : World) : Cmd → List Opt
  | .setParameter => [text "device", text "region", ⟨"name", "", .string, true, some (notEmpty L)⟩, ⟨"value", "", .string, true, some (notEmpty L)⟩]
  | .getParameter => [⟨"device", "", .string, false, some (ifRegion L)⟩, text "region", ⟨"name", "", .string, true, some (notEmpty L)⟩]
  | .parameterList => [⟨"device", "", .string, false, some (ifRegion L)⟩, text "region"]
  | .setMaterial => [⟨"device", "", .string, true, some (validDevice L W)⟩, text "region", text "contact",
      ⟨"material", "", .string, true, some (notEmpty L)⟩]
  | .getMaterial => [⟨"device", "", .string, true, some (validDevice L W)⟩, text "region", text "contact"]
  | .dimension => [⟨"device", "", .string, false, some (validDevice L W)⟩]
  | .deviceList => []
  | .regionList => [⟨"device", "", .string, true, some (validDevice L W)⟩, text "contact", text "interface"]
  | .interfaceList => [⟨"device", "", .string, true, some (validDevice L W)⟩]
  | .contactList => [⟨"device", "", .string, true, some (validDevice L W)⟩]

/-- a command with its keywords -/
def call (L : Lib) (W : World) (c : Cmd) (kw : List (String × Py)) : World × Res :=
  match PyArg.processOptions L (opts L W c) kw with
  | .error e => (W, .badArgs e)
  | .ok sel => command W c (fun n => (PyArg.stringOption L (opts L W c) sel n).getD "") ((PyArg.holder (opts L W c) sel "value").getD (.str ""))

/-! ### What happens -/

inductive Event
  | create (d : String) (dev : Dev)
  | delete (d : String)
  | command (c : Cmd) (g : String → String) (v : Py)

def step (W : World) : Event → World
  | .create d dev => create W d dev
  | .delete d => delete W d
  | .command c g v => (command W c g v).1

/-- `GlobalData::InitializeParameters`, `GlobalData.cc` 432-442 -/
def start (defaults : FMap String Py) : World := ⟨[], Params.init defaults, []⟩

def run (W : World) (es : List Event) : World := es.foldl step W

end Verif.Mat
