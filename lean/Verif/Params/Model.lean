import Verif.Util.FMap
/-
Model of the parameter database and its notifications.
Code: `/repo/src/Data/GlobalData.cc:52-120` (AddDevice, DeleteDevice, AddDBEntryOn*), `122-196` (GetDBEntryOn*),
`224-270` (GetDBEntryListOn*), `272-346` (SignalCallbacksOn*), `432-442` (InitializeParameters);
`/repo/src/commands/MaterialCommands.cc:120-250` (set_parameter, get_parameter, get_parameter_list).

Simplifications: names are elements of arbitrary types; a value is any `V`; a device is the list of its region names; the
notification of a region is recorded as a triple in the output list. The `Region *` overloads forward to the string ones.
-/
namespace Verif.Params
open Verif

variable {D R N V : Type} [DecidableEq D] [DecidableEq R] [DecidableEq N]

/-- GlobalData.hh: members `globalData`, `deviceData`, `regionData`, `deviceList`. -/
structure DB (D R N V : Type) where
  global : FMap N V
  device : FMap D (FMap N V)
  region : FMap D (FMap R (FMap N V))
  devices : FMap D (List R)

/-- GlobalData.cc:186-196 -/
def getGlobal (db : DB D R N V) (n : N) : Option V := db.global.get n

/-- GlobalData.cc:122-144 -/
def getDevice (db : DB D R N V) (d : D) (n : N) : Option V :=
  let ret := match db.device.get d with
    | some gdm => gdm.get n
    | none => none
  match ret with
  | some v => some v
  | none => getGlobal db n

/-- GlobalData.cc:146-177 -/
def getRegion (db : DB D R N V) (d : D) (r : R) (n : N) : Option V :=
  let ret := match db.region.get d with
    | some ddm => match ddm.get r with
      | some gdm => gdm.get n
      | none => none
    | none => none
  let ret := match ret with
    | some v => some v
    | none => getDevice db d n
  match ret with
  | some v => some v
  | none => getGlobal db n

/-- GlobalData.cc:224-233 -/
def listGlobal (db : DB D R N V) : List N := db.global.keys
/-- GlobalData.cc:235-249 -/
def listDevice (db : DB D R N V) (d : D) : List N :=
  match db.device.get d with
  | some gdm => gdm.keys
  | none => []
/-- GlobalData.cc:251-270 -/
def listRegion (db : DB D R N V) (d : D) (r : R) : List N :=
  match db.region.get d with
  | some ddm => match ddm.get r with
    | some gdm => gdm.keys
    | none => []
  | none => []

/-- A call of Region::SignalCallbacks(name) on region `r` of device `d`. -/
abbrev Sig (D R N : Type) := D × R × N

/-- GlobalData.cc:296-331 -/
def signalDevice (db : DB D R N V) (d : D) (n : N) : List (Sig D R N) :=
  match db.devices.get d with
  | none => []
  | some rlist => rlist.flatMap (fun r =>
      match db.region.get d with
      | some ddm => match ddm.get r with
        | some gdm => if gdm.has n then [] else [(d, r, n)]
        | none => [(d, r, n)]
      | none => [(d, r, n)])

/-- GlobalData.cc:272-294 -/
def signalGlobal (db : DB D R N V) (n : N) : List (Sig D R N) :=
  db.devices.keys.flatMap (fun d =>
    match db.device.get d with
    | some gdm => if gdm.has n then [] else signalDevice db d n
    | none => signalDevice db d n)

/-- GlobalData.cc:333-346 -/
def signalRegion (db : DB D R N V) (d : D) (r : R) (n : N) : List (Sig D R N) :=
  match db.devices.get d with
  | none => []
  | some rlist => if r ∈ rlist then [(d, r, n)] else []

/-- GlobalData.cc:116-120 -/
def addGlobal (db : DB D R N V) (n : N) (v : V) : DB D R N V × List (Sig D R N) :=
  let db := { db with global := db.global.set n v }
  (db, signalGlobal db n)

/-- GlobalData.cc:95-100: `deviceData[device][name] = value` -/
def addDevice (db : DB D R N V) (d : D) (n : N) (v : V) : DB D R N V × List (Sig D R N) :=
  let db := { db with device := db.device.set d (((db.device.get d).getD []).set n v) }
  (db, signalDevice db d n)

/-- GlobalData.cc:102-106 -/
def addRegion (db : DB D R N V) (d : D) (r : R) (n : N) (v : V) : DB D R N V × List (Sig D R N) :=
  let ddm := (db.region.get d).getD []
  let gdm := (ddm.get r).getD []
  let db := { db with region := db.region.set d (ddm.set r (gdm.set n v)) }
  (db, signalRegion db d r n)

/-- GlobalData.cc:70-93 -/
def deleteDevice (db : DB D R N V) (d : D) : DB D R N V :=
  { db with devices := db.devices.erase d, device := db.device.erase d, region := db.region.erase d }

inductive Op (D R N V : Type) where
  | create (d : D) (rs : List R)            -- finalize_mesh / load_devices / create_device
  | delete (d : D)                          -- delete_device
  | set (d : Option D) (r : Option R) (n : N) (v : V)

/-- MaterialCommands.cc:120-165 (validation), 222-243 (set_parameter).  `none`: the command reports an error and
changes nothing.  Creating a device that exists is an error (checked by the meshing commands). -/
def exec (db : DB D R N V) : Op D R N V → Option (DB D R N V × List (Sig D R N))
  | .create d rs => if db.devices.has d then none else some ({ db with devices := db.devices.set d rs }, [])
  | .delete d => if db.devices.has d then some (deleteDevice db d, []) else none
  | .set none none n v => some (addGlobal db n v)
  | .set none (some _) _ _ => none
  | .set (some d) none n v => if db.devices.has d then some (addDevice db d n v) else none
  | .set (some d) (some r) n v =>
    match db.devices.get d with
    | none => none
    | some rs => if r ∈ rs then some (addRegion db d r n v) else none

def step (db : DB D R N V) (o : Op D R N V) : DB D R N V := ((exec db o).map Prod.fst).getD db

def signals (db : DB D R N V) (o : Op D R N V) : List (Sig D R N) := ((exec db o).map Prod.snd).getD []

def run (db : DB D R N V) (ops : List (Op D R N V)) : DB D R N V := ops.foldl step db

/-- GlobalData.cc:432-442: the initial database; `defaults` are the eight entries set by InitializeParameters. -/
def init (defaults : FMap N V) : DB D R N V := { global := defaults, device := [], region := [], devices := [] }

end Verif.Params
