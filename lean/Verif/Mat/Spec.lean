import Verif.Mat.Model
import Verif.Params.Spec

/-!
Specification of C95: what is known of devices, materials and parameters from the history of what was done alone (newest first).
-/
namespace Verif.Mat.Spec
open Verif
open Verif.PyArg (Py)
open Verif.Mat (Event Dev Cmd)

/-- the description with which the device was made, if it is there -/
def described : List Event → String → Option Dev
  | [], _ => none
  | .create d' dev :: h, d => if d' = d ∧ described h d = none then some dev else described h d
  | .delete d' :: h, d => if d' = d then none else described h d
  | .command _ _ _ :: h, d => described h d

/-- the material told last for the region, since its device was made -/
def regionMaterial : List Event → String → String → Option String
  | [], _, _ => none
  | .create d' dev :: h, d, r =>
    if d' = d ∧ described h d = none then (dev.regions.get r).map (·.material) else regionMaterial h d r
  | .delete d' :: h, d, r => if d' = d then none else regionMaterial h d r
  | .command c g _ :: h, d, r =>
    if c = .setMaterial ∧ g "device" = d ∧ d ≠ "" ∧ g "region" = r ∧ r ≠ "" ∧ (regionMaterial h d r).isSome then some (g "material")
    else regionMaterial h d r

/-- the material told last for the contact; the contact counts only in a call without a region -/
def contactMaterial : List Event → String → String → Option String
  | [], _, _ => none
  | .create d' dev :: h, d, k =>
    if d' = d ∧ described h d = none then (dev.contacts.get k).map (·.material) else contactMaterial h d k
  | .delete d' :: h, d, k => if d' = d then none else contactMaterial h d k
  | .command c g _ :: h, d, k =>
    if c = .setMaterial ∧ g "device" = d ∧ d ≠ "" ∧ g "region" = "" ∧ g "contact" = k ∧ k ≠ "" ∧ (contactMaterial h d k).isSome
    then some (g "material") else contactMaterial h d k

/-- an empty text is no name -/
def given (s : String) : Option String := if s = "" then none else some s

/-- what an event means for the parameters (C10) -/
def paramOp : Event → List (Params.Op String String String Py)
  | .create d dev => [.create d dev.regions.keys]
  | .delete d => [.delete d]
  | .command c g v => if c = .setParameter then [.set (given (g "device")) (given (g "region")) (g "name") v] else []

/-- `l` is the list of all names with `P`, in the order of their characters -/
def Lists (l : List String) (P : String → Prop) : Prop := l.Nodup ∧ l.Pairwise (· ≤ ·) ∧ ∀ s, s ∈ l ↔ P s

/-- the model of the region is displayed on the contact -/
def Displayed (dev : Dev) (k r m : String) : Prop :=
  ∃ ctc reg, dev.contacts.get k = some ctc ∧ ctc.region = r ∧ dev.regions.get r = some reg ∧ (m, some k) ∈ reg.models

/-- devices come with maps: every name once -/
def MapsOk (es : List Event) : Prop := ∀ d dev, .create d dev ∈ es → dev.regions.WF ∧ dev.contacts.WF ∧ dev.interfaces.WF

end Verif.Mat.Spec
