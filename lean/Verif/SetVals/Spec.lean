import Verif.SetVals.Model

/-!
# What the commands on the values of models are to do, without caches, flags or callbacks

`Deps.Src` is what the user has said so far: the models with their definitions, the data of the data models and the parameters.
`Deps.Denotes zero src n v`: evaluating the definition of `n` from scratch gives `v`.
-/

namespace Verif.SetVals

open Verif.Deps (Kind Dfn Src Denotes)
open Verif.PyArg (F64)

abbrev Told := Src String Arr

/-- there is a model of that kind and name -/
def Exists (src : Told) (k : Kind) (n : String) : Prop := ∃ d, src.defn n = some (k, d)

/-- it is a data model: its values are what the user sets -/
def IsData (src : Told) (k : Kind) (n : String) : Prop := src.defn n = some (k, .sol)

/-- the values a model has, in a region where such a model has `len` of them -/
def Values (src : Told) (len : Nat) (n : String) (l : List F64) : Prop := ∃ v, Denotes zero src n v ∧ l = v.toList len

/-- the user sets the data of one model; nothing else that was said changes -/
def Assigned (src : Told) (n : String) (v : Arr) (src' : Told) : Prop :=
  src'.defn = src.defn ∧ src'.par = src.par ∧ src'.data n = v ∧ ∀ m, m ≠ n → src'.data m = src.data m

/-- the values that a `set_node_values` call asks for: those of the model `init_from` if there is one and the target is a data model, else the
given ones -/
inductive Asked (src : Told) (len : Nat) (k : Kind) (name init : String) (vals : List F64) : List F64 → Prop
  | init (l : List F64) (hi : Exists src k init) (ht : IsData src k name) (h : Values src len init l) : Asked src len k name init vals l
  | vals (h : ¬ (Exists src k init ∧ IsData src k name)) : Asked src len k name init vals vals

/-- the array after values were put: those of a contact model are zero outside the contact -/
def placed (len : Nat) (contact : Option (List Nat)) (l : List F64) : Arr :=
  match contact with
  | none => .arr l
  | some ix => .arr ((List.range len).map fun i => if i ∈ ix then l.getD i 0 else 0)

/-- likewise one number everywhere -/
def placedAll (len : Nat) (contact : Option (List Nat)) (x : F64) : Arr :=
  match contact with
  | none => .all x
  | some ix => .arr ((List.range len).map fun i => if i ∈ ix then x else 0)

/-- What a call answers and what it means for what the user has said. `count`: how many values models of a kind have; `contact`: the places of
the contact of a contact model. -/
inductive Acct (count : Kind → Nat) (contact : Kind → String → Option (List Nat)) (src : Told) : Call → Res → Told → Prop
  /-- values are set -/
  | set (k name init vals l src') (hm : Exists src k name) (hi : init = "" ∨ Exists src k init)
      (ha : Asked src (count k) k name init vals l) (hl : l.length = count k)
      (hs : Assigned src name (placed (count k) (contact k name) l) src') : Acct count contact src (.setValues k name init vals) .empty src'
  /-- values are refused -/
  | noModel (k name init vals) (hm : ¬ Exists src k name) :
      Acct count contact src (.setValues k name init vals) (.err ("Model " ++ name ++ " does not exist\n")) src
  | noInit (k name init vals) (hm : Exists src k name) (hi : init ≠ "" ∧ ¬ Exists src k init) :
      Acct count contact src (.setValues k name init vals) (.err ("-init_from " ++ init ++ " does not exist\n")) src
  | wrongNumber (k name init vals l) (hm : Exists src k name) (hi : init = "" ∨ Exists src k init)
      (ha : Asked src (count k) k name init vals l) (hl : l.length ≠ count k) :
      Acct count contact src (.setValues k name init vals) (.err "wrong number of elements\n") src
  | initFails (k name init vals) (hi : Exists src k init) (ht : IsData src k name) (h : ∀ l, ¬ Values src (count k) init l) :
      Acct count contact src (.setValues k name init vals) .fatal src
  /-- one number is set -/
  | noNode (name index x) (hm : ¬ Exists src .node name) :
      Acct count contact src (.setOne name index x) (.err ("Model " ++ name ++ " does not exist\n")) src
  | noIndex (name x) (index : Int) (hm : Exists src .node name) (hi : index < -1 ∨ (count .node : Int) ≤ index) (hi' : index ≠ -1) :
      Acct count contact src (.setOne name index x) (.err ("-index " ++ toString index ++ " does not exist\n")) src
  | setEverywhere (name x src') (hm : Exists src .node name)
      (hs : Assigned src name (placedAll (count .node) (contact .node name) x) src') :
      Acct count contact src (.setOne name (-1) x) .empty src'
  | setThere (name i x l src') (hm : Exists src .node name) (hi : i < count .node) (hc : contact .node name = none)
      (hv : Values src (count .node) name l) (hs : Assigned src name (.arr (l.set i x)) src') :
      Acct count contact src (.setOne name (i : Nat) x) .empty src'
  | setContact (name x src' l) (i : Nat) (ix : List Nat) (hm : Exists src .node name) (hi : i < count .node) (hc : contact .node name = some ix)
      (hv : Values src (count .node) name l) (hs : Assigned src name (placedAll (count .node) (some ix) x) src') :
      Acct count contact src (.setOne name (i : Nat) x) .empty src'
  | oneFails (name i x) (hm : Exists src .node name) (hi : i < count .node) (h : ∀ l, ¬ Values src (count .node) name l) :
      Acct count contact src (.setOne name (i : Nat) x) .fatal src
  /-- values are shown -/
  | unknown (w k name) (hm : ¬ Exists src k name) :
      Acct count contact src (.show w k name) (.err (label k ++ " " ++ name ++ " does not exist\n")) src
  | got (k name l) (hm : Exists src k name) (hv : Values src (count k) name l) (hl : l ≠ []) :
      Acct count contact src (.show .get k name) (.list l) src
  | gotNone (k name) (hm : Exists src k name) (hv : Values src (count k) name []) :
      Acct count contact src (.show .get k name) (.err (label k ++ " " ++ name ++ " is empty\n")) src
  | printed (k name l) (hm : Exists src k name) (hv : Values src (count k) name l) :
      Acct count contact src (.show .print k name) (.printed l) src
  | showFails (w k name) (hw : w ≠ .delete) (hm : Exists src k name) (h : ∀ l, ¬ Values src (count k) name l) :
      Acct count contact src (.show w k name) .fatal src
  /-- a model is deleted -/
  | deleted (k name src') (hm : Exists src k name) (hn : src'.defn name = none) (ho : ∀ m, m ≠ name → src'.defn m = src.defn m)
      (hd : src'.data = src.data) (hp : src'.par = src.par) : Acct count contact src (.show .delete k name) .empty src'
  /-- a model is created: data models are zero everywhere -/
  | defined (k name d src') (hm : src.defn name = none) (hn : src'.defn name = some (k, d))
      (ho : ∀ m, m ≠ name → src'.defn m = src.defn m) (hd : src'.data name = .all 0) (hd' : ∀ m, m ≠ name → src'.data m = src.data m)
      (hp : src'.par = src.par) : Acct count contact src (.define k name d) .empty src'
  | par (p v src') (hn : src'.defn = src.defn) (hd : src'.data = src.data) (hv : src'.par p = v) (ho : ∀ q, q ≠ p → src'.par q = src.par q) :
      Acct count contact src (.setPar p v) .empty src'

/-- a history and its answers -/
inductive Story (count : Kind → Nat) (contact : Kind → String → Option (List Nat)) : Told → List Call → List Res → Told → Prop
  | nil (src) : Story count contact src [] [] src
  | cons (src src' src'' c a cs as) (h : Acct count contact src c a src') (ht : Story count contact src' cs as src'') :
      Story count contact src (c :: cs) (a :: as) src''

/-- The calls that the account is about: values are set on data models only, and a model is created under a name that is neither used as a model
nor mentioned in a definition (`Deps.Src.Allowed`: otherwise values can be stale, C15). -/
def Ok (src : Told) : Call → Prop
  | .setValues _ n _ _ => ∀ k d, src.defn n = some (k, d) → d = .sol
  | .setOne n _ _ => ∀ k d, src.defn n = some (k, d) → d = .sol
  | .show _ _ _ => True
  | .define k n d => src.Allowed (.define k n d)
  | .setPar _ _ => True

end Verif.SetVals
