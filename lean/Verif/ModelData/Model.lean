/-
Model of `/repo/src/models/ModelDataHolder.{hh,cc}` and of the data part of `NodeModel::SetValues`,
`NodeModel::SetNodeValue`, `NodeModel::GetScalarValues` (`/repo/src/models/NodeModel.cc:116-220`).
(`EdgeModel`, `TriangleEdgeModel`, `TetrahedronEdgeModel`, `InterfaceNodeModel` use the same holder.)

`D` is `double`, `E` is `float128` (build option DEVSIM_EXTENDED_PRECISION); `up`/`down` are the conversions between them.
Dependency signalling (`MarkOld`) is modelled in `Verif/Deps`, not here.
-/
namespace Verif.ModelData

/-- ModelDataHolder.hh:21 -/
inductive MDtype where | double | extended
  deriving DecidableEq, Repr

/-- Conversions and zeros of the two number types. -/
structure Num (D E : Type) where
  up : D → E
  down : E → D
  zeroD : D
  zeroE : E

/-- ModelDataHolder.hh:74-84, members. `length` is `const`. -/
structure Holder (D E : Type) where
  dvals : List D
  evals : List E
  duni : D
  euni : E
  length : Nat
  type : MDtype
  uniform : Bool
  deriving DecidableEq, Repr

variable {D E : Type}

/-- ModelDataHolder.hh:24-27, constructor -/
def Holder.init (N : Num D E) (l : Nat) : Holder D E :=
  { dvals := [], evals := [], duni := N.zeroD, euni := N.zeroE, length := l, type := .double, uniform := true }

/-- ModelDataHolder.cc:90-100 `clear` -/
def clear (N : Num D E) (h : Holder D E) : Holder D E :=
  { h with type := .double, duni := N.zeroD, dvals := [], euni := N.zeroE, evals := [], uniform := true }

/-- ModelDataHolder.cc:24-55 `set_type` -/
def setType (N : Num D E) (h : Holder D E) (t : MDtype) : Holder D E :=
  if h.type = t then h
  else if h.uniform then { h with type := t }
  else match t with
    | .extended => { h with evals := h.dvals.map N.up, type := .extended, dvals := [] }
    | .double => { h with dvals := h.evals.map N.down, type := .double, evals := [] }

/-- ModelDataHolder.cc:62-88 `expand_uniform` -/
def expandUniform (N : Num D E) (h : Holder D E) : Holder D E :=
  if h.uniform then
    match h.type with
    | .double =>
      let h' := setType N (clear N h) .double
      { h' with dvals := List.replicate h.length h.duni, uniform := false }
    | .extended =>
      let h' := setType N (clear N h) .extended
      { h' with evals := List.replicate h.length h.euni, uniform := false }
  else h

/-- ModelDataHolder.cc:139-149 `SetUniformValue<double>` -/
def setUniformD (N : Num D E) (h : Holder D E) (v : D) : Holder D E :=
  { clear N h with type := .double, duni := v, euni := N.up v, uniform := true }
/-- ModelDataHolder.cc:139-149 `SetUniformValue<float128>` -/
def setUniformE (N : Num D E) (h : Holder D E) (v : E) : Holder D E :=
  { clear N h with type := .extended, duni := N.down v, euni := v, uniform := true }

/-- ModelDataHolder.cc:156-171 `GetValues<double>`: new state and returned array. -/
def getD (N : Num D E) (h : Holder D E) : Holder D E × List D :=
  let h := expandUniform N h
  let h := if h.type = .extended ∧ h.dvals = [] then { h with dvals := h.evals.map N.down } else h
  (h, h.dvals)

/-- ModelDataHolder.cc:173-187 `GetValues<float128>` -/
def getE (N : Num D E) (h : Holder D E) : Holder D E × List E :=
  let h := expandUniform N h
  let h := if h.type = .double ∧ h.evals = [] then { h with evals := h.dvals.map N.up } else h
  (h, h.evals)

/-- ModelDataHolder.cc:189-262 `set_indexes(indexes, v)` with a function giving the value of each index (a scalar or
`v[i]`): all entries 0 except those listed. -/
def indexed {α : Type} (zero : α) (length : Nat) (indexes : List Nat) (v : Nat → α) : List α :=
  (List.range length).map (fun i => if i ∈ indexes then v i else zero)

def setIndexesD (N : Num D E) (h : Holder D E) (indexes : List Nat) (v : Nat → D) : Holder D E :=
  { clear N h with dvals := indexed N.zeroD h.length indexes v, type := .double, uniform := false }
def setIndexesE (N : Num D E) (h : Holder D E) (indexes : List Nat) (v : Nat → E) : Holder D E :=
  { clear N h with evals := indexed N.zeroE h.length indexes v, type := .extended, uniform := false }

/-- ModelDataHolder.cc:264-271 `set_values(vector<double>)` -/
def setValuesD (h : Holder D E) (v : List D) : Holder D E :=
  { h with evals := [], type := .double, dvals := v, uniform := false }
/-- ModelDataHolder.cc:273-282 `set_values(vector<float128>)` -/
def setValuesE (h : Holder D E) (v : List E) : Holder D E :=
  { h with dvals := [], type := .extended, evals := v, uniform := false }

/-- ModelDataHolder.cc:284-302 `SetValue(index, float128)` -/
def setValueE (N : Num D E) (h : Holder D E) (i : Nat) (v : E) : Holder D E :=
  if i ≥ h.length then h
  else
    let h := setType N h .extended
    let h := expandUniform N h
    { h with evals := h.evals.set i v }

/-- ModelDataHolder.cc:304-325 `SetValue(index, double)` -/
def setValueD (N : Num D E) (h : Holder D E) (i : Nat) (v : D) : Holder D E :=
  if i ≥ h.length then h
  else match h.type with
    | .extended => setValueE N h i (N.up v)
    | .double =>
      let h := expandUniform N h
      { h with dvals := h.dvals.set i v }

/-- ModelDataHolder.cc:114-127 `GetUniformValue<double>`, `GetUniformValue<float128>`: callers ask `IsUniform` first
(ScalarData.cc:16-20, NodeSolution.cc:82-85); `none` when the model is not uniform. -/
def uniformD (h : Holder D E) : Option D := if h.uniform then some h.duni else none
def uniformE (h : Holder D E) : Option E := if h.uniform then some h.euni else none

/-- Data operations on a node model. `none`/`some nodes`: the model is / is restricted to a contact
(`mycontact`, `GetContactIndexes`, NodeModel.cc:177-190). -/
inductive Op (D E : Type) where
  | setArrayD (v : List D)
  | setArrayE (v : List E)
  | setAllD (v : D)
  | setAllE (v : E)
  | setOneD (i : Nat) (v : D)
  | setOneE (i : Nat) (v : E)
  | readD
  | readE

inductive Out (D E : Type) where
  | none
  | arrD (v : List D)
  | arrE (v : List E)
  deriving DecidableEq

/-- NodeModel.cc:116-220.  `dD`/`dE` only serve as default for reads beyond the end of an argument array (the commands
check the length, ModelCommands.cc:1046-1065). -/
def step (N : Num D E) (contact : Option (List Nat)) (h : Holder D E) : Op D E → Holder D E × Out D E
  -- NodeModel.cc:136-152
  | .setArrayD v => (match contact with
      | some c => setIndexesD N h c (fun i => v.getD i N.zeroD)
      | none => setValuesD h v, .none)
  | .setArrayE v => (match contact with
      | some c => setIndexesE N h c (fun i => v.getD i N.zeroE)
      | none => setValuesE h v, .none)
  -- NodeModel.cc:160-175
  | .setAllD v => (match contact with
      | some c => setIndexesD N h c (fun _ => v)
      | none => setUniformD N h v, .none)
  | .setAllE v => (match contact with
      | some c => setIndexesE N h c (fun _ => v)
      | none => setUniformE N h v, .none)
  -- NodeModel.cc:195-220; it first reads all values in the precision of the argument
  | .setOneD i v =>
    if i ≥ h.length then (h, .none)
    else
      let h := (getD N h).1
      (match contact with
        | some c => setIndexesD N h c (fun _ => v)
        | none => setValueD N h i v, .none)
  | .setOneE i v =>
    if i ≥ h.length then (h, .none)
    else
      let h := (getE N h).1
      (match contact with
        | some c => setIndexesE N h c (fun _ => v)
        | none => setValueE N h i v, .none)
  -- NodeModel.cc:116-126
  | .readD => let r := getD N h; (r.1, .arrD r.2)
  | .readE => let r := getE N h; (r.1, .arrE r.2)

def run (N : Num D E) (contact : Option (List Nat)) (h : Holder D E) : List (Op D E) → Holder D E
  | [] => h
  | o :: os => run N contact (step N contact h o).1 os

end Verif.ModelData
