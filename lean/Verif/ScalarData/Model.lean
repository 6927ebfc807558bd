import Mathlib.Algebra.Ring.Defs
/-
Model of `/repo/src/models/ScalarData.{hh,cc}`.

`DoubleType` is an arbitrary semiring `α` with decidable equality (no rounding, NaN or infinity).
A model (`T`: NodeModel, EdgeModel, ...) is what `ScalarData` observes of it: a flag `IsUniform`, `GetUniformValue`,
`GetScalarValues`, `GetLength`; a reference to a model is its index in the environment `env` of models.
Threaded loops (`OpEqualRun`) are replaced by their serial meaning, which is theorem
`Verif.Parallel.threaded_kernel_eq_serial`.
-/
namespace Verif.ScalarData

/-- What ScalarData.cc:16-27,74,89 observes of a model (`ModelDataHolder.cc`: a uniform model expands to `length` copies). -/
structure MModel (α : Type) where
  uniform : Bool
  uval : α
  vals : List α
  deriving DecidableEq

variable {α : Type}

/-- `GetScalarValues` on a model of `n` entries. -/
def MModel.values (m : MModel α) (n : Nat) : List α := if m.uniform then List.replicate n m.uval else m.vals

/-- ScalarData.hh:128-145, the members. -/
structure SD (α : Type) where
  ref : Option Nat
  values : List α
  isuniform : Bool
  uval : α
  length : Nat
  deriving DecidableEq

/-- The models; all have `n` entries (nodes, edges...) in a given region.  `toDouble` is the conversion
`static_cast<double>` applied to the uniform value stored for the tests `IsZero`/`IsOne`
(ModelDataHolder.cc:102-112,139-149); it is the identity in a standard precision build. -/
structure Env (α : Type) where
  n : Nat
  models : Nat → MModel α
  toDouble : α → α

variable [Semiring α] [DecidableEq α]

/-- ScalarData.cc:13-29 -/
def ofModel (env : Env α) (k : Nat) : SD α :=
  let m := env.models k
  if m.uniform then { ref := none, values := [], isuniform := true, uval := m.uval, length := env.n }
  else { ref := some k, values := [], isuniform := false, uval := 0, length := env.n }

/-- ScalarData.cc:31-36 -/
def ofVector (v : List α) : SD α :=
  { ref := none, values := v, isuniform := false, uval := 0, length := v.length }

/-- ScalarData.cc:38-41 -/
def ofScalar (v : α) (l : Nat) : SD α :=
  { ref := none, values := [], isuniform := true, uval := v, length := l }

/-- ScalarData.cc:62-77 `MakeAssignable` -/
def makeAssignable (env : Env α) (s : SD α) : SD α :=
  if s.isuniform then { s with values := List.replicate s.length s.uval, uval := 0, isuniform := false }
  else match s.ref with
    | some k => { s with values := (env.models k).values env.n, ref := none }
    | none => s

/-- ScalarData.cc:109-126 `GetScalarList` (returned list; the cache it leaves in `values` of a uniform object is
overwritten before any use, so it is not represented). -/
def getScalarList (env : Env α) (s : SD α) : List α :=
  if s.isuniform then List.replicate s.length s.uval
  else match s.ref with
    | some k => (env.models k).values env.n
    | none => s.values

/-- ScalarData.cc:79-99 `operator[] const`; `none` = out-of-bounds read. -/
def get (env : Env α) (s : SD α) (i : Nat) : Option α :=
  if s.isuniform then some s.uval
  else match s.ref with
    | some k => ((env.models k).values env.n)[i]?
    | none => s.values[i]?

/-- ScalarData.cc:101-107 `operator[]` used as the target of an assignment `x[i] = v`; `none` = out of bounds. -/
def set (env : Env α) (s : SD α) (i : Nat) (v : α) : Option (SD α) :=
  let s' := makeAssignable env s
  if i < s'.values.length then some { s' with values := s'.values.set i v } else none

/-- ScalarData.hh:118-121 -/
def isZero (s : SD α) : Bool := s.isuniform && decide (s.uval = 0)
/-- ScalarData.hh:123-126 -/
def isOne (s : SD α) : Bool := s.isuniform && decide (s.uval = 1)

/-- NodeModel.cc:25-35, EdgeModel.cc and ModelDataHolder.cc:102-112 `IsZero`, `IsOne` on models: uniform, and the
`double` copy of the uniform value equal to 0 or 1, whatever the precision of the model. -/
def mIsZero (env : Env α) (k : Nat) : Bool :=
  (env.models k).uniform && decide (env.toDouble (env.models k).uval = 0)
def mIsOne (env : Env α) (k : Nat) : Bool :=
  (env.models k).uniform && decide (env.toDouble (env.models k).uval = 1)

/-- ScalarData.cc:160-174 `op_equal_scalar` -/
def opEqualScalar (env : Env α) (op : α → α → α) (s : SD α) (v : α) : SD α :=
  if s.isuniform then { s with uval := op s.uval v }
  else
    let s' := makeAssignable env s
    { s' with values := s'.values.map (fun x => op x v) }

/-- ScalarData.cc:136-158 `op_equal_data`; the vector loop runs over `values.size()` elements and reads the other
operand at the same indices: `none` when that reads out of bounds. -/
def opEqualData (env : Env α) (op : α → α → α) (s e : SD α) : Option (SD α) :=
  if s.isuniform && e.isuniform then some { s with uval := op s.uval e.uval }
  else if e.isuniform then some (opEqualScalar env op s e.uval)
  else
    let s' := makeAssignable env s
    let o := getScalarList env e
    if s'.values.length ≤ o.length then some { s' with values := List.zipWith op s'.values o } else none

/-- ScalarData.cc:128-134 `op_equal_model` -/
def opEqualModel (env : Env α) (op : α → α → α) (s : SD α) (k : Nat) : Option (SD α) :=
  opEqualData env op s (ofModel env k)

/-- ScalarData.cc:177-197 -/
def timesEqualModel (env : Env α) (s : SD α) (k : Nat) : Option (SD α) :=
  if isZero s || mIsOne env k then some s
  else if mIsZero env k then some (ofScalar 0 s.length)
  else if isOne s then some (ofModel env k)
  else opEqualModel env (· * ·) s k

/-- ScalarData.cc:199-219 -/
def timesEqualData (env : Env α) (s e : SD α) : Option (SD α) :=
  if isZero s || isOne e then some s
  else if isZero e then some (ofScalar 0 s.length)
  else if isOne s then some e
  else opEqualData env (· * ·) s e

/-- ScalarData.cc:221-244 -/
def timesEqualScalar (env : Env α) (s : SD α) (x : α) : SD α :=
  if isZero s || decide (x = 1) then s
  else if x = 0 then ofScalar 0 s.length
  else if isOne s then ofScalar x s.length
  else opEqualScalar env (· * ·) s x

/-- ScalarData.cc:247-260 -/
def plusEqualModel (env : Env α) (s : SD α) (k : Nat) : Option (SD α) :=
  if isZero s then some (ofModel env k) else opEqualModel env (· + ·) s k

/-- ScalarData.cc:262-278 -/
def plusEqualData (env : Env α) (s e : SD α) : Option (SD α) :=
  if isZero s then some e
  else if isZero e then some s
  else opEqualData env (· + ·) s e

/-- ScalarData.cc:281-299 -/
def plusEqualScalar (env : Env α) (s : SD α) (x : α) : SD α :=
  if x = 0 then s
  else if isZero s then { s with uval := x }
  else opEqualScalar env (· + ·) s x

end Verif.ScalarData
