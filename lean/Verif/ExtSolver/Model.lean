import Verif.PyArg.Model
import Verif.Matrix.Model

/-!
# The custom direct solver (`src/math/ExternalPreconditioner.cc`, `Preconditioner.cc`, `DirectLinearSolver.cc`, `SolverUtil.cc`)

A direct solver written in Python is called with keyword arguments; its answer is a Python object.  `R` is the type of the numbers of the
program (`double` or `float128`), `toD` and `ofD` convert to and from `double` (`CreateDoublePODArray`, `convertToType`).

A FATAL message (`dsAssert`, `OutputStream::OutputType::FATAL`) throws an exception that nothing up to the command catches.
-/

namespace Verif.ExtSolver
open Verif Verif.PyArg

/-- The keyword arguments of a call: `action="init"` (`ExternalPreconditioner.cc` 100-104), `"factor"` (176-205), `"solve"`
(255-260, 314-319).  The arrays are `array.array` objects: of C `int` for `Ap` and `Ai`, of `double` for `Ax` and `b`; complex numbers are
sent as two numbers each. -/
inductive Msg where
  | init (transpose : Bool) (n : Nat)
  | factor (obj : Py) (ap ai : List Nat) (same cpx : Bool) (ax : List F64)
  | solve (obj : Py) (cpx : Bool) (b : List F64)

/-- What a call gives: an exception, an object that is not exactly a `dict`, or a `dict` with its items in order. -/
inductive Reply where
  | raised
  | value (o : Py)
  | dict (items : List (Py × Py))

/-- The solver of the user: it answers the last call of a history of calls, and its computations may have raised a floating point
exception (`FPECheck`). -/
abbrev Callback := List Msg → Reply × Bool

/-- `ObjectHolder::GetHashMap`, `ObjectHolder.cc` 621-643: the keys are taken as texts. -/
def hashMap (L : Lib) (items : List (Py × Py)) : FMap String Py :=
  items.foldl (fun m kv => m.set (getString L kv.1) kv.2) []

/-- `result_dictionary["status"].GetBoolean().second`: false for a missing item -/
def status (d : FMap String Py) : Bool :=
  match d.get "status" with
  | none => false
  | some o => (getBoolean o).2

/-- all of the required keys are there, `ExternalPreconditioner.cc` 124-131, 222-229, 277-284 -/
def hasKeys (d : FMap String Py) (ks : List String) : Bool := ks.all fun k => d.has k

/-- `ExternalPreconditioner` after `init`: size, transpose flag, format (`crm`: compressed rows), `command_data_`
(`ExternalPreconditioner.hh`) -/
structure Pre where
  n : Nat
  transpose : Bool
  crm : Bool
  obj : Py

/-- `ExternalPreconditioner::init`, `ExternalPreconditioner.cc` 86-163, called from `CreateExternalPreconditioner`, `SolverUtil.cc` 119-136:
`none` is a FATAL error. -/
def init (L : Lib) (cb : Callback) (n : Nat) (transpose : Bool) : List Msg × Option Pre :=
  let h := [Msg.init transpose n]
  match (cb h).1 with
  | .raised => (h, none)
  | .value _ => (h, none)
  | .dict items =>
    let d := hashMap L items
    if hasKeys d ["matrix_format", "solver_object", "status", "message"] then
      let fmt := (d.get "matrix_format").elim "" (getString L)
      let crm := if fmt = "csc" then some false else if fmt = "csr" then some true else none
      if status d then
        match crm, d.get "solver_object" with
        | some crm, some obj => (h, some ⟨n, transpose, crm, obj⟩)
        | _, _ => (h, none)
      else (h, none)
    else (h, none)

variable {R : Type}

/-- The two conversions. -/
structure Conv (R : Type) where
  toD : R → F64
  ofD : F64 → R

/-- `ac`, `ExternalPreconditioner.cc` 185-200: real and imaginary parts in turns -/
def interleave {A : Type} : List A → List A → List A
  | x :: xs, y :: ys => x :: y :: interleave xs ys
  | _, _ => []

/-- the call made by `DerivedLUFactor`, `ExternalPreconditioner.cc` 176-206 -/
def factorMsg (C : Conv R) (p : Pre) (m : Matrix.Mat R) : Msg :=
  .factor p.obj m.ap m.ai m.sameSym m.cpx
    ((if m.cpx then interleave (m.x false) (m.x true) else m.x false).map C.toD)

/-- How a step ends: a FATAL error, `false`, or `true` with a result. -/
inductive Res (A : Type) where
  | threw
  | failed
  | ok (a : A)
deriving DecidableEq

/-- `DerivedLUFactor`, `ExternalPreconditioner.cc` 165-240, and `LUFactor`, `Preconditioner.cc` 35-64 -/
def luFactor (L : Lib) (C : Conv R) (cb : Callback) (p : Pre) (m : Matrix.Mat R) (h : List Msg) : List Msg × Res Unit :=
  let h := h ++ [factorMsg C p m]
  match (cb h).1 with
  | .raised => (h, .threw)
  | .value _ => (h, .failed)
  | .dict items =>
    let d := hashMap L items
    if status d then
      if hasKeys d ["status", "message"] && !(cb h).2 then (h, .ok ()) else (h, .failed)
    else (h, .threw)

/-- `DerivedLUSolve`, `ExternalPreconditioner.cc` 242-299, and `LUSolve`, `Preconditioner.cc` 67-100.  `x` is the vector before. -/
def luSolve (L : Lib) (C : Conv R) (cb : Callback) (p : Pre) (x b : List R) (h : List Msg) : List Msg × Res (List R) :=
  let h := h ++ [.solve p.obj false (b.map C.toD)]
  match (cb h).1 with
  | .raised => (h, .threw)
  | .value _ => if (cb h).2 then (h, .failed) else (h, .ok x)
  | .dict items =>
    let d := hashMap L items
    if status d then
      match (d.get "x").bind (getDoubleList L) with
      | none => (h, .threw)
      | some v =>
        if v.length = b.length then if (cb h).2 then (h, .failed) else (h, .ok (v.map C.ofD))
        else (h, .threw)
    else (h, .threw)

/-- `GetComplexDoubleList`, `ObjectHolder.cc` 509-513 with 462-489: the size of an item must be that of a `double`, and sixteen bytes are one
number -/
def getComplexList (o : Py) : Option (List (F64 × F64)) :=
  match arrayInfo o with
  | none => none
  | some (tc, isz, b) =>
    if (tc = "" ∧ isz = 0) ∨ (tc = "d" ∧ isz = 8) ∨ (tc = "" ∧ isz = 8) then
      let v := chunks 16 b
      if v = [] then none else some (v.map fun c => (BitVec.ofNat 64 (le (c.take 8)), BitVec.ofNat 64 (le (c.drop 8))))
    else none

/-- `DerivedLUSolve` for complex vectors, `ExternalPreconditioner.cc` 301-361, and `LUSolve`, `Preconditioner.cc` 102-128.  (The flags are not
cleared before the call, but nothing is computed after `LUFactor` has found them clear.) -/
def luSolveC (C : Conv R) (L : Lib) (cb : Callback) (p : Pre) (x b : List (R × R)) (h : List Msg) : List Msg × Res (List (R × R)) :=
  let h := h ++ [.solve p.obj true (interleave (b.map fun z => C.toD z.1) (b.map fun z => C.toD z.2))]
  match (cb h).1 with
  | .raised => (h, .threw)
  | .value _ => if (cb h).2 then (h, .failed) else (h, .ok x)
  | .dict items =>
    let d := hashMap L items
    if status d then
      match (d.get "x").bind getComplexList with
      | none => (h, .threw)
      | some v =>
        if v.length = b.length then
          if (cb h).2 then (h, .failed) else (h, .ok (v.map fun z => (C.ofD z.1, C.ofD z.2)))
        else (h, .threw)
    else (h, .threw)

/-- `DirectLinearSolver::SolveImpl`, `DirectLinearSolver.cc` 35-63 -/
def directSolve (L : Lib) (C : Conv R) (cb : Callback) (p : Pre) (m : Matrix.Mat R) (x b : List R) (h : List Msg) :
    List Msg × Res (List R) :=
  match luFactor L C cb p m h with
  | (h, .threw) => (h, .threw)
  | (h, .failed) => (h, .failed)
  | (h, .ok _) => luSolve L C cb p x b h

/-- `ACSolveImpl` and `NoiseSolveImpl`, `DirectLinearSolver.cc` 65-112 -/
def directSolveC (L : Lib) (C : Conv R) (cb : Callback) (p : Pre) (m : Matrix.Mat R) (x b : List (R × R)) (h : List Msg) :
    List Msg × Res (List (R × R)) :=
  match luFactor L C cb p m h with
  | (h, .threw) => (h, .threw)
  | (h, .failed) => (h, .failed)
  | (h, .ok _) => luSolveC C L cb p x b h

variable [AddZeroClass R] [DecidableEq R]

/-- What the rest of the nonlinear solver does, given the solutions of the linear systems so far: the entries it adds to the matrix, the
right hand side, and whether it goes on. -/
structure Drive (R : Type) where
  assemble : List (List R) → List (Matrix.Op R)
  rhs : List (List R) → List R
  go : List (List R) → Bool

/-- How a whole solve uses the solver: `undef` is an access outside of an array of the matrix (see `Verif.Matrix`). -/
inductive End where
  | threw
  | failed
  | done
  | undef
deriving DecidableEq

/-- The linear systems of `Newton::Solve`, `Newton.cc` 672-802: the first number is `maxiter - iter`; `symMax` is the number of iterations
with a new symbolic factorization (`Newton.cc` 704-711). -/
def loop (L : Lib) (C : Conv R) (cb : Callback) (p : Pre) (dr : Drive R) (symMax : Nat) :
    Nat → Nat → Matrix.Mat R → List Msg → List (List R) → List Msg × List (List R) × End
  | 0, _, _, h, xs => (h, xs, .done)
  | fuel + 1, iter, m, h, xs =>
    if dr.go xs then
      match Matrix.run m (dr.assemble xs ++ [.finalize]) with
      | none => (h, xs, .undef)
      | some m1 =>
        let m1 := if iter < symMax then { m1 with sameSym := false } else m1
        match directSolve L C cb p m1 (List.replicate p.n 0) (dr.rhs xs) h with
        | (h, .threw) => (h, xs, .threw)
        | (h, .failed) => (h, xs, .failed)
        | (h, .ok x) => loop L C cb p dr symMax fuel (iter + 1) (Matrix.clear m1) h (xs ++ [x])
    else (h, xs, .done)

/-- `CreatePreconditioner`, `CreateMatrix` (`Newton.cc` 634-640, `SolverUtil.cc` 171-233) and the loop: the calls of the solver, the solutions of the
linear systems and how it ended. -/
def newton (L : Lib) (C : Conv R) (cb : Callback) (n : Nat) (dr : Drive R) (symMax maxIter : Nat) :
    List Msg × List (List R) × End :=
  match init L cb n false with
  | (h, none) => (h, [], .threw)
  | (h, some p) => loop L C cb p dr symMax maxIter 0 (Matrix.new n false p.crm) h []

/-- One complex system (`Newton::ACSolve`, `Newton.cc` 1153-1239; `NoiseSolve` with `transpose`, 1242-1343): matrix, entries, one solution.
`none` is an access outside of an array of the matrix. -/
def acSolve (L : Lib) (C : Conv R) (cb : Callback) (n : Nat) (transpose : Bool) (ops : List (Matrix.Op R)) (b : List (R × R)) :
    List Msg × Option (Res (List (R × R))) :=
  match init L cb n transpose with
  | (h, none) => (h, some .threw)
  | (h, some p) =>
    match Matrix.run (Matrix.new n true p.crm) (ops ++ [.finalize]) with
    | none => (h, none)
    | some m =>
      match directSolveC L C cb p m (List.replicate n (0, 0)) b h with
      | (h, r) => (h, some r)

/-! ### Which solver is used -/

/-- What the program was built with, and whether the MKL library was found (`MathLoader::IsMKLLoaded`) -/
structure Build where
  mkl : Bool
  superlu : Bool
  mklLoaded : Bool

inductive Solver where
  | mkl
  | superlu
  | custom
deriving DecidableEq

/-- `GetDirectSolver`, `SolverUtil.cc` 44-116: `direct` is the parameter `direct_solver`; `callback` is `none` if the parameter
`solver_callback` is not set, and tells whether it is callable.  `none` is a FATAL error. -/
def getDirectSolver (L : Lib) (B : Build) (direct : Option Py) (callback : Option Bool) : Option Solver :=
  match direct with
  | some o =>
    let val := getString L o
    if val = "mkl_pardiso" then if B.mkl then some .mkl else none
    else if val = "superlu" then if B.superlu then some .superlu else none
    else if val = "custom" then
      match callback with
      | some true => some .custom
      | _ => none
    else none
  | none => if B.mkl && B.mklLoaded then some .mkl else some .custom

/-- `CreateDirectPreconditioner`, `CreateACPreconditioner`, `SolverUtil.cc` 140-222, with the test of `init` (`ExternalPreconditioner.cc` 88-92):
the solver that is used, or a FATAL error -/
def create (L : Lib) (B : Build) (direct : Option Py) (callback : Option Bool) : Option Solver :=
  match getDirectSolver L B direct callback with
  | some .custom => if callback = some true then some .custom else none
  | s => s

end Verif.ExtSolver
