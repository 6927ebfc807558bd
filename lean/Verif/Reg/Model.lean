import Mathlib.Data.Real.Basic
import Mathlib.Tactic.Common
/-!
# Functions registered from Python: `register_function` and their evaluation

`registerFunctionCmd`, `ModelCommands.cc` 2107-2163; `MathEval.cc` 436-462, 464-580, 582-596;
`Interpreter::RunCommand`, `Interpreter.cc` 149-171.

A procedure is a Python object: it may have a state of its own and change anything in Python (`P`), and be called only if
it is callable. Numbers are ℝ (also where a number of extended precision is rounded to `double` for Python). An index out of
range is undefined behaviour of C++ and is `none` here. The built in functions are a black box.
-/
namespace Verif.Reg

/-- What a call of Python gives: a number (`ObjectHolder::GetDouble`), another object (with its text), or an exception
(with its text, `ProcessError`, `Interpreter.cc` 132-147). -/
inductive Answer
  | number (x : ℝ)
  | object (text : String)
  | exception (text : String)

/-- Python: objects, which of them are callable, and what a call does. -/
structure Python where
  P : Type
  Obj : Type
  callable : Obj → Bool
  invoke : Obj → List ℝ → P → P × Answer

/-- `tclMathFuncMap_`, `MathEval.hh`: procedure and number of arguments. -/
abbrev Table (Y : Python) := String → Option (Y.Obj × Nat)

/-- `MathEval::AddTclMath`, `MathEval.cc` 582-596: the table and what is added to the error. -/
def add {Y : Python} (T : Table Y) (name : String) (f : Y.Obj) (n : Nat) : Table Y × String :=
  if Y.callable f then (fun x => if x = name then some (f, n) else T x, "")
  else (T, "procedure given for \"" ++ name ++ "\" is not callable")

/-- The tables of the two instances, `MathEval<float128>` and `MathEval<double>`. -/
structure Tables (Y : Python) where
  ext : Table Y
  dbl : Table Y

/-- `registerFunctionCmd`, `ModelCommands.cc` 2107-2163; the error, if there is one. `quad` is
`DEVSIM_EXTENDED_PRECISION`. -/
def register {Y : Python} (quad : Bool) (T : Tables Y) (name : String) (f : Y.Obj) (nargs : Int) :
    Tables Y × Option String :=
  if nargs < 1 then (T, some "Must have at least 1 argument specified")
  else
    let q := if quad then add T.ext name f nargs.toNat else (T.ext, "")
    let d := add T.dbl name f nargs.toNat
    let error := q.2 ++ d.2
    (⟨q.1, d.1⟩, if error = "" then none else some error)

/-- An argument: one value for all points, or a value for each point. -/
inductive Arg
  | scalar (x : ℝ)
  | vector (v : List ℝ)

/-- One turn of the loop that looks for the number of elements, `MathEval.cc` 496-510. -/
def elems (n : Nat) : Arg → Nat
  | .scalar _ => n
  | .vector v => if n = 0 then v.length else n

/-- The number of elements, `MathEval.cc` 495-516: of the first vector that is not empty, else one. -/
def numElems (args : List Arg) : Nat := if args.foldl elems 0 = 0 then 1 else args.foldl elems 0

/-- The arguments of call `j`, `MathEval.cc` 498-500, 520-528. -/
def row (args : List Arg) (j : Nat) : Option (List ℝ) :=
  args.mapM fun a => match a with
    | .scalar x => some x
    | .vector v => v[j]?

/-- The loop over the elements, `MathEval.cc` 518-556: Python, and the result and the error. -/
def loop {Y : Python} (f : Y.Obj) (args : List Arg) : List Nat → Y.P → List ℝ → Y.P × Option (List ℝ × String)
  | [], p, r => (p, some (r, ""))
  | j :: js, p, r =>
    match row args j with
    | none => (p, none)
    | some xs =>
      match Y.invoke f xs p with
      | (p', .number x) => if j < r.length then loop f args js p' (r.set j x) else (p', none)
      | (p', .object t) => (p', some (r, "Could not convert " ++ t ++ " to a DoubleType\n"))
      | (p', .exception t) => (p', some (r, "Python Command failed\n" ++ t))

/-- The message for a wrong number of arguments, `MathEval.cc` 481-486. -/
def countMessage (n c : Nat) (name : String) : String :=
  "function registered with \"" ++ toString n ++ "\" arguments and \"" ++ toString c ++ "\" were provided: \"" ++ name ++ "\""

/-- `result.resize(1)` of a vector, `MathEval.cc` 515. -/
def resize1 (r : List ℝ) : List ℝ := [r.getD 0 0]

/-- `EvaluateTclMathFunc`, `MathEval.cc` 464-557, for a name in the table. The size of the result is changed exactly if the
number of elements found is zero (511-516). -/
def evalTcl {Y : Python} (f : Y.Obj) (n : Nat) (name : String) (args : List Arg) (result : List ℝ) (p : Y.P) :
    Y.P × Option (List ℝ × String) :=
  if n ≠ args.length then (p, some (result, countMessage n args.length name))
  else
    loop f args (List.range (numElems args)) p (if args.foldl elems 0 = 0 then resize1 result else result)

/-- `EvaluateMathFunc` on data, `MathEval.cc` 559-580. -/
def evalData {Y : Python} (T : Table Y) (builtin : String → Option (List Arg → List ℝ × String)) (name : String)
    (args : List Arg) (vlen : Nat) (p : Y.P) : Y.P × Option (List ℝ × String) :=
  match T name with
  | some (f, n) => evalTcl f n name args (List.replicate vlen 0) p
  | none => match builtin name with
    | some g => (p, some (g args))
    | none => (p, some (List.replicate vlen 0, "could not find function \"" ++ name ++ "\""))

/-- `EvaluateMathFunc` on numbers, `MathEval.cc` 436-462. -/
def evalNumbers {Y : Python} (T : Table Y) (builtin : String → Option (List ℝ → ℝ × String)) (name : String)
    (xs : List ℝ) (p : Y.P) : Y.P × Option (ℝ × String) :=
  match T name with
  | some (f, n) =>
    match evalTcl f n name (xs.map .scalar) [0] p with
    | (p', some (r, e)) => (p', some (if e = "" then r.getD 0 0 else 0, e))
    | (p', none) => (p', none)
  | none => match builtin name with
    | some g => (p, some (g xs))
    | none => (p, some (0, ""))

end Verif.Reg
