import Verif.Sym.Print
import Verif.ScalarData.Props

/-!
# Evaluation of the expression of a model on a region (`ModelExprEval`, `ModelExprData`, `MathEval`)

Numbers are real numbers (no rounding, no infinity). The threaded loops (`OpEqualRun`, `MathPacketRun`) are replaced by
their serial meaning (`Verif.Parallel.threaded_kernel_eq_serial`). `none` is undefined behaviour: a read outside of an
array, a null pointer, a failed `dsAssert`.

The `std::shared_ptr` of a `ModelExprData` are modelled as values: the only object ever modified in place is the
accumulator `out` of a sum or a product, which starts as a `DOUBLE` and therefore owns the array it later modifies
(`double_op_equal` allocates it, ModelExprData.cc:374-413). `EvaluateIfType` and `EvaluateIfElseType`, for which this would not
be so, are dead code: no object of the symbolic engine has type `IF_OBJ` or `IFELSE_OBJ`.
-/

namespace Verif.Eval

open Verif.ScalarData Verif.Sym

/-- `datatype` (ModelExprData.hh:83-90), the four kinds of arrays. -/
inductive Kind | node | edge | tri | tet
deriving DecidableEq, Repr

/-- `ModelExprData` (ModelExprData.hh:106-186): `DOUBLE`, an array, or `INVALID`. -/
inductive Val
  | double (x : ℝ)
  | data (k : Kind) (s : SD ℝ)
  | invalid

/-- A function known to `MathEval`: its number of arguments and its value, `none` when evaluating it fails (the script
raised an error or returned no number) or, for a built in function, raises a floating point exception. Scripts are taken
to be functions of their arguments. -/
structure Fn where
  arity : Nat
  f : List ℝ → Option ℝ

/-- What the evaluator reads. -/
structure Reg where
  /-- the models of each kind, by index, and the number of nodes, edges and element edges -/
  env : Kind → ScalarData.Env ℝ
  /-- `GetNodeModel`, `GetEdgeModel`, `GetTriangleEdgeModel`, `GetTetrahedronEdgeModel` -/
  find : Kind → Str → Option Nat
  /-- `IsInProcess` -/
  inProcess : Kind → Nat → Bool
  /-- `GetTriangleList().size()`, `GetTetrahedronList().size()` -/
  ntri : Nat
  ntet : Nat
  /-- element edge `3*t+i` ↦ `GetTriangleToEdgeList()[t][i]->GetIndex()` -/
  triEdge : Nat → Nat
  /-- element edge `6*t+i` ↦ `GetTetrahedronToEdgeDataList()[t][i]->edge->GetIndex()` -/
  tetEdge : Nat → Nat
  /-- `GetDoubleDBEntryOnRegion` (`Verif.Params`) -/
  param : Str → Option ℝ
  /-- `IsCircuitNode`, `GetNodeValue("dcop", ·)` -/
  circ : Str → Option ℝ
  /-- `tclMathFuncMap_` -/
  tcl : Str → Option Fn
  /-- `FuncPtrMap_` -/
  fns : Str → Option Fn

/-- The members of `ModelExprEval` that depend on the model being evaluated (ModelExprEval.cc:36-80): the contact indexes
(empty for a model that is not at a contact) and the expected type. -/
structure Ctx where
  indexes : List Nat
  etype : Option Kind

/-- The cache of the region and the number of errors reported. -/
structure St where
  cache : List (Str × Val)
  errs : Nat

def Val.isInvalid : Val → Bool
  | .invalid => true
  | _ => false

def Val.isDouble : Val → Bool
  | .double _ => true
  | _ => false

/-- `GetDoubleValue` -/
def Val.dbl : Val → ℝ
  | .double x => x
  | _ => 0

def Val.isKind (k : Kind) : Val → Bool
  | .data k' _ => decide (k' = k)
  | _ => false

/-! ### `ModelExprData` -/

/-- ModelExprData.cc:186-207 (`m` = number of element edges, `f` = the edge of each): `none` when an edge index is outside
of the array. -/
def spread (m : Nat) (f : Nat → Nat) (l : List ℝ) : Option (List ℝ) :=
  (List.range m).mapM fun i => l[f i]?

/-- ModelExprData.cc:236-268 -/
def toTri (R : Reg) : Val → Option Val
  | .data .edge s =>
    if s.isuniform then some (.data .tri (ofScalar s.uval (3 * R.ntri)))
    else do
      let out ← spread (3 * R.ntri) R.triEdge (getScalarList (R.env .edge) s)
      if out.isEmpty then some (.data .edge s) else some (.data .tri (ofVector out))
  | v => some v

/-- ModelExprData.cc:270-300. A uniform value gets length `6 * reg->GetTriangleList().size()` (278): the number of
triangles, not of tetrahedra. -/
def toTet (R : Reg) : Val → Option Val
  | .data .edge s =>
    if s.isuniform then some (.data .tet (ofScalar s.uval (6 * R.ntri)))
    else do
      let out ← spread (6 * R.ntet) R.tetEdge (getScalarList (R.env .edge) s)
      if out.isEmpty then some (.data .edge s) else some (.data .tet (ofVector out))
  | v => some v

/-- `op_equal_data` on the array `s` of kind `k` and the array of a value that must be of the same kind (a null pointer
otherwise). -/
noncomputable def opArr (R : Reg) (op : ℝ → ℝ → ℝ) (k : Kind) : Val → Val → Option Val
  | .data k1 s, .data k2 s' =>
    if k1 = k ∧ k2 = k then (opEqualData (R.env k) op s s').map (.data k) else none
  | _, _ => none

/-- `op_equal` (ModelExprData.cc:302-446), with `op` for `plus_equal` or `times_equal`. -/
noncomputable def opEqual (R : Reg) (op : ℝ → ℝ → ℝ) : Val → Val → Option Val
  | .invalid, _ => some .invalid
  | .double x, .double y => some (.double (op x y))
  | .double x, .data k s => (opEqualData (R.env k) op (ofScalar x s.length) s).map (.data k)
  | .double _, .invalid => some .invalid
  | .data k s, .double y => some (.data k (opEqualScalar (R.env k) op s y))
  | .data _ _, .invalid => some .invalid
  | .data .edge s, .data .tri s' => (toTri R (.data .edge s)).bind fun a => opArr R op .tri a (.data .tri s')
  | .data .edge s, .data .tet s' => (toTet R (.data .edge s)).bind fun a => opArr R op .tet a (.data .tet s')
  | .data .tri s, .data .edge s' => (toTri R (.data .edge s')).bind fun b => opArr R op .tri (.data .tri s) b
  | .data .tet s, .data .edge s' => (toTet R (.data .edge s')).bind fun b => opArr R op .tet (.data .tet s) b
  | .data k s, .data k' s' =>
    if k = k' then (opEqualData (R.env k) op s s').map (.data k) else some .invalid

/-! ### `MathEval` -/

/-- The outcome of evaluating a function: value, error string not empty, floating point exception raised. -/
structure Res (β : Type) where
  val : β
  err : Bool
  fpe : Bool

/-- `EvaluateMathFunc` on scalars (MathEval.cc:449-473, MathWrapper.cc:40-57). A name in neither table gives 0.0
and no error. -/
def mathScalar (R : Reg) (name : Str) (args : List ℝ) : Res ℝ :=
  match R.tcl name with
  | some g =>
    if g.arity = args.length then
      match g.f args with
      | some y => ⟨y, false, false⟩
      | none => ⟨0, true, false⟩
    else ⟨0, true, false⟩
  | none =>
    match R.fns name with
    | some g =>
      if g.arity = args.length then
        match g.f args with
        | some y => ⟨y, false, false⟩
        | none => ⟨0, false, true⟩
      else ⟨0, true, false⟩
    | none => ⟨0, false, false⟩

/-- An argument of the vector evaluation: `dvals[i]` or `*vvals[i]`. -/
inductive Arg
  | sc (x : ℝ)
  | vec (l : List ℝ)

def Arg.get (i : Nat) : Arg → Option ℝ
  | .sc x => some x
  | .vec l => l[i]?

def Arg.isVec : Arg → Bool
  | .vec _ => true
  | _ => false

/-- `dargs` (ModelExprEval.cc:634): 0 where the argument is a vector. -/
def Arg.sc0 : Arg → ℝ
  | .sc x => x
  | .vec _ => 0

/-- The arguments at index `i`. -/
def argsAt (args : List Arg) (i : Nat) : Option (List ℝ) := args.mapM (Arg.get i)

/-- The size of the first vector argument, 1 when there is none (MathEval.cc:504-526). -/
def numElems : List Arg → Nat
  | [] => 1
  | .sc _ :: as => numElems as
  | .vec l :: _ => l.length

/-- `EvaluateMathFunc` on vectors (MathEval.cc:568-592); MathEval.cc:475-566 for scripts; MathPacket.cc:66-128 and the
`DerivedEvaluate` loops of MathWrapper.cc for built in functions. Simplification: after a failing script the code does not
read the remaining entries. -/
def mathVec (R : Reg) (name : Str) (args : List Arg) (vlen : Nat) : Option (Res (List ℝ)) :=
  match R.tcl name with
  | some g =>
    if g.arity = args.length then do
      let n := numElems args
      let xs ← (List.range n).mapM (argsAt args)
      if vlen < n then none
      else if (xs.map g.f).all Option.isSome then
        some ⟨(xs.map fun x => (g.f x).getD 0) ++ List.replicate (vlen - n) 0, false, false⟩
      else some ⟨List.replicate vlen 0, true, false⟩
    else some ⟨List.replicate vlen 0, true, false⟩
  | none =>
    match R.fns name with
    | some g =>
      if g.arity = args.length then do
        let xs ← (List.range vlen).mapM (argsAt args)
        some ⟨xs.map fun x => (g.f x).getD 0, false, !(xs.map g.f).all Option.isSome⟩
      else some ⟨List.replicate vlen 0, true, false⟩
    | none => some ⟨List.replicate vlen 0, true, false⟩

/-! ### `EvaluateExternalMath` -/

/-- `GetScalarValues` and ModelExprEval.cc:637-665: how an argument is passed. -/
def argOf (R : Reg) : Val → Arg
  | .double x => .sc x
  | .data k s => if s.isuniform then .sc s.uval else .vec (getScalarList (R.env k) s)
  | .invalid => .sc 0

/-- ModelExprEval.cc:651-660: `vlen` is the length of the last argument that is an array. -/
def vlenOf (R : Reg) : List Val → Nat → Nat
  | [], n => n
  | .data k s :: vs, _ =>
    vlenOf R vs (if s.isuniform then s.length else (getScalarList (R.env k) s).length)
  | _ :: vs, n => vlenOf R vs n

/-- ModelExprEval.cc:686-739: the loop over the entries of a contact model, `rem` = the contact indexes from `k` on,
`is` = the entries still to process, `g` = evaluation at an entry. -/
def cloop (g : Nat → Option (Res ℝ)) : List Nat → List Nat → Option (Res (List ℝ))
  | _, [] => some ⟨[], false, false⟩
  | [], is => some ⟨List.replicate is.length 0, false, false⟩
  | j :: rem, i :: is =>
    if i < j then (cloop g (j :: rem) is).map fun r => { r with val := 0 :: r.val }
    else do
      let y ← g i
      if y.err then some ⟨y.val :: List.replicate is.length 0, true, y.fpe⟩
      else do
        let r ← cloop g (if i = j then rem else j :: rem) is
        some ⟨y.val :: r.val, r.err, y.fpe || r.fpe⟩

/-- ModelExprEval.cc:667-762: the values computed (`output`) and the scalar `res`. -/
def vectorEval (R : Reg) (cx : Ctx) (name : Str) (argv : List Val) : Option (Res (List ℝ × ℝ)) :=
  let args := argv.map (argOf R)
  let vlen := vlenOf R argv 0
  let allD := !(args.any Arg.isVec)
  let scs := args.map Arg.sc0
  if !cx.indexes.isEmpty then
    let tcheck := (cx.etype = some .node ∧ argv.any (Val.isKind .node)) ∨ (cx.etype = some .edge ∧ argv.any (Val.isKind .edge))
    let l := mathScalar R name scs
    let g : Nat → Option (Res ℝ) := fun i =>
      if allD then some ⟨l.val, l.err, false⟩ else (argsAt args i).map (mathScalar R name)
    do
      let r ← cloop g (if tcheck then cx.indexes else []) (List.range vlen)
      some ⟨(r.val, 0), r.err, r.fpe || (allD && l.fpe)⟩
  else if allD then
    let l := mathScalar R name scs
    some ⟨([], l.val), l.err, l.fpe⟩
  else do
    let r ← mathVec R name args vlen
    some ⟨(r.val, 0), r.err, r.fpe⟩

def nVecSum : Str := "vec_sum".toList
def nVecMax : Str := "vec_max".toList
def nVecMin : Str := "vec_min".toList

/-- `std::max_element`, `std::min_element`; undefined on an empty range. -/
noncomputable def lmax : List ℝ → Option ℝ
  | [] => none
  | x :: xs => some (xs.foldl max x)
noncomputable def lmin : List ℝ → Option ℝ
  | [] => none
  | x :: xs => some (xs.foldl min x)

/-- ModelExprEval.cc:768-848: the value made of `output` and `res`; `argv` after conversions, `vlen` entries. -/
noncomputable def package (name : Str) (argv : List Val) (allD : Bool) (vlen : Nat) (out : List ℝ) (res : ℝ) : Option Val :=
  let uni := allD && out.isEmpty
  let mk : Kind → Val := fun k => .data k (if uni then ofScalar res vlen else ofVector out)
  if name = nVecSum then some (.double (if uni then res * vlen else out.sum))
  else if name = nVecMax then if uni then some (.double res) else (lmax out).map .double
  else if name = nVecMin then if uni then some (.double res) else (lmin out).map .double
  else if argv.any (Val.isKind .node) then some (mk .node)
  else if argv.any (Val.isKind .edge) then some (mk .edge)
  else if argv.any (Val.isKind .tri) then some (mk .tri)
  else if argv.any (Val.isKind .tet) then some (mk .tet)
  else none

/-- ModelExprEval.cc:585-612: conversion of edge arguments when there are element edge arguments. -/
def convertArgs (R : Reg) (argv : List Val) : Option (List Val) := do
  let argv ← if argv.any (Val.isKind .tri) then argv.mapM (toTri R) else some argv
  if argv.any (Val.isKind .tet) then argv.mapM (toTet R) else some argv

/-- ModelExprEval.cc:585: edge arguments are converted when there are no node arguments. -/
def preConvert (R : Reg) (argv : List Val) : Option (List Val) :=
  if !argv.any (Val.isKind .node) && argv.any (Val.isKind .edge) then convertArgs R argv else some argv

/-- The errors about the kinds of the arguments (ModelExprEval.cc:559-583, 613-619): an invalid argument, node and edge
arguments, node and element edge arguments, arguments on edges of triangles and of tetrahedra. -/
def nErrs (argv : List Val) : Nat :=
  (if argv.any Val.isInvalid then 1 else 0) +
  (if argv.any (Val.isKind .node) && argv.any (Val.isKind .edge) then 1 else 0) +
  (if argv.any (Val.isKind .node) && (argv.any (Val.isKind .tri) || argv.any (Val.isKind .tet)) then 1 else 0) +
  (if !argv.any (Val.isKind .node) && !argv.any (Val.isKind .edge) && argv.any (Val.isKind .tet) && argv.any (Val.isKind .tri)
    then 1 else 0)

/-- ModelExprEval.cc:626-860: the evaluation, on numbers or on arrays. Any error reported so far, in the evaluation of
the same model, makes the result invalid (855-859). -/
noncomputable def extEval (R : Reg) (cx : Ctx) (name : Str) (argv : List Val) (errs : Nat) : Option (Val × Nat × Bool) :=
  if argv.all Val.isDouble then
    let r := mathScalar R name (argv.map Val.dbl)
    let errs' := if r.err then errs + 1 else errs
    some (if errs' ≠ 0 then .invalid else .double r.val, errs', r.fpe)
  else
    (vectorEval R cx name argv).bind fun r =>
      (package name argv (!((argv.map (argOf R)).any Arg.isVec)) (vlenOf R argv 0) r.val.1 r.val.2).bind fun v =>
        let errs' := if r.err then errs + 1 else errs
        some (if errs' ≠ 0 then .invalid else v, errs', r.fpe)

/-- `EvaluateExternalMath` (ModelExprEval.cc:551-861): value, number of errors, floating point exception raised. -/
noncomputable def extMath (R : Reg) (cx : Ctx) (name : Str) (argv : List Val) (errs : Nat) : Option (Val × Nat × Bool) :=
  if argv.isEmpty then none
  else (preConvert R argv).bind fun argv' =>
    if nErrs argv ≠ 0 then some (.invalid, errs + nErrs argv, false) else extEval R cx name argv' errs

/-! ### `ModelExprEval` -/

/-- The name an element edge model falls back on: `x@en0` to `x@n0`, `x@en1` to `x@n1`; other names of more than four
characters to themselves (ModelExprEval.cc:164-178). -/
def aliasName (m : Str) : Option Str :=
  if m.length > 4 then
    let stem := m.take (m.length - 4)
    let suf := m.drop (m.length - 4)
    if suf = ['@', 'e', 'n', '0'] then some (stem ++ ['@', 'n', '0'])
    else if suf = ['@', 'e', 'n', '1'] then some (stem ++ ['@', 'n', '1'])
    else some m
  else none

/-- The model a name refers to (ModelExprEval.cc:97-183), in the order node, edge, triangle edge, tetrahedron edge
model, then the edge model of the fall back name. -/
def resolve (R : Reg) (m : Str) : Option (Kind × Nat) :=
  match R.find .node m with
  | some i => some (.node, i)
  | none => match R.find .edge m with
    | some i => some (.edge, i)
    | none => match R.find .tri m with
      | some i => some (.tri, i)
      | none => match R.find .tet m with
        | some i => some (.tet, i)
        | none => match aliasName m with
          | some a => (R.find .edge a).map fun i => (.edge, i)
          | none => none

/-- `EvaluateModelType` (ModelExprEval.cc:87-204): 0.0 for a name that refers to no model. -/
noncomputable def evalModel (R : Reg) (m : Str) (st : St) : Val × St :=
  match resolve R m with
  | some (k, i) =>
    if R.inProcess k i then (.invalid, { st with errs := st.errs + 1 })
    else (.data k (ofModel (R.env k) i), st)
  | none => (.double 0, st)

/-- `EvaluateVariableType` (ModelExprEval.cc:206-238) -/
def evalVar (R : Reg) (x : Str) (st : St) : Val × St :=
  match R.param x with
  | some v => (.double v, st)
  | none => match R.circ x with
    | some v => (.double v, st)
    | none => (.invalid, { st with errs := st.errs + 1 })

/-- `eval_function` around the evaluation proper (ModelExprEval.cc:394-480): the cache, keyed by the text of the
expression, and the check for floating point exceptions. -/
def withCache (key : Str) (body : St → Option (Val × St × Bool)) (st : St) : Option (Val × St) :=
  match st.cache.lookup key with
  | some v => some (v, st)
  | none =>
    match body st with
    | none => none
    | some (v, st', fpe) =>
      let v' := if fpe then .invalid else v
      let errs' := if fpe then st'.errs + 1 else st'.errs
      some (v', { cache := if v'.isInvalid then st'.cache else (key, v') :: st'.cache, errs := errs' })

variable {K : Type}

/-- The end of the evaluation of a function: `EvaluateExternalMath` on the values of the arguments. -/
noncomputable def callExt (R : Reg) (cx : Ctx) (name : Str) (argv : List Val) (st : St) : Option (Val × St × Bool) :=
  (extMath R cx name argv st.errs).map fun r => (r.1, { st with errs := r.2.1 }, r.2.2)

/-- `getName` of the function objects: the name looked up in the tables of `MathEval`. -/
def opName : LOp → Str
  | .eq => ['=', '='] | .neq => ['!', '='] | .lt => ['<'] | .lte => ['<', '='] | .gt => ['>'] | .gte => ['>', '=']
  | .and => ['&', '&'] | .or => ['|', '|']

mutual
/-- `eval_function` (ModelExprEval.cc:394-480) -/
noncomputable def evalE (C : Cfg K) (R : Reg) (cx : Ctx) : Expr K → St → Option (Val × St)
  | .con c => withCache (str C (.con c)) fun st => some (.double (C.val c), st, false)
  | .var x => withCache (str C (.var x)) fun st => some ((evalVar R x st).1, (evalVar R x st).2, false)
  | .model m => withCache (str C (.model m)) fun st => some ((evalModel R m st).1, (evalModel R m st).2, false)
  | .add vs => withCache (str C (.add vs)) fun st => (evalSum C R cx vs (.double 0) st).map fun r => (r.1, r.2, false)
  | .prod vs => withCache (str C (.prod vs)) fun st => (evalProd C R cx vs (.double 1) st).map fun r => (r.1, r.2, false)
  | .exp a => withCache (str C (.exp a)) fun st =>
      (evalE C R cx a st).bind fun r => callExt R cx ['e', 'x', 'p'] [r.1] r.2
  | .log a => withCache (str C (.log a)) fun st =>
      (evalE C R cx a st).bind fun r => callExt R cx ['l', 'o', 'g'] [r.1] r.2
  | .pow a b => withCache (str C (.pow a b)) fun st =>
      (evalE C R cx a st).bind fun r => (evalE C R cx b r.2).bind fun r' => callExt R cx ['p', 'o', 'w'] [r.1, r'.1] r'.2
  | .user f as => withCache (str C (.user f as)) fun st =>
      (evalArgs C R cx as st).bind fun r => callExt R cx f r.1 r.2
  | .blog op a b => withCache (str C (.blog op a b)) fun st =>
      (evalE C R cx a st).bind fun r => (evalE C R cx b r.2).bind fun r' => callExt R cx (opName op) [r.1, r'.1] r'.2
  | .ulog a => withCache (str C (.ulog a)) fun st =>
      (evalE C R cx a st).bind fun r => callExt R cx ['!'] [r.1] r.2
/-- `EvaluateAddType` (ModelExprEval.cc:346-361): `out += x` for each term. -/
noncomputable def evalSum (C : Cfg K) (R : Reg) (cx : Ctx) : List (Expr K) → Val → St → Option (Val × St)
  | [], out, st => some (out, st)
  | v :: vs, out, st => (evalE C R cx v st).bind fun r =>
      (opEqual R (· + ·) out r.1).bind fun out' => evalSum C R cx vs out' r.2
/-- `EvaluateProductType` (ModelExprEval.cc:240-272): `out *= x`, ending at a factor that is the number 0.0. -/
noncomputable def evalProd (C : Cfg K) (R : Reg) (cx : Ctx) : List (Expr K) → Val → St → Option (Val × St)
  | [], out, st => some (out, st)
  | v :: vs, out, st => (evalE C R cx v st).bind fun r =>
      match r.1 with
      | .double x =>
        if x = 0 then some (.double 0, r.2)
        else (opEqual R (· * ·) out (.double x)).bind fun out' => evalProd C R cx vs out' r.2
      | x => (opEqual R (· * ·) out x).bind fun out' => evalProd C R cx vs out' r.2
/-- `EvaluateFunctionType` (ModelExprEval.cc:363-381), the arguments. -/
noncomputable def evalArgs (C : Cfg K) (R : Reg) (cx : Ctx) : List (Expr K) → St → Option (List Val × St)
  | [], st => some ([], st)
  | v :: vs, st => (evalE C R cx v st).bind fun r =>
      (evalArgs C R cx vs r.2).map fun r' => (r.1 :: r'.1, r'.2)
end

/-! ### The expression models -/

/-- The values a model of kind `k` takes from the value of its expression: NodeExprModel.cc:75-130,
EdgeExprModel.cc (`k = node`, `edge`), TriangleEdgeExprModel.cc:68-130, TetrahedronEdgeExprModel.cc (conversion of edge
data first). A number sets a uniform value. The outer `none` is undefined behaviour, the inner one the fatal error
"evaluates to". -/
def assign (R : Reg) (k : Kind) (v : Val) : Option (Option (List ℝ)) := do
  let v ← match k with
    | .tri => toTri R v
    | .tet => toTet R v
    | _ => some v
  match v with
  | .double x => some (some (List.replicate (R.env k).n x))
  | .data k' s =>
    if k' = k then
      some (some (if s.isuniform then List.replicate (R.env k).n s.uval else getScalarList (R.env k) s))
    else some none
  | .invalid => some none

end Verif.Eval
