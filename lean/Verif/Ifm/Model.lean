import Verif.Eval.Props

/-!
# The models of an interface (`InterfaceModelExprEval`, `InterfaceModelExprData`, `InterfaceNodeExprModel`)

Numbers are real numbers, the threaded loops are replaced by their serial meaning and `none` is undefined behaviour, as in
`Verif.Eval.Model`, whose tables of functions (`Eval.Fn`, `Eval.mathScalar`, `Eval.mathVec`) are used here too.
`EvaluateIfType` and `EvaluateIfElseType` are dead code. Interface node data is `ScalarData` (InterfaceNodeScalarData.hh),
modelled by `Verif.ScalarData`.
-/

namespace Verif.Ifm

open Verif.ScalarData Verif.Sym Verif.Eval

/-- What the evaluator reads of an interface, its two regions and the parameters. -/
structure Ifc where
  /-- the models of the interface by index, `n` = `GetNodes0().size()` (InterfaceNodeModel.cc:36) -/
  env : ScalarData.Env ℝ
  /-- `GetInterfaceNodeModel` -/
  find : Str → Option Nat
  /-- `IsInProcess` -/
  inProcess : Nat → Bool
  /-- the indexes of `GetNodes0()`, `GetNodes1()` in their regions -/
  nodes0 : List Nat
  nodes1 : List Nat
  /-- `GetRegion0() == GetRegion1()`: `create_interface_from_nodes` accepts the same region twice (MeshingCommands.cc:1231-1300) -/
  same : Bool
  /-- the values of the node models of the two regions -/
  node0 : Str → Option (List ℝ)
  node1 : Str → Option (List ℝ)
  /-- `GetDoubleDBEntryOnRegion` on the two regions (`Verif.Params`) -/
  param0 : Str → Option ℝ
  param1 : Str → Option ℝ
  /-- `IsCircuitNode`, `GetNodeValue("dcop", ·)` -/
  circ : Str → Option ℝ
  /-- `tclMathFuncMap_`, `FuncPtrMap_` -/
  tcl : Str → Option Fn
  fns : Str → Option Fn

/-- The tables of functions, in the form `Eval.mathScalar` and `Eval.mathVec` read them. -/
def Ifc.math (I : Ifc) : Reg where
  env := fun _ => I.env
  find := fun _ _ => none
  inProcess := fun _ _ => false
  ntri := 0
  ntet := 0
  triEdge := fun i => i
  tetEdge := fun i => i
  param := fun _ => none
  circ := fun _ => none
  tcl := I.tcl
  fns := I.fns

/-- `InterfaceModelExprData` (InterfaceModelExprData.hh): `DOUBLE`, `NODEDATA`, `INVALID`. -/
inductive IVal
  | double (x : ℝ)
  | data (s : SD ℝ)
  | invalid

def IVal.isInvalid : IVal → Bool
  | .invalid => true
  | _ => false

def IVal.isDouble : IVal → Bool
  | .double _ => true
  | _ => false

/-- `GetDoubleValue` -/
def IVal.dbl : IVal → ℝ
  | .double x => x
  | _ => 0

/-- The cache of the interface and the number of errors reported. -/
structure St where
  cache : List (Str × IVal)
  errs : Nat

/-! ### Names -/

inductive Side | r0 | r1
deriving DecidableEq, Repr

/-- `GetRegionAndName` (InterfaceModelExprEval.cc:31-56): the region, if any, and the name in it. `rfind` gives the last
place, which is the end of the name exactly when the name ends so; a name of at most three letters has no region. -/
def split (nm : Str) : Option Side × Str :=
  if nm.length > 3 then
    if nm.drop (nm.length - 3) = ['@', 'r', '0'] then (some .r0, nm.take (nm.length - 3))
    else if nm.drop (nm.length - 3) = ['@', 'r', '1'] then (some .r1, nm.take (nm.length - 3))
    else (none, nm)
  else (none, nm)

def Ifc.param (I : Ifc) : Side → Str → Option ℝ
  | .r0 => I.param0
  | .r1 => I.param1

def Ifc.node (I : Ifc) : Side → Str → Option (List ℝ)
  | .r0 => I.node0
  | .r1 => I.node1

/-- InterfaceModelExprEval.cc:186-198: the nodes a model of a region is read at; `r == GetRegion0()` is tested first. -/
def Ifc.nodesOf (I : Ifc) : Side → List Nat
  | .r0 => I.nodes0
  | .r1 => if I.same then I.nodes0 else I.nodes1

/-- `EvaluateVariableType` (InterfaceModelExprEval.cc:77-135). With a region, neither a parameter nor a circuit node
gives an invalid value and no error. -/
noncomputable def evalVar (I : Ifc) (nm : Str) (st : St) : IVal × St :=
  match split nm with
  | (some r, name) =>
    match I.param r name with
    | some v => (.double v, st)
    | none => match I.circ nm with
      | some v => (.double v, st)
      | none => (.invalid, st)
  | (none, _) =>
    match I.param0 nm, I.param1 nm with
    | some a, some b => if a ≠ b then (.invalid, { st with errs := st.errs + 1 }) else (.double a, st)
    | _, _ => match I.circ nm with
      | some v => (.double v, st)
      | none => (.invalid, { st with errs := st.errs + 1 })

/-- InterfaceModelExprEval.cc:203-214: the values of a region at the nodes of the interface. -/
def readNodes (l : List ℝ) (nodes : List Nat) : Option (List ℝ) := nodes.mapM fun j => l[j]?

/-- `EvaluateInterfaceModelType` (InterfaceModelExprEval.cc:157-226). A model being evaluated, like a name that refers to
nothing, ends as the number 0.0 (217-223), with one more error in the first case. -/
noncomputable def evalModel (I : Ifc) (m : Str) (st : St) : Option (IVal × St) :=
  match I.find m with
  | some k =>
    if I.inProcess k then some (.double 0, { st with errs := st.errs + 2 })
    else some (.data (ofModel I.env k), st)
  | none =>
    match split m with
    | (some r, name) =>
      match I.node r name with
      | some l => (readNodes l (I.nodesOf r)).map fun d => (.data (ofVector d), st)
      | none => some (.double 0, { st with errs := st.errs + 1 })
    | (none, _) => some (.double 0, { st with errs := st.errs + 1 })

/-! ### Arithmetic -/

/-- `op_equal` (InterfaceModelExprData.cc:81-122) -/
noncomputable def opEqual (I : Ifc) (op : ℝ → ℝ → ℝ) : IVal → IVal → Option IVal
  | .invalid, _ => some .invalid
  | .data s, .data s' => (opEqualData I.env op s s').map .data
  | .data s, .double y => some (.data (opEqualScalar I.env op s y))
  | .data _, .invalid => some .invalid
  | .double x, .data s => (opEqualData I.env op (ofScalar x s.length) s).map .data
  | .double x, .double y => some (.double (op x y))
  | .double _, .invalid => some .invalid

/-- InterfaceModelExprEval.cc:572-598: how an argument is passed. -/
def argOf (I : Ifc) : IVal → Arg
  | .double x => .sc x
  | .data s => if s.isuniform then .sc s.uval else .vec (getScalarList I.env s)
  | .invalid => .sc 0

/-- InterfaceModelExprEval.cc:583-592: `vlen` is the length of the last argument that is an array. -/
def vlenOf (I : Ifc) : List IVal → Nat → Nat
  | [], n => n
  | .data s :: vs, _ => vlenOf I vs (if s.isuniform then s.length else (getScalarList I.env s).length)
  | _ :: vs, n => vlenOf I vs n

/-- InterfaceModelExprEval.cc:647-667: the value made of the array computed. -/
noncomputable def package (name : Str) (out : List ℝ) : Option IVal :=
  if name = nVecSum then some (.double out.sum)
  else if name = nVecMax then (lmax out).map .double
  else if name = nVecMin then (lmin out).map .double
  else some (.data (ofVector out))

/-- `EvaluateExternalMath` (InterfaceModelExprEval.cc:522-690): value, number of errors, floating point exception raised.
Any error so far makes the value invalid (681-685). -/
noncomputable def extMath (I : Ifc) (name : Str) (argv : List IVal) (errs : Nat) : Option (IVal × Nat × Bool) :=
  if argv.isEmpty then none
  else if argv.any IVal.isInvalid then some (.invalid, errs + 1, false)
  else if argv.all IVal.isDouble then
    let r := mathScalar I.math name (argv.map IVal.dbl)
    let errs' := if r.err then errs + 1 else errs
    some (if errs' ≠ 0 then .invalid else .double r.val, errs', r.fpe)
  else
    let args := argv.map (argOf I)
    let vlen := vlenOf I argv 0
    if !(args.any Arg.isVec) then
      let r := mathScalar I.math name (args.map Arg.sc0)
      let errs' := if r.err then errs + 1 else errs
      some (if errs' ≠ 0 then .invalid else .data (ofScalar r.val vlen), errs', r.fpe)
    else
      (mathVec I.math name args vlen).bind fun r =>
        if r.err then some (.invalid, errs + 1, r.fpe)
        else (package name r.val).map fun v => (if errs ≠ 0 then .invalid else v, errs, r.fpe)

/-! ### The evaluator -/

/-- `eval_function` around the evaluation proper (InterfaceModelExprEval.cc:382-468): the cache, keyed by the text of the
expression, and the check for floating point exceptions. -/
def withCache (key : Str) (body : St → Option (IVal × St × Bool)) (st : St) : Option (IVal × St) :=
  match st.cache.lookup key with
  | some v => some (v, st)
  | none =>
    match body st with
    | none => none
    | some (v, st', fpe) =>
      let v' := if fpe then .invalid else v
      let errs' := if fpe then st'.errs + 1 else st'.errs
      some (v', { cache := if v'.isInvalid then st'.cache else (key, v') :: st'.cache, errs := errs' })

/-- The end of `EvaluateFunctionType` (InterfaceModelExprEval.cc:345-365). -/
noncomputable def callExt (I : Ifc) (name : Str) (argv : List IVal) (st : St) : Option (IVal × St × Bool) :=
  (extMath I name argv st.errs).map fun r => (r.1, { st with errs := r.2.1 }, r.2.2)

variable {K : Type}

mutual
/-- `eval_function` (InterfaceModelExprEval.cc:382-468) -/
noncomputable def evalE (C : Cfg K) (I : Ifc) : Expr K → St → Option (IVal × St)
  | .con c => withCache (str C (.con c)) fun st => some (.double (C.val c), st, false)
  | .var x => withCache (str C (.var x)) fun st => some ((evalVar I x st).1, (evalVar I x st).2, false)
  | .model m => withCache (str C (.model m)) fun st => (evalModel I m st).map fun r => (r.1, r.2, false)
  | .add vs => withCache (str C (.add vs)) fun st => (evalSum C I vs (.double 0) st).map fun r => (r.1, r.2, false)
  | .prod vs => withCache (str C (.prod vs)) fun st => (evalProd C I vs (.double 1) st).map fun r => (r.1, r.2, false)
  | .exp a => withCache (str C (.exp a)) fun st =>
      (evalE C I a st).bind fun r => callExt I ['e', 'x', 'p'] [r.1] r.2
  | .log a => withCache (str C (.log a)) fun st =>
      (evalE C I a st).bind fun r => callExt I ['l', 'o', 'g'] [r.1] r.2
  | .pow a b => withCache (str C (.pow a b)) fun st =>
      (evalE C I a st).bind fun r => (evalE C I b r.2).bind fun r' => callExt I ['p', 'o', 'w'] [r.1, r'.1] r'.2
  | .user f as => withCache (str C (.user f as)) fun st =>
      (evalArgs C I as st).bind fun r => callExt I f r.1 r.2
  | .blog op a b => withCache (str C (.blog op a b)) fun st =>
      (evalE C I a st).bind fun r => (evalE C I b r.2).bind fun r' => callExt I (opName op) [r.1, r'.1] r'.2
  | .ulog a => withCache (str C (.ulog a)) fun st =>
      (evalE C I a st).bind fun r => callExt I ['!'] [r.1] r.2
/-- `EvaluateAddType` (InterfaceModelExprEval.cc:259-275) -/
noncomputable def evalSum (C : Cfg K) (I : Ifc) : List (Expr K) → IVal → St → Option (IVal × St)
  | [], out, st => some (out, st)
  | v :: vs, out, st => (evalE C I v st).bind fun r =>
      (opEqual I (· + ·) out r.1).bind fun out' => evalSum C I vs out' r.2
/-- `EvaluateProductType` (InterfaceModelExprEval.cc:228-257): ends at a factor that is the number 0.0. -/
noncomputable def evalProd (C : Cfg K) (I : Ifc) : List (Expr K) → IVal → St → Option (IVal × St)
  | [], out, st => some (out, st)
  | v :: vs, out, st => (evalE C I v st).bind fun r =>
      match r.1 with
      | .double x =>
        if x = 0 then some (.double 0, r.2)
        else (opEqual I (· * ·) out (.double x)).bind fun out' => evalProd C I vs out' r.2
      | x => (opEqual I (· * ·) out x).bind fun out' => evalProd C I vs out' r.2
/-- `EvaluateFunctionType` (InterfaceModelExprEval.cc:345-365), the arguments. -/
noncomputable def evalArgs (C : Cfg K) (I : Ifc) : List (Expr K) → St → Option (List IVal × St)
  | [], st => some ([], st)
  | v :: vs, st => (evalE C I v st).bind fun r =>
      (evalArgs C I vs r.2).map fun r' => (r.1 :: r'.1, r'.2)
end

/-! ### The model -/

/-- InterfaceNodeExprModel.cc:95-125: the values taken from the value of the expression, errors or not; `none`: the fatal
error "evaluates to". A uniform value is kept as one and expanded to `GetNodes0().size()` entries when read
(InterfaceNodeModel.cc:83-90). -/
def assign (I : Ifc) : IVal → Option (List ℝ)
  | .double x => some (List.replicate I.nodes0.length x)
  | .data s => some (if s.isuniform then List.replicate I.env.n s.uval else getScalarList I.env s)
  | .invalid => none

/-- `calcNodeScalarValues` (InterfaceNodeExprModel.cc:67-127), starting with an empty cache: the values and the number of
errors printed. The outer `none` is undefined behaviour, the inner one the fatal error. -/
noncomputable def modelValues (C : Cfg K) (I : Ifc) (e : Expr K) : Option (Option (List ℝ) × Nat) :=
  (evalE C I e ⟨[], 0⟩).map fun r => (assign I r.1, r.2.errs)

/-! ### Derivatives -/

/-- `DefaultDevsimDerivative` (EquationFunctions.cc:168-230): the derivative of the model `value` by `oval`. `one`, `zero`
are the constants 1.0, 0.0. -/
def derivRule (one zero : K) (value oval : Str) : Expr K :=
  if oval = value then .con one
  else match split value with
    | (some r, stem) =>
      match (split oval).1 with
      | some r' => if r = r' then .model (stem ++ ':' :: oval) else .con zero
      | none => .con zero
    | (none, _) => .model (value ++ ':' :: oval)

end Verif.Ifm
