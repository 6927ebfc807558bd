import Verif.Newton.Integrate
import Verif.Newton.Update
import Verif.PyArg.Options
import Verif.SetVals.Model

/-!
# The `solve` command and the information it gives (`src/commands/MathCommands.cc` 36-270, `src/math/Newton.cc` 613-1076)

On top of the iteration (`Verif.Newton`) and the options of commands (`Verif.PyArg`).

Simplifications: those of `Verif.Newton` (real numbers, one precision); `static_cast<int>` of counts and node indices does not wrap; the values
`val` of doubles are real numbers (no infinities, no NaN).
-/

namespace Verif.Solve

open Classical
open Verif.Newton
open Verif.PyArg (F64 Py Lib Opt OptError)

/-- the dictionary of an equation, `Newton.cc` 996-1002 -/
structure EqInfo where
  name : String
  rel : ℝ
  relNode : Nat
  abs : ℝ
  absNode : Nat

/-- the dictionary of a region, `Newton.cc` 986-1005 -/
structure RegInfo where
  name : String
  rel : ℝ
  abs : ℝ
  eqs : List EqInfo

/-- the dictionary of a device, `Newton.cc` 977-1008 -/
structure DevInfo where
  name : String
  rel : ℝ
  abs : ℝ
  regions : List RegInfo

/-- the dictionary of the circuit, `Newton.cc` 905-911 -/
structure CircInfo where
  rel : ℝ
  abs : ℝ

/-- the dictionary of an iteration, `Newton.cc` 680-685, 736, 781, 790, 887-890 -/
structure IterRep where
  iteration : Nat
  devices : List DevInfo
  circuit : Option CircInfo

/-- the dictionary of the call, `Newton.cc` 628, 860-864, 1065-1068 -/
structure Dict where
  equations : Nat
  iterations : List IterRep
  chargeError : Option ℝ
  converged : Bool

/-- the names of the devices and of their regions, in the order of the maps -/
structure Names where
  dev : Nat → String
  reg : Nat → Nat → String

/-! ### One update -/

/-- the loop for the absolute error and its node, `Equation.cc` 281-293 -/
noncomputable def maxAt (f : Nat → ℝ) (n : Nat) : ℝ × Nat :=
  (List.range n).foldl (fun a i => if f i > a.1 then (f i, i) else a) (0, 0)

/-- `DefaultUpdate`, `Equation.cc` 239-316, with what the equation keeps (311-314: both nodes are the node of the absolute error) -/
noncomputable def report (e : Eqn) (n base : Nat) (old x : Nat → ℝ) : Option ((Nat → ℝ) × EqInfo) :=
  let step := fun i => damp e.utype (old i) (x (base + e.index * n + i))
  if ∀ i < n, (step i).isSome then
    let upd := fun i => ((step i).getD (0, 0)).1
    let new := fun i => if i < n then ((step i).getD (0, 0)).2 else old i
    let a := maxAt (fun i => |upd i|) n
    some (new, { name := e.name, rel := maxUp (fun i => |upd i| / (|new i| + e.minError)) n, relNode := a.2, abs := a.1, absNode := a.2 })
  else none

/-- the loop of `Region::Update`, `Region.cc` 1305-1340, with the errors the equations keep -/
noncomputable def updEqsI (n base : Nat) (x : Nat → ℝ) : List Eqn → Models → ℝ × ℝ → Models × Option ((ℝ × ℝ) × List EqInfo)
  | [], ms, acc => (ms, some (acc, []))
  | e :: es, ms, acc =>
    match ms e.var with
    | some (.solution old) =>
      match report e n base old x with
      | none => (ms, none)
      | some (new, i) =>
        let t := updEqsI n base x es (ms.set e.var new) (acc.1 + i.abs, acc.2 + i.rel)
        (t.1, t.2.map fun p => (p.1, i :: p.2))
    | _ => (ms, none)

/-- `Device::Update`, `Device.cc` 338-359, with the regions as they are told -/
noncomputable def updDeviceI (x : Nat → ℝ) : (Nat → String) → List Region → ℝ × ℝ → List Region × Option ((ℝ × ℝ) × List RegInfo)
  | _, [], acc => ([], some (acc, []))
  | rn, r :: rs, acc =>
    match updEqsI r.numNodes r.base x r.eqs r.models (0, 0) with
    | (ms, none) => ({ r with models := ms } :: rs, none)
    | (ms, some ((a, e), is)) =>
      let t := updDeviceI x (fun j => rn (j + 1)) rs (if a > acc.1 then a else acc.1, acc.2 + e)
      ({ r with models := ms } :: t.1, t.2.map fun p => (p.1, { name := rn 0, rel := e, abs := a, eqs := is } :: p.2))

/-- the devices, `Newton.cc` 718-727, 741-756 -/
noncomputable def updDevicesI (x : Nat → ℝ) : Names → List (List Region) → List (List Region) × Option (List DevInfo)
  | _, [] => ([], some [])
  | nm, d :: ds =>
    match updDeviceI x (nm.reg 0) d (0, 0) with
    | (d', none) => (d' :: ds, none)
    | (d', some (e, is)) =>
      let t := updDevicesI x ⟨fun i => nm.dev (i + 1), fun i => nm.reg (i + 1)⟩ ds
      (d' :: t.1, t.2.map fun p => { name := nm.dev 0, rel := e.2, abs := e.1, regions := is } :: p)

/-- devices and circuit, `Newton.cc` 718-733 -/
noncomputable def updWorldI (x : Nat → ℝ) (nm : Names) (w : World) : World × Option (List DevInfo × Option CircInfo) :=
  match updDevicesI x nm w.devices with
  | (ds, none) => ({ w with devices := ds }, none)
  | (ds, some is) =>
    match w.circuit with
    | none => ({ w with devices := ds }, some (is, none))
    | some c =>
      match c.dcop with
      | none => ({ w with devices := ds }, none)
      | some old =>
        let u := c.update x old
        ({ w with devices := ds, circuit := some { c with dcop := some u.1 } }, some (is, some ⟨u.2.2, u.2.1⟩))

/-! ### The call -/

/-- the errors that decide about convergence -/
def errors (p : List DevInfo × Option CircInfo) : IterInfo := ⟨p.1.map fun d => (d.abs, d.rel), p.2.map fun c => (c.abs, c.rel)⟩

/-- the loop of `Solve`, `Newton.cc` 674-808, with `iteration_list` -/
noncomputable def iterateI (P : Problem) (lim : Limits) (rhsc : List ℝ) (nm : Names) : Nat → Nat → St → List IterRep → (St × List IterRep) × Bool
  | 0, _, s, rep => ((s, rep), false)
  | fuel + 1, iter, s, rep =>
    if s.conv = true ∨ ¬ s.div < lim.maxDiv then ((s, rep), false)
    else if s.maxHit = true then ((s, rep), false)
    else
      match P.lin iter s.w rhsc with
      | .threw => ((s, rep), true)
      | .failed => ((s, rep), false)
      | .ok x =>
        match updWorldI x nm s.w with
        | (w', none) => (({ s with w := w' }, rep), true)
        | (w', some p) => iterateI P lim rhsc nm fuel (iter + 1) (judge lim { s with w := w' } (errors p)) (rep ++ [⟨iter, p.1, p.2⟩])

/-- `qrel` of `CheckTransientProjection`, `Newton.cc` 1038-1060; `none`: a failed assertion -/
noncomputable def chargeError (h : History) (t : TimeParams) (newQ : List ℝ) : Option ℝ := do
  let p ← assembleAt h.i0 (-t.tdelta) (List.replicate newQ.length 0)
  let p ← assembleAt h.q0 1 p
  return maxUp (fun i => if newQ.getD i 0 = 0 then 0 else
    |newQ.getD i 0 - p.getD i 0| / (1e-20 + |newQ.getD i 0| + |p.getD i 0|)) newQ.length

/-- how the call ends -/
inductive OutcomeI
  | raised
  | returned (d : Dict)

/-- from the charge of the new solution to the end, `Newton.cc` 810-867, with the entries of the dictionary: `charge_error` is there if the
projection was checked -/
noncomputable def finishI (P : Problem) (lim : Limits) (t : TimeParams) (s : St) (rep : List IterRep) : World × OutcomeI :=
  match finish P lim t s with
  | (w, .raised) => (w, .raised)
  | (w, .returned c _) =>
    (w, .returned { equations := P.numEqns, iterations := rep,
                    chargeError := if s.conv = true ∧ t.isIntegration = true then (P.charge s.w).bind (chargeError s.w.hist t) else none,
                    converged := c })

/-- `Newton::Solve`, `Newton.cc` 613-867, with a dictionary -/
noncomputable def solveI (P : Problem) (lim : Limits) (t : TimeParams) (nm : Names) (w : World) : World × OutcomeI :=
  let w0 := { w with circuit := w.circuit.map Circuit.init }
  match backup w0 with
  | (w1, false) => (w1, .raised)
  | (w1, true) =>
    match rhsConstant w1.hist t P.numEqns with
    | none => (w1, .raised)
    | some rhsc =>
      match iterateI P lim rhsc nm lim.maxIter 0 (St.start w1) [] with
      | ((s, _), true) => (s.w, .raised)
      | ((s, rep), false) => finishI P lim t s rep

/-! ### The command -/

/-- What the command finds: the linear systems (depending on the linear solver and on `symbolic_iteration_limit`), the small-signal and the
noise analysis (`none`: an error was raised), whether the program has the iterative solver, the names, the text of a number in a message and the
real number of a double. -/
structure Env where
  problem : String → Nat → Problem
  ac : String → ℝ → World → World × Option Bool
  noise : String → String → ℝ → World → World × Option Bool
  iterative : Bool
  names : Names
  fmt : F64 → String
  val : F64 → ℝ
  maxD : F64
  minD : F64

/-- what the command answers -/
inductive Res
  | badArgs (e : OptError)
  | err (m : String)
  | raised
  | empty
  | info (d : Dict)

/-- `MathCommands.cc` 222-243 -/
def opts (L : Lib) : List Opt :=
  [⟨"type", "", .string, true, some (SetVals.notEmpty L)⟩, ⟨"absolute_error", "0", .float, false, none⟩,
   ⟨"relative_error", "0", .float, false, none⟩, ⟨"maximum_error", "MAXDOUBLE", .float, false, none⟩,
   ⟨"maximum_iterations", "20", .integer, false, none⟩, ⟨"maximum_divergence", "20", .integer, false, none⟩,
   ⟨"symbolic_iteration_limit", "1", .integer, false, none⟩, ⟨"frequency", "0.0", .float, false, none⟩,
   ⟨"output_node", "", .string, false, none⟩, ⟨"solver_type", "direct", .string, false, none⟩, ⟨"tdelta", "0.0", .float, false, none⟩,
   ⟨"charge_error", "0.0", .float, false, none⟩, ⟨"gamma", "1.0", .float, false, none⟩, ⟨"info", "", .boolean, false, none⟩]

/-- the values of the options -/
structure Args where
  type : String
  solverType : String
  tdelta : F64
  gamma : F64
  info : Bool
  abs : F64
  rel : F64
  charge : F64
  max : F64
  maxIter : Int
  maxDiv : Int
  symbolic : Int
  frequency : F64
  output : String

/-- `GetStringOption` and so on, `MathCommands.cc` 43-49, 108-116; a name that is no option would be a failed assertion -/
def args (L : Lib) (E : Env) (sel : List (String × Py)) : Args :=
  let s n := (PyArg.stringOption L (opts L) sel n).getD ""
  let d n := (PyArg.doubleOption L E.maxD E.minD (opts L) sel n).getD 0
  let i n := (PyArg.integerOption L (opts L) sel n).getD 0
  { type := s "type", solverType := s "solver_type", tdelta := d "tdelta", gamma := d "gamma",
    info := (PyArg.booleanOption (opts L) sel "info").getD false, abs := d "absolute_error", rel := d "relative_error",
    charge := d "charge_error", max := d "maximum_error", maxIter := i "maximum_iterations", maxDiv := i "maximum_divergence",
    symbolic := i "symbolic_iteration_limit", frequency := d "frequency", output := s "output_node" }

/-- `errorString` at line 103, `MathCommands.cc` 53-101: a later message replaces an earlier one -/
noncomputable def complaint (E : Env) (a : Args) : String :=
  let e0 := if a.info = true ∧ (a.type = "ac" ∨ a.type = "noise") then "\"info\" option not supported for \"" ++ a.type ++ "\" analysis\n" else ""
  if a.type = "dc" ∨ a.type = "ac" ∨ a.type = "noise" ∨ a.type = "transient_dc" then e0
  else if a.type = "transient_bdf1" ∨ a.type = "transient_tr" ∨ a.type = "transient_bdf2" then
    let e1 := if E.val a.tdelta = 0 then "\"tdelta\" cannot be " ++ E.fmt a.tdelta ++ " for type " ++ a.type ++ "\n" else e0
    if E.val a.gamma = 0 then "\"gamma\" cannot be " ++ E.fmt a.gamma ++ " for type " ++ a.type ++ "\n" else e1
  else "\"dc\", \"ac\", \"noise\", \"transient_dc\", \"transient_bdf1\", \"transient_tr\", \"transient_bdf2\", are the only valid simulation types\n"

/-- `SetAbsError` … `SetMaxIter(size_t)`, `MathCommands.cc` 118-125: `int` to `size_t` -/
def limits (E : Env) (a : Args) : Limits :=
  ⟨E.val a.abs, E.val a.rel, E.val a.charge, E.val a.max, PyArg.toSize a.maxIter, PyArg.toSize a.maxDiv⟩

/-- the result, `MathCommands.cc` 193-209 -/
def answer (info : Bool) (d : Dict) : Res :=
  if info then .info d else if d.converged then .empty else .err "Convergence failure!\n"

/-- the result of `ACSolve` and `NoiseSolve`, `MathCommands.cc` 193-209 (`info` was refused) -/
def answerB (p : World × Option Bool) : World × Res :=
  match p with
  | (w, none) => (w, .raised)
  | (w, some true) => (w, .empty)
  | (w, some false) => (w, .err "Convergence failure!\n")

/-- a call of `Solve`, `MathCommands.cc` 163-191 -/
noncomputable def runSolve (E : Env) (a : Args) (t : TimeParams) (w : World) : World × Res :=
  match solveI (E.problem a.solverType (PyArg.toSize a.symbolic)) (limits E a) t E.names w with
  | (w', .raised) => (w', .raised)
  | (w', .returned d) => (w', answer a.info d)

/-- `solveCmdImpl`, `MathCommands.cc` 36-209 -/
noncomputable def solveImpl (E : Env) (a : Args) (w : World) : World × Res :=
  if complaint E a ≠ "" then (w, .err (complaint E a))
  else if a.solverType ≠ "direct" ∧ a.solverType ≠ "iterative" then
    (w, .err "\"direct\" and \"iterative\" are the only valid simulation types\n")
  else if a.solverType = "iterative" ∧ E.iterative = false then (w, .err "\"iterative\" is not a supported simulation type in this build\n")
  else if a.type = "dc" then runSolve E a dcOnly w
  else if a.type = "ac" then answerB (E.ac a.solverType (E.val a.frequency) w)
  else if a.type = "noise" then answerB (E.noise a.solverType a.output (E.val a.frequency) w)
  else if a.type = "transient_dc" then runSolve E a transientDC w
  else if a.type = "transient_bdf1" then runSolve E a (bdf1 (E.val a.tdelta) (E.val a.gamma)) w
  else if a.type = "transient_tr" then runSolve E a (tr (E.val a.tdelta) (E.val a.gamma)) w
  else runSolve E a (bdf2 (E.val a.tdelta) (E.val a.gamma)) w

/-- `solveCmd`, `MathCommands.cc` 212-270 -/
noncomputable def solveCmd (L : Lib) (E : Env) (w : World) (kw : List (String × Py)) : World × Res :=
  match PyArg.processOptions L (opts L) kw with
  | .error e => (w, .badArgs e)
  | .ok sel => solveImpl E (args L E sel) w

end Verif.Solve
