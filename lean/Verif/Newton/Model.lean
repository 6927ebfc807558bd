import Verif.Circuit.Update
import Mathlib.Data.Real.Basic

/-!
# The nonlinear solver (`src/math/Newton.cc`, `src/Geometry/{Device,Region}.cc`, `src/Equation/Equation.cc`,
`src/math/TimeData.cc`)

`double` is ℝ.  Assembly and linear solution are a black box (`Problem`): they may depend on the whole state and on
the iteration, may fail, and may raise an error.  Only one precision is modelled.  An error that is raised
(`OutputStream::OutputType::FATAL`, `dsAssert`) leaves the state as it is at that moment: nothing in `Solve` catches it.
-/

namespace Verif.Newton
open Classical

/-- `EquationEnum::UpdateType`, `src/Equation/EquationEnum.hh`. -/
inductive UpdateType | default | logdamp | positive
deriving DecidableEq

/-- An equation of a region: name, variable, index in the region, update type and `minError`
(`src/Equation/Equation.hh` 180-196). -/
structure Eqn where
  name : String
  var : String
  index : Nat
  utype : UpdateType
  minError : ℝ

/-- A node model: a solution (`NodeSolution`), which holds values, or any other node model, whose values are a function
of the solutions of the region (what a read of it returns when it is up to date, C15). -/
inductive NModel
  | solution (v : Nat → ℝ)
  | derived (f : (String → Nat → ℝ) → Nat → ℝ)

/-- The node models of a region by name (`nodeModels`, `src/Geometry/Region.hh`). -/
abbrev Models := String → Option NModel

/-- The values of the solutions. -/
def solutions (ms : Models) : String → Nat → ℝ := fun x =>
  match ms x with
  | some (.solution v) => v
  | _ => fun _ => 0

/-- `NodeModel::GetScalarValues`, `src/models/NodeModel.cc`. -/
def value (ms : Models) : NModel → Nat → ℝ
  | .solution v => v
  | .derived f => f (solutions ms)

/-- A region: nodes, base equation number, equations in the order of `equationPtrMap`, the variables in the order of
`variableEquationMap` (`GetVariableList`, `Region.cc` 1292-1302) and the node models. -/
structure Region where
  numNodes : Nat
  base : Nat
  eqs : List Eqn
  vars : List String
  models : Models

/-- One entry of the update: damped step and new value, `none` for the FATAL error of a non-positive old value.
`LogSolutionUpdate`, `PositiveSolutionUpdate`, `DefaultSolutionUpdate`: `Equation.cc` 150-237. -/
noncomputable def damp (ut : UpdateType) (old upd : ℝ) : Option (ℝ × ℝ) :=
  match ut with
  | .default => some (upd, upd + old)
  | .logdamp =>
    let u := if |upd| > 0.0259 then (if upd > 0 then 1 else -1) * 0.0259 * Real.log (1 + |upd| / 0.0259) else upd
    some (u, u + old)
  | .positive =>
    if old > 0 then
      if upd + old ≤ 0 then
        let nval := if 0.001 * old ≤ 0 then (if 0.5 * old ≤ 0 then old else 0.5 * old) else 0.001 * old
        some (nval - old, nval)
      else some (upd, upd + old)
    else none

/-- A running maximum starting from 0, as in `Equation.cc` 286-306. -/
noncomputable def maxUp (f : Nat → ℝ) (n : Nat) : ℝ :=
  (List.range n).foldl (fun acc i => if f i > acc then f i else acc) 0

/-- `DefaultUpdate`, `Equation.cc` 239-316: new values, absolute and relative error; `none` is the FATAL error.
The row of node `i` is `base + index*numNodes + i` (`Region.cc` 1251-1259). -/
noncomputable def Eqn.update (e : Eqn) (n base : Nat) (old : Nat → ℝ) (x : Nat → ℝ) : Option ((Nat → ℝ) × ℝ × ℝ) :=
  let step := fun i => damp e.utype (old i) (x (base + e.index * n + i))
  if ∀ i < n, (step i).isSome then
    let upd := fun i => ((step i).getD (0, 0)).1
    let new := fun i => if i < n then ((step i).getD (0, 0)).2 else old i
    some (new, maxUp (fun i => |upd i|) n, maxUp (fun i => |upd i| / (|new i| + e.minError)) n)
  else none

/-- `nm.SetValues`. -/
def Models.set (ms : Models) (x : String) (v : Nat → ℝ) : Models :=
  Function.update ms x (some (.solution v))

/-- The loop of `Region::Update`, `Region.cc` 1305-1340: models, and the sums of the absolute and relative errors
(`none`: an error was raised). Simplification: an equation whose variable is not a solution raises an error here (in
the code, already the backup at the beginning of `Solve` fails for such a variable). -/
noncomputable def updEqs (n base : Nat) (x : Nat → ℝ) : List Eqn → Models → ℝ × ℝ → Models × Option (ℝ × ℝ)
  | [], ms, acc => (ms, some acc)
  | e :: es, ms, acc =>
    match ms e.var with
    | some (.solution old) =>
      match e.update n base old x with
      | none => (ms, none)
      | some (new, a, r) => updEqs n base x es (ms.set e.var new) (acc.1 + a, acc.2 + r)
    | _ => (ms, none)

/-- `Device::Update`, `Device.cc` 338-359: the absolute error is the largest of the regions, the relative error their
sum. -/
noncomputable def updDevice (x : Nat → ℝ) : List Region → ℝ × ℝ → List Region × Option (ℝ × ℝ)
  | [], acc => ([], some acc)
  | r :: rs, acc =>
    match updEqs r.numNodes r.base x r.eqs r.models (0, 0) with
    | (ms, none) => ({ r with models := ms } :: rs, none)
    | (ms, some (a, e)) =>
      let t := updDevice x rs (if a > acc.1 then a else acc.1, acc.2 + e)
      ({ r with models := ms } :: t.1, t.2)

/-- The loop over the devices, `Newton.cc` 722-731; the errors of each device are kept. -/
noncomputable def updDevices (x : Nat → ℝ) : List (List Region) → List (List Region) × Option (List (ℝ × ℝ))
  | [] => ([], some [])
  | d :: ds =>
    match updDevice x d (0, 0) with
    | (d', none) => (d' :: ds, none)
    | (d', some e) =>
      let t := updDevices x ds
      (d' :: t.1, t.2.map fun es => e :: es)

/-- The circuit: number of unknowns, first equation number, the solutions "dcop" and "dcop_prev"
(`src/Circuit/data/NodeKeeper.hh`). -/
structure Circuit where
  size : Nat
  base : Nat
  dcop : Option (Nat → ℝ)
  prev : Option (Nat → ℝ)

/-- `NodeKeeper::UpdateSolution`, `NodeKeeper.cc` 299-365, for nodes of the default update type - the only type the
commands can create (`Verif.Circuit.update_type_ignored`): new values, sum of the absolute updates, largest relative
update. -/
noncomputable def Circuit.update (c : Circuit) (x : Nat → ℝ) (old : Nat → ℝ) : (Nat → ℝ) × ℝ × ℝ :=
  let new := fun i => if i < c.size then x (i + c.base) + old i else old i
  (new, ((List.range c.size).map fun i => |x (i + c.base)|).sum,
    maxUp (fun i => |x (i + c.base)| / (|new i| + 1e-10)) c.size)

/-- `TimeData`: the vectors at TM0, TM1, TM2; an empty vector is "missing" (`TimeData.hh` 40-48). -/
structure History where
  i0 : List ℝ
  i1 : List ℝ
  i2 : List ℝ
  q0 : List ℝ
  q1 : List ℝ
  q2 : List ℝ

/-- Everything `solve` can change. -/
structure World where
  devices : List (List Region)
  circuit : Option Circuit
  hist : History

/-! ### Backup and restore -/

/-- One step of `Region::BackupSolutions`, `Region.cc` 1402-1432; `none` is a failed `dsAssert`. -/
def backupVar (ms : Models) (v : String) : Option Models :=
  match ms v with
  | none => none
  | some m =>
    match ms (v ++ "_prev") with
    | none =>
      match m with
      | .solution x => some (ms.set (v ++ "_prev") x)
      | .derived _ => none
    | some (.solution _) => some (ms.set (v ++ "_prev") (value ms m))
    | some (.derived _) => some ms

/-- One step of `Region::RestoreSolutions`, `Region.cc` 1438-1459. -/
def restoreVar (ms : Models) (v : String) : Option Models :=
  match ms v, ms (v ++ "_prev") with
  | some (.solution _), some b => some (ms.set v (value ms b))
  | _, _ => none

/-- A loop that stops at the first error and keeps what was done. -/
def loopVars (f : Models → String → Option Models) : List String → Models → Models × Bool
  | [], ms => (ms, true)
  | v :: vs, ms =>
    match f ms v with
    | none => (ms, false)
    | some ms' => loopVars f vs ms'

/-- The loop over the regions of a device, `Device.cc` 423-439. -/
def loopRegions (f : Models → String → Option Models) : List Region → List Region × Bool
  | [] => ([], true)
  | r :: rs =>
    match loopVars f r.vars r.models with
    | (ms, false) => ({ r with models := ms } :: rs, false)
    | (ms, true) =>
      let t := loopRegions f rs
      ({ r with models := ms } :: t.1, t.2)

/-- The loop over the devices, `Newton.cc` 428-441, 457-470. -/
def loopDevices (f : Models → String → Option Models) : List (List Region) → List (List Region) × Bool
  | [] => ([], true)
  | d :: ds =>
    match loopRegions f d with
    | (d', false) => (d' :: ds, false)
    | (d', true) =>
      let t := loopDevices f ds
      (d' :: t.1, t.2)

/-- `InitializeSolution("dcop")`, `Newton.cc` 627-630 and `NodeKeeper.cc` 280-286. -/
def Circuit.init (c : Circuit) : Circuit := { c with dcop := some (c.dcop.getD fun _ => 0) }
/-- `InitializeSolution("dcop_prev"); CopySolution("dcop", "dcop_prev")`, `Newton.cc` 472-479. -/
def Circuit.backup (c : Circuit) : Circuit := { c with prev := c.dcop }
/-- `CopySolution("dcop_prev", "dcop")`, `Newton.cc` 443-449. -/
def Circuit.restore (c : Circuit) : Circuit := { c with dcop := c.prev }

/-- `Newton::BackupSolutions`, `Newton.cc` 452-480; the flag is false if an error was raised. -/
def backup (w : World) : World × Bool :=
  match loopDevices backupVar w.devices with
  | (ds, false) => ({ w with devices := ds }, false)
  | (ds, true) => ({ w with devices := ds, circuit := w.circuit.map Circuit.backup }, true)

/-- `Newton::RestoreSolutions`, `Newton.cc` 424-450. -/
def restore (w : World) : World × Bool :=
  match loopDevices restoreVar w.devices with
  | (ds, false) => ({ w with devices := ds }, false)
  | (ds, true) => ({ w with devices := ds, circuit := w.circuit.map Circuit.restore }, true)

/-! ### The iteration -/

/-- `Newton` limits (`Newton.hh` 165-200; `MathCommands.cc` 118-125). -/
structure Limits where
  abs : ℝ
  rel : ℝ
  qrel : ℝ
  max : ℝ
  maxIter : Nat
  maxDiv : Nat

/-- `TimeMethods::TimeMethod_t`, `Newton.hh` 34. -/
inductive Method | dcOnly | dc | tr | bdf1 | bdf2
deriving DecidableEq

/-- `TimeParams`, `Newton.hh` 36-69. -/
structure TimeParams where
  method : Method
  tdelta : ℝ
  a0 : ℝ
  a1 : ℝ
  a2 : ℝ
  b0 : ℝ
  b1 : ℝ
  b2 : ℝ

/-- `IsDCMethod`. -/
def TimeParams.isDCMethod (t : TimeParams) : Bool := t.method = .dcOnly || t.method = .dc
/-- `IsTransient`. -/
def TimeParams.isTransient (t : TimeParams) : Bool := t.method ≠ .dcOnly
/-- `IsIntegration`. -/
def TimeParams.isIntegration (t : TimeParams) : Bool := t.method = .bdf1 || t.method = .tr || t.method = .bdf2

/-- What assembling and solving the linear system of an iteration does. -/
inductive Lin
  | threw
  | failed
  | ok (x : Nat → ℝ)

/-- The black box: linear system of an iteration (it may look at the state, the iteration and the constant right hand
side), the vectors loaded with `WhatToLoad::RHS` (`none`: an error was raised), and whether the currents and charges of
all contacts could be computed (`UpdateContacts`; false: an error was raised). -/
structure Problem where
  numEqns : Nat
  lin : Nat → World → List ℝ → Lin
  charge : World → Option (List ℝ)
  current : World → Option (List ℝ)
  contacts : World → Bool

/-- What `solve(info=True)` reports of one iteration: absolute and relative error of each device, and of the circuit
(`Newton.cc` 738-795). -/
structure IterInfo where
  devices : List (ℝ × ℝ)
  circuit : Option (ℝ × ℝ)

/-- The variables of the loop, `Newton.cc` 664-669. -/
structure St where
  w : World
  conv : Bool
  div : Nat
  maxHit : Bool
  lastAbs : ℝ
  lastRel : ℝ
  log : List IterInfo

/-- One device in the error check, `Newton.cc` 741-778. -/
noncomputable def judgeDevice (lim : Limits) (s : St) (e : ℝ × ℝ) : St :=
  let diverged := (e.2 > lim.rel ∧ e.2 > s.lastRel) ∨ (e.1 > lim.abs ∧ e.1 > s.lastAbs)
  { s with
    div := if diverged then s.div + 1 else 0
    lastRel := e.2
    lastAbs := e.1
    conv := s.conv && decide (e.2 < lim.rel) && decide (e.1 < lim.abs)
    maxHit := s.maxHit || decide (e.1 > lim.max) }

/-- The error check, `Newton.cc` 737-794. -/
noncomputable def judge (lim : Limits) (s : St) (info : IterInfo) : St :=
  let s1 := info.devices.foldl (judgeDevice lim) { s with conv := true }
  let s2 := match info.circuit with
    | none => s1
    | some e => { s1 with
        conv := s1.conv && decide (e.2 < lim.rel) && decide (e.1 < lim.abs)
        maxHit := s1.maxHit || decide (e.1 > lim.max) }
  { s2 with log := s.log ++ [info] }

/-- Devices, then circuit: `Newton.cc` 722-735. -/
noncomputable def updWorld (x : Nat → ℝ) (w : World) : World × Option IterInfo :=
  match updDevices x w.devices with
  | (ds, none) => ({ w with devices := ds }, none)
  | (ds, some es) =>
    match w.circuit with
    | none => ({ w with devices := ds }, some ⟨es, none⟩)
    | some c =>
      match c.dcop with
      | none => ({ w with devices := ds }, none)
      | some old =>
        let u := c.update x old
        ({ w with devices := ds, circuit := some { c with dcop := some u.1 } }, some ⟨es, some u.2⟩)

/-- The loop of `Solve`, `Newton.cc` 674-802; `fuel` is `maxiter - iter`. The flag is true if an error was raised. -/
noncomputable def iterate (P : Problem) (lim : Limits) (rhsc : List ℝ) : Nat → Nat → St → St × Bool
  | 0, _, s => (s, false)
  | fuel + 1, iter, s =>
    if s.conv = true ∨ ¬ s.div < lim.maxDiv then (s, false)
    else if s.maxHit = true then (s, false)
    else
      match P.lin iter s.w rhsc with
      | .threw => (s, true)
      | .failed => (s, false)
      | .ok x =>
        match updWorld x s.w with
        | (w', none) => ({ s with w := w' }, true)
        | (w', some info) => iterate P lim rhsc fuel (iter + 1) (judge lim { s with w := w' } info)

/-! ### Transient history -/

/-- `AssembleI`/`AssembleQ`, `TimeData.cc` 82-106: `v += scale * data`; `none` is a failed `dsAssert`. -/
noncomputable def assembleAt (data : List ℝ) (scale : ℝ) (v : List ℝ) : Option (List ℝ) :=
  if data = [] ∨ data.length ≠ v.length then none
  else some (List.zipWith (fun a b => a + scale * b) v data)

/-- One conditional line of `InitializeTransientAssemble`. -/
noncomputable def assembleIf (data : List ℝ) (scale : ℝ) (v : List ℝ) : Option (List ℝ) :=
  if scale = 0 then some v else assembleAt data scale v

/-- `InitializeTransientAssemble`, `Newton.cc` 1013-1034. -/
noncomputable def rhsConstant (h : History) (t : TimeParams) (n : Nat) : Option (List ℝ) :=
  if t.isDCMethod then some (List.replicate n 0)
  else do
    let v ← assembleIf h.q0 t.a1 (List.replicate n 0)
    let v ← assembleIf h.q1 t.a2 v
    let v ← assembleIf h.i0 t.b1 v
    assembleIf h.i1 t.b2 v

/-- `CheckTransientProjection`, `Newton.cc` 1036-1081; `none` is a failed `dsAssert`. -/
noncomputable def checkProjection (h : History) (t : TimeParams) (lim : Limits) (newQ : List ℝ) : Option Bool := do
  let p ← assembleAt h.i0 (-t.tdelta) (List.replicate newQ.length 0)
  let p ← assembleAt h.q0 1 p
  let qr := fun i => if newQ.getD i 0 = 0 then 0 else
    |newQ.getD i 0 - p.getD i 0| / (1e-20 + |newQ.getD i 0| + |p.getD i 0|)
  return !decide (maxUp qr newQ.length > lim.qrel)

/-- `UpdateTransientCurrent`, `Newton.cc` 1083-1154. -/
def updateHistory (h : History) (t : TimeParams) (newI newQ : List ℝ) : History :=
  if t.isDCMethod then ⟨newI, [], [], newQ, [], []⟩
  else
    let h := if h.q1 ≠ [] then { h with q2 := h.q1 } else h
    let h := if h.q0 ≠ [] then { h with q1 := h.q0 } else h
    let h := { h with q0 := newQ }
    let h := if h.i1 ≠ [] then { h with i2 := h.i1 } else h
    let h := if h.i0 ≠ [] then { h with i1 := h.i0 } else h
    { h with i0 := newI }

/-- How `solve` ends: it raises an error, or returns whether it converged and the iterations. -/
inductive Outcome
  | raised
  | returned (converged : Bool) (iterations : List IterInfo)

/-- The end of `Solve` when not converged: `Newton.cc` 821-824. -/
def finishFailed (w : World) (log : List IterInfo) : World × Outcome :=
  match restore w with
  | (w', true) => (w', .returned false log)
  | (w', false) => (w', .raised)

/-- The end of `Solve` when converged: `Newton.cc` 825-860. `UpdateContacts` does not change the solutions
(`ContactEquation.cc` 73-77, `ExprContactEquation.cc` 187-207: only the reported currents and charges). -/
def finishConverged (P : Problem) (t : TimeParams) (w : World) (newQ : List ℝ) (log : List IterInfo) :
    World × Outcome :=
  if P.contacts w = false then (w, .raised)
  else if t.isTransient then
    match P.current w with
    | none => (w, .raised)
    | some newI => ({ w with hist := updateHistory w.hist t newI newQ }, .returned true log)
  else (w, .returned true log)

/-- From the charge of the new solution to the end: `Newton.cc` 804-867. -/
noncomputable def finish (P : Problem) (lim : Limits) (t : TimeParams) (s : St) : World × Outcome :=
  if t.isTransient then
    match P.charge s.w with
    | none => (s.w, .raised)
    | some newQ =>
      if s.conv && t.isIntegration then
        match checkProjection s.w.hist t lim newQ with
        | none => (s.w, .raised)
        | some ok => if ok then finishConverged P t s.w newQ s.log else finishFailed s.w s.log
      else if s.conv then finishConverged P t s.w newQ s.log else finishFailed s.w s.log
  else if s.conv then finishConverged P t s.w [] s.log else finishFailed s.w s.log

/-- The state before the loop. -/
def St.start (w : World) : St := ⟨w, false, 0, false, 0, 0, []⟩

/-- `Newton::Solve`, `Newton.cc` 608-873. -/
noncomputable def solve (P : Problem) (lim : Limits) (t : TimeParams) (w : World) : World × Outcome :=
  let w0 := { w with circuit := w.circuit.map Circuit.init }
  match backup w0 with
  | (w1, false) => (w1, .raised)
  | (w1, true) =>
    match rhsConstant w1.hist t P.numEqns with
    | none => (w1, .raised)
    | some rhsc =>
      match iterate P lim rhsc lim.maxIter 0 (St.start w1) with
      | (s, true) => (s.w, .raised)
      | (s, false) => finish P lim t s

end Verif.Newton
