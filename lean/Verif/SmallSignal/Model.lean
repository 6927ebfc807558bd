import Verif.Assembly.Load
import Verif.Circuit.Elements
import Verif.Matrix.Props
import Verif.Newton.Model
import Mathlib.Analysis.SpecialFunctions.Trigonometric.Basic
import Mathlib.Data.Complex.Basic

/-!
# Small-signal analysis (`Newton.cc` 371-421, 1153-1349), the matrices for external use (521-610)

`double` is ℝ and `std::complex<double>` is ℂ.  What the devices, the circuit and the custom equations assemble at the
operating point (`Assembly`, C25, C39) is given by a `Load`; the assembly of errors (`OutputStream::FATAL`) is not modelled.
The factorization and solution of the compressed matrix is a `Backend`, of which only the specification is known.
-/

namespace Verif.SmallSignal
open Verif.Assembly
open Verif.Elements (Elem)

noncomputable section

/-- What is assembled at the operating point: number of equations, the permutations that contacts and interfaces set, the
entries of every device in `TimeMode::DC` and in `TimeMode::TIME`, and those of the custom equations (`AssembleTclEquations`,
`Newton.cc` 1428-1490: not permuted, permuted). -/
structure Load where
  N : Nat
  perms : List (Nat × PermEntry)
  static : List (Pieces ℝ)
  dynamic : List (Pieces ℝ)
  customStatic : Pieces ℝ
  customDynamic : Pieces ℝ

/-- The circuit: first equation number, nodes with their number (`none`: ground), the elements with the complex amplitude
`(acreal, acimag)` (used by voltage sources only) and the named solutions (`src/Circuit/data/NodeKeeper.hh`). -/
structure Circ where
  base : Nat
  nodes : List (String × Option Nat)
  els : List (Elem ℝ × ℂ)
  sols : String → Option (Nat → ℝ)

/-- The state that the analysis changes. -/
structure World where
  devices : List (List Newton.Region)
  circuit : Option Circ

section
variable {K : Type} [CommRing K]

/-- The end of `LoadMatrixAndRHS`, `Newton.cc` 359-367: the custom equations, permuted ones first. -/
def loadCustom (p : Nat → PermEntry) (scl : K) (d : Pieces K) (s : List (MEntry K) × (Nat → K)) :
    List (MEntry K) × (Nat → K) :=
  ((s.1 ++ loadMatrixPerm p d.2.1 scl) ++ loadMatrix d.1.1 scl 0, loadRHS (loadRHSPerm p s.2 scl d.2.2) scl 0 d.1.2)

/-- `LoadMatrixAndRHS`, `Newton.cc` 306-369, with the custom equations. -/
def loadAll (p : Nat → PermEntry) (scl : K) (devs : List (Pieces K)) (circuit : List (MEntry K) × List (VEntry K))
    (offset : Nat) (custom : Pieces K) (s : List (MEntry K) × (Nat → K)) : List (MEntry K) × (Nat → K) :=
  loadCustom p scl custom (loadSystem p scl devs circuit offset s)
end

/-- the conversion of `scl * it->val` for complex `scl`, `Newton.cc` 232, 257 -/
def liftM (m : List (MEntry ℝ)) : List (MEntry ℂ) := m.map fun e => (e.1, e.2.1, (e.2.2 : ℂ))
def liftV (v : List (VEntry ℝ)) : List (VEntry ℂ) := v.map fun e => (e.1, (e.2 : ℂ))
def liftP (d : Pieces ℝ) : Pieces ℂ := ((liftM d.1.1, liftV d.1.2), (liftM d.2.1, liftV d.2.2))

/-- The permutation vector of the analysis, `Newton.cc` 1182-1187, 1204 and the first `LoadMatrixAndRHS` of 418. -/
def Load.perm (ld : Load) : Nat → PermEntry := setPerms identityPerm ld.perms

/-- the entries of the circuit: `LoadMatrixAndRHSOnCircuit`, `Newton.cc` 151-222; without nodes nothing is loaded (347-358) -/
def circStatic (w : World) : List (MEntry ℝ) × List (VEntry ℝ) :=
  match w.circuit with
  | none => ([], [])
  | some c => Elements.assembleDC (c.els.map Prod.fst) ((c.sols "dcop").getD fun _ => 0)
def circDynamic (w : World) : List (MEntry ℝ) × List (VEntry ℝ) :=
  match w.circuit with
  | none => ([], [])
  | some c => Elements.assembleTran 1 (c.els.map Prod.fst) ((c.sols "dcop").getD fun _ => 0)
/-- `GetMinEquationNumber` -/
def circBase (w : World) : Nat := match w.circuit with
  | none => 0
  | some c => c.base

/-- `jOmega`, `Newton.cc` 413 -/
def jOmega (f : ℝ) : ℂ := 2 * Real.pi * Complex.I * f

/-- The entries of `LoadMatrixAndRHSAC`, `Newton.cc` 403-421: the static matrix with scale 1 (real) … -/
def realEntries (ld : Load) (w : World) : List (MEntry ℝ) :=
  (loadAll ld.perm 1 ld.static (circStatic w) (circBase w) ld.customStatic ([], fun _ => 0)).1
/-- … and the matrix of the time derivative terms with scale `jOmega` (complex); the right hand sides `r` and `c` are local and
dropped (415-416). -/
def cpxEntries (ld : Load) (f : ℝ) (w : World) : List (MEntry ℂ) :=
  (loadAll ld.perm (jOmega f) (ld.dynamic.map liftP) (liftM (circDynamic w).1, liftV (circDynamic w).2) (circBase w)
    (liftP ld.customDynamic) ([], fun _ => 0)).1

/-- the calls of `AddEntry` -/
def acOps (ld : Load) (f : ℝ) (w : World) : List (Matrix.Op ℝ) :=
  (realEntries ld w).map (fun e => .add false e.1 e.2.1 e.2.2) ++
  (cpxEntries ld f w).map (fun e => .addComplex e.1 e.2.1 e.2.2.re e.2.2.im)

/-- `assembleACRHS`: `InstanceKeeper.cc` 99-106, `IdealVoltage.cc` 122-131; the other elements add nothing
(`InstanceModel.hh`). -/
def acRhsEntries (els : List (Elem ℝ × ℂ)) : List (Nat × ℂ) :=
  els.flatMap fun e => match e.1 with
    | .voltage _ _ b _ => [(b, e.2)]
    | _ => []

/-- `LoadCircuitRHSAC`, `Newton.cc` 372-400: entries are assigned, not added. -/
def assignAll (rhs : Nat → ℂ) (offset : Nat) : List (Nat × ℂ) → (Nat → ℂ)
  | [] => rhs
  | e :: es => assignAll (Function.update rhs (e.1 + offset) e.2) offset es

/-- the right hand side of the AC analysis -/
def acRhs (w : World) : Nat → ℂ :=
  match w.circuit with
  | none => fun _ => 0
  | some c => assignAll (fun _ => 0) c.base (acRhsEntries c.els)

/-- A direct solver: the storage order it asks for (`CreateACMatrix`), and `LUFactor` followed by `LUSolve`
(`DirectLinearSolver.cc` 68-115, `Preconditioner.cc`), given the transpose flag, the number of equations, the compressed arrays
and the right hand side; `none` is a reported failure. -/
structure Backend where
  crm : Bool
  solve : Bool → Nat → List Nat → List Nat → List ℂ → (Nat → ℂ) → Option (Nat → ℂ)

/-- `InitializeSolution`, `NodeKeeper.cc` 280-286 -/
def initSol (sols : String → Option (Nat → ℝ)) (key : String) : String → Option (Nat → ℝ) :=
  if (sols key).isNone then Function.update sols key (some fun _ => 0) else sols

/-- `NodeKeeper::ACUpdateSolution`, `NodeKeeper.cc` 370-410: real and imaginary part at every node that is not ground; `none` is
the failed assertion of a missing solution -/
def acNodes (base : Nat) (X : Nat → ℂ) : List (String × Option Nat) → (Nat → ℝ) × (Nat → ℝ) → (Nat → ℝ) × (Nat → ℝ)
  | [], s => s
  | (_, none) :: ns, s => acNodes base X ns s
  | (_, some i) :: ns, s =>
    acNodes base X ns (Function.update s.1 i (X (i + base)).re, Function.update s.2 i (X (i + base)).im)

def acCircuit (rkey ikey : String) (X : Nat → ℂ) (c : Circ) : Option Circ :=
  match c.sols rkey, c.sols ikey with
  | some r, some i =>
    let s := acNodes c.base X c.nodes (r, i)
    some { c with sols := Function.update (Function.update c.sols rkey (some s.1)) ikey (some s.2) }
  | _, _ => none

/-- `GetEquationNumber(ind, node)`, `Region.cc` 1251-1259 -/
def eqRow (r : Newton.Region) (e : Newton.Eqn) (i : Nat) : Nat := r.base + e.index * r.numNodes + i

/-- `Region::ACUpdate` and `Equation::DefaultACUpdate`, `Region.cc` 1342-1364, `Equation.cc` 320-368: the models `<var>_Real` and
`<var>_Imag` (`NodeModel.cc` 66-74). `none`: the variable does not exist (failed assertion). Simplification: an existing model of
that name becomes a solution. -/
def acEqs (r : Newton.Region) (X : Nat → ℂ) : List Newton.Eqn → Newton.Models → Option Newton.Models
  | [], ms => some ms
  | e :: es, ms =>
    if (ms e.var).isNone then none
    else acEqs r X es ((ms.set (e.var ++ "_Real") fun i => (X (eqRow r e i)).re).set
      (e.var ++ "_Imag") fun i => (X (eqRow r e i)).im)

/-- the loop over regions and devices, `Device.cc` 361-372, `Newton.cc` 1219-1227 -/
def acRegions (X : Nat → ℂ) : List Newton.Region → Option (List Newton.Region)
  | [] => some []
  | r :: rs =>
    match acEqs r X r.eqs r.models, acRegions X rs with
    | some ms, some rs' => some ({ r with models := ms } :: rs')
    | _, _ => none
def acDevices (X : Nat → ℂ) : List (List Newton.Region) → Option (List (List Newton.Region))
  | [] => some []
  | d :: ds =>
    match acRegions X d, acDevices X ds with
    | some d', some ds' => some (d' :: ds')
    | _, _ => none

/-- the beginning of `ACSolve`, `Newton.cc` 1163-1168 -/
def acInit (w : World) : World :=
  { w with circuit := w.circuit.map fun c =>
      { c with sols := initSol (initSol (initSol c.sols "ssac_real") "ssac_imag") "dcop" } }

/-- `Newton::ACSolve`, `Newton.cc` 1153-1239: new state and the value returned. `none`: an access outside of an array or a failed
assertion. -/
def acSolve (B : Backend) (ld : Load) (f : ℝ) (w0 : World) : Option (World × Bool) :=
  let w := acInit w0
  match Matrix.run (Matrix.new ld.N true B.crm) (acOps ld f w ++ [.finalize]) with
  | none => none
  | some m =>
    match B.solve false ld.N m.ap m.ai (Matrix.getComplex Complex.mk m) (acRhs w) with
    | none => some (w, false)
    | some X =>
      match acDevices X w.devices with
      | none => none
      | some ds =>
        match w.circuit with
        | none => some (⟨ds, none⟩, true)
        | some c =>
          match acCircuit "ssac_real" "ssac_imag" X c with
          | none => none
          | some c' => some (⟨ds, some c'⟩, true)

/-! ### Noise (impedance field) -/

/-- `NodeKeeper::GetEquationNumber`: `none` is `size_t(-1)` for an unknown node and for ground -/
def outputEqn (c : Circ) (name : String) : Option Nat :=
  match c.nodes.find? (·.1 = name) with
  | some (_, some i) => some (i + c.base)
  | _ => none

/-- `Equation::DefaultNoiseUpdate`, `Equation.cc` 371-433: the value at the row the permutation sends the equation to, zero if it
sends it nowhere. The entries that keep a copy are treated like the others (409). -/
def noiseValue (p : Nat → PermEntry) (Y : Nat → ℂ) (row : Nat) : ℂ :=
  match (p row).row with
  | none => 0
  | some r => Y r

/-- The names, `Equation.cc` 527-549: `GetNoiseRealName`, `GetNoiseImagName`. The vector gradients of the results (421-432) are not
modelled. -/
def noiseEqs (r : Newton.Region) (out : String) (p : Nat → PermEntry) (Y : Nat → ℂ) :
    List Newton.Eqn → Newton.Models → Newton.Models
  | [], ms => ms
  | e :: es, ms =>
    noiseEqs r out p Y es ((ms.set (out ++ "_" ++ e.name ++ "_real") fun i => (noiseValue p Y (eqRow r e i)).re).set
      (out ++ "_" ++ e.name ++ "_imag") fun i => (noiseValue p Y (eqRow r e i)).im)

/-- the loop over regions and devices, `Region.cc` 1366-1384, `Newton.cc` 1325-1333 -/
def noiseDevices (out : String) (p : Nat → PermEntry) (Y : Nat → ℂ) (ds : List (List Newton.Region)) :
    List (List Newton.Region) :=
  ds.map fun d => d.map fun r => { r with models := noiseEqs r out p Y r.eqs r.models }

/-- `Newton.cc` 1281-1286 -/
def noiseInit (out : String) (c : Circ) : Circ :=
  { c with sols := initSol (initSol (initSol c.sols ("noise_" ++ out ++ "_real")) ("noise_" ++ out ++ "_imag")) "dcop" }

/-- `Newton::NoiseSolve`, `Newton.cc` 1242-1349 -/
def noiseSolve (B : Backend) (ld : Load) (out : String) (f : ℝ) (w0 : World) : Option (World × Bool) :=
  match w0.circuit with
  | none => some (w0, false)
  | some c0 =>
    match outputEqn c0 out with
    | none => some (w0, false)
    | some o =>
      let c := noiseInit out c0
      let w : World := { w0 with circuit := some c }
      match Matrix.run (Matrix.new ld.N true B.crm) (acOps ld f w ++ [.finalize]) with
      | none => none
      | some m =>
        match B.solve true ld.N m.ap m.ai (Matrix.getComplex Complex.mk m) (Function.update (fun _ => 0) o 1) with
        | none => some (w, false)
        | some Y =>
          match acCircuit ("noise_" ++ out ++ "_real") ("noise_" ++ out ++ "_imag") Y c with
          | none => none
          | some c' => some (⟨noiseDevices out ld.perm Y w.devices, some c'⟩, true)

/-! ### `get_matrix_and_rhs` -/

/-- what `get_matrix_and_rhs` returns: for "static" and "dynamic" the arrays `ap`, `ai`, `av` and `rhs`, and the permutation
arrays `row` (`-1` for none) and `copy` -/
structure External where
  static : List Nat × List Nat × List ℝ × (Nat → ℝ)
  dynamic : List Nat × List Nat × List ℝ × (Nat → ℝ)
  row : Nat → Int
  copy : Nat → Int
  format : String

/-- one `LoadMatrixAndRHS` of the loop `Newton.cc` 552-569, as entries and right hand side -/
def loadStatic (ld : Load) (w : World) : List (MEntry ℝ) × (Nat → ℝ) :=
  loadAll ld.perm 1 ld.static (circStatic w) (circBase w) ld.customStatic ([], fun _ => 0)
def loadDynamic (ld : Load) (w : World) : List (MEntry ℝ) × (Nat → ℝ) :=
  loadAll ld.perm 1 ld.dynamic (circDynamic w) (circBase w) ld.customDynamic ([], fun _ => 0)

def realOps (m : List (MEntry ℝ)) : List (Matrix.Op ℝ) := m.map fun e => .add false e.1 e.2.1 e.2.2

/-- `InitializeSolution("dcop")`, `Newton.cc` 526-529 -/
def extInit (w : World) : World :=
  { w with circuit := w.circuit.map fun c => { c with sols := initSol c.sols "dcop" } }

/-- `PermutationEntry::GetRow` as an integer: `size_t(-1)` stands for none; `Newton.cc` 590-600 -/
def rowInt (e : PermEntry) : Int := match e.row with
  | some r => (r : Int)
  | none => -1

/-- `GetMatrixAndRHSForExternalUse`, `Newton.cc` 520-610 -/
def getMatrixAndRHS (ld : Load) (crm : Bool) (w0 : World) : Option External :=
  let w := extInit w0
  match Matrix.run (Matrix.new ld.N false crm) (realOps (loadStatic ld w).1 ++ [.finalize]) with
  | none => none
  | some m1 =>
    match Matrix.run m1 ([.clear] ++ realOps (loadDynamic ld w).1 ++ [.finalize]) with
    | none => none
    | some m2 =>
      some {
        static := (m1.ap, m1.ai, m1.x false, (loadStatic ld w).2)
        dynamic := (m2.ap, m2.ai, m2.x false, (loadDynamic ld w).2)
        row := fun i => rowInt (ld.perm i)
        copy := fun i => if (ld.perm i).keep then 1 else 0
        format := if crm then "csr" else "csc" }

end
end Verif.SmallSignal
