import Verif.SmallSignal.Model
import Mathlib.Algebra.BigOperators.Group.Finset.Basic

/-!
# Specification of small-signal analysis

Rows of the linearized equations, applied to a vector of complex amplitudes, in terms of what was assembled (C25, C39): the entries of
contacts, interfaces and circuit directly, those of the bulk through the row operator `permRow`.
-/

namespace Verif.SmallSignal
open Verif.Assembly
open Verif.Elements (Elem)

noncomputable section

section
variable {K : Type} [CommRing K]

/-- Row `r` of the matrix of the assembled pieces, applied to `x`. -/
def systemRow (p : Nat → PermEntry) (N : Nat) (devs : List (Pieces K)) (circuit : List (MEntry K)) (offset : Nat)
    (custom : Pieces K) (x : Nat → K) (r : Nat) : K :=
  (devs.map fun d => deviceRow p N (matVec d.1.1 x) (matVec d.2.1 x) r).sum + matVec (shiftM offset circuit) x r +
    deviceRow p N (matVec custom.1.1 x) (matVec custom.2.1 x) r

/-- Row `r` of the residual of the assembled pieces. -/
def systemRes (p : Nat → PermEntry) (N : Nat) (devs : List (Pieces K)) (circuit : List (VEntry K)) (offset : Nat)
    (custom : Pieces K) (r : Nat) : K :=
  (devs.map fun d => deviceRow p N (rowSum d.1.2) (rowSum d.2.2) r).sum + rowSum (shiftV offset circuit) r +
    deviceRow p N (rowSum custom.1.2) (rowSum custom.2.2) r
end

/-- Row `r` of the Jacobian of the static equations (`J`), applied to complex amplitudes. -/
def staticRow (ld : Load) (w : World) (X : Nat → ℂ) (r : Nat) : ℂ :=
  systemRow ld.perm ld.N (ld.static.map liftP) (liftM (circStatic w).1) (circBase w) (liftP ld.customStatic) X r

/-- Row `r` of the Jacobian of the charges (`C`), applied to complex amplitudes. -/
def dynamicRow (ld : Load) (w : World) (X : Nat → ℂ) (r : Nat) : ℂ :=
  systemRow ld.perm ld.N (ld.dynamic.map liftP) (liftM (circDynamic w).1) (circBase w) (liftP ld.customDynamic) X r

/-- What is known of a direct solver: if the arrays represent the matrix `A` (in the storage order it asked for) and it reports
success, the result solves the system with `A`, or with the transpose of `A` (not the conjugate transpose). -/
def Backend.Correct (B : Backend) : Prop :=
  ∀ (n : Nat) (ap ai : List Nat) (xs : List ℂ) (A : Nat → Nat → ℂ) (b x : Nat → ℂ),
    Matrix.Spec.Represents n ap ai xs (Matrix.byLine B.crm A) →
    (B.solve false n ap ai xs b = some x → ∀ r < n, ∑ c ∈ Finset.range n, A r c * x c = b r) ∧
    (B.solve true n ap ai xs b = some x → ∀ c < n, ∑ r ∈ Finset.range n, A r c * x r = b c)

def EntriesIn {K : Type} (N : Nat) (m : List (MEntry K)) : Prop := ∀ e ∈ m, e.1 < N ∧ e.2.1 < N
def PiecesIn (N : Nat) (d : Pieces ℝ) : Prop :=
  EntriesIn N d.1.1 ∧ EntriesIn N d.2.1 ∧ (∀ e ∈ d.1.2, e.1 < N) ∧ (∀ e ∈ d.2.2, e.1 < N)

/-- Everything assembled lies inside the system: rows and columns are numbers of equations (C19), the permutation stays inside. -/
structure Bounded (ld : Load) (w : World) : Prop where
  static : ∀ d ∈ ld.static, PiecesIn ld.N d
  dynamic : ∀ d ∈ ld.dynamic, PiecesIn ld.N d
  customS : PiecesIn ld.N ld.customStatic
  customD : PiecesIn ld.N ld.customDynamic
  circS : EntriesIn ld.N (shiftM (circBase w) (circStatic w).1)
  circD : EntriesIn ld.N (shiftM (circBase w) (circDynamic w).1)
  perm : ∀ i < ld.N, ∀ r, (ld.perm i).row = some r → r < ld.N

/-- every variable of an equation exists -/
def VarsExist (w : World) : Prop := ∀ d ∈ w.devices, ∀ r ∈ d, ∀ e ∈ r.eqs, (r.models e.var).isSome

/-- The amplitude `X` is what a region shows after the analysis: for every equation the real and imaginary part of the unknown at
every node, every other model as before. -/
def ShowsRegion (X : Nat → ℂ) (r r' : Newton.Region) : Prop :=
  r'.numNodes = r.numNodes ∧ r'.base = r.base ∧ r'.eqs = r.eqs ∧ r'.vars = r.vars ∧
  (∀ e ∈ r.eqs, ∃ re im : Nat → ℝ, r'.models (e.var ++ "_Real") = some (.solution re) ∧
    r'.models (e.var ++ "_Imag") = some (.solution im) ∧
    ∀ i < r.numNodes, X (r.base + e.index * r.numNodes + i) = ⟨re i, im i⟩) ∧
  (∀ x, (∀ e ∈ r.eqs, x ≠ e.var ++ "_Real" ∧ x ≠ e.var ++ "_Imag") → r'.models x = r.models x)

/-- the circuit shows the amplitude at every node that is not ground, under the names `rkey`, `ikey`; other solutions are as before -/
def ShowsCircuit (rkey ikey : String) (X : Nat → ℂ) (c c' : Circ) : Prop :=
  c'.base = c.base ∧ c'.nodes = c.nodes ∧ c'.els = c.els ∧
  (∃ re im : Nat → ℝ, c'.sols rkey = some re ∧ c'.sols ikey = some im ∧
    ∀ n i, (n, some i) ∈ c.nodes → X (c.base + i) = ⟨re i, im i⟩) ∧
  (∀ x, x ≠ rkey → x ≠ ikey → x ≠ "dcop" → c'.sols x = c.sols x) ∧
  (∀ s, c.sols "dcop" = some s → rkey ≠ "dcop" → ikey ≠ "dcop" → c'.sols "dcop" = some s)

def ShowsCircuitOpt (rkey ikey : String) (X : Nat → ℂ) : Option Circ → Option Circ → Prop
  | none, none => True
  | some c, some c' => ShowsCircuit rkey ikey X c c'
  | _, _ => False

/-- the AC response is what the user can read afterwards -/
def ShowsAC (X : Nat → ℂ) (w w' : World) : Prop :=
  List.Forall₂ (List.Forall₂ (ShowsRegion X)) w.devices w'.devices ∧
  ShowsCircuitOpt "ssac_real" "ssac_imag" X w.circuit w'.circuit

/-- The small-signal current that leaves node `i` into an element: admittance `1/R`, `jωC`; the branch current of sources and
inductors; a current source has no small-signal current. -/
def acCurrentOut (jw : ℂ) (x : Nat → ℂ) (i : Nat) : Elem ℝ → ℂ
  | .resistor a b R => (if a = some i then (Elements.volt x a - Elements.volt x b) / R else 0) +
      (if b = some i then (Elements.volt x b - Elements.volt x a) / R else 0)
  | .capacitor a b C => (if a = some i then jw * C * (Elements.volt x a - Elements.volt x b) else 0) +
      (if b = some i then jw * C * (Elements.volt x b - Elements.volt x a) else 0)
  | .inductor a b c _ => (if a = some i then x c else 0) - (if b = some i then x c else 0)
  | .voltage a b c _ => (if a = some i then x c else 0) - (if b = some i then x c else 0)
  | .current _ _ _ => 0

end
end Verif.SmallSignal
