import Verif.Assembly.Model
import Mathlib.Analysis.Calculus.Deriv.Add
import Mathlib.Analysis.Calculus.Deriv.Mul
import Mathlib.Algebra.BigOperators.Group.List.Basic

/-!
# What the assembled lists mean (independent of how they are produced)

A list of matrix entries stands for the matrix whose cell is the sum of the entries with that row and column
(this is what the sparse matrix makes of them, C22), a list of right hand side entries for the vector whose
component is the sum of the entries with that row.
-/

namespace Verif.Assembly

section
variable {K : Type} [CommRing K]

/-- Component `r` of the vector. -/
def rowSum (v : List (VEntry K)) (r : Nat) : K :=
  (v.map fun e => if e.1 = r then e.2 else 0).sum

/-- Cell `(r, c)` of the matrix. -/
def cell (m : List (MEntry K)) (r c : Nat) : K :=
  (m.map fun e => if e.1 = r ∧ e.2.1 = c then e.2.2 else 0).sum

/-- Component `r` of the product of the matrix with the vector `d`. -/
def matVec (m : List (MEntry K)) (d : Nat → K) (r : Nat) : K :=
  (m.map fun e => if e.1 = r then e.2.2 * d e.2.1 else 0).sum

/-- The value of a model; a model which does not exist counts as zero. -/
def val (o : Option (Nat → K)) (i : Nat) : K :=
  match o with
  | some f => f i
  | none => 0

end

/-- Unknown number of variable `var` at node `i`. -/
def Topo.col (g : Topo) (var : String) (i : Nat) : Nat :=
  g.num ((g.eqIndex (g.eqOfVar var)).getD 0) i

/-- `A t` is the result of assembling at "time" `t` of a curve along which the vector of unknowns moves with
velocity `d` at `t0`.  The assembled matrix is the Jacobian of the assembled vector along the curve: the
derivative of every component of the vector is the matrix applied to the velocity. -/
def IsJacobianAlong (A : ℝ → Option (List (MEntry ℝ) × List (VEntry ℝ))) (t0 : ℝ) (d : Nat → ℝ) : Prop :=
  ∀ out : ℝ → List (MEntry ℝ) × List (VEntry ℝ), (∀ t, A t = some (out t)) →
    ∀ r, HasDerivAt (fun t => rowSum (out t).2 r) (matVec (out t0).1 d r) t0

/-- The derivative models `model:var` of a node model are right at `t0`: at every node the chain rule holds
with them.  (A missing derivative model claims that the derivative is zero.) -/
def NodeExact (g : Topo) (tbl : ℝ → String → Option (Nat → ℝ)) (t0 : ℝ) (d : Nat → ℝ) (model : String) :
    Prop :=
  ∀ i, HasDerivAt (fun t => val (tbl t model) i)
    ((g.vars.map fun var => val (tbl t0 (derName model var)) i * d (g.col var i)).sum) t0

/-- The chain rule for one element edge with the derivative models `model:var@n0`, `model:var@n1` (and those of
the opposite nodes). -/
def siteDeriv {K : Type} [CommRing K] (g : Topo) (sh : Shape) (tbl : String → Option (Nat → K)) (d : Nat → K)
    (model : String) (s : Site) : K :=
  (g.vars.map fun var =>
    val (tbl (derName model var ++ sh.s0)) s.idx * d (g.col var s.n0) +
    val (tbl (derName model var ++ sh.s1)) s.idx * d (g.col var s.n1) +
    ((s.opp.zip sh.sopp).map fun (o, sf) =>
      val (tbl (derName model var ++ sf)) s.idx * d (g.col var o)).sum).sum

/-- The derivative models of an edge model are right at `t0`. -/
def SiteExact (g : Topo) (sh : Shape) (tbl : ℝ → String → Option (Nat → ℝ)) (t0 : ℝ) (d : Nat → ℝ)
    (model : String) : Prop :=
  ∀ s ∈ sh.sites, HasDerivAt (fun t => val (tbl t model) s.idx) (siteDeriv g sh (tbl t0) d model s) t0

/-- A geometry model (node volume, edge couple, …) does not change along the curve. -/
def Fixed (tbl : ℝ → String → Option (Nat → ℝ)) (model : String) : Prop :=
  ∀ t t' i, val (tbl t model) i = val (tbl t' model) i

end Verif.Assembly
