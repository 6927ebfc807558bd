import Verif.Solve.Model

/-!
# What the dictionary of `solve(info=True)` has to say
-/

namespace Verif.Solve

open Classical
open Verif.Newton
open Verif.PyArg (F64 Py Lib Opt Means)

/-- the relative error at a node -/
noncomputable def ratio (m : ℝ) (old new : Nat → ℝ) (k : Nat) : ℝ := |new k - old k| / (|new k| + m)

/-- The errors of an equation are the largest change of its variable and the largest relative change, over the nodes; `absolute_error_node` is
the first node with this change. -/
structure EqTells (n : Nat) (e : Eqn) (old new : Nat → ℝ) (i : EqInfo) : Prop where
  name : i.name = e.name
  absMax : ∀ k < n, |new k - old k| ≤ i.abs
  absAt : i.abs = 0 ∨ (i.absNode < n ∧ |new i.absNode - old i.absNode| = i.abs)
  first : ∀ k < i.absNode, |new k - old k| < i.abs
  relMax : ∀ k < n, ratio e.minError old new k ≤ i.rel
  relAt : i.rel = 0 ∨ ∃ k < n, ratio e.minError old new k = i.rel

/-- what `relative_error_node` should be (it is not: `Examples.wrong_node`) -/
def RelNodeTells (n : Nat) (e : Eqn) (old new : Nat → ℝ) (i : EqInfo) : Prop :=
  i.rel = 0 ∨ (i.relNode < n ∧ ratio e.minError old new i.relNode = i.rel)

/-- the dictionary of a region that was `r` and is `r'` now -/
structure RegTells (name : String) (r r' : Region) (i : RegInfo) : Prop where
  name : i.name = name
  abs : i.abs = (i.eqs.map (·.abs)).sum
  rel : i.rel = (i.eqs.map (·.rel)).sum
  eqs : List.Forall₂ (fun e q => ∃ old new, r.models e.var = some (.solution old) ∧ r'.models e.var = some (.solution new) ∧
    EqTells r.numNodes e old new q) r.eqs i.eqs

/-- the dictionary of a device -/
structure DevTells (name : String) (reg : Nat → String) (d d' : List Region) (i : DevInfo) : Prop where
  name : i.name = name
  absMax : ∀ q ∈ i.regions, q.abs ≤ i.abs
  absAt : i.abs = 0 ∨ ∃ q ∈ i.regions, q.abs = i.abs
  rel : i.rel = (i.regions.map (·.rel)).sum
  length : i.regions.length = d.length
  regions : ∀ (j : Nat) r r' q, d[j]? = some r → d'[j]? = some r' → i.regions[j]? = some q → RegTells (reg j) r r' q

/-- the dictionary of the circuit: the sum of the changes and the largest relative change -/
structure CircTells (c : Circuit) (old new : Nat → ℝ) (i : CircInfo) : Prop where
  abs : i.abs = ((List.range c.size).map fun k => |new k - old k|).sum
  relMax : ∀ k < c.size, ratio 1e-10 old new k ≤ i.rel
  relAt : i.rel = 0 ∨ ∃ k < c.size, ratio 1e-10 old new k = i.rel

/-- the dictionary of an iteration that made `w'` of `w` -/
structure IterTells (nm : Names) (w w' : World) (i : IterRep) : Prop where
  length : i.devices.length = w.devices.length
  devices : ∀ (j : Nat) d d' q, w.devices[j]? = some d → w'.devices[j]? = some d' → i.devices[j]? = some q →
    DevTells (nm.dev j) (nm.reg j) d d' q
  noCircuit : i.circuit = none ↔ w.circuit = none
  circuit : ∀ c q, w.circuit = some c → i.circuit = some q → ∃ c' old new, w'.circuit = some c' ∧ c.dcop = some old ∧ c'.dcop = some new ∧
    CircTells c old new q

/-- Iteration `k`, `k+1`, … from `w` on are those of the list: in each the linear system of the iteration was solved, its solution was used to
update the devices (`Updated`, C30), and the dictionary tells the change. -/
inductive Trail (P : Problem) (rhsc : List ℝ) (nm : Names) : Nat → World → List IterRep → World → Prop
  | nil (k w) : Trail P rhsc nm k w [] w
  | cons (k w w' w'' x i is) (hl : P.lin k w rhsc = .ok x) (hk : i.iteration = k)
      (hu : List.Forall₂ (List.Forall₂ (Updated x)) w.devices w'.devices) (ht : IterTells nm w w' i)
      (h : Trail P rhsc nm (k + 1) w' is w'') : Trail P rhsc nm k w (i :: is) w''

/-- all errors of the iteration are below the limits -/
def Below (lim : Limits) (i : IterRep) : Prop :=
  (∀ d ∈ i.devices, d.abs < lim.abs ∧ d.rel < lim.rel) ∧ ∀ c, i.circuit = some c → c.abs < lim.abs ∧ c.rel < lim.rel

/-- The charge error: the largest relative difference of a charge and of its projection from the last step, over the rows with a charge. -/
structure ChargeTells (h : History) (t : TimeParams) (newQ : List ℝ) (q : ℝ) : Prop where
  nonneg : 0 ≤ q
  max : ∀ k < newQ.length, newQ.getD k 0 ≠ 0 →
    |newQ.getD k 0 - (h.q0.getD k 0 - t.tdelta * h.i0.getD k 0)| / (1e-20 + |newQ.getD k 0| + |h.q0.getD k 0 - t.tdelta * h.i0.getD k 0|) ≤ q
  «at» : q = 0 ∨ ∃ k < newQ.length, newQ.getD k 0 ≠ 0 ∧
    |newQ.getD k 0 - (h.q0.getD k 0 - t.tdelta * h.i0.getD k 0)| / (1e-20 + |newQ.getD k 0| + |h.q0.getD k 0 - t.tdelta * h.i0.getD k 0|) = q

end Verif.Solve
