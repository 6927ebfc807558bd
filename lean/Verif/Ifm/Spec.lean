import Verif.Ifm.Model

/-!
# What the value of an interface model should be (property C80)

An interface has pairs of nodes, the `i`th of which is `nodes0[i]` in one region and `nodes1[i]` in the other. The
expression of an interface model denotes, at each pair, the number `Sym.eval` gives to it when `x@r0` stands for the value of
`x` in the first region, `x@r1` for that in the second, and other names for interface models or for parameters.
-/

namespace Verif.Ifm

open Verif.ScalarData Verif.Sym Verif.Eval

/-- The node of each side of the pairs. -/
def pairNodes (I : Ifc) : Side → List Nat
  | .r0 => I.nodes0
  | .r1 => I.nodes1

/-- The value of a node model of a region, at its node of pair `i`. -/
def atPair (I : Ifc) (r : Side) (l : List ℝ) (i : Nat) : ℝ :=
  match (pairNodes I r)[i]? with
  | some j => l.getD j 0
  | none => 0

/-- The value of each name of a model at pair `i`: interface models first, then node models of a region; 0 for a name that
refers to nothing, and for a model that is being evaluated. -/
def mval (I : Ifc) (i : Nat) (m : Str) : ℝ :=
  match I.find m with
  | some k => if I.inProcess k then 0 else ((I.env.models k).values I.env.n).getD i 0
  | none =>
    match split m with
    | (some r, name) => match I.node r name with
      | some l => atPair I r l i
      | none => 0
    | (none, _) => 0

/-- The value of a parameter: of one region for `x@r0`, `x@r1`, of both otherwise; circuit nodes come last. -/
def vars (I : Ifc) (x : Str) : ℝ :=
  match split x with
  | (some r, name) => (I.param r name).getD ((I.circ x).getD 0)
  | (none, _) => match I.param0 x, I.param1 x with
    | some a, some _ => a
    | _, _ => (I.circ x).getD 0

/-- The environment of pair `i`. -/
def ienv (I : Ifc) (i : Nat) : Sym.Env := ⟨vars I, mval I i, fun f xs => (appl I.math f xs).getD 0⟩

/-- An interface: arrays of the right length, pairs of nodes of the regions, and either two regions or the same nodes twice. -/
structure Ifc.Wf (I : Ifc) : Prop where
  env : I.env.Wf
  n : I.env.n = I.nodes0.length
  pairs : I.nodes1.length = I.nodes0.length
  same : I.same = true → I.nodes1 = I.nodes0
  node : ∀ r m l, I.node r m = some l → ∀ j ∈ pairNodes I r, j < l.length

/-- The value `v` is right for the quantity `g`. -/
def Denotes (I : Ifc) (g : Nat → ℝ) : IVal → Prop
  | .invalid => True
  | .double x => ∀ i, i < I.env.n → g i = x
  | .data s => s.Wf I.env ∧ ∀ i : Nat, i < I.env.n → (denote I.env s)[i]? = some (g i)

variable {K : Type}

/-- The quantity an expression stands for. -/
noncomputable def sem (C : Cfg K) (I : Ifc) (e : Expr K) : Nat → ℝ := fun i => eval C (ienv I i) e

/-- Every entry of the cache is right for an expression whose text is its key. -/
def CacheOK (C : Cfg K) (P : Expr K → Prop) (I : Ifc) (c : List (Str × IVal)) : Prop :=
  ∀ p ∈ c, ∃ e, P e ∧ str C e = p.1 ∧ Denotes I (sem C I e) p.2

/-- The value of a name exists. -/
def hasVar (I : Ifc) (x : Str) : Prop :=
  match split x with
  | (some r, name) => (I.param r name).isSome = true ∨ (I.circ x).isSome = true
  | (none, _) => match I.param0 x, I.param1 x with
    | some a, some b => a = b
    | _, _ => (I.circ x).isSome = true

/-- A name refers to a model of the interface that is not being evaluated or to a node model of a region. -/
def hasModel (I : Ifc) (m : Str) : Prop :=
  match I.find m with
  | some k => I.inProcess k = false
  | none => match split m with
    | (some r, name) => (I.node r name).isSome = true
    | (none, _) => False

/-- An expression that can be evaluated: the parameters and models exist and each function is registered and has a value at
each pair. -/
structure Evaluable (C : Cfg K) (I : Ifc) (e : Expr K) : Prop where
  vars : ∀ x ∈ varNames e, hasVar I x
  models : ∀ m ∈ modelNames e, hasModel I m
  calls : ∀ p ∈ calls e, p.2 ≠ [] ∧ takes I.math p.1 p.2.length ∧ p.1 ≠ nVecSum ∧ p.1 ≠ nVecMax ∧ p.1 ≠ nVecMin ∧
    ∀ i, i < I.env.n → (appl I.math p.1 (p.2.map (eval C (ienv I i)))).isSome = true

end Verif.Ifm
