import Verif.Geom.Surface
import Mathlib.Analysis.Calculus.Deriv.Pow
import Mathlib.Analysis.Calculus.Deriv.Comp
import Mathlib.Analysis.Calculus.Deriv.Add
import Mathlib.Analysis.Calculus.Deriv.Mul
import Mathlib.Analysis.SpecialFunctions.Sqrt

/-!
# Models of an edge from models of its nodes

`src/GeomModels/AverageEdgeModel.cc` (command `edge_average_model`) and `src/models/EdgeFromNodeModel.cc`
(command `edge_from_node_model`), over the real numbers: floating point rounding is not modelled, and
`sqrt` of a negative number is `0` here but not a number in the program.
-/

namespace Verif.Fields

open Verif.Geom

/-! ### Model -/

/-- `AverageEdgeModelEnum` (`AverageEdgeModel.cc:23-28`) -/
inductive AvgType
  | arithmetic | geometric | gradient | negativeGradient
  deriving DecidableEq

/-- The value on one edge from the values of the head and the tail: `Arithmetic::operator()`
(`AverageEdgeModel.cc:106-110`), `Geometric::operator()` (`:121-125`), `doGradient` (`:281-307`).
`il` is the value of `EdgeInverseLength`. -/
noncomputable def average : AvgType → ℝ → ℝ → ℝ → ℝ
  | .arithmetic, _, x, y => 1 / 2 * (x + y)
  | .geometric, _, x, y => Real.sqrt (x * y)
  | .gradient, il, x, y => 1 * il * (y - x)
  | .negativeGradient, il, x, y => -1 * il * (y - x)

/-- The pair of derivatives (`AverageEdgeModel.cc:112-116`, `:128-133`, `:309-349`). -/
noncomputable def averageD : AvgType → ℝ → ℝ → ℝ → ℝ → ℝ → ℝ × ℝ
  | .arithmetic, _, _, xd, _, yd => (1 / 2 * xd, 1 / 2 * yd)
  | .geometric, _, x, xd, y, yd => (1 / 2 * xd * Real.sqrt (y / x), 1 / 2 * yd / Real.sqrt (y / x))
  | .gradient, il, _, xd, _, yd => (-(1 * il) * xd, 1 * il * yd)
  | .negativeGradient, il, _, xd, _, yd => (-(-1 * il) * xd, -1 * il * yd)

/-- `AverageEdgeModel::calcEdgeScalarValues` without a derivative (`AverageEdgeModel.cc:160-180`, `doMath` `:226-240`,
`doGradient` `:281-307`): the value on edge `i` from the values of the node model. -/
noncomputable def averageModel (ty : AvgType) (m : Mesh) (pos : Pos) (nv : Nat → ℝ) (i : Nat) : ℝ :=
  average ty (edgeInverseLength m pos i) (nv (edgeNode m i 0)) (nv (edgeNode m i 1))

/-- `AverageEdgeModel::calcEdgeScalarValues` with a derivative (`AverageEdgeModel.cc:182-222`): the values of
`model:variable@n0` and `model:variable@n1` on edge `i`. The derivative of the node model is `none` when the variable
is the node model itself (`:84-93`, `:264-276`). -/
noncomputable def averageModelD (ty : AvgType) (m : Mesh) (pos : Pos) (nv : Nat → ℝ) (nd : Option (Nat → ℝ)) (i : Nat) : ℝ × ℝ :=
  match nd with
  | some d => averageD ty (edgeInverseLength m pos i) (nv (edgeNode m i 0)) (d (edgeNode m i 0)) (nv (edgeNode m i 1))
      (d (edgeNode m i 1))
  | none => averageD ty (edgeInverseLength m pos i) (nv (edgeNode m i 0)) 1 (nv (edgeNode m i 1)) 1

/-- `EdgeFromNodeModel::calcEdgeScalarValues` (`EdgeFromNodeModel.cc:48-79`, `createEdgeModelsFromNodeModel`
`EdgeScalarData.cc:19-32`): the values of `model@n0` and `model@n1`. -/
def edgeFromNode (m : Mesh) (nv : Nat → ℝ) (i : Nat) : ℝ × ℝ := (nv (edgeNode m i 0), nv (edgeNode m i 1))

/-! ### Specification -/

/-- The slope of the model on the edge, seen as a function of the variable on node `v` alone. `f` gives the value of the
node model on each node from the value of the variable on that node. -/
noncomputable def alongNode (f : Nat → ℝ → ℝ) (u : Nat → ℝ) (v : Nat) (g : (Nat → ℝ) → ℝ) : ℝ → ℝ :=
  fun s => g fun n => f n (Function.update u v s n)

/-! ### Values -/

/-- The arithmetic mean is between the two values. -/
theorem arithmetic_spec (m : Mesh) (pos : Pos) (nv : Nat → ℝ) (i : Nat) :
    averageModel .arithmetic m pos nv i * 2 = nv (edgeNode m i 0) + nv (edgeNode m i 1) := by
  unfold averageModel average
  norm_num
  ring

/-- The geometric mean: not negative, and its square is the product. -/
theorem geometric_spec (m : Mesh) (pos : Pos) (nv : Nat → ℝ) (i : Nat) (h : 0 ≤ nv (edgeNode m i 0) * nv (edgeNode m i 1)) :
    0 ≤ averageModel .geometric m pos nv i ∧
    averageModel .geometric m pos nv i * averageModel .geometric m pos nv i = nv (edgeNode m i 0) * nv (edgeNode m i 1) :=
  ⟨Real.sqrt_nonneg _, Real.mul_self_sqrt h⟩

/-- The gradient: the difference of the values over the length. -/
theorem gradient_spec {m : Mesh} {pos : Pos} (nv : Nat → ℝ) {i : Nat} (h : 0 < edgeLength m pos i) :
    averageModel .gradient m pos nv i * edgeLength m pos i = nv (edgeNode m i 1) - nv (edgeNode m i 0) ∧
    averageModel .negativeGradient m pos nv i = - averageModel .gradient m pos nv i := by
  have := edgeInverseLength_spec h
  unfold averageModel average
  constructor
  · norm_num
    linear_combination (nv (edgeNode m i 1) - nv (edgeNode m i 0)) * this
  · norm_num

/-- **The gradient of a linear function** on an edge is the projection of its gradient vector on the direction of the
edge (`unitx`, `unity`, `unitz`). -/
theorem gradient_linear {m : Mesh} {pos : Pos} {i : Nat} (h : 0 < edgeLength m pos i) (g : V3) (c : ℝ) :
    averageModel .gradient m pos (fun n => V3.dot g (pos n) + c) i = V3.dot g (unitVec m pos i) := by
  obtain ⟨h1, -⟩ := unitVec_spec h
  obtain ⟨h2, -⟩ := gradient_spec (fun n => V3.dot g (pos n) + c) h
  have hne : edgeLength m pos i ≠ 0 := ne_of_gt h
  refine mul_right_cancel₀ hne ?_
  rw [h2]
  have : V3.dot g (unitVec m pos i) * edgeLength m pos i = V3.dot g (V3.smul (unitVec m pos i) (edgeLength m pos i)) := by
    simp only [V3.dot, V3.smul]; ring
  rw [this, h1]
  simp only [V3.dot, V3.sub]; ring

/-- `edge_from_node_model`: the values on the two nodes of the edge, in their order. -/
theorem edgeFromNode_spec {m : Mesh} (nv : Nat → ℝ) {i a b : Nat} (he : m.edges[i]? = some [a, b]) :
    edgeFromNode m nv i = (nv a, nv b) := by
  obtain ⟨h1, -⟩ := get_nodesOf he
  simp [edgeFromNode, edgeNode, h1]

/-! ### Derivatives -/

theorem sqrt_ratio {x y : ℝ} (hx : 0 < x) (hy : 0 < y) :
    Real.sqrt (y / x) = y / Real.sqrt (x * y) ∧ 1 / Real.sqrt (y / x) = x / Real.sqrt (x * y) := by
  have h1 : Real.sqrt x ≠ 0 := (Real.sqrt_pos.2 hx).ne'
  have h2 : Real.sqrt y ≠ 0 := (Real.sqrt_pos.2 hy).ne'
  have e1 := Real.mul_self_sqrt hx.le
  have e2 := Real.mul_self_sqrt hy.le
  rw [Real.sqrt_div hy.le, Real.sqrt_mul hx.le]
  constructor
  · field_simp
    nlinarith
  · field_simp
    nlinarith

/-- The derivative of one value by one of its two arguments. -/
theorem average_hasDerivAt (ty : AvgType) (il : ℝ) {p q : ℝ → ℝ} {p' q' s : ℝ} (hp : HasDerivAt p p' s) (hq : HasDerivAt q q' s)
    (hpos : ty = .geometric → 0 < p s ∧ 0 < q s) :
    HasDerivAt (fun s => average ty il (p s) (q s)) ((averageD ty il (p s) p' (q s) q').1 + (averageD ty il (p s) p' (q s) q').2) s := by
  cases ty with
  | arithmetic =>
    have := (hp.add hq).const_mul (1 / 2 : ℝ)
    refine this.congr_deriv ?_
    simp only [averageD]; ring
  | geometric =>
    obtain ⟨hx, hy⟩ := hpos rfl
    have hxy := mul_pos hx hy
    have := (hp.mul hq).sqrt hxy.ne'
    refine this.congr_deriv ?_
    obtain ⟨e1, e2⟩ := sqrt_ratio hx hy
    simp only [averageD]
    have e3 : 1 / 2 * q' / Real.sqrt (q s / p s) = 1 / 2 * q' * (p s / Real.sqrt (p s * q s)) := by
      rw [← e2]; ring
    rw [e3, e1]
    have h0 : Real.sqrt (p s * q s) ≠ 0 := (Real.sqrt_pos.2 hxy).ne'
    simp only [Pi.mul_apply]
    field_simp
  | gradient =>
    have := (hq.sub hp).const_mul (1 * il)
    refine this.congr_deriv ?_
    simp only [averageD]; ring
  | negativeGradient =>
    have := (hq.sub hp).const_mul (-1 * il)
    refine this.congr_deriv ?_
    simp only [averageD]; ring

/-- What is needed for the derivative of a geometric mean: the values are positive. -/
def AvgPos (ty : AvgType) (m : Mesh) (nv : Nat → ℝ) (i : Nat) : Prop :=
  ty = .geometric → 0 < nv (edgeNode m i 0) ∧ 0 < nv (edgeNode m i 1)

theorem averageD_one (ty : AvgType) (il x xd y : ℝ) : (averageD ty il x xd y 0).2 = 0 ∧ (averageD ty il x 0 y xd).1 = 0 := by
  cases ty <;> simp [averageD]

theorem averageD_fst (ty : AvgType) (il x xd y yd yd' : ℝ) : (averageD ty il x xd y yd).1 = (averageD ty il x xd y yd').1 := by
  cases ty <;> simp [averageD]

theorem averageD_snd (ty : AvgType) (il x xd xd' y yd : ℝ) : (averageD ty il x xd y yd).2 = (averageD ty il x xd' y yd).2 := by
  cases ty <;> simp [averageD]

/-- **Derivatives of an average**: for every kind of average and every edge with two different nodes, the values of
`model:variable@n0` and `model:variable@n1` are the derivatives of the value of the model on the edge by the variable on
the first and on the second node, when `nd` holds the derivatives of the node model by the variable. -/
theorem averageModelD_spec (ty : AvgType) (m : Mesh) (pos : Pos) (f : Nat → ℝ → ℝ) (u nd : Nat → ℝ) (i : Nat)
    (hne : edgeNode m i 0 ≠ edgeNode m i 1) (hd : ∀ n, HasDerivAt (f n) (nd n) (u n))
    (hpos : AvgPos ty m (fun n => f n (u n)) i) :
    HasDerivAt (alongNode f u (edgeNode m i 0) fun nv => averageModel ty m pos nv i)
      (averageModelD ty m pos (fun n => f n (u n)) (some nd) i).1 (u (edgeNode m i 0)) ∧
    HasDerivAt (alongNode f u (edgeNode m i 1) fun nv => averageModel ty m pos nv i)
      (averageModelD ty m pos (fun n => f n (u n)) (some nd) i).2 (u (edgeNode m i 1)) := by
  constructor
  · have h := average_hasDerivAt ty (edgeInverseLength m pos i) (hd (edgeNode m i 0))
      (hasDerivAt_const (u (edgeNode m i 0)) (f (edgeNode m i 1) (u (edgeNode m i 1)))) hpos
    rw [(averageD_one ..).1, add_zero, averageD_fst _ _ _ _ _ _ (nd (edgeNode m i 1))] at h
    refine HasDerivAt.congr_of_eventuallyEq h (Filter.Eventually.of_forall fun s => ?_)
    simp only [alongNode, averageModel]
    rw [Function.update_self, Function.update_of_ne hne.symm]
  · have h := average_hasDerivAt ty (edgeInverseLength m pos i)
      (hasDerivAt_const (u (edgeNode m i 1)) (f (edgeNode m i 0) (u (edgeNode m i 0)))) (hd (edgeNode m i 1)) hpos
    rw [(averageD_one ..).2, zero_add, averageD_snd _ _ _ _ (nd (edgeNode m i 0))] at h
    refine HasDerivAt.congr_of_eventuallyEq h (Filter.Eventually.of_forall fun s => ?_)
    simp only [alongNode, averageModel]
    rw [Function.update_self, Function.update_of_ne hne]

/-- **Derivatives by the node model itself**: no model of the derivative is needed. -/
theorem averageModelD_self (ty : AvgType) (m : Mesh) (pos : Pos) (u : Nat → ℝ) (i : Nat)
    (hne : edgeNode m i 0 ≠ edgeNode m i 1) (hpos : AvgPos ty m u i) :
    HasDerivAt (fun s => averageModel ty m pos (Function.update u (edgeNode m i 0) s) i)
      (averageModelD ty m pos u none i).1 (u (edgeNode m i 0)) ∧
    HasDerivAt (fun s => averageModel ty m pos (Function.update u (edgeNode m i 1) s) i)
      (averageModelD ty m pos u none i).2 (u (edgeNode m i 1)) :=
  averageModelD_spec ty m pos (fun _ x => x) u (fun _ => 1) i hne (fun n => hasDerivAt_id _) hpos

/-- Other nodes have no effect on the value on the edge. -/
theorem averageModel_local (ty : AvgType) (m : Mesh) (pos : Pos) (nv nv' : Nat → ℝ) (i : Nat)
    (h : ∀ k < 2, nv (edgeNode m i k) = nv' (edgeNode m i k)) : averageModel ty m pos nv i = averageModel ty m pos nv' i := by
  unfold averageModel
  rw [h 0 (by omega), h 1 (by omega)]

/-- On edges of a region the nodes of an edge are different. -/
theorem edge_nodes_ne {m : Mesh} (h : m.Good) {i : Nat} (hi : i < m.edges.length) : edgeNode m i 0 ≠ edgeNode m i 1 :=
  by
  obtain ⟨-, h1, h2⟩ := edgeNode_spec h hi
  omega

/-! ### What fails -/

/-- A region with one edge. -/
def oneEdge : Mesh := { dim := 1, n := 2, edges := [[0, 1]], tris := [], tets := [] }

/-- **The geometric mean of two negative values has derivatives of the wrong sign**: here the value is
`sqrt ((-1)·(-1)) = 1`, and it decreases when the variable on the first node grows, but `@n0` is `1/2`. -/
theorem geometric_negative_wrong (pos : Pos) :
    HasDerivAt (fun s => averageModel .geometric oneEdge pos (Function.update (fun _ => -1) 0 s) 0) (-(1 / 2)) (-1) ∧
    (averageModelD .geometric oneEdge pos (fun _ => -1) none 0).1 = 1 / 2 := by
  have e0 : edgeNode oneEdge 0 0 = 0 := rfl
  have e1 : edgeNode oneEdge 0 1 = 1 := rfl
  constructor
  · have h : HasDerivAt (fun s : ℝ => Real.sqrt (s * -1)) (-(1 / 2)) (-1) := by
      have h0 := ((hasDerivAt_id (-1 : ℝ)).mul_const (-1)).sqrt (by norm_num)
      refine h0.congr_deriv ?_
      norm_num
    refine HasDerivAt.congr_of_eventuallyEq h (Filter.Eventually.of_forall fun s => ?_)
    simp [averageModel, average, e0, e1]
  · simp [averageModelD, averageD, e0, e1]

/-! ### Example -/

/-- The hypotheses hold, with a node model that is not linear. -/
example (pos : Pos) :
    HasDerivAt (alongNode (fun _ x => x ^ 2 + 1) (fun _ => 3) 0 fun nv => averageModel .geometric oneEdge pos nv 0) 3 3 := by
  have := (averageModelD_spec .geometric oneEdge pos (fun _ x => x ^ 2 + 1) (fun _ => 3) (fun _ => 6) 0 (by decide)
    (fun n => by simpa using ((hasDerivAt_pow 2 (3 : ℝ)).add_const 1).congr_deriv (by norm_num))
    (fun _ => by norm_num)).1
  refine this.congr_deriv ?_
  simp [averageModelD, averageD]
  norm_num

end Verif.Fields
