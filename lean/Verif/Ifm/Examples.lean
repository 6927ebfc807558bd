import Verif.Ifm.Props
import Verif.Eval.Examples

/-! # Interface models: a case that meets the hypotheses, and F116 to F118 -/

namespace Verif.Ifm.Examples

open Verif.ScalarData Verif.Sym Verif.Sym.Examples Verif.Eval

/-- Two pairs of nodes, (3, 0) and (1, 2); node model `x` of the first region (10, 11, 12, 13), of the second (20, 21, 22);
interface models `u` (5, uniform) and `w` (4, 6), number 2 is `b`, being evaluated. -/
noncomputable def I : Ifc where
  env := ⟨2, fun k => if k = 0 then ⟨true, 5, []⟩ else ⟨false, 0, [4, 6]⟩, id⟩
  find m := if m = ['u'] then some 0 else if m = ['w'] then some 1 else if m = ['b'] then some 2 else none
  inProcess k := decide (k = 2)
  nodes0 := [3, 1]
  nodes1 := [0, 2]
  same := false
  node0 m := if m = ['x'] then some [10, 11, 12, 13] else none
  node1 m := if m = ['x'] then some [20, 21, 22] else none
  param0 m := if m = ['p'] then some 7 else if m = ['q'] then some 1 else none
  param1 m := if m = ['p'] then some 7 else if m = ['q'] then some 2 else none
  circ _ := none
  tcl _ := none
  fns := Eval.Examples.fns

theorem wf : I.Wf where
  env k h := by
    change (if k = 0 then (⟨true, 5, []⟩ : MModel ℝ) else ⟨false, 0, [4, 6]⟩).vals.length = 2
    change (if k = 0 then (⟨true, 5, []⟩ : MModel ℝ) else ⟨false, 0, [4, 6]⟩).uniform = false at h
    by_cases hk : k = 0
    · simp [hk] at h
    · simp [hk]
  n := rfl
  pairs := rfl
  same h := by cases h
  node r m l h j hj := by
    cases r with
    | r0 =>
      simp only [Ifc.node, I, Option.ite_none_right_eq_some, Option.some.injEq] at h
      obtain ⟨-, rfl⟩ := h
      simp only [pairNodes, I, List.mem_cons, List.not_mem_nil, or_false] at hj
      rcases hj with rfl | rfl <;> simp
    | r1 =>
      simp only [Ifc.node, I, Option.ite_none_right_eq_some, Option.some.injEq] at h
      obtain ⟨-, rfl⟩ := h
      simp only [pairNodes, I, List.mem_cons, List.not_mem_nil, or_false] at hj
      rcases hj with rfl | rfl <;> simp

theorem std : Std I.math where
  exp := Eval.Examples.std.exp
  log := Eval.Examples.std.log
  pow := Eval.Examples.std.pow
  blog := Eval.Examples.std.blog
  ulog := Eval.Examples.std.ulog

/-- `exp(x@r0) + x@r1 + u + w + p` -/
noncomputable def e : Expr ℝ :=
  .add [.exp (.model "x@r0".toList), .model "x@r1".toList, .model ['u'], .model ['w'], .var ['p']]

/-- The expression and its parts. -/
def parts (a : Expr ℝ) : Prop :=
  a = e ∨ a = .exp (.model "x@r0".toList) ∨ a = .model "x@r0".toList ∨ a = .model "x@r1".toList ∨ a = .model ['u'] ∨
    a = .model ['w'] ∨ a = .var ['p']

/-- They have different texts. -/
theorem texts : Texts C parts where
  det a b ha hb h ρ := by
    have h1 : ∃ r, str C e = '(' :: r := by
      unfold e str
      rw [ptree_add]
      simp [addTree, negSign, render]
    have h2 : str C (.exp (.model ['x', '@', 'r', '0'])) = "exp(x@r0)".toList := by
      unfold str
      rw [ptree_exp, ptree_model]
      simp [render, renderArgs]
    obtain ⟨r, h1⟩ := h1
    rcases ha with rfl | rfl | rfl | rfl | rfl | rfl | rfl <;> rcases hb with rfl | rfl | rfl | rfl | rfl | rfl | rfl <;>
      simp [h1, h2, str_model, str_var] at h ⊢
  add vs h := by
    simp only [parts, e, Expr.add.injEq, reduceCtorEq, or_false] at h
    subst h
    intro v hv
    simp only [List.mem_cons, List.not_mem_nil, or_false] at hv
    unfold parts
    tauto
  prod vs h := by simp [parts, e] at h
  exp a h := by
    simp only [parts, e, Expr.exp.injEq, reduceCtorEq, or_false, false_or] at h
    subst h
    unfold parts
    tauto
  log a h := by simp [parts, e] at h
  pow a b h := by simp [parts, e] at h
  user f as h := by simp [parts, e] at h
  blog op a b h := by simp [parts, e] at h
  ulog a h := by simp [parts, e] at h

theorem evaluable : Evaluable C I e where
  vars x hx := by
    simp only [e, varNames, varNamesL, List.append_nil, List.nil_append, List.mem_singleton] at hx
    subst hx
    rfl
  models m hm := by
    simp only [e, modelNames, modelNamesL, List.append_nil, List.mem_append, List.mem_singleton] at hm
    rcases hm with rfl | rfl | rfl | rfl <;> rfl
  calls p hp := by
    simp only [e, calls, callsL, List.append_nil, List.nil_append, List.mem_singleton] at hp
    subst hp
    exact ⟨by simp, by simp [takes, Ifc.math, I, Eval.Examples.fns], by decide, by decide, by decide,
      fun i _ => by simp [appl, Ifc.math, I, Eval.Examples.fns]⟩

/-- C80: at the second pair, node 1 of the first region and node 2 of the second, the model `exp(x@r0) + x@r1 + u + w + p` is
`exp(11) + 22 + 5 + 6 + 7`. -/
example : ∃ vals, modelValues C I e = some (some vals, 0) ∧ vals.length = 2 ∧
    vals[1]? = some (Real.exp 11 + (22 + (5 + (6 + 7)))) := by
  obtain ⟨vals, h1, h2, h3⟩ := interface_value_exists texts wf std (by change 0 < 2; omega) (Or.inl rfl) evaluable
  refine ⟨vals, h1, h2, ?_⟩
  rw [h3 1 (by change 1 < 2; omega)]
  have a : (ienv I 1).m "x@r0".toList = 11 := by
    have := mval_region (I := I) (x := ['x']) (by simp) .r0 rfl (l := [10, 11, 12, 13]) rfl (i := 1) (j := 1) rfl (by simp)
    exact (Option.some.inj this).symm
  have b : (ienv I 1).m "x@r1".toList = 22 := by
    have := mval_region (I := I) (x := ['x']) (by simp) .r1 rfl (l := [20, 21, 22]) rfl (i := 1) (j := 2) rfl (by simp)
    exact (Option.some.inj this).symm
  have c : (ienv I 1).m ['u'] = 5 := by
    have := mval_interface (I := I) wf (m := ['u']) (k := 0) rfl rfl (i := 1) (by change 1 < 2; omega)
    exact (Option.some.inj this).symm
  have d : (ienv I 1).m ['w'] = 6 := by
    have := mval_interface (I := I) wf (m := ['w']) (k := 1) rfl rfl (i := 1) (by change 1 < 2; omega)
    exact (Option.some.inj this).symm
  have f : (ienv I 1).v ['p'] = 7 := vars_shared (I := I) (x := ['p']) (split_none_iff.1 rfl) rfl rfl
  simp only [e, eval_add, eval_prod, eval_exp, eval_model, eval_var, List.map_cons, List.map_nil, List.sum_cons, List.sum_nil,
    List.prod_cons, List.prod_nil, a, b, c, d, f]
  simp

/-- The parameter `q` is 1 in one region and 2 in the other. -/
example : modelValues C I (.var ['q'] : Expr ℝ) = some (none, 1) :=
  shared_parameter_must_agree (split_none_iff.1 rfl) (a := 1) (b := 2) rfl rfl (by norm_num)

/-- F116: a name that refers to nothing is 0: the model gets values all the same, after a message. -/
theorem misspelled_model_is_zero : modelValues C I (.model ['z'] : Expr ℝ) = some (some [0, 0], 1) := by
  simp [modelValues, evalE, withCache, evalModel, I, split, IVal.isInvalid, assign]

/-- F116: a model that depends on itself gets values too: 0 stands for the model being evaluated. -/
theorem cyclic_model_is_zero : modelValues C I (.model ['b'] : Expr ℝ) = some (some [0, 0], 2) := by
  simp [modelValues, evalE, withCache, evalModel, I, IVal.isInvalid, assign]

/-- F117: `vec_sum` of a uniform interface model is the model, not the sum over the pairs: 5 at each of two pairs gives 5. -/
theorem vec_sum_of_uniform :
    modelValues C I (.user nVecSum [.model ['u']] : Expr ℝ) = some (some [5, 5], 0) := by
  simp [modelValues, evalE, evalArgs, withCache, evalModel, I, IVal.isInvalid, assign, callExt, extMath, IVal.isDouble, argOf,
    ofModel, Arg.isVec, vlenOf, mathScalar, Ifc.math, Eval.Examples.f_sum, Arg.sc0, ofScalar]

/-- The sum of `w` (4, 6) is 10. -/
example : modelValues C I (.user nVecSum [.model ['w']] : Expr ℝ) = some (some [10, 10], 0) := by
  simp [modelValues, evalE, evalArgs, withCache, evalModel, I, IVal.isInvalid, assign, callExt, extMath, IVal.isDouble, argOf,
    ofModel, Arg.isVec, vlenOf, mathVec, Ifc.math, Eval.Examples.f_sum, package, getScalarList, MModel.values, argsAt, Arg.get,
    List.range_succ]
  norm_num

/-- An interface of a region with itself, as for a periodic structure: pairs (0, 2) and (1, 3). -/
noncomputable def J : Ifc :=
  { I with nodes0 := [0, 1], nodes1 := [2, 3], same := true, node1 := I.node0 }

/-- F118: on such an interface `x@r1` is read at the nodes of the first list: 10 and 11 for 12 and 13. -/
theorem same_region_reads_first_nodes : modelValues C J (.model "x@r1".toList : Expr ℝ) = some (some [10, 11], 0) ∧
    (fun i => eval C (ienv J i) (.model "x@r1".toList : Expr ℝ)) 0 = 12 := by
  constructor
  · simp [modelValues, evalE, withCache, evalModel, J, I, split, IVal.isInvalid, assign, Ifc.node, readNodes, Ifc.nodesOf,
      ofVector, getScalarList]
  · simp [ienv, mval, J, I, split, Ifc.node, atPair, pairNodes]

/-- `x@r0*x@r1` -/
noncomputable def ed : Expr ℝ := .prod [.model "x@r0".toList, .model "x@r1".toList]

/-- Its derivative by `x@r0`. -/
theorem deriv_ed (U : UTab ℝ) : deriv C U (derivRule (1 : ℝ) 0) "x@r0".toList ed = .model "x@r1".toList := by
  simp [ed, Sym.deriv, derivL, prodTerms, prodTerm, sumOf, derivRule, split, Sym.isOne, Sym.isZero, conI, C, realCfg]

theorem speed_zero (i : Nat) (m : Str) : mval I i (m ++ ':' :: "x@r0".toList) = 0 := by
  have h1 : I.find (m ++ ':' :: "x@r0".toList) = none := by
    have : ∀ c : Char, m ++ ':' :: "x@r0".toList ≠ [c] := by
      intro c h
      have := congrArg List.length h
      simp at this
    simp only [I, this, if_false]
  have h2 : split (m ++ ':' :: "x@r0".toList) = (some .r0, m ++ [':', 'x']) := by
    have := split_r0 (x := m ++ [':', 'x']) (by simp)
    simpa using this
  have h3 : I.node .r0 (m ++ [':', 'x']) = none := by
    have : m ++ [':', 'x'] ≠ ['x'] := by
      intro h
      have := congrArg List.length h
      simp at this
    simp only [Ifc.node, I, this, if_false]
  simp only [mval, h1, h2, h3]

/-- The quantities of pair `i` when `x@r0` moves. -/
noncomputable def γ (i : Nat) (τ : ℝ) : Sym.Env :=
  ⟨fun y => if "x@r0".toList = y then vars I y + τ else vars I y, fun m => if m = "x@r0".toList then mval I i m + τ else mval I i m, (ienv I i).u⟩

theorem motion (i : Nat) : Motion I i "x@r0".toList (γ i) 0 where
  start := by
    simp only [γ, ienv]
    congr 1
    · funext y
      split_ifs <;> simp
    · funext m
      split_ifs <;> simp
  var y := by
    simp only [γ]
    split_ifs with h
    · simpa using (hasDerivAt_id (0 : ℝ)).const_add (vars I y)
    · exact hasDerivAt_const _ _
  func _ := rfl
  self := by
    simp only [γ, if_true]
    simpa using (hasDerivAt_id (0 : ℝ)).const_add (mval I i "x@r0".toList)
  same x r hx hne _ := by
    simp only [γ, hne, if_false, speed_zero]
    exact hasDerivAt_const _ _
  other x r hx hne _ := by
    simp only [γ, hne, if_false]
    exact hasDerivAt_const _ _
  interface m _ hne := by
    simp only [γ, hne, if_false, speed_zero]
    exact hasDerivAt_const _ _

theorem textsD : Texts C (fun a => a = (.model "x@r1".toList : Expr ℝ)) where
  det a b ha hb _ ρ := by rw [ha, hb]
  add vs h := by cases h
  prod vs h := by cases h
  exp a h := by cases h
  log a h := by cases h
  pow a b h := by cases h
  user f as h := by cases h
  blog op a b h := by cases h
  ulog a h := by cases h

theorem valuesD : modelValues C I (.model "x@r1".toList : Expr ℝ) = some (some [20, 22], 0) := by
  simp [modelValues, evalE, withCache, evalModel, I, split, IVal.isInvalid, assign, Ifc.node, readNodes, Ifc.nodesOf,
    ofVector, getScalarList]

/-- C81: the model that is the derivative of `x@r0*x@r1` by `x@r0` holds 22 at the second pair, which is the derivative. -/
example (U : UTab ℝ) : HasDerivAt (fun τ => eval C (γ 1 τ) ed) 22 0 := by
  have hreg : Regular C U (γ 1) 0 ed := by
    refine .prod ?_ (by simp)
    intro v hv
    simp only [List.mem_cons, List.not_mem_nil, or_false] at hv
    rcases hv with rfl | rfl <;> exact .model _
  obtain ⟨d, h1, h2⟩ := interface_derivative_value textsD wf std exact digitFirst U (1 : ℝ) 0 rfl rfl "x@r0".toList (e := ed)
    (deriv_ed U) (by rw [deriv_ed]; intro f hf; simp [fnNames] at hf) (vals := [20, 22]) (errs := 0)
    (by rw [deriv_ed]; exact valuesD) (i := 1) (by change 1 < 2; omega) (motion 1) hreg
  cases h1
  exact h2

end Verif.Ifm.Examples
