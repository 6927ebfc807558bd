import Verif.Eval.Props
import Verif.Sym.Examples

/-! # Expression models: cases that meet the hypotheses, and F68 -/

namespace Verif.Eval.Examples

open Verif.ScalarData Verif.Sym Verif.Sym.Examples

/-- The models of a triangle: node models `x` (1, 2, 3) and `u` (5 everywhere), edge model `w@n0` (4, 6, 8), triangle edge
model `t` (1, 0, 2). -/
noncomputable def env : Kind → ScalarData.Env ℝ
  | .node => ⟨3, fun j => if j = 0 then ⟨false, 0, [1, 2, 3]⟩ else ⟨true, 5, []⟩, id⟩
  | .edge => ⟨3, fun _ => ⟨false, 0, [4, 6, 8]⟩, id⟩
  | .tri => ⟨3, fun _ => ⟨false, 0, [1, 0, 2]⟩, id⟩
  | .tet => ⟨0, fun _ => ⟨true, 0, []⟩, id⟩

def find : Kind → Str → Option Nat
  | .node, m => if m = ['x'] then some 0 else if m = ['u'] then some 1 else none
  | .edge, m => if m = ['w', '@', 'n', '0'] then some 0 else none
  | .tri, m => if m = ['t'] then some 0 else none
  | .tet, _ => none

/-- Built in functions: `log` fails outside of its domain. -/
noncomputable def fns (f : Str) : Option Fn :=
  if f = ['e', 'x', 'p'] then some ⟨1, fun xs => match xs with | [x] => some (Real.exp x) | _ => none⟩
  else if f = ['l', 'o', 'g'] then some ⟨1, fun xs => match xs with
    | [x] => if 0 < x then some (Real.log x) else none
    | _ => none⟩
  else if f = ['<'] then some ⟨2, fun xs => match xs with | [x, y] => some (LOp.lt.sem x y) | _ => none⟩
  else if f = nVecSum then some ⟨1, fun xs => match xs with | [x] => some x | _ => none⟩
  else none

theorem f_log : fns ['l', 'o', 'g'] = some ⟨1, fun xs => match xs with
    | [x] => if 0 < x then some (Real.log x) else none
    | _ => none⟩ := by
  unfold fns
  rw [if_neg (by decide), if_pos rfl]

theorem f_sum : fns nVecSum = some ⟨1, fun xs => match xs with | [x] => some x | _ => none⟩ := by
  unfold fns
  rw [if_neg (by decide), if_neg (by decide), if_neg (by decide), if_pos rfl]

noncomputable def R : Reg where
  env := env
  find := find
  inProcess _ _ := false
  ntri := 1
  ntet := 0
  triEdge i := 2 - i
  tetEdge _ := 0
  param x := if x = ['p'] then some 7 else none
  circ _ := none
  tcl _ := none
  fns := fns

theorem wf : R.Wf where
  env k := by
    intro j h
    cases k
    · change (if j = 0 then (⟨false, 0, [1, 2, 3]⟩ : MModel ℝ) else ⟨true, 5, []⟩).vals.length = 3
      change (if j = 0 then (⟨false, 0, [1, 2, 3]⟩ : MModel ℝ) else ⟨true, 5, []⟩).uniform = false at h
      by_cases hj : j = 0
      · simp [hj]
      · simp [hj] at h
    · rfl
    · rfl
    · cases h
  ntri := rfl
  ntet := rfl
  triEdge i _ := by change 2 - i < 3; omega
  tetEdge i hi := by change i < 6 * 0 at hi; omega
  hasTri _ := Nat.one_pos
  hasTet h := by obtain ⟨m, hm⟩ := h; exact absurd rfl hm

theorem elems : Elems R := Or.inl fun h => by obtain ⟨m, hm⟩ := h; exact absurd rfl hm

theorem std : Std R where
  exp x y h := by simpa [appl, R, fns, eq_comm] using h
  log x y h := by
    simp only [appl, R, f_log] at h
    split_ifs at h
    cases h; rfl
  pow a b y h := by
    simp only [appl, R, fns] at h
    rw [if_neg (by decide), if_neg (by decide), if_neg (by decide), if_neg (by decide)] at h
    cases h
  blog op a b y h := by
    cases op <;> simp only [appl, R, fns, opName] at h
    case lt =>
      rw [if_neg (by decide), if_neg (by decide), if_pos trivial] at h
      cases h; rfl
    all_goals
      rw [if_neg (by decide), if_neg (by decide), if_neg (by decide), if_neg (by decide)] at h
      cases h
  ulog a y h := by
    simp only [appl, R, fns] at h
    rw [if_neg (by decide), if_neg (by decide), if_neg (by decide), if_neg (by decide)] at h
    cases h

/-- The names known to the parser. -/
def T : Tables := ⟨fun _ => none, fun m => m = ['x'] || m = ['u']⟩

/-- `u*exp(x) + log(x) + p`, a node model. -/
noncomputable def e : Expr ℝ :=
  .add [.prod [.model ['u'], .exp (.model ['x'])], .log (.model ['x']), .var ['p']]

theorem wfE : WF T SmallInt e := by
  have hx : WF T SmallInt (.model ['x'] : Expr ℝ) := .model (by decide) (by decide) (by decide) (by decide)
  have hu : WF T SmallInt (.model ['u'] : Expr ℝ) := .model (by decide) (by decide) (by decide) (by decide)
  refine .add (by simp) ?_
  intro v hv
  simp only [List.mem_cons, List.not_mem_nil, or_false] at hv
  rcases hv with rfl | rfl | rfl
  · refine .prod (by simp) ?_
    intro v hv
    simp only [List.mem_cons, List.not_mem_nil, or_false] at hv
    rcases hv with rfl | rfl
    · exact hu
    · exact .exp hx
  · exact .log hx
  · exact .var (by decide) (by decide) (by decide) (by decide)

theorem mx (i : Nat) : mval R .node i ['x'] = [1, 2, 3].getD i 0 := by
  simp [mval, resolve, R, find, valueAt, loc, env, MModel.values]

theorem mu (i : Nat) (hi : i < 3) : mval R .node i ['u'] = 5 := by
  rcases i with _ | _ | _ | i
  · simp [mval, resolve, R, find, valueAt, loc, env, MModel.values]
  · simp [mval, resolve, R, find, valueAt, loc, env, MModel.values]
  · simp [mval, resolve, R, find, valueAt, loc, env, MModel.values]
  · omega

theorem evaluable : Evaluable C R .node e where
  vars x hx := by
    simp only [e, varNames, varNamesL, List.append_nil, List.nil_append, List.mem_singleton] at hx
    subst hx; left; rfl
  models m hm k' j h := by
    refine ⟨rfl, ?_⟩
    simp only [e, modelNames, modelNamesL, List.append_nil, List.mem_append, List.mem_singleton] at hm
    rcases hm with (rfl | rfl) | rfl
    · have : resolve R ['u'] = some (.node, 1) := rfl
      rw [this] at h; cases h; exact Or.inl rfl
    · have : resolve R ['x'] = some (.node, 0) := rfl
      rw [this] at h; cases h; exact Or.inl rfl
    · have : resolve R ['x'] = some (.node, 0) := rfl
      rw [this] at h; cases h; exact Or.inl rfl
  calls p hp := by
    simp only [e, calls, callsL, List.append_nil, List.nil_append, List.mem_append, List.mem_singleton] at hp
    rcases hp with rfl | rfl
    · refine ⟨by simp, by simp [takes, R, fns], by decide, by decide, by decide, fun i _ => by simp [appl, R, fns]⟩
    · refine ⟨by simp, ?_, by decide, by decide, by decide, fun i hi => ?_⟩
      · change takes R ['l', 'o', 'g'] 1
        simp only [takes, R, f_log]
      · have : (penv R .node i).m ['x'] = [1, 2, 3].getD i 0 := mx i
        simp only [List.map_cons, List.map_nil, eval_model, this]
        have hl : R.fns ['l', 'o', 'g'] = _ := f_log
        have ht : R.tcl ['l', 'o', 'g'] = none := rfl
        simp only [appl, ht, hl]
        have hi' : i < 3 := hi
        rcases i with _ | _ | _ | i
        · simp
        · simp
        · simp
        · omega

/-- C53: the node model `u*exp(x) + log(x) + p` gets the value `5*exp(3) + log(3) + 7` at the third node. -/
example : ∃ vals, modelValues C R ⟨[], some .node⟩ .node e = some (some vals) ∧ vals.length = 3 ∧
    vals[2]? = some (5 * Real.exp 3 + (Real.log 3 + 7)) := by
  obtain ⟨vals, h1, h2, h3⟩ := model_value_exists (texts_wf exact faithful) wf elems std ⟨['x'], by simp [R, find]⟩
    (fun h => by rcases h with h | h <;> cases h) (by change 0 < 3; omega) wfE evaluable (some .node)
  refine ⟨vals, h1, h2, ?_⟩
  rw [h3 2 (by change 2 < 3; omega)]
  have a : (penv R .node 2).m ['x'] = 3 := by rw [show (penv R .node 2).m ['x'] = _ from mx 2]; simp
  have b : (penv R .node 2).m ['u'] = 5 := mu 2 (by omega)
  have c : (penv R .node 2).v ['p'] = 7 := by simp [penv, genv, vars, R]
  simp [e, a, b, c]

/-- `t*w@en0`, a model on the edges of the triangle that uses an edge model. -/
noncomputable def et : Expr ℝ := .prod [.model ['t'], .model ['w', '@', 'e', 'n', '0']]

/-- The expression and its parts have different texts. -/
theorem textsEt : Texts C (fun a => a = et ∨ a = .model ['t'] ∨ a = .model ['w', '@', 'e', 'n', '0']) where
  det a b ha hb h ρ := by
    have h1 : ∃ r, str C et = '(' :: r := by
      unfold et str
      rw [ptree_prod]
      simp [prodTree, ptree_model, render]
    obtain ⟨r, h1⟩ := h1
    rcases ha with rfl | rfl | rfl <;> rcases hb with rfl | rfl | rfl <;> simp [h1, str_model] at h ⊢
  add vs h := by simp [et] at h
  prod vs h v hv := by
    simp only [et, Expr.prod.injEq, reduceCtorEq, or_false] at h
    subst h
    simpa [or_comm] using Or.inr hv
  exp a h := by simp [et] at h
  log a h := by simp [et] at h
  pow a b h := by simp [et] at h
  user f as h := by simp [et] at h
  blog op a b h := by simp [et] at h
  ulog a h := by simp [et] at h

theorem evaluableT : Evaluable C R .tri et where
  vars x hx := by simp [et, varNames, varNamesL] at hx
  models m hm k' j h := by
    refine ⟨rfl, ?_⟩
    simp only [et, modelNames, modelNamesL, List.append_nil, List.mem_append, List.mem_singleton] at hm
    rcases hm with rfl | rfl
    · have : resolve R ['t'] = some (.tri, 0) := rfl
      rw [this] at h; cases h; exact Or.inl rfl
    · have : resolve R ['w', '@', 'e', 'n', '0'] = some (.edge, 0) := rfl
      rw [this] at h; cases h; exact Or.inr ⟨rfl, Or.inl rfl⟩
  calls p hp := by simp [et, calls, callsL] at hp

/-- C53: at the third edge of the triangle, which lies on the first edge of the region, the value is `2 * 4`. -/
example : ∃ vals, modelValues C R ⟨[], some .tri⟩ .tri et = some (some vals) ∧ vals.length = 3 ∧ vals[2]? = some 8 := by
  obtain ⟨vals, h1, h2, h3⟩ := model_value_exists textsEt wf elems std (k := .tri) ⟨['t'], by simp [R, find]⟩
    (fun _ j hj => ⟨2 - j, by change 2 - j < 3; omega, by
      change j < 3 at hj
      change some (2 - (2 - j)) = some j
      congr 1; omega⟩) (by change 0 < 3; omega) (Or.inl rfl) evaluableT (some .tri)
  refine ⟨vals, h1, h2, ?_⟩
  rw [h3 2 (by change 2 < 3; omega)]
  have a : (penv R .tri 2).m ['t'] = 2 := by
    simp [penv, genv, mval, resolve, R, find, valueAt, loc, env, MModel.values]
  have b : (penv R .tri 2).m ['w', '@', 'e', 'n', '0'] = 4 := by
    simp [penv, genv, mval, resolve, R, find, valueAt, loc, env, MModel.values, aliasName]
  simp [et, a, b]; norm_num

/-- The contact of the example has the first node. -/
def cx : Ctx := ⟨[0], some .node⟩

theorem cxwf : cx.Wf := fun _ => ⟨Or.inl rfl, by simp [cx]⟩

/-- C53 for a contact model: if `u*exp(x) + log(x) + p` gets values, the one at the node of the contact is
`5*exp(1) + log(1) + 7`. -/
example (vals : List ℝ) (h : modelValues C R cx .node e = some (some vals)) :
    vals[0]? = some (5 * Real.exp 1 + (Real.log 1 + 7)) := by
  obtain ⟨-, h3⟩ := model_value (texts_wf exact faithful) wf elems std cxwf ⟨['x'], by simp [R, find]⟩ wfE evaluable.toCalls h
  rw [h3 0 (by change 0 < 3; omega) (Or.inr ⟨rfl, by simp [cx]⟩)]
  have a : (penv R .node 0).m ['x'] = 1 := by rw [show (penv R .node 0).m ['x'] = _ from mx 0]; simp
  have b : (penv R .node 0).m ['u'] = 5 := mu 0 (by omega)
  have c : (penv R .node 0).v ['p'] = 7 := by simp [penv, genv, vars, R]
  simp [e, a, b, c]

/-- F68: the cache is shared between the evaluation of a contact model and that of the models it asks for
(ModelExprEval.cc:410-421: the region keeps the cache as long as an evaluation is under way). A contact model leaves in it
arrays that are right at the contact only: evaluating `exp(x)` for an ordinary node model, with the cache that the
evaluation of the same text at the contact leaves, gives 0 instead of `exp(2)` at the second node. -/
theorem contact_cache : ∃ st v st', evalE C R cx (.exp (.model ['x'])) ⟨[], 0⟩ = some (v, st) ∧
    (evalE C R ⟨[], none⟩ (.exp (.model ['x'])) st).bind (fun r => assign R .node r.1) = some (some st') ∧
    st'[0]? = some (Real.exp 1) ∧ st'[1]? = some 0 ∧ eval C (penv R .node 1) (.exp (.model ['x'])) = Real.exp 2 := by
  have hres : resolve R ['x'] = some (.node, 0) := rfl
  obtain ⟨c, hm, -⟩ := evalE_model C R cx hres rfl ⟨[], 0⟩ rfl
  have hof : ofModel (R.env .node) 0 = ⟨some 0, [], false, 0, 3⟩ := by simp [ofModel, R, env]
  have hgl : getScalarList (R.env .node) ⟨some 0, [], false, 0, 3⟩ = [1, 2, 3] := by
    simp [getScalarList, MModel.values, R, env]
  have hms : ∀ x, mathScalar R ['e', 'x', 'p'] [x] = ⟨Real.exp x, false, false⟩ := by
    intro x; simp [mathScalar, R, fns]
  have hve : vectorEval R cx ['e', 'x', 'p'] [.data .node (ofModel (R.env .node) 0)]
      = some ⟨([Real.exp 1, 0, 0], 0), false, false⟩ := by
    rw [hof]
    have ha : argOf R (.data .node ⟨some 0, [], false, 0, 3⟩) = .vec [1, 2, 3] := by simp only [argOf, hgl]; rfl
    have hl : vlenOf R [.data .node ⟨some 0, [], false, 0, 3⟩] 0 = 3 := by simp [vlenOf, hgl]
    simp only [vectorEval, cx, List.map_cons, List.map_nil, ha, hl]
    simp [Arg.isVec, Val.isKind, List.range_succ, cloop, argsAt, Arg.get, hms]
  have hpre : preConvert R [.data .node (ofModel (R.env .node) 0)] = some [.data .node (ofModel (R.env .node) 0)] := by
    simp [preConvert, Val.isKind]
  have hne : nErrs [.data .node (ofModel (R.env .node) 0)] = 0 := by simp [nErrs, Val.isKind, Val.isInvalid]
  have hpk := package_ok (k := .node) (name := ['e', 'x', 'p']) (argv := [.data .node (ofModel (R.env .node) 0)])
    ⟨by simp, _, List.mem_singleton_self _, _, rfl⟩ (by decide)
  have hext : extMath R cx ['e', 'x', 'p'] [.data .node (ofModel (R.env .node) 0)] 0
      = some (.data .node (ofVector [Real.exp 1, 0, 0]), 0, false) := by
    simp only [extMath, List.isEmpty_cons, Bool.false_eq_true, if_false, hpre, Option.bind_some, hne, ne_eq, not_true_eq_false,
      extEval, List.all_cons, Val.isDouble, Bool.false_and, hve, hpk, List.isEmpty_cons, Bool.and_false]
  have h1 : evalE C R cx (.exp (.model ['x'])) ⟨[], 0⟩ = some (.data .node (ofVector [Real.exp 1, 0, 0]),
      ⟨(str C (.exp (.model ['x'])), .data .node (ofVector [Real.exp 1, 0, 0])) :: c, 0⟩) := by
    rw [evalE]
    simp only [withCache, List.lookup, hm, Option.bind_some, callExt, hext, Option.map_some, Bool.false_eq_true, if_false, Val.isInvalid]
  refine ⟨_, _, [Real.exp 1, 0, 0], h1, ?_, by simp, by simp, ?_⟩
  · rw [evalE]
    simp [withCache, assign, ofVector, getScalarList]
  · rw [eval_exp, eval_model, show (penv R .node 1).m ['x'] = _ from mx 1]; simp

/-- `vec_sum(x)` is 6. -/
example : extMath R ⟨[], none⟩ nVecSum [.data .node (ofModel (R.env .node) 0)] 0 = some (.double 6, 0, false) := by
  rw [vec_sum_value wf rfl ⟨rfl, _, f_sum, rfl, fun x => rfl⟩ (ofModel_spec _ _).1, (ofModel_spec _ _).2]
  simp [R, env, MModel.values]; norm_num

end Verif.Eval.Examples
