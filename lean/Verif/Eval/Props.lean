import Verif.Eval.Total
import Verif.Sym.Deriv

/-! # Theorems about the values of expression models (property C53) -/

namespace Verif.Eval

open Verif.ScalarData Verif.Sym

variable {K : Type}

/-- The values that the evaluation of a model of kind `k` with expression `e` gives to it, starting with an empty cache:
`calcNodeScalarValues` (NodeExprModel.cc:75-130) and the like. `none`: undefined behaviour, `some none`: the command fails. -/
noncomputable def modelValues (C : Cfg K) (R : Reg) (cx : Ctx) (k : Kind) (e : Expr K) : Option (Option (List ℝ)) :=
  (evalE C R cx e ⟨[], 0⟩).bind fun r => assign R k r.1

/-- The expressions of the engine in `src/adiff`. -/
theorem texts_wf {C : Cfg K} (hC : C.Exact) {T : Tables} {S : K → Prop} {read : Str → K} (hF : C.Faithful S read) :
    Texts C (WF T S) where
  det a b ha hb h ρ := eval_of_str_eq hC hF ha hb h ρ
  add vs h := by cases h with | add _ h => exact h
  prod vs h := by cases h with | prod _ h => exact h
  exp a h := by cases h with | exp h => exact h
  log a h := by cases h with | log h => exact h
  pow a b h := by cases h with | pow h h' => exact ⟨h, h'⟩
  user f as h := by cases h with | user _ _ _ _ _ h => exact h
  blog op a b h := by cases h with | blog h h' => exact ⟨h, h'⟩
  ulog a h := by cases h with | ulog h => exact h

/-- What `assign` takes from a right value. -/
theorem assign_denotes {R : Reg} (hR : R.Wf) {cx : Ctx} {k : Kind} (hk : has R k) {g : (Str → ℝ) → ℝ} {v : Val}
    {vals : List ℝ} (hd : Denotes R cx g v) (h : assign R k v = some (some vals)) :
    vals.length = (R.env k).n ∧ ∀ i : Nat, i < (R.env k).n → cx.pt k i → vals[i]? = some (g (mval R k i)) := by
  have main : ∀ w, Denotes R cx g w → (match w with
      | .double x => some (some (List.replicate (R.env k).n x))
      | .data k' s =>
        if k' = k then
          some (some (if s.isuniform then List.replicate (R.env k).n s.uval else getScalarList (R.env k) s))
        else some none
      | .invalid => some none) = some (some vals) →
      vals.length = (R.env k).n ∧ ∀ i : Nat, i < (R.env k).n → cx.pt k i → vals[i]? = some (g (mval R k i)) := by
    intro w hw hv
    cases w with
    | invalid => simp at hv
    | double x =>
      simp only [Option.some.injEq] at hv
      subst hv
      refine ⟨by simp, fun i hi _ => ?_⟩
      rw [List.getElem?_replicate, if_pos hi, hw _ (adm_mval R k i)]
    | data k' s =>
      simp only at hv
      split_ifs at hv with hkk hu
      · subst hkk
        simp only [Option.some.injEq] at hv
        subst hv
        refine ⟨by simp, fun i hi hp => ?_⟩
        have := hw.2.2.2.2 k' i i hp hi (loc_self i)
        rw [← this]
        simp [denote, getScalarList, hu, hw.1.1]
      · subst hkk
        simp only [Option.some.injEq] at hv
        subst hv
        refine ⟨denote_length _ (hR.env k') s hw.1, fun i hi hp => ?_⟩
        exact hw.2.2.2.2 k' i i hp hi (loc_self i)
      · cases hv
  unfold assign at h
  cases k with
  | node => simp only [Option.bind_eq_bind, Option.bind_some] at h; exact main v hd h
  | edge => simp only [Option.bind_eq_bind, Option.bind_some] at h; exact main v hd h
  | tri =>
    simp only [Option.bind_eq_bind, Option.bind_eq_some_iff] at h
    obtain ⟨w, hw, h⟩ := h
    exact main w (toTri_denotes hR hd hk hw) h
  | tet =>
    simp only [Option.bind_eq_bind, Option.bind_eq_some_iff] at h
    obtain ⟨w, hw, h⟩ := h
    exact main w (toTet_denotes hR hd hk hw) h

section
variable {C : Cfg K} {P : Expr K → Prop} (hP : Texts C P)
  {R : Reg} (hR : R.Wf) (hE : Elems R) (hstd : Std R)

include hP hR hE hstd in
/-- C53: whenever a model gets values, it gets one for each node, edge or element edge, and the value is the value of its
expression there (for a contact model: at the nodes or edges of the contact), from any cache that is right. -/
theorem model_value_from {cx : Ctx} (hcx : cx.Wf) {k : Kind} (hk : has R k) {e : Expr K} (hw : P e) (hcl : Calls R e)
    {st : St} (hc : CacheOK C P R cx st.cache) {v : Val} {st' : St} (h : evalE C R cx e st = some (v, st')) {vals : List ℝ}
    (ha : assign R k v = some (some vals)) :
    vals.length = (R.env k).n ∧ (∀ i : Nat, i < (R.env k).n → cx.pt k i → vals[i]? = some (eval C (penv R k i) e)) ∧
      CacheOK C P R cx st'.cache := by
  obtain ⟨h1, h2⟩ := evalE_good hP hR hE hstd hcx e hw hcl st v st' hc h
  obtain ⟨h3, h4⟩ := assign_denotes hR hk h2 ha
  exact ⟨h3, h4, h1⟩

include hP hR hE hstd in
theorem model_value {cx : Ctx} (hcx : cx.Wf) {k : Kind} (hk : has R k) {e : Expr K} (hw : P e) (hcl : Calls R e)
    {vals : List ℝ} (h : modelValues C R cx k e = some (some vals)) :
    vals.length = (R.env k).n ∧ ∀ i : Nat, i < (R.env k).n → cx.pt k i → vals[i]? = some (eval C (penv R k i) e) := by
  unfold modelValues at h
  rw [Option.bind_eq_some_iff] at h
  obtain ⟨⟨v, st'⟩, h1, h2⟩ := h
  obtain ⟨a, b, -⟩ := model_value_from (P := P) hP hR hE hstd hcx hk hw hcl (st := ⟨[], 0⟩)
    (by intro p hp; simp at hp) h1 h2
  exact ⟨a, b⟩

include hP hR hE hstd in
/-- C53: the values exist when the parameters exist, the models are of the right kind and the functions are defined at
each point. -/
theorem model_value_exists {k : Kind} (hk : has R k) (hcov : Covers R k) (hpos : 0 < (R.env k).n) {e : Expr K}
    (hw : P e) (hev : Evaluable C R k e) (et : Option Kind) :
    ∃ vals, modelValues C R ⟨[], et⟩ k e = some (some vals) ∧ vals.length = (R.env k).n ∧
      ∀ i : Nat, i < (R.env k).n → vals[i]? = some (eval C (penv R k i) e) := by
  have hcx : Ctx.Wf ⟨[], et⟩ := fun h => absurd rfl h
  obtain ⟨v, st', h1, h2, h3, h4⟩ := evalE_total (P := P) hP hR hE hstd hcx rfl hcov hpos e hw hev ⟨[], 0⟩
    ⟨by intro p hp; simp at hp, by simp, rfl⟩
  have hmain : ∃ vals, assign R k v = some (some vals) := by
    unfold assign
    cases k with
    | node =>
      cases v with
      | invalid => exact h3.elim
      | double x => exact ⟨_, rfl⟩
      | data k' s =>
        have : k' = .node := by rcases h3 with h | ⟨_, h | h⟩ <;> [exact h; cases h; cases h]
        subst this
        exact ⟨_, rfl⟩
    | edge =>
      cases v with
      | invalid => exact h3.elim
      | double x => exact ⟨_, rfl⟩
      | data k' s =>
        have : k' = .edge := by rcases h3 with h | ⟨_, h | h⟩ <;> [exact h; cases h; cases h]
        subst this
        exact ⟨_, rfl⟩
    | tri =>
      obtain ⟨w, hw', ow⟩ := toTri_total (k := .tri) hR h4 h3
      simp only [hw', Option.bind_eq_bind, Option.bind_some]
      have ow := ow rfl
      cases w with
      | invalid => exact ow.elim
      | double x => exact ⟨_, rfl⟩
      | data k' s =>
        rcases ow with rfl | ⟨rfl, -⟩
        · exact ⟨_, rfl⟩
        · rcases toTri_kind hR hcx (hR.hasTri hk) hw' with ⟨rfl, hne⟩ | ⟨s', hs'⟩
          · simp [Val.isKind] at hne
          · cases hs'
    | tet =>
      obtain ⟨w, hw', ow⟩ := toTet_total (k := .tet) hR h4 h3
      simp only [hw', Option.bind_eq_bind, Option.bind_some]
      have ow := ow rfl
      cases w with
      | invalid => exact ow.elim
      | double x => exact ⟨_, rfl⟩
      | data k' s =>
        rcases ow with rfl | ⟨rfl, -⟩
        · exact ⟨_, rfl⟩
        · rcases toTet_kind hR hcx (hR.hasTet hk) hw' with ⟨rfl, hne⟩ | ⟨s', hs'⟩
          · simp [Val.isKind] at hne
          · cases hs'
  obtain ⟨vals, hv⟩ := hmain
  obtain ⟨a, b⟩ := assign_denotes hR hk h4 hv
  refine ⟨vals, by simp only [modelValues, h1, Option.bind_some, hv], a, fun i hi => b i hi (Or.inl rfl)⟩

include hP hR hE hstd in
/-- C53 and C01: a model whose expression is the symbolic derivative of `e` holds, at each point, the derivative of `e`
along any motion of the quantities of that point in which the name `s` is the coordinate. -/
theorem derivative_model_value (hC : C.Exact) (hD : C.DigitFirst) (U : UTab K) (md : Str → Str → Expr K) (s : Str) {cx : Ctx} (hcx : cx.Wf)
    {k : Kind} (hk : has R k) {e : Expr K} (hw : P (deriv C U md s e)) (hcl : Calls R (deriv C U md s e)) {vals : List ℝ}
    (h : modelValues C R cx k (deriv C U md s e) = some (some vals)) {i : Nat} (hi : i < (R.env k).n) (hp : cx.pt k i)
    (γ : ℝ → Sym.Env) (t : ℝ) (hγ : Curve C md s γ t) (ht : γ t = penv R k i) (hreg : Regular C U γ t e) :
    ∃ d, vals[i]? = some d ∧ HasDerivAt (fun τ => eval C (γ τ) e) d t := by
  obtain ⟨-, h2⟩ := model_value hP hR hE hstd hcx hk hw hcl h
  refine ⟨_, h2 i hi hp, ?_⟩
  have := deriv_correct hC hD U md s γ t hγ e hreg
  rwa [ht] at this

end

/-! ### What the names of models stand for -/

/-- A name that refers to no model is 0 everywhere. -/
theorem mval_missing {R : Reg} {m : Str} (h : resolve R m = none) (k : Kind) (i : Nat) : mval R k i m = 0 := by
  simp [mval, h]

/-- A node model stands for its value at the node. -/
theorem mval_node {R : Reg} (hR : R.Wf) {m : Str} {j : Nat} (h : R.find .node m = some j) {i : Nat} (hi : i < (R.env .node).n) :
    (((R.env .node).models j).values (R.env .node).n)[i]? = some (mval R .node i m) := by
  have h3 : i < (((R.env .node).models j).values (R.env .node).n).length := by rw [mvalues_length _ (hR.env _)]; exact hi
  simp [mval, resolve, h, valueAt, loc, List.getElem?_eq_getElem h3]

/-- An edge model stands for its value at the edge. -/
theorem mval_edge {R : Reg} (hR : R.Wf) {m : Str} {j : Nat} (h0 : R.find .node m = none) (h : R.find .edge m = some j) {i : Nat}
    (hi : i < (R.env .edge).n) : (((R.env .edge).models j).values (R.env .edge).n)[i]? = some (mval R .edge i m) := by
  have h3 : i < (((R.env .edge).models j).values (R.env .edge).n).length := by rw [mvalues_length _ (hR.env _)]; exact hi
  simp [mval, resolve, h0, h, valueAt, loc, List.getElem?_eq_getElem h3]

/-- In a model on the edges of triangles, an edge model stands for its value at the edge of the region that the element
edge lies on. -/
theorem mval_edge_tri {R : Reg} (hR : R.Wf) {m : Str} {j : Nat} (h0 : R.find .node m = none) (h : R.find .edge m = some j) {i : Nat}
    (hi : i < 3 * R.ntri) :
    (((R.env .edge).models j).values (R.env .edge).n)[R.triEdge i]? = some (mval R .tri i m) := by
  have h3 : R.triEdge i < (((R.env .edge).models j).values (R.env .edge).n).length := by
    rw [mvalues_length _ (hR.env _)]; exact hR.triEdge i hi
  simp [mval, resolve, h0, h, valueAt, loc, List.getElem?_eq_getElem h3]

/-- In a model on the edges of elements, `x@en0` stands, when there is no model of that name, for `x@n0` at the edge the
element edge lies on; likewise `x@en1` and `x@n1`. -/
theorem mval_en {R : Reg} {x : Str} (hx : x ≠ []) (c : Char) (hc : c = '0' ∨ c = '1')
    (h : ∀ k, R.find k (x ++ ['@', 'e', 'n', c]) = none) (h0 : R.find .node (x ++ ['@', 'n', c]) = none) {j : Nat}
    (h1 : R.find .edge (x ++ ['@', 'n', c]) = some j) (k : Kind) (i : Nat) :
    mval R k i (x ++ ['@', 'e', 'n', c]) = mval R k i (x ++ ['@', 'n', c]) := by
  have hal : aliasName (x ++ ['@', 'e', 'n', c]) = some (x ++ ['@', 'n', c]) := by
    unfold aliasName
    have hl : 0 < x.length := List.length_pos_iff.2 hx
    have e1 : (x ++ ['@', 'e', 'n', c]).length - 4 = x.length := by simp
    rw [e1]
    rcases hc with rfl | rfl
    · simp only [List.length_append, List.length_cons, List.length_nil, List.take_left', List.drop_left', if_true]
      rw [if_pos (by omega)]
    · simp only [List.length_append, List.length_cons, List.length_nil, List.take_left', List.drop_left']
      rw [if_pos (by omega), if_neg (by decide), if_pos trivial]
  simp only [mval, resolve, h, hal, h1, h0, Option.map_some]

/-- A node model has no place in an edge model, an edge model none in a node model: the name would stand for 0. Such an
expression is refused (`sum_of_kinds`, `function_of_kinds`). -/
theorem mval_wrong_kind {R : Reg} {m : Str} {j : Nat} (h : R.find .node m = some j) (i : Nat) : mval R .edge i m = 0 := by
  simp [mval, resolve, h, valueAt, loc]

/-! ### Mixed kinds are refused -/

theorem withCache_fst {key : Str} {body : St → Option (Val × St × Bool)} {st : St} {v : Val} {st' : St} {fpe : Bool}
    (hn : st.cache.lookup key = none) (hb : body st = some (v, st', fpe)) :
    ∃ st'', withCache key body st = some (if fpe then .invalid else v, st'') := by
  unfold withCache; simp [hn, hb]

/-- The value of a name of a model, with or without cache. -/
theorem evalE_model (C : Cfg K) (R : Reg) (cx : Ctx) {m : Str} {k : Kind} {j : Nat} (h : resolve R m = some (k, j))
    (hp : R.inProcess k j = false) (st : St) (hn : st.cache.lookup (str C (.model m)) = none) :
    ∃ c, evalE C R cx (.model m) st = some (.data k (ofModel (R.env k) j), ⟨c, st.errs⟩) ∧
      c = (str C (.model m), .data k (ofModel (R.env k) j)) :: st.cache := by
  simp [evalE, withCache, hn, evalModel, h, hp, Val.isInvalid]

theorem opEqual_kinds (R : Reg) (op : ℝ → ℝ → ℝ) {k : Kind} (hk : k ≠ .node) (s s' : SD ℝ) :
    opEqual R op (.data .node s) (.data k s') = some .invalid ∧ opEqual R op (.data k s) (.data .node s') = some .invalid := by
  cases k <;> simp_all [opEqual]

/-- The sum of a node model and of a model on edges is refused, whatever the kind of the model being evaluated. -/
theorem sum_of_kinds {C : Cfg K} {R : Reg} (hR : R.Wf) (cx : Ctx) {a b : Str} {j j' : Nat} {k' : Kind}
    (ha : resolve R a = some (.node, j)) (hb : resolve R b = some (k', j')) (hk' : k' ≠ .node)
    (pa : R.inProcess .node j = false) (pb : R.inProcess k' j' = false) (hab : str C (.model a : Expr K) ≠ str C (.model b))
    (k : Kind) : modelValues C R cx k (.add [.model a, .model b] : Expr K) = some none := by
  obtain ⟨c1, h1, rfl⟩ := evalE_model C R cx ha pa ⟨[], 0⟩ rfl
  obtain ⟨c2, h2, rfl⟩ := evalE_model C R cx hb pb
    ⟨[(str C (.model a : Expr K), .data .node (ofModel (R.env .node) j))], 0⟩ (by
      have : (str C (.model b : Expr K) == str C (.model a : Expr K)) = false := by simpa using fun h => hab h.symm
      simp [List.lookup, this])
  obtain ⟨w1, -⟩ := ofScalar_spec (R.env .node) 0 (ofModel (R.env .node) j).length (ofModel_spec (R.env .node) j).1.1
  obtain ⟨r, hr, -⟩ := opEqualData_spec (R.env .node) (hR.env .node) (· + ·) _ _ w1 (ofModel_spec (R.env .node) j).1
  have hsum : evalSum C R cx [.model a, .model b] (.double 0) ⟨[], 0⟩ = some (.invalid,
      ⟨[(str C (.model b : Expr K), .data k' (ofModel (R.env k') j')),
        (str C (.model a : Expr K), .data .node (ofModel (R.env .node) j))], 0⟩) := by
    simp only [evalSum, h1, h2, Option.bind_some, opEqual, hr, Option.map_some, if_neg (Ne.symm hk')]
  have hv : evalE C R cx (.add [.model a, .model b] : Expr K) ⟨[], 0⟩ = some (.invalid,
      ⟨[(str C (.model b : Expr K), .data k' (ofModel (R.env k') j')),
        (str C (.model a : Expr K), .data .node (ofModel (R.env .node) j))], 0⟩) := by
    simp [evalE, withCache, hsum, Val.isInvalid]
  simp only [modelValues, hv, Option.bind_some]
  cases k <;> simp [assign, toTri, toTet]

/-- A function of a node model and of a model on edges is refused, whatever the kind of the model being evaluated. -/
theorem function_of_kinds {C : Cfg K} {R : Reg} (cx : Ctx) {f a b : Str} {j j' : Nat} {k' : Kind}
    (ha : resolve R a = some (.node, j)) (hb : resolve R b = some (k', j')) (hk' : k' ≠ .node)
    (pa : R.inProcess .node j = false) (pb : R.inProcess k' j' = false) (hab : str C (.model a : Expr K) ≠ str C (.model b))
    (k : Kind) : modelValues C R cx k (.user f [.model a, .model b] : Expr K) = some none := by
  obtain ⟨c1, h1, rfl⟩ := evalE_model C R cx ha pa ⟨[], 0⟩ rfl
  obtain ⟨c2, h2, rfl⟩ := evalE_model C R cx hb pb
    ⟨[(str C (.model a : Expr K), .data .node (ofModel (R.env .node) j))], 0⟩ (by
      have : (str C (.model b : Expr K) == str C (.model a : Expr K)) = false := by simpa using fun h => hab h.symm
      simp [List.lookup, this])
  have he : ∃ n, extMath R cx f [.data .node (ofModel (R.env .node) j), .data k' (ofModel (R.env k') j')] 0
      = some (.invalid, n, false) := by
    have hne : nErrs [.data .node (ofModel (R.env .node) j), .data k' (ofModel (R.env k') j')] ≠ 0 := by
      cases k' <;> simp_all [nErrs, Val.isKind]
    refine ⟨0 + nErrs [.data .node (ofModel (R.env .node) j), .data k' (ofModel (R.env k') j')], ?_⟩
    simp only [extMath, List.isEmpty_cons, Bool.false_eq_true, if_false, preConvert, List.any_cons, Val.isKind, decide_true,
      Bool.true_or, Bool.not_true, Bool.false_and, Option.bind_some, if_pos hne]
  obtain ⟨n, he⟩ := he
  have : ∃ st, evalE C R cx (.user f [.model a, .model b] : Expr K) ⟨[], 0⟩ = some (.invalid, st) := by
    have ha : evalArgs C R cx [.model a, .model b] ⟨[], 0⟩ = some
        ([.data .node (ofModel (R.env .node) j), .data k' (ofModel (R.env k') j')],
         ⟨[(str C (.model b : Expr K), .data k' (ofModel (R.env k') j')),
          (str C (.model a : Expr K), .data .node (ofModel (R.env .node) j))], 0⟩) := by
      simp only [evalArgs, h1, h2, Option.bind_some, Option.map_some]
    rw [evalE]
    simp only [withCache, List.lookup, ha, Option.bind_some, callExt, he, Option.map_some, Bool.false_eq_true, if_false]
    exact ⟨_, rfl⟩
  obtain ⟨st, hv⟩ := this
  simp only [modelValues, hv, Option.bind_some]
  cases k <;> simp [assign, toTri, toTet]

/-! ### `vec_sum`, `vec_max`, `vec_min` -/

/-- The function registered for `vec_sum`, `vec_max` and `vec_min` is the identity (MathEval.cc:141-143, `vec_sum` in
MathEval.cc). -/
def Identity (R : Reg) (f : Str) : Prop :=
  R.tcl f = none ∧ ∃ g, R.fns f = some g ∧ g.arity = 1 ∧ ∀ x, g.f [x] = some x

theorem mathVec_identity {R : Reg} {f : Str} (h : Identity R f) (l : List ℝ) :
    mathVec R f [.vec l] l.length = some ⟨l, false, false⟩ := by
  obtain ⟨h1, g, h2, h3, h4⟩ := h
  have hm : (List.range l.length).mapM (argsAt [.vec l]) = some (l.map fun x => [x]) := by
    obtain ⟨out, ho⟩ := mapM_some_of_forall (f := argsAt [.vec l]) (l := List.range l.length) (fun i hi => by
      simp only [List.mem_range] at hi
      simp [argsAt, Arg.get, List.getElem?_eq_getElem hi])
    rw [ho]
    obtain ⟨a, b⟩ := mapM_spec ho
    congr 1
    apply List.ext_getElem?
    intro i
    rw [b i]
    by_cases hi : i < l.length
    · simp [List.getElem?_range hi, argsAt, Arg.get, List.getElem?_eq_getElem hi]
    · rw [List.getElem?_eq_none (by simpa using hi), List.getElem?_eq_none (by simpa using hi)]; rfl
  unfold mathVec
  simp only [h1, h2, h3, List.length_singleton, if_true, hm, Option.bind_eq_bind, Option.bind_some, List.map_map]
  congr 1
  simp [Function.comp_def, h4]

/-- The largest entry, as a specification: an upper bound that is attained. -/
def IsMax (l : List ℝ) (x : ℝ) : Prop := x ∈ l ∧ ∀ y ∈ l, y ≤ x
def IsMin (l : List ℝ) (x : ℝ) : Prop := x ∈ l ∧ ∀ y ∈ l, x ≤ y

theorem foldl_max (l : List ℝ) : ∀ x, IsMax (x :: l) (l.foldl max x) := by
  induction l with
  | nil => intro x; simp [IsMax]
  | cons y l ih =>
    intro x
    obtain ⟨h1, h2⟩ := ih (max x y)
    simp only [List.foldl_cons]
    refine ⟨?_, fun z hz => ?_⟩
    · rcases List.mem_cons.1 h1 with h | h
      · rw [h]; rcases max_choice x y with e | e <;> simp [e]
      · simp [h]
    · have := h2 (max x y) (by simp)
      simp only [List.mem_cons] at hz
      rcases hz with rfl | rfl | hz
      · exact le_trans (le_max_left _ _) this
      · exact le_trans (le_max_right _ _) this
      · exact h2 z (by simp [hz])

theorem foldl_min (l : List ℝ) : ∀ x, IsMin (x :: l) (l.foldl min x) := by
  induction l with
  | nil => intro x; simp [IsMin]
  | cons y l ih =>
    intro x
    obtain ⟨h1, h2⟩ := ih (min x y)
    simp only [List.foldl_cons]
    refine ⟨?_, fun z hz => ?_⟩
    · rcases List.mem_cons.1 h1 with h | h
      · rw [h]; rcases min_choice x y with e | e <;> simp [e]
      · simp [h]
    · have := h2 (min x y) (by simp)
      simp only [List.mem_cons] at hz
      rcases hz with rfl | rfl | hz
      · exact le_trans this (min_le_left _ _)
      · exact le_trans this (min_le_right _ _)
      · exact h2 z (by simp [hz])

section
variable {R : Reg} (hR : R.Wf) {cx : Ctx} (hi : cx.indexes = [])
include hR hi

theorem reduce_eval {f : Str} (h : Identity R f) {k : Kind} {s : SD ℝ} (hs : s.Wf (R.env k)) :
    extMath R cx f [.data k s] 0 =
      if s.isuniform then (package f [.data k s] true (R.env k).n [] s.uval).map fun v => (v, 0, false)
      else (package f [.data k s] false (R.env k).n (denote (R.env k) s) 0).map fun v => (v, 0, false) := by
  have hpre : preConvert R [.data k s] = some [.data k s] := by
    unfold preConvert convertArgs
    cases k <;> simp [Val.isKind]
  have hne : nErrs [.data k s] = 0 := by
    cases k <;> simp [nErrs, Val.isKind, Val.isInvalid]
  have hvl : vlenOf R [.data k s] 0 = (R.env k).n := by
    simp only [vlenOf]
    split_ifs
    · exact hs.1
    · exact denote_length _ (hR.env k) s hs
  by_cases hu : s.isuniform = true
  · obtain ⟨h1, g, h2, h3, h4⟩ := h
    have hms : mathScalar R f [s.uval] = ⟨s.uval, false, false⟩ := by simp [mathScalar, h1, h2, h3, h4]
    have hve : vectorEval R cx f [.data k s] = some ⟨([], s.uval), false, false⟩ := by
      simp [vectorEval, hi, argOf, hu, Arg.isVec, Arg.sc0, hms]
    simp only [extMath, List.isEmpty_cons, Bool.false_eq_true, if_false, hpre, Option.bind_some, hne, ne_eq, not_true_eq_false,
      extEval, List.all_cons, Val.isDouble, Bool.false_and, hve, hvl, hu, if_true, List.map_cons, argOf, List.any_cons, Arg.isVec, List.map_nil,
      List.any_nil, Bool.or_false, Bool.not_false]
    cases package f [.data k s] true (R.env k).n [] s.uval <;> rfl
  · have hu' : s.isuniform = false := by simpa using hu
    have hlen : (getScalarList (R.env k) s).length = (R.env k).n := denote_length _ (hR.env k) s hs
    have hmv := mathVec_identity h (getScalarList (R.env k) s)
    rw [hlen] at hmv
    have hve : vectorEval R cx f [.data k s] = some ⟨(denote (R.env k) s, 0), false, false⟩ := by
      simp only [vectorEval, hi, List.isEmpty_nil, Bool.not_true, Bool.false_eq_true, if_false, hvl]
      simp [argOf, hu', Arg.isVec, hmv, denote]
    simp only [extMath, List.isEmpty_cons, Bool.false_eq_true, if_false, hpre, Option.bind_some, hne, ne_eq, not_true_eq_false,
      extEval, List.all_cons, Val.isDouble, Bool.false_and, hve, hvl, hu', List.map_cons, argOf, List.any_cons, Arg.isVec, List.map_nil,
      List.any_nil, Bool.or_false, Bool.not_true]
    cases package f [.data k s] false (R.env k).n (denote (R.env k) s) 0 <;> rfl

/-- `vec_sum` of model data is the number that is the sum of the entries. -/
theorem vec_sum_value (h : Identity R nVecSum) {k : Kind} {s : SD ℝ} (hs : s.Wf (R.env k)) :
    extMath R cx nVecSum [.data k s] 0 = some (.double (denote (R.env k) s).sum, 0, false) := by
  rw [reduce_eval hR hi h hs]
  by_cases hu : s.isuniform = true
  · simp [hu, package, denote, getScalarList, hs.1, mul_comm]
  · simp [hu, package]

/-- `vec_max` of model data is the number that is the largest entry. -/
theorem vec_max_value (h : Identity R nVecMax) {k : Kind} {s : SD ℝ} (hs : s.Wf (R.env k)) (hn : 0 < (R.env k).n) :
    ∃ x, extMath R cx nVecMax [.data k s] 0 = some (.double x, 0, false) ∧ IsMax (denote (R.env k) s) x := by
  rw [reduce_eval hR hi h hs]
  have h1 : nVecMax ≠ nVecSum := by decide
  by_cases hu : s.isuniform = true
  · refine ⟨s.uval, by simp [hu, package, h1], ?_⟩
    simp only [denote, getScalarList, hu, if_true, hs.1, IsMax, List.mem_replicate, ne_eq]
    exact ⟨⟨by omega, trivial⟩, fun y hy => le_of_eq hy.2⟩
  · have hlen := denote_length _ (hR.env k) s hs
    cases hd : denote (R.env k) s with
    | nil => rw [hd] at hlen; simp at hlen; omega
    | cons x xs =>
      exact ⟨xs.foldl max x, by simp [hu, package, h1, lmax], foldl_max xs x⟩

/-- `vec_min` of model data is the number that is the smallest entry. -/
theorem vec_min_value (h : Identity R nVecMin) {k : Kind} {s : SD ℝ} (hs : s.Wf (R.env k)) (hn : 0 < (R.env k).n) :
    ∃ x, extMath R cx nVecMin [.data k s] 0 = some (.double x, 0, false) ∧ IsMin (denote (R.env k) s) x := by
  rw [reduce_eval hR hi h hs]
  have h1 : nVecMin ≠ nVecSum := by decide
  have h2 : nVecMin ≠ nVecMax := by decide
  by_cases hu : s.isuniform = true
  · refine ⟨s.uval, by simp [hu, package, h1, h2], ?_⟩
    simp only [denote, getScalarList, hu, if_true, hs.1, IsMin, List.mem_replicate, ne_eq]
    exact ⟨⟨by omega, trivial⟩, fun y hy => le_of_eq hy.2.symm⟩
  · have hlen := denote_length _ (hR.env k) s hs
    cases hd : denote (R.env k) s with
    | nil => rw [hd] at hlen; simp at hlen; omega
    | cons x xs =>
      exact ⟨xs.foldl min x, by simp [hu, package, h1, h2, lmin], foldl_min xs x⟩

end

/-! ### Where the code departs from the property -/

/-- F21: in a region with more triangles than tetrahedra, an operation on edge data with a uniform value and data on the
edges of tetrahedra reads outside of an array. -/
theorem uniform_edge_with_tetrahedra {R : Reg} (hR : R.Wf) (hgt : R.ntet < R.ntri) (op : ℝ → ℝ → ℝ) {s s' : SD ℝ}
    (hu : s.isuniform = true) (hs' : s'.Wf (R.env .tet)) (hu' : s'.isuniform = false) :
    opEqual R op (.data .edge s) (.data .tet s') = none := by
  have hlen : (getScalarList (R.env .tet) s').length = (R.env .tet).n := denote_length _ (hR.env .tet) s' hs'
  simp only [opEqual, toTet, hu, if_true, Option.bind_some, opArr, true_and, opEqualData, hu', Bool.and_false, Bool.false_eq_true,
    if_false, Option.map_eq_none_iff]
  rw [if_neg]
  simp only [makeAssignable, ofScalar, if_true, List.length_replicate, hlen, hR.ntet]
  omega

/-- F67: a function or operator that is not registered is 0 on numbers, and no error is reported. -/
theorem unknown_function_of_numbers {R : Reg} {f : Str} (h1 : R.tcl f = none) (h2 : R.fns f = none) (cx : Ctx) (x : ℝ) (xs : List ℝ) :
    extMath R cx f ((x :: xs).map .double) 0 = some (.double 0, 0, false) := by
  have hany : ∀ p : Val → Bool, (∀ y, p (.double y) = false) → ((x :: xs).map Val.double).any p = false := by
    intro p hp; rw [List.any_eq_false]; intro v hv
    obtain ⟨y, _, rfl⟩ := List.mem_map.1 hv
    simp [hp y]
  have hk : ∀ k, ((x :: xs).map Val.double).any (Val.isKind k) = false := fun k => hany _ fun y => rfl
  have hnv : ((x :: xs).map Val.double).any Val.isInvalid = false := hany _ fun y => rfl
  have hall : ((x :: xs).map Val.double).all Val.isDouble = true := by
    rw [List.all_eq_true]; intro v hv; obtain ⟨y, _, rfl⟩ := List.mem_map.1 hv; rfl
  have hpre : preConvert R ((x :: xs).map Val.double) = some ((x :: xs).map Val.double) := by
    unfold preConvert; rw [hk .node, hk .edge]; rfl
  have hn : nErrs ((x :: xs).map Val.double) = 0 := by
    unfold nErrs; rw [hk .node, hk .edge, hk .tri, hk .tet, hnv]; rfl
  have hem : ((x :: xs).map Val.double).isEmpty = false := by simp
  simp only [extMath, hem, Bool.false_eq_true, if_false, hpre, Option.bind_some, hn, ne_eq, not_true_eq_false, extEval, hall, if_true]
  simp [mathScalar, h1, h2]

/-- F67: `a != b` is not among the registered functions (MathEval.cc:60-168), so that it is 0 for all numbers. -/
theorem not_equal_of_numbers {C : Cfg K} {R : Reg} (h1 : R.tcl (opName .neq) = none) (h2 : R.fns (opName .neq) = none) (cx : Ctx)
    (x y : K) (k : Kind) : modelValues C R cx k (.blog .neq (.con x) (.con y)) = some (some (List.replicate (R.env k).n 0)) := by
  have hx : ∃ vx vy st, evalE C R cx (.con x) ⟨[], 0⟩ = some (.double vx, ⟨[(str C (.con x), .double vx)], 0⟩) ∧
      evalE C R cx (.con y) ⟨[(str C (.con x), .double vx)], 0⟩ = some (.double vy, st) ∧ st.errs = 0 := by
    refine ⟨C.val x, ?_⟩
    simp only [evalE, withCache, List.lookup, Val.isInvalid, Bool.false_eq_true, if_false, true_and]
    split
    · rename_i v hv
      split at hv <;> cases hv
      exact ⟨_, _, rfl, rfl⟩
    · exact ⟨_, _, rfl, rfl⟩
  obtain ⟨vx, vy, st, e1, e2, e3⟩ := hx
  have e4 := unknown_function_of_numbers h1 h2 cx vx [vy]
  simp only [List.map_cons, List.map_nil] at e4
  have : ∃ st', evalE C R cx (.blog .neq (.con x) (.con y)) ⟨[], 0⟩ = some (.double 0, st') := by
    rw [evalE]
    simp only [withCache, List.lookup, e1, e2, Option.bind_some, callExt, e3, e4, Option.map_some, Bool.false_eq_true, if_false]
    exact ⟨_, rfl⟩
  obtain ⟨st', h⟩ := this
  simp only [modelValues, h, Option.bind_some]
  cases k <;> simp [assign, toTri, toTet]

/-- On model data the same is an error. -/
theorem unknown_function_of_data {R : Reg} (hR : R.Wf) {f : Str} (h1 : R.tcl f = none) (h2 : R.fns f = none)
    (hn : f ≠ nVecSum ∧ f ≠ nVecMax ∧ f ≠ nVecMin) (cx : Ctx) (hi : cx.indexes = [])
    {k : Kind} {s : SD ℝ} (hs : s.Wf (R.env k)) (hu : s.isuniform = false) :
    extMath R cx f [.data k s] 0 = some (.invalid, 1, false) := by
  have hpre : preConvert R [.data k s] = some [.data k s] := by
    unfold preConvert convertArgs
    cases k <;> simp [Val.isKind]
  have hne : nErrs [.data k s] = 0 := by
    cases k <;> simp [nErrs, Val.isKind, Val.isInvalid]
  have hve : vectorEval R cx f [.data k s] = some ⟨(List.replicate (vlenOf R [.data k s] 0) 0, 0), true, false⟩ := by
    simp [vectorEval, hi, argOf, hu, Arg.isVec, mathVec, h1, h2]
  have hp := package_ok (k := k) (name := f) (argv := [.data k s]) ⟨by simp, _, by simp, s, rfl⟩ hn
  simp only [extMath, List.isEmpty_cons, Bool.false_eq_true, if_false, hpre, Option.bind_some, hne, ne_eq, not_true_eq_false,
      extEval, List.all_cons, Val.isDouble, Bool.false_and, hve, hp, if_true]
  rfl

/-- F69: a factor that is the number 0 hides the failure of an earlier factor: the model is 0, and an error is reported but
the command does not fail. -/
theorem zero_hides_failure {C : Cfg K} {R : Reg} {x y : Str} (hx : R.param x = none) (hx' : R.circ x = none)
    (hy : R.param y = some 0) (hxy : str C (.var x : Expr K) ≠ str C (.var y)) (cx : Ctx) (k : Kind) :
    modelValues C R cx k (.prod [.var x, .var y] : Expr K) = some (some (List.replicate (R.env k).n 0)) ∧
    ∃ v st, evalE C R cx (.prod [.var x, .var y] : Expr K) ⟨[], 0⟩ = some (v, st) ∧ st.errs = 1 := by
  have h : evalE C R cx (.prod [.var x, .var y] : Expr K) ⟨[], 0⟩ = some (.double 0,
      ⟨[(str C (.prod [.var x, .var y]), .double 0), (str C (.var y), .double 0)], 1⟩) := by
    simp [evalE, evalProd, withCache, evalVar, hx, hx', hy, Val.isInvalid, opEqual]
  refine ⟨?_, _, _, h, rfl⟩
  simp only [modelValues, h, Option.bind_some]
  cases k <;> simp [assign, toTri, toTet]

end Verif.Eval
