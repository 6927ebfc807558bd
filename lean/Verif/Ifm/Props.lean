import Verif.Ifm.Total

/-! # Theorems about the values of interface models (properties C80 and C81) -/

namespace Verif.Ifm

open Verif.ScalarData Verif.Sym Verif.Eval

variable {K : Type}

theorem assign_denotes {I : Ifc} (hI : I.Wf) {g : Nat → ℝ} {v : IVal} {vals : List ℝ} (hd : Denotes I g v)
    (h : assign I v = some vals) : vals.length = I.env.n ∧ ∀ i : Nat, i < I.env.n → vals[i]? = some (g i) := by
  cases v with
  | invalid => cases h
  | double x =>
    cases h
    refine ⟨by simp [hI.n], fun i hi => ?_⟩
    rw [List.getElem?_replicate, if_pos (hI.n ▸ hi), hd i hi]
  | data s =>
    simp only [assign, Option.some.injEq] at h
    have hu : (if s.isuniform then List.replicate I.env.n s.uval else getScalarList I.env s) = denote I.env s := by
      split_ifs with hu
      · simp [denote, getScalarList, hu, hd.1.1]
      · rfl
    rw [hu] at h
    subst h
    exact ⟨denote_length _ hI.env s hd.1, hd.2⟩

section
variable {C : Cfg K} {P : Expr K → Prop} (hP : Texts C P) {I : Ifc} (hI : I.Wf) (hstd : Std I.math)

include hP hI hstd in
/-- C80: whenever an interface model gets values, it gets one for each pair of nodes, and the value is the value of its
expression there, from any cache that is right, and the cache stays right. -/
theorem interface_value_from {e : Expr K} (hw : P e) (hcl : Calls I.math e) {st : St} (hc : CacheOK C P I st.cache) {v : IVal}
    {st' : St} (h : evalE C I e st = some (v, st')) {vals : List ℝ} (ha : assign I v = some vals) :
    vals.length = I.nodes0.length ∧ (∀ i : Nat, i < I.nodes0.length → vals[i]? = some (eval C (ienv I i) e)) ∧
      CacheOK C P I st'.cache := by
  obtain ⟨h1, h2⟩ := evalI_good hP hI hstd e hw hcl st v st' hc h
  obtain ⟨h3, h4⟩ := assign_denotes hI h2 ha
  rw [← hI.n]
  exact ⟨h3, h4, h1⟩

include hP hI hstd in
/-- C80: the values of an interface model are the values of its expression at each pair of nodes. -/
theorem interface_value {e : Expr K} (hw : P e) (hcl : Calls I.math e) {vals : List ℝ} {errs : Nat}
    (h : modelValues C I e = some (some vals, errs)) :
    vals.length = I.nodes0.length ∧ ∀ i : Nat, i < I.nodes0.length → vals[i]? = some (eval C (ienv I i) e) := by
  unfold modelValues at h
  rw [Option.map_eq_some_iff] at h
  obtain ⟨⟨v, st'⟩, h1, h2⟩ := h
  simp only [Prod.mk.injEq] at h2
  obtain ⟨a, b, -⟩ := interface_value_from (P := P) hP hI hstd hw hcl (st := ⟨[], 0⟩) (by intro p hp; simp at hp) h1 h2.1
  exact ⟨a, b⟩

include hP hI hstd in
/-- C80: the values exist, and no error is printed, when the parameters and models exist and the functions are defined at
each pair. -/
theorem interface_value_exists (hpos : 0 < I.nodes0.length) {e : Expr K} (hw : P e) (hev : Evaluable C I e) :
    ∃ vals, modelValues C I e = some (some vals, 0) ∧ vals.length = I.nodes0.length ∧
      ∀ i : Nat, i < I.nodes0.length → vals[i]? = some (eval C (ienv I i) e) := by
  obtain ⟨v, st', h1, h2, h3, h4⟩ := evalI_total (P := P) hP hI hstd (hI.n ▸ hpos) e hw hev ⟨[], 0⟩
    ⟨by intro p hp; simp at hp, by simp, rfl⟩
  have : ∃ vals, assign I v = some vals := by
    cases v with
    | invalid => cases h3
    | double x => exact ⟨_, rfl⟩
    | data s => exact ⟨_, rfl⟩
  obtain ⟨vals, hv⟩ := this
  obtain ⟨a, b⟩ := assign_denotes hI h4 hv
  rw [← hI.n]
  exact ⟨vals, by simp [modelValues, h1, hv, h2.errs], a, b⟩

end

/-! ### What the names stand for -/

theorem split_r0 {x : Str} (hx : x ≠ []) : split (x ++ ['@', 'r', '0']) = (some .r0, x) := by
  have := List.length_pos_iff.2 hx
  simp [split, this]

theorem split_r1 {x : Str} (hx : x ≠ []) : split (x ++ ['@', 'r', '1']) = (some .r1, x) := by
  have := List.length_pos_iff.2 hx
  simp [split, this]

/-- The text of a region. -/
def Side.suffix : Side → Str
  | .r0 => ['@', 'r', '0']
  | .r1 => ['@', 'r', '1']

theorem split_suffix {x : Str} (hx : x ≠ []) (r : Side) : split (x ++ r.suffix) = (some r, x) := by
  cases r
  · exact split_r0 hx
  · exact split_r1 hx

/-- A name without a region is not of the form `x@r0`, `x@r1`. -/
theorem split_none_iff {m : Str} : (split m).1 = none ↔ ∀ x r, x ≠ [] → m ≠ x ++ Side.suffix r := by
  constructor
  · rintro h x r hx rfl
    rw [split_suffix hx] at h; cases h
  · intro h
    unfold split
    have key : ∀ r : Side, m.length > 3 → m.drop (m.length - 3) ≠ r.suffix := by
      intro r hl hd
      refine h (m.take (m.length - 3)) r (by intro hc; simp at hc; rcases hc with hc | hc <;> simp [hc] at hl; omega) ?_
      rw [← hd, List.take_append_drop]
    split_ifs with h1 h2 h3
    · exact absurd h2 (key .r0 h1)
    · exact absurd h3 (key .r1 h1)
    · rfl
    · rfl

/-- `x@r0`, `x@r1` stand for the value of the node model `x` of that region at its node of the pair, unless the interface
has a model of that very name. -/
theorem mval_region {I : Ifc} {x : Str} (hx : x ≠ []) (r : Side) (hf : I.find (x ++ r.suffix) = none) {l : List ℝ}
    (hl : I.node r x = some l) {i j : Nat} (hj : (pairNodes I r)[i]? = some j) (hlt : j < l.length) :
    l[j]? = some (mval I i (x ++ r.suffix)) := by
  simp [mval, hf, split_suffix hx, hl, atPair, hj, List.getElem?_eq_getElem hlt]

/-- A model of the interface stands for its own value at the pair. -/
theorem mval_interface {I : Ifc} (hI : I.Wf) {m : Str} {k : Nat} (hf : I.find m = some k) (hp : I.inProcess k = false) {i : Nat}
    (hi : i < I.nodes0.length) : ((I.env.models k).values I.env.n)[i]? = some (mval I i m) := by
  have h3 : i < ((I.env.models k).values I.env.n).length := by rw [mvalues_length _ hI.env, hI.n]; exact hi
  simp [mval, hf, hp, List.getElem?_eq_getElem h3]

/-- `p@r0`, `p@r1` stand for the parameter `p` of that region. -/
theorem vars_region {I : Ifc} {x : Str} (hx : x ≠ []) (r : Side) {v : ℝ} (h : I.param r x = some v) :
    vars I (x ++ r.suffix) = v := by
  simp [vars, split_suffix hx, h]

/-- Other names stand for the parameter that both regions have, with the same value. -/
theorem vars_shared {I : Ifc} {x : Str} (hx : ∀ y r, y ≠ [] → x ≠ y ++ Side.suffix r) {v : ℝ} (h0 : I.param0 x = some v)
    (h1 : I.param1 x = some v) : vars I x = v := by
  have hs := split_none_iff.2 hx
  unfold vars
  rcases h : split x with ⟨_ | r, name⟩
  · simp [h0, h1]
  · rw [h] at hs; cases hs

/-- A parameter with different values in the two regions is refused: no values and an error; see also `sum_invalid`. -/
theorem shared_parameter_must_agree {C : Cfg K} {I : Ifc} {x : Str} (hx : ∀ y r, y ≠ [] → x ≠ y ++ Side.suffix r) {a b : ℝ}
    (h0 : I.param0 x = some a) (h1 : I.param1 x = some b) (hab : a ≠ b) : modelValues C I (.var x) = some (none, 1) := by
  have hs := split_none_iff.2 hx
  rcases h : split x with ⟨_ | r, name⟩
  · simp [modelValues, evalE, withCache, evalVar, h, h0, h1, hab, IVal.isInvalid, assign]
  · rw [h] at hs; cases hs

/-- An invalid term makes the sum invalid. -/
theorem sum_invalid {C : Cfg K} {I : Ifc} : ∀ {vs : List (Expr K)} {st : St} {v : IVal} {st' : St},
    evalSum C I vs .invalid st = some (v, st') → v = .invalid
  | [], st, v, st', h => by simp only [evalSum, Option.some.injEq, Prod.mk.injEq] at h; exact h.1.symm
  | e :: vs, st, v, st', h => by
    simp only [evalSum, Option.bind_eq_some_iff, opEqual, Option.some.injEq] at h
    obtain ⟨r, -, out, rfl, h⟩ := h
    exact sum_invalid h

theorem mapM_map {α β : Type} {f : α → Option β} {g : α → β} : ∀ {l : List α}, (∀ a ∈ l, f a = some (g a)) →
    l.mapM f = some (l.map g)
  | [], _ => by simp
  | a :: l, h => by
    have := mapM_map (f := f) (g := g) (l := l) fun x hx => h x (by simp [hx])
    simp [List.mapM_cons, h a (by simp), this]

/-- `vec_sum` of an array that is not uniform is the sum of its values. -/
theorem vec_sum_value {I : Ifc} (hI : I.Wf) {g : Nat → ℝ} {s : SD ℝ} (hd : Denotes I g (.data s)) (hu : s.isuniform = false)
    (htcl : I.tcl nVecSum = none) (hfn : I.fns nVecSum = some ⟨1, fun xs => xs.head?⟩) :
    extMath I nVecSum [.data s] 0 = some (.double ((List.range I.env.n).map g).sum, 0, false) := by
  have hden : denote I.env s = (List.range I.env.n).map g := by
    refine List.ext_getElem? fun i => ?_
    by_cases hi : i < I.env.n
    · rw [hd.2 i hi]; simp [hi]
    · rw [List.getElem?_eq_none (by rw [denote_length _ hI.env s hd.1]; omega)]; simp [hi]
  have hg : getScalarList I.env s = (List.range I.env.n).map g := hden
  have h1 : ∀ i < I.env.n, argsAt [Arg.vec ((List.range I.env.n).map g)] i = some [g i] := by
    intro i hi
    simp [argsAt, Arg.get, hi]
  have h2 : (List.range I.env.n).mapM (argsAt [Arg.vec ((List.range I.env.n).map g)]) =
      some ((List.range I.env.n).map fun i => [g i]) := by
    exact mapM_map (fun i hi => h1 i (by simpa using hi))
  simp [extMath, IVal.isInvalid, IVal.isDouble, argOf, hu, Arg.isVec, vlenOf, hg, mathVec, Ifc.math, htcl, hfn, h2, package,
    Function.comp_def]

/-! ### Derivatives -/

/-- The speeds of the models along a motion of the quantities of pair `i` in which the name `s` is the coordinate: a model of a
region other than `s` has the speed held by the model `x:s`, if `s` is of the same region, and is at rest otherwise; a model `m`
of the interface has the speed held by the model `m:s`. -/
structure Motion (I : Ifc) (i : Nat) (s : Str) (γ : ℝ → Sym.Env) (t : ℝ) : Prop where
  start : γ t = ienv I i
  var : ∀ y, HasDerivAt (fun τ => (γ τ).v y) (if s = y then 1 else 0) t
  func : ∀ τ, (γ τ).u = (γ t).u
  self : HasDerivAt (fun τ => (γ τ).m s) 1 t
  same : ∀ x r, x ≠ [] → x ++ Side.suffix r ≠ s → (split s).1 = some r →
    HasDerivAt (fun τ => (γ τ).m (x ++ r.suffix)) (mval I i (x ++ ':' :: s)) t
  other : ∀ x r, x ≠ [] → x ++ Side.suffix r ≠ s → (split s).1 ≠ some r →
    HasDerivAt (fun τ => (γ τ).m (x ++ r.suffix)) 0 t
  interface : ∀ m, (∀ x r, x ≠ [] → m ≠ x ++ Side.suffix r) → m ≠ s →
    HasDerivAt (fun τ => (γ τ).m m) (mval I i (m ++ ':' :: s)) t

theorem split_some {m x : Str} {r : Side} (h : split m = (some r, x)) : x ≠ [] ∧ m = x ++ r.suffix := by
  unfold split at h
  split_ifs at h with h1 h2 h3 <;> cases h
  · refine ⟨?_, ?_⟩
    · intro hc; simp at hc; rcases hc with hc | hc
      · omega
      · simp [hc] at h1
    · change m = _ ++ ['@', 'r', '0']; rw [← h2, List.take_append_drop]
  · refine ⟨?_, ?_⟩
    · intro hc; simp at hc; rcases hc with hc | hc
      · omega
      · simp [hc] at h1
    · change m = _ ++ ['@', 'r', '1']; rw [← h3, List.take_append_drop]

/-- The rule for the names of derivatives says how the models move. -/
theorem Motion.curve {C : Cfg K} (one zero : K) (h1 : C.val one = 1) (h0 : C.val zero = 0) {I : Ifc} {i : Nat} {s : Str}
    {γ : ℝ → Sym.Env} {t : ℝ} (h : Motion I i s γ t) : Curve C (derivRule one zero) s γ t where
  var := h.var
  func := h.func
  model m := by
    by_cases hs : s = m
    · subst hs; simpa using h.self
    · rw [if_neg hs]
      unfold derivRule
      rw [if_neg hs]
      rcases hm : split m with ⟨_ | r, x⟩
      · have hno := split_none_iff.1 (by rw [hm] : (split m).1 = none)
        have := h.interface m hno (Ne.symm hs)
        simpa [h.start, ienv] using this
      · obtain ⟨hx, rfl⟩ := split_some hm
        dsimp only
        cases hso : (split s).1 with
        | none =>
          have := h.other x r hx (Ne.symm hs) (by simp [hso])
          simpa [h0] using this
        | some r' =>
          by_cases hr : r = r'
          · subst hr
            have := h.same x r hx (Ne.symm hs) hso
            simpa [h.start, ienv] using this
          · have := h.other x r hx (Ne.symm hs) (by rw [hso]; simpa using Ne.symm hr)
            simpa [hr, h0] using this

/-- C81: an interface model whose expression is the symbolic derivative of `e` by `s` holds, at each pair, the derivative of
`e` along any motion in which `s` is the coordinate and the models named by the rule hold the speeds of the others. -/
theorem interface_derivative_value {C : Cfg K} {P : Expr K → Prop} (hP : Texts C P) {I : Ifc} (hI : I.Wf) (hstd : Std I.math)
    (hC : C.Exact) (hD : C.DigitFirst) (U : UTab K) (one zero : K) (h1 : C.val one = 1) (h0 : C.val zero = 0) (s : Str)
    {e : Expr K} (hw : P (deriv C U (derivRule one zero) s e)) (hcl : Calls I.math (deriv C U (derivRule one zero) s e))
    {vals : List ℝ} {errs : Nat} (h : modelValues C I (deriv C U (derivRule one zero) s e) = some (some vals, errs)) {i : Nat}
    (hi : i < I.nodes0.length) {γ : ℝ → Sym.Env} {t : ℝ} (hγ : Motion I i s γ t) (hreg : Regular C U γ t e) :
    ∃ d, vals[i]? = some d ∧ HasDerivAt (fun τ => eval C (γ τ) e) d t := by
  obtain ⟨-, h2⟩ := interface_value hP hI hstd hw hcl h
  refine ⟨_, h2 i hi, ?_⟩
  have := deriv_correct hC hD U (derivRule one zero) s γ t (hγ.curve one zero h1 h0) e hreg
  rwa [hγ.start] at this

/-- The derivative of `x@r0` by `y@r0` is the model `x:y@r0`: unless the interface has a model of that name, the node model
`x:y` of the region, at its node of the pair. -/
theorem region_derivative_name {C : Cfg K} (one zero : K) {I : Ifc} {x y : Str} (hx : x ≠ []) (hxy : x ≠ y) (hy : y ≠ [])
    (r : Side) (hf : I.find (x ++ ':' :: (y ++ r.suffix)) = none) {l : List ℝ} (hl : I.node r (x ++ ':' :: y) = some l)
    {i j : Nat} (hj : (pairNodes I r)[i]? = some j) (hlt : j < l.length) :
    l[j]? = some (eval C (ienv I i) (derivRule one zero (x ++ r.suffix) (y ++ r.suffix))) := by
  have hne : ¬ (y ++ r.suffix = x ++ r.suffix) := fun h => hxy (List.append_cancel_right h).symm
  unfold derivRule
  rw [if_neg hne, split_suffix hx, split_suffix hy]
  simp only [if_true, eval_model, ienv]
  have := mval_region (I := I) (x := x ++ ':' :: y) (by simp) r (by simpa using hf) hl hj hlt
  simpa using this

/-- The derivative of a model by itself is 1. -/
theorem self_derivative {C : Cfg K} (one zero : K) (h1 : C.val one = 1) {I : Ifc} (x : Str) (i : Nat) :
    eval C (ienv I i) (derivRule one zero x x) = 1 := by
  simp [derivRule, h1]

/-- A model of one region has derivative 0 by a model of the other. -/
theorem other_region_derivative {C : Cfg K} (one zero : K) (h0 : C.val zero = 0) {I : Ifc} {x y : Str} (hx : x ≠ [])
    (hy : y ≠ []) {r r' : Side} (hr : r ≠ r') (i : Nat) :
    eval C (ienv I i) (derivRule one zero (x ++ r.suffix) (y ++ r'.suffix)) = 0 := by
  have hne : ¬ (y ++ r'.suffix = x ++ r.suffix) := by
    intro h
    have := split_suffix hy r'
    rw [h, split_suffix hx] at this
    simp at this
    exact hr this.1
  unfold derivRule
  rw [if_neg hne, split_suffix hx, split_suffix hy]
  simp [hr, h0]

end Verif.Ifm
