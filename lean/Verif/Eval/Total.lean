import Verif.Eval.Sound

/-! # When the evaluation of the expression of a model succeeds (property C53) -/

namespace Verif.Eval

open Verif.ScalarData Verif.Sym

/-- Data of kind `k'` may occur in the expression of a model of kind `k`: edge data in models on the edges of elements. -/
def Sub (k' k : Kind) : Prop := k' = k ∨ (k' = .edge ∧ (k = .tri ∨ k = .tet))

/-- Every edge of the region is an edge of an element. -/
def Covers (R : Reg) (k : Kind) : Prop :=
  k = .tri ∨ k = .tet → ∀ j, j < (R.env .edge).n → ∃ i, i < (R.env k).n ∧ loc R .edge k i = some j

/-- `f` is registered with `n` arguments. -/
def takes (R : Reg) (f : Str) (n : Nat) : Prop :=
  match R.tcl f with
  | some g => g.arity = n
  | none => match R.fns f with
    | some g => g.arity = n
    | none => False

variable {K : Type}

mutual
/-- The parameters and circuit nodes of an expression. -/
def varNames : Expr K → List Str
  | .con _ => []
  | .var x => [x]
  | .model _ => []
  | .add vs => varNamesL vs
  | .prod vs => varNamesL vs
  | .exp a => varNames a
  | .log a => varNames a
  | .pow a b => varNames a ++ varNames b
  | .user _ as => varNamesL as
  | .blog _ a b => varNames a ++ varNames b
  | .ulog a => varNames a
def varNamesL : List (Expr K) → List Str
  | [] => []
  | v :: vs => varNames v ++ varNamesL vs
end

mutual
/-- The models of an expression. -/
def modelNames : Expr K → List Str
  | .con _ => []
  | .var _ => []
  | .model m => [m]
  | .add vs => modelNamesL vs
  | .prod vs => modelNamesL vs
  | .exp a => modelNames a
  | .log a => modelNames a
  | .pow a b => modelNames a ++ modelNames b
  | .user _ as => modelNamesL as
  | .blog _ a b => modelNames a ++ modelNames b
  | .ulog a => modelNames a
def modelNamesL : List (Expr K) → List Str
  | [] => []
  | v :: vs => modelNames v ++ modelNamesL vs
end

mutual
/-- The calls of an expression: function and arguments. -/
def calls : Expr K → List (Str × List (Expr K))
  | .con _ => []
  | .var _ => []
  | .model _ => []
  | .add vs => callsL vs
  | .prod vs => callsL vs
  | .exp a => (['e', 'x', 'p'], [a]) :: calls a
  | .log a => (['l', 'o', 'g'], [a]) :: calls a
  | .pow a b => (['p', 'o', 'w'], [a, b]) :: (calls a ++ calls b)
  | .user f as => (f, as) :: callsL as
  | .blog op a b => (opName op, [a, b]) :: (calls a ++ calls b)
  | .ulog a => (['!'], [a]) :: calls a
def callsL : List (Expr K) → List (Str × List (Expr K))
  | [] => []
  | v :: vs => calls v ++ callsL vs
end

/-- An expression that can be evaluated for a model of kind `k`: the parameters exist, the models are of the right kind
and not being evaluated, and each function is registered and has a value at each point. -/
structure Evaluable (C : Cfg K) (R : Reg) (k : Kind) (e : Expr K) : Prop where
  vars : ∀ x ∈ varNames e, (R.param x).isSome = true ∨ (R.circ x).isSome = true
  models : ∀ m ∈ modelNames e, ∀ k' j, resolve R m = some (k', j) → R.inProcess k' j = false ∧ Sub k' k
  calls : ∀ p ∈ calls e, p.2 ≠ [] ∧ takes R p.1 p.2.length ∧ p.1 ≠ nVecSum ∧ p.1 ≠ nVecMax ∧ p.1 ≠ nVecMin ∧
    ∀ i, i < (R.env k).n → (appl R p.1 (p.2.map (eval C (penv R k i)))).isSome = true

/-- A value that a model of kind `k` can use. -/
def Ok (k : Kind) : Val → Prop
  | .double _ => True
  | .data k' _ => Sub k' k
  | .invalid => False

theorem varNamesL_mem {x : Str} : ∀ {vs : List (Expr K)} {v}, v ∈ vs → x ∈ varNames v → x ∈ varNamesL vs
  | w :: vs, v, hv, hx => by
    rcases List.mem_cons.1 hv with rfl | hv
    · simp [varNamesL, hx]
    · simp [varNamesL, varNamesL_mem hv hx]

theorem modelNamesL_mem {x : Str} : ∀ {vs : List (Expr K)} {v}, v ∈ vs → x ∈ modelNames v → x ∈ modelNamesL vs
  | w :: vs, v, hv, hx => by
    rcases List.mem_cons.1 hv with rfl | hv
    · simp [modelNamesL, hx]
    · simp [modelNamesL, modelNamesL_mem hv hx]

theorem callsL_mem {x} : ∀ {vs : List (Expr K)} {v}, v ∈ vs → x ∈ calls v → x ∈ callsL vs
  | w :: vs, v, hv, hx => by
    rcases List.mem_cons.1 hv with rfl | hv
    · simp [callsL, hx]
    · simp [callsL, callsL_mem hv hx]

theorem fnNames_calls (e : Expr K) : ∀ f ∈ fnNames e, ∃ as, (f, as) ∈ calls e := by
  have hL : ∀ vs : List (Expr K), (∀ v ∈ vs, ∀ f ∈ fnNames v, ∃ as, (f, as) ∈ calls v) →
      ∀ f ∈ fnNamesL vs, ∃ as, (f, as) ∈ callsL vs := by
    intro vs
    induction vs with
    | nil => intro _ f hf; simp [fnNamesL] at hf
    | cons v vs ih =>
      intro h f hf
      simp only [fnNamesL, List.mem_append] at hf
      rcases hf with hf | hf
      · obtain ⟨as, ha⟩ := h v (by simp) f hf
        exact ⟨as, by simp [callsL, ha]⟩
      · obtain ⟨as, ha⟩ := ih (fun v hv => h v (by simp [hv])) f hf
        exact ⟨as, by simp [callsL, ha]⟩
  induction e using Expr.ind with
  | hcon c => intro f hf; simp [fnNames] at hf
  | hvar c => intro f hf; simp [fnNames] at hf
  | hmodel c => intro f hf; simp [fnNames] at hf
  | hadd vs ih => intro f hf; simp only [fnNames] at hf; simpa only [calls] using hL vs ih f hf
  | hprod vs ih => intro f hf; simp only [fnNames] at hf; simpa only [calls] using hL vs ih f hf
  | hexp a ih =>
    intro f hf
    simp only [fnNames, List.mem_cons] at hf
    rcases hf with rfl | hf
    · exact ⟨_, by simp only [calls]; exact List.mem_cons_self⟩
    · obtain ⟨as, ha⟩ := ih f hf; exact ⟨as, by simp [calls, ha]⟩
  | hlog a ih =>
    intro f hf
    simp only [fnNames, List.mem_cons] at hf
    rcases hf with rfl | hf
    · exact ⟨_, by simp only [calls]; exact List.mem_cons_self⟩
    · obtain ⟨as, ha⟩ := ih f hf; exact ⟨as, by simp [calls, ha]⟩
  | hpow a b iha ihb =>
    intro f hf
    simp only [fnNames, List.mem_cons, List.mem_append] at hf
    rcases hf with rfl | hf | hf
    · exact ⟨_, by simp only [calls]; exact List.mem_cons_self⟩
    · obtain ⟨as, ha⟩ := iha f hf; exact ⟨as, by simp [calls, ha]⟩
    · obtain ⟨as, ha⟩ := ihb f hf; exact ⟨as, by simp [calls, ha]⟩
  | hblog op a b iha ihb =>
    intro f hf
    simp only [fnNames, List.mem_cons, List.mem_append] at hf
    rcases hf with rfl | hf | hf
    · exact ⟨_, by simp only [calls]; exact List.mem_cons_self⟩
    · obtain ⟨as, ha⟩ := iha f hf; exact ⟨as, by simp [calls, ha]⟩
    · obtain ⟨as, ha⟩ := ihb f hf; exact ⟨as, by simp [calls, ha]⟩
  | hulog a ih =>
    intro f hf
    simp only [fnNames, List.mem_cons] at hf
    rcases hf with rfl | hf
    · exact ⟨_, by simp only [calls]; exact List.mem_cons_self⟩
    · obtain ⟨as, ha⟩ := ih f hf; exact ⟨as, by simp [calls, ha]⟩
  | huser f as ih =>
    intro f hf
    simp only [fnNames, List.mem_cons] at hf
    rcases hf with rfl | hf
    · exact ⟨_, by simp only [calls]; exact List.mem_cons_self⟩
    · obtain ⟨as, ha⟩ := hL as ih f hf; exact ⟨as, by simp [calls, ha]⟩

theorem takes_known {R : Reg} {f : Str} {n : Nat} (h : takes R f n) : known R f := by
  unfold takes at h; unfold known
  cases h1 : R.tcl f with
  | some g => simp
  | none =>
    rw [h1] at h
    cases h2 : R.fns f with
    | some g => simp
    | none => rw [h2] at h; exact h.elim

theorem Evaluable.toCalls {C : Cfg K} {R : Reg} {k : Kind} {e : Expr K} (h : Evaluable C R k e) : Calls R e := by
  intro f hf
  obtain ⟨as, ha⟩ := fnNames_calls e f hf
  obtain ⟨-, h1, h2, h3, h4, -⟩ := h.calls _ ha
  exact ⟨takes_known h1, h2, h3, h4⟩

theorem mathScalar_total {R : Reg} {f : Str} {xs : List ℝ} (ht : takes R f xs.length) (ha : (appl R f xs).isSome = true) :
    (mathScalar R f xs).err = false ∧ (mathScalar R f xs).fpe = false := by
  unfold takes at ht; unfold appl at ha; unfold mathScalar
  cases h1 : R.tcl f with
  | some g =>
    simp only [h1] at ht ha ⊢
    obtain ⟨y, hy⟩ := Option.isSome_iff_exists.1 ha
    simp [ht, hy]
  | none =>
    simp only [h1] at ht ha ⊢
    cases h2 : R.fns f with
    | some g =>
      simp only [h2] at ht ha ⊢
      obtain ⟨y, hy⟩ := Option.isSome_iff_exists.1 ha
      simp [ht, hy]
    | none => simp only [h2] at ht

theorem mathVec_total {R : Reg} {f : Str} {args : List Arg} {n : Nat} (ht : takes R f args.length) (hn : numElems args = n)
    (ha : ∀ i, i < n → ∃ xs, argsAt args i = some xs ∧ (appl R f xs).isSome = true) :
    ∃ r, mathVec R f args n = some r ∧ r.err = false ∧ r.fpe = false := by
  obtain ⟨out, hout⟩ := mapM_some_of_forall (f := argsAt args) (l := List.range n) (fun i hi => by
    obtain ⟨xs, hx, _⟩ := ha i (by simpa using hi)
    simp [hx])
  obtain ⟨hl, hget⟩ := mapM_spec hout
  have hall : ∀ x ∈ out, (appl R f x).isSome = true := by
    intro x hx
    obtain ⟨i, hi, rfl⟩ := List.getElem_of_mem hx
    have hi' : i < n := by rw [hl] at hi; simpa using hi
    have h3 := hget i
    rw [List.getElem?_eq_getElem hi] at h3
    simp only [List.getElem?_range hi', Option.bind_some] at h3
    obtain ⟨xs, hx, hs⟩ := ha i hi'
    rw [hx, Option.some.injEq] at h3
    rw [h3]; exact hs
  unfold takes at ht; unfold appl at hall; unfold mathVec
  cases h1 : R.tcl f with
  | some g =>
    simp only [h1] at ht hall ⊢
    have h4 : (out.map g.f).all Option.isSome = true := by
      simp only [List.all_map, List.all_eq_true]; exact fun x hx => hall x hx
    simp only [ht, if_true, hn, hout, Option.bind_eq_bind, Option.bind_some, lt_irrefl, if_false, h4]
    exact ⟨_, rfl, rfl, rfl⟩
  | none =>
    simp only [h1] at ht hall ⊢
    cases h2 : R.fns f with
    | some g =>
      simp only [h2] at ht hall ⊢
      have h4 : (out.map g.f).all Option.isSome = true := by
        simp only [List.all_map, List.all_eq_true]; exact fun x hx => hall x hx
      simp only [ht, if_true, hout, Option.bind_eq_bind, Option.bind_some, h4]
      exact ⟨_, rfl, rfl, rfl⟩
    | none => simp only [h2] at ht

section
variable {R : Reg} (hR : R.Wf) {cx : Ctx} {k : Kind}

theorem loc_self (i : Nat) : loc R k k i = some i := by cases k <;> rfl

theorem covers_all (hcov : Covers R k) {k1 : Kind} (hs : Sub k1 k) {j : Nat} (hj : j < (R.env k1).n) :
    ∃ i, i < (R.env k).n ∧ loc R k1 k i = some j := by
  rcases hs with rfl | ⟨rfl, hk⟩
  · exact ⟨j, hj, loc_self j⟩
  · exact hcov hk j hj

theorem spread_total {m : Nat} {f : Nat → Nat} {l : List ℝ} (h : ∀ i, i < m → f i < l.length) : ∃ out, spread m f l = some out := by
  refine mapM_some_of_forall fun i hi => ?_
  rw [List.getElem?_eq_getElem (h i (by simpa using hi))]; rfl

include hR in
theorem toTri_total {g : (Str → ℝ) → ℝ} {v : Val} (hd : Denotes R cx g v) (hv : Ok k v) :
    ∃ v', toTri R v = some v' ∧ (k = .tri → Ok k v') := by
  cases v with
  | double x => exact ⟨_, rfl, fun _ => trivial⟩
  | invalid => exact hv.elim
  | data k1 s =>
    cases k1 with
    | node => exact ⟨_, rfl, fun _ => hv⟩
    | tri => exact ⟨_, rfl, fun _ => hv⟩
    | tet => exact ⟨_, rfl, fun _ => hv⟩
    | edge =>
      unfold toTri
      by_cases hu : s.isuniform = true
      · simp only [hu, if_true]
        exact ⟨_, rfl, fun h => Or.inl h.symm⟩
      · have hlen : (getScalarList (R.env .edge) s).length = (R.env .edge).n := denote_length _ (hR.env .edge) s hd.1
        obtain ⟨out, ho⟩ := spread_total (m := 3 * R.ntri) (f := R.triEdge) (l := getScalarList (R.env .edge) s)
          (fun i hi => by rw [hlen]; exact hR.triEdge i hi)
        simp only [hu, Bool.false_eq_true, if_false, ho, Option.bind_eq_bind, Option.bind_some]
        split_ifs
        · exact ⟨_, rfl, fun _ => hv⟩
        · exact ⟨_, rfl, fun h => Or.inl h.symm⟩

include hR in
theorem toTet_total {g : (Str → ℝ) → ℝ} {v : Val} (hd : Denotes R cx g v) (hv : Ok k v) :
    ∃ v', toTet R v = some v' ∧ (k = .tet → Ok k v') := by
  cases v with
  | double x => exact ⟨_, rfl, fun _ => trivial⟩
  | invalid => exact hv.elim
  | data k1 s =>
    cases k1 with
    | node => exact ⟨_, rfl, fun _ => hv⟩
    | tri => exact ⟨_, rfl, fun _ => hv⟩
    | tet => exact ⟨_, rfl, fun _ => hv⟩
    | edge =>
      unfold toTet
      by_cases hu : s.isuniform = true
      · simp only [hu, if_true]
        exact ⟨_, rfl, fun h => Or.inl h.symm⟩
      · have hlen : (getScalarList (R.env .edge) s).length = (R.env .edge).n := denote_length _ (hR.env .edge) s hd.1
        obtain ⟨out, ho⟩ := spread_total (m := 6 * R.ntet) (f := R.tetEdge) (l := getScalarList (R.env .edge) s)
          (fun i hi => by rw [hlen]; exact hR.tetEdge i hi)
        simp only [hu, Bool.false_eq_true, if_false, ho, Option.bind_eq_bind, Option.bind_some]
        split_ifs
        · exact ⟨_, rfl, fun _ => hv⟩
        · exact ⟨_, rfl, fun h => Or.inl h.symm⟩

include hR in
theorem sameKind_total {op : ℝ → ℝ → ℝ} {k1 : Kind} {g h : (Str → ℝ) → ℝ} {s s' : SD ℝ} (hs : Denotes R cx g (.data k1 s))
    (hs' : Denotes R cx h (.data k1 s')) : ∃ r, opEqualData (R.env k1) op s s' = some r := by
  obtain ⟨r, hr, -⟩ := opEqualData_spec (R.env k1) (hR.env k1) op s s' hs.1 hs'.1
  exact ⟨r, hr⟩

theorem eq_of_sub_node (h : Sub .node k) : k = .node := by
  rcases h with h | ⟨h, _⟩
  · exact h.symm
  · cases h
theorem eq_of_sub_tri (h : Sub .tri k) : k = .tri := by
  rcases h with h | ⟨h, _⟩
  · exact h.symm
  · cases h
theorem eq_of_sub_tet (h : Sub .tet k) : k = .tet := by
  rcases h with h | ⟨h, _⟩
  · exact h.symm
  · cases h

include hR in
theorem tri_total {op : ℝ → ℝ → ℝ} {g h : (Str → ℝ) → ℝ} {a b : Val} (ha : Denotes R cx g a) (hb : Denotes R cx h b)
    (ka : ∃ s, a = .data .tri s) (kb : ∃ s, b = .data .tri s) : ∃ r, opArr R op .tri a b = some r ∧ Ok .tri r := by
  obtain ⟨s, rfl⟩ := ka
  obtain ⟨s', rfl⟩ := kb
  obtain ⟨r, hr⟩ := sameKind_total hR (op := op) ha hb
  exact ⟨.data .tri r, by simp [opArr, hr], Or.inl rfl⟩

include hR in
theorem tet_total {op : ℝ → ℝ → ℝ} {g h : (Str → ℝ) → ℝ} {a b : Val} (ha : Denotes R cx g a) (hb : Denotes R cx h b)
    (ka : ∃ s, a = .data .tet s) (kb : ∃ s, b = .data .tet s) : ∃ r, opArr R op .tet a b = some r ∧ Ok .tet r := by
  obtain ⟨s, rfl⟩ := ka
  obtain ⟨s', rfl⟩ := kb
  obtain ⟨r, hr⟩ := sameKind_total hR (op := op) ha hb
  exact ⟨.data .tet r, by simp [opArr, hr], Or.inl rfl⟩

include hR in
theorem opEqual_total (hcx : cx.Wf) {op : ℝ → ℝ → ℝ} {g h : (Str → ℝ) → ℝ} {a b : Val} (ha : Denotes R cx g a) (hb : Denotes R cx h b)
    (oa : Ok k a) (ob : Ok k b) : ∃ r, opEqual R op a b = some r ∧ Ok k r := by
  cases a with
  | invalid => exact oa.elim
  | double x =>
    cases b with
    | invalid => exact ob.elim
    | double y => exact ⟨_, rfl, trivial⟩
    | data k1 s =>
      obtain ⟨w1, -⟩ := ofScalar_spec (R.env k1) x s.length hb.1.1
      obtain ⟨r, hr, -⟩ := opEqualData_spec (R.env k1) (hR.env k1) op _ s w1 hb.1
      exact ⟨.data k1 r, by simp [opEqual, hr], ob⟩
  | data k1 s =>
    cases b with
    | invalid => exact ob.elim
    | double y => cases k1 <;> exact ⟨_, rfl, oa⟩
    | data k2 s' =>
      have hsame : k1 = k2 → ∃ r, opEqualData (R.env k1) op s s' = some r := by
        rintro rfl; exact sameKind_total hR ha hb
      cases k1 with
      | node =>
        have h1 := eq_of_sub_node oa; subst h1
        have h2 : k2 = .node := by rcases ob with h | ⟨_, h | h⟩ <;> [exact h; cases h; cases h]
        subst h2
        obtain ⟨r, hr⟩ := hsame rfl
        exact ⟨.data .node r, by simp [opEqual, hr], oa⟩
      | edge =>
        cases k2 with
        | node =>
          have h1 := eq_of_sub_node ob; subst h1
          rcases oa with h | ⟨_, h | h⟩ <;> cases h
        | edge =>
          obtain ⟨r, hr⟩ := hsame rfl
          exact ⟨.data .edge r, by simp [opEqual, hr], oa⟩
        | tri =>
          have h1 := eq_of_sub_tri ob; subst h1
          obtain ⟨v', hv', ov'⟩ := toTri_total hR ha oa
          have ht : has R .tri := hb.2.1 rfl
          have hd' := toTri_denotes hR ha ht hv'
          have hk : ∃ s, v' = .data .tri s := by
            rcases toTri_kind hR hcx (hR.hasTri ht) hv' with ⟨rfl, hne⟩ | h
            · simp [Val.isKind] at hne
            · exact h
          obtain ⟨r, hr, or⟩ := tri_total hR (op := op) hd' hb hk ⟨s', rfl⟩
          exact ⟨r, by simp only [opEqual, hv', Option.bind_some, hr], or⟩
        | tet =>
          have h1 := eq_of_sub_tet ob; subst h1
          obtain ⟨v', hv', ov'⟩ := toTet_total hR ha oa
          have ht : has R .tet := hb.2.2.1 rfl
          have hd' := toTet_denotes hR ha ht hv'
          have hk : ∃ s, v' = .data .tet s := by
            rcases toTet_kind hR hcx (hR.hasTet ht) hv' with ⟨rfl, hne⟩ | h
            · simp [Val.isKind] at hne
            · exact h
          obtain ⟨r, hr, or⟩ := tet_total hR (op := op) hd' hb hk ⟨s', rfl⟩
          exact ⟨r, by simp only [opEqual, hv', Option.bind_some, hr], or⟩
      | tri =>
        have h1 := eq_of_sub_tri oa; subst h1
        have ht : has R .tri := ha.2.1 rfl
        rcases ob with rfl | ⟨rfl, _⟩
        · obtain ⟨r, hr⟩ := hsame rfl
          exact ⟨.data .tri r, by simp [opEqual, hr], oa⟩
        · obtain ⟨v', hv', ov'⟩ := toTri_total (k := .tri) hR hb (Or.inr ⟨rfl, Or.inl rfl⟩)
          have hd' := toTri_denotes hR hb ht hv'
          have hk : ∃ s, v' = .data .tri s := by
            rcases toTri_kind hR hcx (hR.hasTri ht) hv' with ⟨rfl, hne⟩ | h
            · simp [Val.isKind] at hne
            · exact h
          obtain ⟨r, hr, or⟩ := tri_total hR (op := op) ha hd' ⟨s, rfl⟩ hk
          exact ⟨r, by simp only [opEqual, hv', Option.bind_some, hr], or⟩
      | tet =>
        have h1 := eq_of_sub_tet oa; subst h1
        have ht : has R .tet := ha.2.2.1 rfl
        rcases ob with rfl | ⟨rfl, _⟩
        · obtain ⟨r, hr⟩ := hsame rfl
          exact ⟨.data .tet r, by simp [opEqual, hr], oa⟩
        · obtain ⟨v', hv', ov'⟩ := toTet_total (k := .tet) hR hb (Or.inr ⟨rfl, Or.inr rfl⟩)
          have hd' := toTet_denotes hR hb ht hv'
          have hk : ∃ s, v' = .data .tet s := by
            rcases toTet_kind hR hcx (hR.hasTet ht) hv' with ⟨rfl, hne⟩ | h
            · simp [Val.isKind] at hne
            · exact h
          obtain ⟨r, hr, or⟩ := tet_total hR (op := op) ha hd' ⟨s, rfl⟩ hk
          exact ⟨r, by simp only [opEqual, hv', Option.bind_some, hr], or⟩

theorem nErrs_ok {argv : List Val} (h : ∀ v ∈ argv, Ok k v) : nErrs argv = 0 := by
  have hinv : argv.any Val.isInvalid = false := by
    rw [List.any_eq_false]; intro v hv
    have := h v hv
    cases v <;> simp_all [Val.isInvalid, Ok]
  have hno : ∀ k1, ¬ Sub k1 k → argv.any (Val.isKind k1) = false := by
    intro k1 hk
    rw [List.any_eq_false]; intro v hv hkv
    have := h v hv
    cases v with
    | double x => simp [Val.isKind] at hkv
    | invalid => simp [Val.isKind] at hkv
    | data k2 s => simp only [Val.isKind, decide_eq_true_eq] at hkv; subst hkv; exact hk this
  unfold nErrs
  cases k with
  | node =>
    have h1 := hno .edge (by simp [Sub]); have h2 := hno .tri (by simp [Sub]); have h3 := hno .tet (by simp [Sub])
    simp [hinv, h1, h2, h3]
  | edge =>
    have h1 := hno .node (by simp [Sub]); have h2 := hno .tri (by simp [Sub]); have h3 := hno .tet (by simp [Sub])
    simp [hinv, h1, h2, h3]
  | tri =>
    have h1 := hno .node (by simp [Sub]); have h3 := hno .tet (by simp [Sub])
    simp [hinv, h1, h3]
  | tet =>
    have h1 := hno .node (by simp [Sub]); have h3 := hno .tri (by simp [Sub])
    simp [hinv, h1, h3]

include hR in
theorem convert_total {gs : List ((Str → ℝ) → ℝ)} {argv : List Val}
    (hd : List.Forall₂ (Denotes R cx) gs argv) (h : ∀ v ∈ argv, Ok k v) :
    ∃ argv', preConvert R argv = some argv' ∧ ∀ v ∈ argv', Ok k v := by
  unfold preConvert
  split_ifs
  · unfold convertArgs
    by_cases h3 : argv.any (Val.isKind .tri) = true
    · obtain ⟨s, hs⟩ := any_kind h3
      have hk := eq_of_sub_tri (h _ hs)
      obtain ⟨out, ho⟩ := mapM_some_of_forall (f := toTri R) (l := argv) (fun v hv => by
        obtain ⟨g, hg⟩ := mem_denotes hd hv
        obtain ⟨v', hv', -⟩ := toTri_total hR hg (h v hv)
        simp [hv'])
      have hok : ∀ v ∈ out, Ok k v := by
        intro v' hv'
        obtain ⟨v, hv, he⟩ := mem_mapM ho hv'
        obtain ⟨g, hg⟩ := mem_denotes hd hv
        obtain ⟨v2, hv2, ok⟩ := toTri_total hR hg (h v hv)
        rw [hv2] at he; cases he
        exact ok hk
      have hno : out.any (Val.isKind .tet) = false := by
        rw [List.any_eq_false]; intro v hv hkv
        have := hok v hv
        cases v with
        | double x => simp [Val.isKind] at hkv
        | invalid => simp [Val.isKind] at hkv
        | data k2 s =>
          simp only [Val.isKind, decide_eq_true_eq] at hkv; subst hkv
          have := eq_of_sub_tet this
          rw [this] at hk; cases hk
      exact ⟨out, by simp only [h3, if_true, ho, Option.bind_eq_bind, Option.bind_some, hno, Bool.false_eq_true, if_false], hok⟩
    · simp only [h3, Bool.false_eq_true, if_false, Option.bind_eq_bind, Option.bind_some]
      by_cases h4 : argv.any (Val.isKind .tet) = true
      · obtain ⟨s, hs⟩ := any_kind h4
        have hk := eq_of_sub_tet (h _ hs)
        obtain ⟨out, ho⟩ := mapM_some_of_forall (f := toTet R) (l := argv) (fun v hv => by
          obtain ⟨g, hg⟩ := mem_denotes hd hv
          obtain ⟨v', hv', -⟩ := toTet_total hR hg (h v hv)
          simp [hv'])
        have hok : ∀ v ∈ out, Ok k v := by
          intro v' hv'
          obtain ⟨v, hv, he⟩ := mem_mapM ho hv'
          obtain ⟨g, hg⟩ := mem_denotes hd hv
          obtain ⟨v2, hv2, ok⟩ := toTet_total hR hg (h v hv)
          rw [hv2] at he; cases he
          exact ok hk
        exact ⟨out, by simp [h4, ho], hok⟩
      · exact ⟨argv, by simp [h4], h⟩
  · exact ⟨argv, rfl, h⟩

include hR in
theorem extMath_total (hcx : cx.Wf) (hi : cx.indexes = []) (hE : Elems R) (hcov : Covers R k) (hpos : 0 < (R.env k).n)
    {name : Str} {gs : List ((Str → ℝ) → ℝ)} {argv : List Val}
    (hd : List.Forall₂ (Denotes R cx) gs argv) (h : ∀ v ∈ argv, Ok k v) (hne : argv ≠ []) (ht : takes R name gs.length)
    (hn : name ≠ nVecSum ∧ name ≠ nVecMax ∧ name ≠ nVecMin)
    (hv : ∀ i, i < (R.env k).n → (appl R name (gs.map (· (mval R k i)))).isSome = true) :
    ∃ v, extMath R cx name argv 0 = some (v, 0, false) ∧ Ok k v := by
  obtain ⟨argv', hc, hok⟩ := convert_total hR hd h
  have h0 := nErrs_ok h
  obtain ⟨hd', hkind⟩ := preConvert_kind hR hcx hE hd h0 hc
  have hlen : gs.length = argv'.length := hd'.length_eq
  have hem : argv.isEmpty = false := by simpa using hne
  simp only [extMath, hem, Bool.false_eq_true, if_false, hc, Option.bind_some, h0, ne_eq, not_true_eq_false]
  have hpt : ∀ i, cx.pt k i := fun i => Or.inl hi
  unfold extEval
  by_cases hall : argv'.all Val.isDouble = true
  · have e1 := doubles_ok hR hcx hd' hall (adm_mval R k 0)
    have h1 := hv 0 hpos
    rw [e1] at h1
    obtain ⟨t1, t2⟩ := mathScalar_total (xs := argv'.map Val.dbl) (by simpa [← hlen] using ht) h1
    simp only [hall, if_true, t1, t2, Bool.false_eq_true, if_false, ne_eq, not_true_eq_false]
    exact ⟨_, rfl, trivial⟩
  · obtain ⟨k1, hk⟩ := hkind.resolve_left hall
    have hsub : Sub k1 k := by
      obtain ⟨v, hv, s, rfl⟩ := hk.2
      exact hok _ hv
    have hargs : ∀ j, j < (R.env k1).n → ∃ i, i < (R.env k).n ∧
        argsAt (argv'.map (argOf R)) j = some (gs.map (· (mval R k i))) := by
      intro j hj
      obtain ⟨i, hi', hl⟩ := covers_all hcov hsub hj
      exact ⟨i, hi', argsAt_ok hR hd' hk.1 (hpt i) hi' hl⟩
    have hpos1 : 0 < (R.env k1).n := by
      rcases hsub with rfl | ⟨rfl, hk' | hk'⟩
      · exact hpos
      · subst hk'
        have := hR.triEdge 0 (hR.ntri ▸ hpos)
        omega
      · subst hk'
        have := hR.tetEdge 0 (hR.ntet ▸ hpos)
        omega
    have key : ∃ r, vectorEval R cx name argv' = some r ∧ r.err = false ∧ r.fpe = false := by
      unfold vectorEval
      by_cases hvec : (argv'.map (argOf R)).any Arg.isVec = true
      · have hnum := numElems_ok hR hd' hk.1 hvec
        have hvl := vlenOf_ok hR hd' hk.1 0 (Or.inr hk.2)
        obtain ⟨r, hr, r1, r2⟩ := mathVec_total (R := R) (f := name) (args := argv'.map (argOf R)) (by simpa [← hlen] using ht) hnum
          (fun j hj => by
            obtain ⟨i, hi', ha⟩ := hargs j hj
            exact ⟨_, ha, hv i hi'⟩)
        simp only [hi, List.isEmpty_nil, Bool.not_true, Bool.false_eq_true, if_false, hvec, hvl, hr, Option.bind_eq_bind,
          Option.bind_some]
        exact ⟨_, rfl, r1, r2⟩
      · have hvec' : (argv'.map (argOf R)).any Arg.isVec = false := by simpa using hvec
        obtain ⟨i, hi', ha⟩ := hargs 0 hpos1
        have hscs := scs_of_argsAt hvec' ha
        obtain ⟨t1, t2⟩ := mathScalar_total (xs := gs.map (· (mval R k i))) (by simpa using ht) (hv i hi')
        simp only [hi, List.isEmpty_nil, Bool.not_true, Bool.false_eq_true, if_false, hvec', Bool.not_false, if_true, hscs]
        exact ⟨_, rfl, t1, t2⟩
    obtain ⟨r, hr, r1, r2⟩ := key
    simp only [hall, Bool.false_eq_true, if_false, hr, Option.bind_some, package_ok hk hn, r1, r2, ne_eq, not_true_eq_false]
    exact ⟨_, rfl, hsub⟩

end

section
variable {C : Cfg K} {P : Expr K → Prop} (hP : Texts C P)
  {R : Reg} (hR : R.Wf) (hE : Elems R) (hstd : Std R) {cx : Ctx} (hcx : cx.Wf) (hi : cx.indexes = []) {k : Kind}
  (hcov : Covers R k) (hpos : 0 < (R.env k).n)

/-- No error so far, and a cache of right, usable values. -/
structure Inv (C : Cfg K) (P : Expr K → Prop) (R : Reg) (cx : Ctx) (k : Kind) (st : St) : Prop where
  cache : CacheOK C P R cx st.cache
  ok : ∀ p ∈ st.cache, Ok k p.2
  errs : st.errs = 0

/-- The evaluation of `e` succeeds. -/
def Succ (C : Cfg K) (P : Expr K → Prop) (R : Reg) (cx : Ctx) (k : Kind) (e : Expr K) : Prop :=
  ∀ st, Inv C P R cx k st → ∃ v st', evalE C R cx e st = some (v, st') ∧ Inv C P R cx k st' ∧ Ok k v ∧
    Denotes R cx (sem C R e) v

theorem withCache_total {e : Expr K} {body : St → Option (Val × St × Bool)} {st : St} (hst : Inv C P R cx k st)
    (hb : ∃ v st', body st = some (v, st', false) ∧ Ok k v ∧ st'.errs = 0 ∧ ∀ p ∈ st'.cache, Ok k p.2) :
    ∃ v st', withCache (str C e) body st = some (v, st') ∧ Ok k v ∧ st'.errs = 0 ∧ ∀ p ∈ st'.cache, Ok k p.2 := by
  unfold withCache
  cases hl : st.cache.lookup (str C e) with
  | some v => exact ⟨v, st, rfl, hst.ok _ (lookup_mem hl), hst.errs, hst.ok⟩
  | none =>
    obtain ⟨v, st', hb, o, e1, e2⟩ := hb
    simp only [hb, Bool.false_eq_true, if_false]
    refine ⟨_, _, rfl, o, e1, ?_⟩
    have hv : v.isInvalid = false := by cases v <;> simp_all [Ok, Val.isInvalid]
    simp only [hv, Bool.false_eq_true, if_false]
    intro p hp
    rcases List.mem_cons.1 hp with rfl | hp
    · exact o
    · exact e2 p hp

include hR hcx in
theorem evalSum_total : ∀ {vs : List (Expr K)}, (∀ v ∈ vs, Succ C P R cx k v) → ∀ {out st} {g : (Str → ℝ) → ℝ},
    Inv C P R cx k st → Ok k out → Denotes R cx g out →
    ∃ v st', evalSum C R cx vs out st = some (v, st') ∧ Ok k v ∧ st'.errs = 0 ∧ ∀ p ∈ st'.cache, Ok k p.2
  | [], _, out, st, g, hst, ho, hd => ⟨out, st, by simp [evalSum], ho, hst.errs, hst.ok⟩
  | e :: vs, hv, out, st, g, hst, ho, hd => by
    obtain ⟨v, st', h1, h2, h3, h4⟩ := hv e (by simp) st hst
    obtain ⟨r, hr, or⟩ := opEqual_total hR hcx (op := (· + ·)) hd h4 ho h3
    have dr := opEqual_denotes hR hd h4 hr
    obtain ⟨w, st2, h5, h6⟩ := evalSum_total (vs := vs) (fun v hv' => hv v (by simp [hv'])) h2 or dr
    exact ⟨w, st2, by simp only [evalSum, h1, Option.bind_some, hr, h5], h6⟩

include hR hcx in
theorem evalProd_total : ∀ {vs : List (Expr K)}, (∀ v ∈ vs, Succ C P R cx k v) → ∀ {out st} {g : (Str → ℝ) → ℝ},
    Inv C P R cx k st → Ok k out → Denotes R cx g out →
    ∃ v st', evalProd C R cx vs out st = some (v, st') ∧ Ok k v ∧ st'.errs = 0 ∧ ∀ p ∈ st'.cache, Ok k p.2
  | [], _, out, st, g, hst, ho, hd => ⟨out, st, by simp [evalProd], ho, hst.errs, hst.ok⟩
  | e :: vs, hv, out, st, g, hst, ho, hd => by
    obtain ⟨v, st', h1, h2, h3, h4⟩ := hv e (by simp) st hst
    obtain ⟨r, hr, or⟩ := opEqual_total hR hcx (op := (· * ·)) hd h4 ho h3
    have dr := opEqual_denotes hR hd h4 hr
    obtain ⟨w, st2, h5, h6⟩ := evalProd_total (vs := vs) (fun v hv' => hv v (by simp [hv'])) h2 or dr
    cases v with
    | invalid => exact h3.elim
    | data k1 s => exact ⟨w, st2, by simp only [evalProd, h1, Option.bind_some, hr, h5], h6⟩
    | double x =>
      by_cases hx : x = 0
      · exact ⟨.double 0, st', by simp [evalProd, h1, hx], trivial, h2.errs, h2.ok⟩
      · exact ⟨w, st2, by simp only [evalProd, h1, Option.bind_some, if_neg hx, hr, h5], h6⟩

theorem evalArgs_total : ∀ {vs : List (Expr K)}, (∀ v ∈ vs, Succ C P R cx k v) → ∀ {st}, Inv C P R cx k st →
    ∃ vals st', evalArgs C R cx vs st = some (vals, st') ∧ (∀ v ∈ vals, Ok k v) ∧ Inv C P R cx k st' ∧
      List.Forall₂ (fun e v => Denotes R cx (sem C R e) v) vs vals
  | [], _, st, hst => ⟨[], st, by simp [evalArgs], by simp, hst, .nil⟩
  | e :: vs, hv, st, hst => by
    obtain ⟨v, st', h1, h2, h3, h4⟩ := hv e (by simp) st hst
    obtain ⟨ws, st2, h5, h6, h7, h8⟩ := evalArgs_total (vs := vs) (fun v hv' => hv v (by simp [hv'])) h2
    refine ⟨v :: ws, st2, by simp [evalArgs, h1, h5], ?_, h7, .cons h4 h8⟩
    intro w hw
    rcases List.mem_cons.1 hw with rfl | hw
    · exact h3
    · exact h6 w hw

include hR hE hcx hi hcov hpos in
theorem callExt_total {name : Str} {es : List (Expr K)} {argv : List Val} {st : St} (hst : Inv C P R cx k st)
    (hd : List.Forall₂ (fun e v => Denotes R cx (sem C R e) v) es argv) (h : ∀ v ∈ argv, Ok k v)
    (hcall0 : es ≠ [] ∧ takes R name es.length ∧ name ≠ nVecSum ∧ name ≠ nVecMax ∧ name ≠ nVecMin ∧
      ∀ i, i < (R.env k).n → (appl R name (es.map (eval C (penv R k i)))).isSome = true) :
    ∃ v st', callExt R cx name argv st = some (v, st', false) ∧ Ok k v ∧ st'.errs = 0 ∧ ∀ p ∈ st'.cache, Ok k p.2 := by
  obtain ⟨hne, hcall⟩ := hcall0
  obtain ⟨v, hv, o⟩ := extMath_total (k := k) (name := name) (gs := es.map (sem C R)) (argv := argv) hR hcx hi hE hcov hpos
    (by rwa [List.forall₂_map_left_iff]) h (by
      rintro rfl
      have := hd.length_eq
      simp only [List.length_nil, List.length_eq_zero_iff] at this
      exact hne this) (by simpa using hcall.1)
    ⟨hcall.2.1, hcall.2.2.1, hcall.2.2.2.1⟩ (fun i hi => by
      have := hcall.2.2.2.2 i hi
      rw [List.map_map]
      exact this)
  exact ⟨v, { st with errs := 0 }, by simp [callExt, hst.errs, hv], o, rfl, hst.ok⟩

include hP hR hE hstd hcx hi hcov hpos in
/-- The evaluation of an expression that can be evaluated succeeds. -/
theorem evalE_total : ∀ e : Expr K, P e → Evaluable C R k e → Succ C P R cx k e := by
  have lift : ∀ e : Expr K, P e → Evaluable C R k e → (∀ st, Inv C P R cx k st →
      ∃ v st', evalE C R cx e st = some (v, st') ∧ Ok k v ∧ st'.errs = 0 ∧ ∀ p ∈ st'.cache, Ok k p.2) →
      Succ C P R cx k e := by
    intro e hw hev h st hst
    obtain ⟨v, st', h1, h2, h3, h4⟩ := h st hst
    obtain ⟨g1, g2⟩ := evalE_good hP hR hE hstd hcx e hw hev.toCalls st v st' hst.cache h1
    exact ⟨v, st', h1, ⟨g1, h4, h3⟩, h2, g2⟩
  intro e
  induction e using Expr.ind with
  | hcon c =>
    refine fun hw hev => lift _ hw hev fun st hst => ?_
    simp only [evalE]
    exact withCache_total hst ⟨_, _, rfl, trivial, hst.errs, hst.ok⟩
  | hvar x =>
    refine fun hw hev => lift _ hw hev fun st hst => ?_
    simp only [evalE]
    have := hev.vars x (by simp [varNames])
    refine withCache_total hst ?_
    unfold evalVar
    cases h1 : R.param x with
    | some y => exact ⟨_, _, rfl, trivial, hst.errs, hst.ok⟩
    | none =>
      cases h2 : R.circ x with
      | some y => exact ⟨_, _, rfl, trivial, hst.errs, hst.ok⟩
      | none => simp [h1, h2] at this
  | hmodel m =>
    refine fun hw hev => lift _ hw hev fun st hst => ?_
    simp only [evalE]
    have := hev.models m (by simp [modelNames])
    refine withCache_total hst ?_
    unfold evalModel
    cases hr : resolve R m with
    | none => exact ⟨_, _, rfl, trivial, hst.errs, hst.ok⟩
    | some p =>
      obtain ⟨k', j⟩ := p
      obtain ⟨h1, h2⟩ := this k' j hr
      simp only [h1, Bool.false_eq_true, if_false]
      exact ⟨_, _, rfl, h2, hst.errs, hst.ok⟩
  | hadd vs ih =>
    intro hw hev
    refine lift _ hw hev fun st hst => ?_
    simp only [evalE]
    have hv := hP.add _ hw
    obtain ⟨v, st', h1, h2⟩ := evalSum_total hR hcx (C := C) (P := P) (k := k) (fun u hu => ih u hu (hv u hu)
      ⟨fun x hx => hev.vars x (by simp only [varNames]; exact varNamesL_mem hu hx),
       fun x hx => hev.models x (by simp only [modelNames]; exact modelNamesL_mem hu hx),
       fun x hx => hev.calls x (by simp only [calls]; exact callsL_mem hu hx)⟩) hst (out := .double 0) (g := fun _ => 0) trivial
       (fun _ _ => rfl)
    exact withCache_total hst ⟨v, st', by simp [h1], h2⟩
  | hprod vs ih =>
    intro hw hev
    refine lift _ hw hev fun st hst => ?_
    simp only [evalE]
    have hv := hP.prod _ hw
    obtain ⟨v, st', h1, h2⟩ := evalProd_total hR hcx (C := C) (P := P) (k := k) (fun u hu => ih u hu (hv u hu)
      ⟨fun x hx => hev.vars x (by simp only [varNames]; exact varNamesL_mem hu hx),
       fun x hx => hev.models x (by simp only [modelNames]; exact modelNamesL_mem hu hx),
       fun x hx => hev.calls x (by simp only [calls]; exact callsL_mem hu hx)⟩) hst (out := .double 1) (g := fun _ => 1) trivial
       (fun _ _ => rfl)
    exact withCache_total hst ⟨v, st', by simp [h1], h2⟩
  | hexp a ih =>
    intro hw hev
    refine lift _ hw hev fun st hst => ?_
    simp only [evalE]
    have ha := hP.exp _ hw
    obtain ⟨v, st', h1, h2, h3, h4⟩ := ih ha ⟨fun x hx => hev.vars x (by simpa [varNames] using hx),
      fun x hx => hev.models x (by simpa [modelNames] using hx), fun x hx => hev.calls x (by simp [calls, hx])⟩ st hst
    obtain ⟨w, st2, h5, h6⟩ := callExt_total hR hE hcx hi hcov hpos h2 (.cons h4 .nil) (by simpa using h3)
      (hev.calls (['e', 'x', 'p'], [a]) (by simp [calls]))
    exact withCache_total hst ⟨w, st2, by simp only [h1, Option.bind_some, h5], h6⟩
  | hlog a ih =>
    intro hw hev
    refine lift _ hw hev fun st hst => ?_
    simp only [evalE]
    have ha := hP.log _ hw
    obtain ⟨v, st', h1, h2, h3, h4⟩ := ih ha ⟨fun x hx => hev.vars x (by simpa [varNames] using hx),
      fun x hx => hev.models x (by simpa [modelNames] using hx), fun x hx => hev.calls x (by simp [calls, hx])⟩ st hst
    obtain ⟨w, st2, h5, h6⟩ := callExt_total hR hE hcx hi hcov hpos h2 (.cons h4 .nil) (by simpa using h3)
      (hev.calls (['l', 'o', 'g'], [a]) (by simp [calls]))
    exact withCache_total hst ⟨w, st2, by simp only [h1, Option.bind_some, h5], h6⟩
  | hulog a ih =>
    intro hw hev
    refine lift _ hw hev fun st hst => ?_
    simp only [evalE]
    have ha := hP.ulog _ hw
    obtain ⟨v, st', h1, h2, h3, h4⟩ := ih ha ⟨fun x hx => hev.vars x (by simpa [varNames] using hx),
      fun x hx => hev.models x (by simpa [modelNames] using hx), fun x hx => hev.calls x (by simp [calls, hx])⟩ st hst
    obtain ⟨w, st2, h5, h6⟩ := callExt_total hR hE hcx hi hcov hpos h2 (.cons h4 .nil) (by simpa using h3)
      (hev.calls (['!'], [a]) (by simp [calls]))
    exact withCache_total hst ⟨w, st2, by simp only [h1, Option.bind_some, h5], h6⟩
  | hpow a b iha ihb =>
    intro hw hev
    refine lift _ hw hev fun st hst => ?_
    simp only [evalE]
    obtain ⟨ha, hb⟩ := hP.pow _ _ hw
    obtain ⟨v, st', h1, h2, h3, h4⟩ := iha ha ⟨fun x hx => hev.vars x (by simp [varNames, hx]),
      fun x hx => hev.models x (by simp [modelNames, hx]), fun x hx => hev.calls x (by simp [calls, hx])⟩ st hst
    obtain ⟨w, st2, g1, g2, g3, g4⟩ := ihb hb ⟨fun x hx => hev.vars x (by simp [varNames, hx]),
      fun x hx => hev.models x (by simp [modelNames, hx]), fun x hx => hev.calls x (by simp [calls, hx])⟩ st' h2
    obtain ⟨z, st3, h5, h6⟩ := callExt_total hR hE hcx hi hcov hpos g2 (.cons h4 (.cons g4 .nil))
      (by simp [h3, g3]) (hev.calls (['p', 'o', 'w'], [a, b]) (by simp [calls]))
    exact withCache_total hst ⟨z, st3, by simp only [h1, Option.bind_some, g1, h5], h6⟩
  | hblog op a b iha ihb =>
    intro hw hev
    refine lift _ hw hev fun st hst => ?_
    simp only [evalE]
    obtain ⟨ha, hb⟩ := hP.blog _ _ _ hw
    obtain ⟨v, st', h1, h2, h3, h4⟩ := iha ha ⟨fun x hx => hev.vars x (by simp [varNames, hx]),
      fun x hx => hev.models x (by simp [modelNames, hx]), fun x hx => hev.calls x (by simp [calls, hx])⟩ st hst
    obtain ⟨w, st2, g1, g2, g3, g4⟩ := ihb hb ⟨fun x hx => hev.vars x (by simp [varNames, hx]),
      fun x hx => hev.models x (by simp [modelNames, hx]), fun x hx => hev.calls x (by simp [calls, hx])⟩ st' h2
    obtain ⟨z, st3, h5, h6⟩ := callExt_total hR hE hcx hi hcov hpos g2 (.cons h4 (.cons g4 .nil))
      (by simp [h3, g3]) (hev.calls (opName op, [a, b]) (by simp [calls]))
    exact withCache_total hst ⟨z, st3, by simp only [h1, Option.bind_some, g1, h5], h6⟩
  | huser f as ih =>
    intro hw hev
    refine lift _ hw hev fun st hst => ?_
    simp only [evalE]
    have hv := hP.user _ _ hw
    obtain ⟨ws, st', h1, h2, h3, h4⟩ := evalArgs_total (C := C) (P := P) (R := R) (cx := cx) (k := k) (fun u hu => ih u hu (hv u hu)
      ⟨fun x hx => hev.vars x (by simp only [varNames]; exact varNamesL_mem hu hx),
       fun x hx => hev.models x (by simp only [modelNames]; exact modelNamesL_mem hu hx),
       fun x hx => hev.calls x (by simp only [calls]; exact List.mem_cons_of_mem _ (callsL_mem hu hx))⟩) hst
    obtain ⟨w, st2, h5, h6⟩ := callExt_total hR hE hcx hi hcov hpos h3 h4 h2
      (hev.calls (f, as) (by simp [calls]))
    exact withCache_total hst ⟨w, st2, by simp only [h1, Option.bind_some, h5], h6⟩

end

end Verif.Eval
