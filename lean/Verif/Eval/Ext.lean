import Verif.Eval.Ops

/-! # Functions of model data -/

namespace Verif.Eval

open Verif.ScalarData Verif.Sym

theorem mathScalar_ok {R : Reg} {name : Str} {xs : List ℝ} (hk : known R name) (he : (mathScalar R name xs).err = false)
    (hf : (mathScalar R name xs).fpe = false) : appl R name xs = some (mathScalar R name xs).val := by
  unfold mathScalar appl at *
  cases ht : R.tcl name with
  | some g =>
    simp only [ht] at he hf ⊢
    split_ifs at he hf ⊢ with ha
    cases hg : g.f xs with
    | some y => simp
    | none => simp [hg] at he
  | none =>
    simp only [ht] at he hf ⊢
    cases hfn : R.fns name with
    | none => simp [known, ht, hfn] at hk
    | some g =>
      simp only [hfn] at he hf ⊢
      split_ifs at he hf ⊢ with ha
      cases hg : g.f xs with
      | some y => simp
      | none => simp [hg] at hf

theorem all_isSome {R : Reg} {g : Fn} {xs : List (List ℝ)} (h : (xs.map g.f).all Option.isSome = true) {i : Nat} {x : List ℝ}
    (hx : xs[i]? = some x) : g.f x = some ((g.f x).getD 0) := by
  have hm : x ∈ xs := List.mem_of_getElem? hx
  simp only [List.all_map, List.all_eq_true, Function.comp] at h
  obtain ⟨y, hy⟩ := Option.isSome_iff_exists.1 (h x hm)
  simp [hy]

theorem mathVec_ok {R : Reg} {name : Str} {args : List Arg} {n : Nat} {r : Res (List ℝ)} (hk : known R name)
    (hn : numElems args = n) (h : mathVec R name args n = some r) (he : r.err = false) (hf : r.fpe = false) :
    r.val.length = n ∧ ∀ i : Nat, i < n → ∀ xs, argsAt args i = some xs →
      appl R name xs = r.val[i]? := by
  unfold mathVec at h
  unfold appl
  cases ht : R.tcl name with
  | some g =>
    simp only [ht] at h ⊢
    by_cases ha : g.arity = args.length
    · simp only [ha, if_true, Option.bind_eq_bind, Option.bind_eq_some_iff, hn, lt_irrefl, if_false] at h
      obtain ⟨xs, hxs, h⟩ := h
      obtain ⟨h1, h2⟩ := mapM_spec hxs
      split_ifs at h with hall
      · cases h
        refine ⟨by simpa using h1, fun i hi x hx => ?_⟩
        have h3 : xs[i]? = some x := by rw [h2 i]; simp [hi, hx]
        rw [all_isSome (R := R) hall h3]
        simp [h3]
      · cases h; simp at he
    · simp only [ha, if_false] at h
      cases h; simp at he
  | none =>
    simp only [ht] at h ⊢
    cases hfn : R.fns name with
    | none => simp [known, ht, hfn] at hk
    | some g =>
      simp only [hfn] at h ⊢
      split_ifs at h with ha
      · simp only [Option.bind_eq_bind, Option.bind_eq_some_iff] at h
        obtain ⟨xs, hxs, h⟩ := h
        obtain ⟨h1, h2⟩ := mapM_spec hxs
        cases h
        refine ⟨by simpa using h1, fun i hi x hx => ?_⟩
        have h3 : xs[i]? = some x := by rw [h2 i]; simp [hi, hx]
        have hall : (xs.map g.f).all Option.isSome = true := by simpa using hf
        rw [all_isSome (R := R) hall h3]
        simp [h3]
      · cases h; simp at he

theorem cloop_ok {g : Nat → Option (Res ℝ)} : ∀ {n a : Nat} {rem : List Nat} {r : Res (List ℝ)},
    rem.Pairwise (· < ·) → (∀ j ∈ rem, a ≤ j) → cloop g rem (List.range' a n) = some r → r.err = false → r.fpe = false →
    r.val.length = n ∧ ∀ i : Nat, i ∈ rem → i < a + n →
      ∃ y, g i = some y ∧ y.err = false ∧ y.fpe = false ∧ r.val[i - a]? = some y.val
  | 0, a, rem, r, _, ha, h, _, _ => by
    simp only [List.range'_zero, cloop, Option.some.injEq] at h
    subst h
    exact ⟨rfl, fun i hi hlt => by have := ha i hi; omega⟩
  | n + 1, a, [], r, _, _, h, _, _ => by
    simp only [List.range'_succ, cloop, Option.some.injEq] at h
    subst h
    exact ⟨by simp, fun i hi => by simp at hi⟩
  | n + 1, a, j :: rem, r, hp, ha, h, he, hf => by
    simp only [List.range'_succ, cloop] at h
    have haj := ha j (by simp)
    split_ifs at h with h1 h2
    · rw [Option.map_eq_some_iff] at h
      obtain ⟨r', h3, rfl⟩ := h
      obtain ⟨h4, h5⟩ := cloop_ok hp (fun x hx => by
        rcases List.mem_cons.1 hx with rfl | hx
        · omega
        · have := List.rel_of_pairwise_cons hp hx; omega) h3 he hf
      refine ⟨by simp [h4], fun i hi hlt => ?_⟩
      obtain ⟨y, e1, e2, e3, e4⟩ := h5 i hi (by omega)
      refine ⟨y, e1, e2, e3, ?_⟩
      have hji : j ≤ i := by
        rcases List.mem_cons.1 hi with rfl | hx
        · exact le_rfl
        · exact (List.rel_of_pairwise_cons hp hx).le
      obtain ⟨d, hd⟩ : ∃ d, i - a = d + 1 := ⟨i - a - 1, by omega⟩
      simp only [hd, List.getElem?_cons_succ]
      rw [← e4]; congr 1; omega
    · subst h2
      simp only [Option.bind_eq_bind, Option.bind_eq_some_iff, ↓reduceIte] at h
      obtain ⟨y, hy, h⟩ := h
      split_ifs at h with h3
      · cases h; simp at he
      · rw [Option.bind_eq_some_iff] at h
        obtain ⟨r', h4, h5⟩ := h
        cases h5
        simp only [Bool.or_eq_false_iff] at hf
        obtain ⟨h6, h7⟩ := cloop_ok (List.Pairwise.of_cons hp) (fun x hx => List.rel_of_pairwise_cons hp hx) h4 he hf.2
        refine ⟨by simp [h6], fun i hi hlt => ?_⟩
        rcases List.mem_cons.1 hi with rfl | hx
        · exact ⟨y, hy, by simpa using h3, hf.1, by simp⟩
        · have hlt' := List.rel_of_pairwise_cons hp hx
          obtain ⟨y', e1, e2, e3, e4⟩ := h7 i hx (by omega)
          refine ⟨y', e1, e2, e3, ?_⟩
          obtain ⟨d, hd⟩ : ∃ d, i - a = d + 1 := ⟨i - a - 1, by omega⟩
          simp only [hd, List.getElem?_cons_succ]
          rw [← e4]; congr 1; omega
    · omega

/-- All the arrays among the arguments are of kind `k`, and there is one. -/
def UK (k : Kind) (argv : List Val) : Prop :=
  (∀ v ∈ argv, (∃ x, v = .double x) ∨ ∃ s, v = .data k s) ∧ ∃ v ∈ argv, ∃ s, v = .data k s

section
variable {R : Reg} (hR : R.Wf) {cx : Ctx}
include hR

theorem argOf_get {g : (Str → ℝ) → ℝ} {v : Val} {k k' : Kind} {i j : Nat} (hv : Denotes R cx g v)
    (hk : (∃ x, v = .double x) ∨ ∃ s, v = .data k s) (hc : cx.pt k' i) (hi : i < (R.env k').n) (hl : loc R k k' i = some j) :
    Arg.get j (argOf R v) = some (g (mval R k' i)) := by
  rcases hk with ⟨x, rfl⟩ | ⟨s, rfl⟩
  · simp only [argOf, Arg.get]
    rw [hv _ (adm_mval R k' i)]
  · have h1 := hv.2.2.2.2 k' i j hc hi hl
    have h2 := denote_lookup_lt hR hi hl
    simp only [argOf]
    split_ifs with hu
    · simp only [denote, getScalarList, hu, if_true, hv.1.1] at h1
      rw [List.getElem?_replicate, if_pos h2] at h1
      exact h1
    · exact h1

theorem argsAt_ok {gs : List ((Str → ℝ) → ℝ)} {argv : List Val} {k k' : Kind} {i j : Nat}
    (hd : List.Forall₂ (Denotes R cx) gs argv) (hk : ∀ v ∈ argv, (∃ x, v = .double x) ∨ ∃ s, v = .data k s)
    (hc : cx.pt k' i) (hi : i < (R.env k').n) (hl : loc R k k' i = some j) :
    argsAt (argv.map (argOf R)) j = some (gs.map (· (mval R k' i))) := by
  induction hd with
  | nil => simp [argsAt]
  | @cons g v gs argv h1 _ ih =>
    have h2 := argOf_get hR h1 (hk v (by simp)) hc hi hl
    have h3 := ih fun v hv => hk v (by simp [hv])
    simp only [argsAt] at h3 ⊢
    simp [h2, h3]

theorem argOf_length {g : (Str → ℝ) → ℝ} {k : Kind} {s : SD ℝ} (hv : Denotes R cx g (.data k s)) :
    (if s.isuniform then s.length else (getScalarList (R.env k) s).length) = (R.env k).n := by
  split_ifs
  · exact hv.1.1
  · exact denote_length (R.env k) (hR.env k) s hv.1

theorem vlenOf_ok {k : Kind} {gs : List ((Str → ℝ) → ℝ)} {argv : List Val} (hd : List.Forall₂ (Denotes R cx) gs argv) :
    (∀ v ∈ argv, (∃ x, v = .double x) ∨ ∃ s, v = .data k s) → ∀ n : Nat, (n = (R.env k).n ∨ ∃ v ∈ argv, ∃ s, v = .data k s) →
    vlenOf R argv n = (R.env k).n := by
  induction hd with
  | nil =>
    intro _ n h
    rcases h with h | ⟨v, hv, _⟩
    · simpa [vlenOf] using h
    · simp at hv
  | @cons g v gs argv h1 _ ih =>
    intro hk n h
    rcases hk v (by simp) with ⟨x, rfl⟩ | ⟨s, rfl⟩
    · simp only [vlenOf]
      refine ih (fun v hv => hk v (by simp [hv])) n ?_
      rcases h with h | ⟨v, hv, s, rfl⟩
      · exact Or.inl h
      · rcases List.mem_cons.1 hv with hv | hv
        · cases hv
        · exact Or.inr ⟨_, hv, s, rfl⟩
    · simp only [vlenOf]
      rw [argOf_length hR h1]
      exact ih (fun v hv => hk v (by simp [hv])) _ (Or.inl rfl)

theorem numElems_ok {k : Kind} {gs : List ((Str → ℝ) → ℝ)} {argv : List Val} (hd : List.Forall₂ (Denotes R cx) gs argv) :
    (∀ v ∈ argv, (∃ x, v = .double x) ∨ ∃ s, v = .data k s) → (argv.map (argOf R)).any Arg.isVec = true →
    numElems (argv.map (argOf R)) = (R.env k).n := by
  induction hd with
  | nil => intro _ h; simp at h
  | @cons g v gs argv h1 _ ih =>
    intro hk h
    rcases hk v (by simp) with ⟨x, rfl⟩ | ⟨s, rfl⟩
    · simp only [List.map_cons, argOf, numElems]
      exact ih (fun v hv => hk v (by simp [hv])) (by simpa [argOf, Arg.isVec] using h)
    · by_cases hu : s.isuniform = true
      · simp only [List.map_cons, argOf, hu, if_true, numElems]
        exact ih (fun v hv => hk v (by simp [hv])) (by simpa [argOf, Arg.isVec, hu] using h)
      · have := argOf_length hR h1
        simp only [hu] at this
        simp only [List.map_cons, argOf, hu]
        simpa [numElems] using this

end

theorem package_ok {k : Kind} {name : Str} {argv : List Val} (hk : UK k argv) (hn : name ≠ nVecSum ∧ name ≠ nVecMax ∧ name ≠ nVecMin)
    (allD : Bool) (vlen : Nat) (out : List ℝ) (res : ℝ) :
    package name argv allD vlen out res = some (.data k (if allD && out.isEmpty then ofScalar res vlen else ofVector out)) := by
  obtain ⟨h1, v, hv, s, rfl⟩ := hk
  have hyes : argv.any (Val.isKind k) = true := List.any_eq_true.2 ⟨_, hv, by simp [Val.isKind]⟩
  have hno : ∀ k', k' ≠ k → argv.any (Val.isKind k') = false := by
    intro k' hne
    rw [List.any_eq_false]
    intro v hv
    rcases h1 v hv with ⟨x, rfl⟩ | ⟨s, rfl⟩
    · simp [Val.isKind]
    · simpa [Val.isKind] using hne.symm
  unfold package
  simp only [hn.1, hn.2.1, hn.2.2, if_false]
  cases k
  · simp only [hyes, if_true]
  · rw [hno .node (by decide)]; simp only [hyes, if_true, Bool.false_eq_true, if_false]
  · rw [hno .node (by decide), hno .edge (by decide)]; simp only [hyes, if_true, Bool.false_eq_true, if_false]
  · rw [hno .node (by decide), hno .edge (by decide), hno .tri (by decide)]
    simp only [hyes, if_true, Bool.false_eq_true, if_false]

theorem scs_of_argsAt : ∀ {args : List Arg} {j : Nat} {xs : List ℝ}, args.any Arg.isVec = false → argsAt args j = some xs →
    args.map Arg.sc0 = xs
  | [], j, xs, _, h => by simpa [argsAt] using h
  | a :: as, j, xs, hv, h => by
    simp only [argsAt, List.mapM_cons, Option.pure_def, Option.bind_eq_bind, Option.bind_eq_some_iff, Option.some.injEq] at h
    obtain ⟨x, hx, ys, hys, rfl⟩ := h
    simp only [List.any_cons, Bool.or_eq_false_iff] at hv
    have := scs_of_argsAt hv.2 hys
    cases a with
    | sc z => simp only [Arg.get, Option.some.injEq] at hx; subst hx; simp [this, Arg.sc0]
    | vec l => simp [Arg.isVec] at hv

theorem loc_contact {R : Reg} {cx : Ctx} (hcx : cx.Wf) (hne : cx.indexes ≠ []) {k k' : Kind} {i j : Nat} (hc : cx.pt k' i)
    (hl : loc R k k' i = some j) : k' = k ∧ j = i ∧ (k = .node ∨ k = .edge) ∧ cx.etype = some k ∧ i ∈ cx.indexes := by
  rcases hc with hc | ⟨h1, h2⟩
  · exact absurd hc hne
  · rcases (hcx hne).1 with h3 | h3 <;> rw [h3] at h1 <;> cases h1 <;> cases k <;>
      simp only [loc, Option.some.injEq, reduceCtorEq] at hl <;> subst hl <;> simp [h3, h2]

section
variable {R : Reg} (hR : R.Wf) {cx : Ctx} (hcx : cx.Wf)
include hR hcx

/-- The vector evaluation of a function of arrays of one kind. -/
theorem vectorEval_denotes {name : Str} {gs : List ((Str → ℝ) → ℝ)} {argv : List Val} {k : Kind} {v : Val}
    {r : Res (List ℝ × ℝ)} (hd : List.Forall₂ (Denotes R cx) gs argv) (hk : UK k argv) (hkn : known R name)
    (hn : name ≠ nVecSum ∧ name ≠ nVecMax ∧ name ≠ nVecMin) {G : (Str → ℝ) → ℝ}
    (hG : ∀ m y, appl R name (gs.map (· m)) = some y → G m = y)
    (hr : vectorEval R cx name argv = some r) (he : r.err = false) (hf : r.fpe = false)
    (hp : package name argv (!((argv.map (argOf R)).any Arg.isVec)) (vlenOf R argv 0) r.val.1 r.val.2 = some v) :
    Denotes R cx G v := by
  rw [package_ok hk hn] at hp
  cases hp
  have hvl := vlenOf_ok hR hd hk.1 0 (Or.inr hk.2)
  obtain ⟨w0, hw0, s0, rfl⟩ := hk.2
  obtain ⟨g0, hg0⟩ : ∃ g, Denotes R cx g (.data k s0) := by
    obtain ⟨i, hi, he⟩ := List.getElem_of_mem hw0
    have := (List.forall₂_iff_get.1 hd)
    have h3 := this.2 i (by rw [this.1]; exact hi) hi
    simp only [List.get_eq_getElem, he] at h3
    exact ⟨_, h3⟩
  have hvec : ∀ (hkE : k = .edge) (ht : has R .tet) (hne : R.ntri ≠ R.ntet), (argv.map (argOf R)).any Arg.isVec = true := by
    intro hkE ht hne
    have hu := hg0.2.2.2.1 hkE ht hne
    rw [List.any_map, List.any_eq_true]
    exact ⟨_, hw0, by simp [argOf, hu, Arg.isVec]⟩
  -- the result, when it is an array `out` that is right at each point
  have fin : ∀ out : List ℝ, out.length = (R.env k).n → (∀ k' i j, cx.pt k' i → i < (R.env k').n → loc R k k' i = some j →
      out[j]? = some (G (mval R k' i))) →
      Denotes R cx G (.data k (ofVector out)) := by
    intro out hl hpt
    obtain ⟨h1, h2⟩ := ofVector_spec (R.env k) out hl
    exact ⟨h1, hg0.2.1, hg0.2.2.1, fun _ _ _ => rfl, fun k' i j hc hi hlc => by rw [h2]; exact hpt k' i j hc hi hlc⟩
  unfold vectorEval at hr
  simp only [hvl] at hr ⊢
  by_cases hidx : cx.indexes.isEmpty = true
  · simp only [hidx, Bool.not_true, Bool.false_eq_true, if_false] at hr
    by_cases hall : (argv.map (argOf R)).any Arg.isVec = true
    · simp only [hall, Bool.not_true, Bool.false_eq_true, if_false, Option.bind_eq_bind, Option.bind_eq_some_iff,
        Bool.false_and] at hr ⊢
      obtain ⟨q, hq, hr⟩ := hr
      cases hr
      have hne := numElems_ok hR hd hk.1 hall
      obtain ⟨h1, h2⟩ := mathVec_ok hkn hne hq he hf
      refine fin _ h1 fun k' i j hc hi hl => ?_
      have h3 := h2 j (denote_lookup_lt hR hi hl) _ (argsAt_ok hR hd hk.1 hc hi hl)
      have h4 : j < q.val.length := by rw [h1]; exact denote_lookup_lt hR hi hl
      rw [List.getElem?_eq_getElem h4] at h3 ⊢
      rw [hG _ _ h3]
    · have hall' : (argv.map (argOf R)).any Arg.isVec = false := by simpa using hall
      simp only [hall', Bool.not_false, if_true, Option.some.injEq, Bool.true_and] at hr ⊢
      subst hr
      simp only [List.isEmpty_nil, if_true]
      obtain ⟨h1, h2⟩ := ofScalar_spec (R.env k) (mathScalar R name (List.map Arg.sc0 (argv.map (argOf R)))).val _ rfl
      refine ⟨h1, hg0.2.1, hg0.2.2.1, fun hkE ht hne => absurd (hvec hkE ht hne) hall, fun k' i j hc hi hl => ?_⟩
      rw [h2, List.getElem?_replicate, if_pos (denote_lookup_lt hR hi hl)]
      have h3 := mathScalar_ok hkn he hf
      have h4 := scs_of_argsAt hall' (argsAt_ok hR hd hk.1 hc hi hl)
      rw [h4] at h3
      rw [hG _ _ h3, h4]
  · have hne : cx.indexes ≠ [] := by simpa using hidx
    simp only [hidx, Bool.not_false, if_true, Option.bind_eq_bind, Option.bind_eq_some_iff] at hr
    obtain ⟨q, hq, hr⟩ := hr
    cases hr
    simp only [Bool.or_eq_false_iff] at hf
    simp only at he
    rw [List.range_eq_range'] at hq
    have hpw : (if (cx.etype = some .node ∧ argv.any (Val.isKind .node) = true) ∨
        (cx.etype = some .edge ∧ argv.any (Val.isKind .edge) = true) then cx.indexes else []).Pairwise (· < ·) := by
      split_ifs
      · exact (hcx hne).2
      · exact List.Pairwise.nil
    obtain ⟨h1, h2⟩ := cloop_ok hpw (fun _ _ => Nat.zero_le _) hq he hf.1
    have key : Denotes R cx G (.data k (ofVector q.val)) := by
      refine fin _ h1 fun k' i j hc hi hl => ?_
      obtain ⟨rfl, rfl, h3, h4, h5⟩ := loc_contact hcx hne hc hl
      have h6 : (cx.etype = some .node ∧ argv.any (Val.isKind .node) = true) ∨
        (cx.etype = some .edge ∧ argv.any (Val.isKind .edge) = true) := by
        rcases h3 with rfl | rfl
        · exact Or.inl ⟨h4, List.any_eq_true.2 ⟨_, hw0, by simp [Val.isKind]⟩⟩
        · exact Or.inr ⟨h4, List.any_eq_true.2 ⟨_, hw0, by simp [Val.isKind]⟩⟩
      rw [if_pos h6] at h2
      obtain ⟨y, e1, e2, e3, e4⟩ := h2 j h5 (by omega)
      have hargs := argsAt_ok hR hd hk.1 hc hi hl
      simp only [Nat.sub_zero] at e4
      rw [e4]
      by_cases hall : (argv.map (argOf R)).any Arg.isVec = true
      · simp only [hall, Bool.not_true, Bool.false_eq_true, if_false, hargs, Option.map_some, Option.some.injEq] at e1
        subst e1
        rw [hG _ _ (mathScalar_ok hkn e2 e3)]
      · have hall' : (argv.map (argOf R)).any Arg.isVec = false := by simpa using hall
        simp only [hall', Bool.not_false, if_true, Option.some.injEq] at e1
        subst e1
        simp only [hall', Bool.not_false, Bool.true_and] at hf
        have h7 := mathScalar_ok hkn e2 hf.2
        simp only [scs_of_argsAt hall' hargs] at h7 ⊢
        rw [hG _ _ h7]
    by_cases hun : (!((argv.map (argOf R)).any Arg.isVec)) && q.val.isEmpty
    · rw [if_pos hun]
      simp only [Bool.and_eq_true, Bool.not_eq_true', List.isEmpty_iff] at hun
      have hn0 : (R.env k).n = 0 := by rw [← h1, hun.2]; rfl
      obtain ⟨h3, h4⟩ := ofScalar_spec (R.env k) (0 : ℝ) _ rfl
      refine ⟨h3, hg0.2.1, hg0.2.2.1, fun hkE ht hne' => ?_, fun k' i j hc hi hl => ?_⟩
      · rw [hvec hkE ht hne'] at hun; simp at hun
      · have := denote_lookup_lt hR hi hl; omega
    · rw [if_neg hun]; exact key

/-- A list of values, all of them numbers. -/
theorem doubles_ok {gs : List ((Str → ℝ) → ℝ)} {argv : List Val} (hd : List.Forall₂ (Denotes R cx) gs argv)
    (h : argv.all Val.isDouble = true) {m : Str → ℝ} (hm : Adm R m) : gs.map (· m) = argv.map Val.dbl := by
  induction hd with
  | nil => rfl
  | @cons g v gs argv h1 _ ih =>
    simp only [List.all_cons, Bool.and_eq_true] at h
    cases v with
    | double x => simp [Val.dbl, h1 m hm, ih h.2]
    | data k s => simp [Val.isDouble] at h
    | invalid => simp [Val.isDouble] at h

theorem toTri_kind {v v' : Val} (hn : 0 < R.ntri) (h : toTri R v = some v') :
    (v = v' ∧ v.isKind .edge = false) ∨ ∃ s, v' = .data .tri s := by
  unfold toTri at h
  split at h
  · split at h
    · cases h; exact Or.inr ⟨_, rfl⟩
    · simp only [Option.bind_eq_bind, Option.bind_eq_some_iff] at h
      obtain ⟨out, ho, h⟩ := h
      have h1 := (spread_spec ho).1
      split at h
      · rename_i hem
        rw [List.isEmpty_iff] at hem
        rw [hem] at h1
        simp at h1; omega
      · cases h; exact Or.inr ⟨_, rfl⟩
  · rename_i hv
    cases h
    refine Or.inl ⟨rfl, ?_⟩
    cases v with
    | double x => rfl
    | invalid => rfl
    | data k s => cases k <;> first | rfl | exact absurd rfl (hv s)

theorem toTet_kind {v v' : Val} (hn : 0 < R.ntet) (h : toTet R v = some v') :
    (v = v' ∧ v.isKind .edge = false) ∨ ∃ s, v' = .data .tet s := by
  unfold toTet at h
  split at h
  · split at h
    · cases h; exact Or.inr ⟨_, rfl⟩
    · simp only [Option.bind_eq_bind, Option.bind_eq_some_iff] at h
      obtain ⟨out, ho, h⟩ := h
      have h1 := (spread_spec ho).1
      split at h
      · rename_i hem
        rw [List.isEmpty_iff] at hem
        rw [hem] at h1
        simp at h1; omega
      · cases h; exact Or.inr ⟨_, rfl⟩
  · rename_i hv
    cases h
    refine Or.inl ⟨rfl, ?_⟩
    cases v with
    | double x => rfl
    | invalid => rfl
    | data k s => cases k <;> first | rfl | exact absurd rfl (hv s)

omit hR hcx in
theorem mapM_forall₂ {f : Val → Option Val} {gs : List ((Str → ℝ) → ℝ)} {argv : List Val}
    (hd : List.Forall₂ (Denotes R cx) gs argv)
    (hf : ∀ g v v', Denotes R cx g v → f v = some v' → Denotes R cx g v') : ∀ {out}, argv.mapM f = some out →
    List.Forall₂ (Denotes R cx) gs out := by
  induction hd with
  | nil => intro out h; simp at h; subst h; exact List.Forall₂.nil
  | @cons g v gs argv h1 _ ih =>
    intro out h
    simp only [List.mapM_cons, Option.pure_def, Option.bind_eq_bind, Option.bind_eq_some_iff, Option.some.injEq] at h
    obtain ⟨x, hx, ys, hys, rfl⟩ := h
    exact List.Forall₂.cons (hf g v x h1 hx) (ih hys)

omit hR hcx in
theorem mem_mapM {f : Val → Option Val} {argv out : List Val} (h : argv.mapM f = some out) {v' : Val} (hv : v' ∈ out) :
    ∃ v ∈ argv, f v = some v' := by
  obtain ⟨i, hi, rfl⟩ := List.getElem_of_mem hv
  obtain ⟨h1, h2⟩ := mapM_spec h
  have h3 := h2 i
  rw [List.getElem?_eq_getElem hi, List.getElem?_eq_getElem (by omega)] at h3
  exact ⟨_, List.getElem_mem _, h3.symm⟩

omit hR hcx in
theorem mem_mapM' {f : Val → Option Val} {argv out : List Val} (h : argv.mapM f = some out) {v : Val} (hv : v ∈ argv) :
    ∃ v' ∈ out, f v = some v' := by
  obtain ⟨i, hi, rfl⟩ := List.getElem_of_mem hv
  obtain ⟨h1, h2⟩ := mapM_spec h
  have h3 := h2 i
  rw [List.getElem?_eq_getElem (by omega : i < out.length), List.getElem?_eq_getElem hi] at h3
  exact ⟨_, List.getElem_mem _, h3.symm⟩

omit hR hcx in
theorem mem_denotes {gs : List ((Str → ℝ) → ℝ)} {argv : List Val} (hd : List.Forall₂ (Denotes R cx) gs argv) {v : Val}
    (hv : v ∈ argv) : ∃ g, Denotes R cx g v := by
  induction hd with
  | nil => simp at hv
  | @cons g w gs argv h1 _ ih =>
    rcases List.mem_cons.1 hv with rfl | hv
    · exact ⟨_, h1⟩
    · exact ih hv

omit hR hcx in
theorem any_kind {argv : List Val} {k : Kind} (h : argv.any (Val.isKind k) = true) : ∃ s, .data k s ∈ argv := by
  obtain ⟨v, hv, hk⟩ := List.any_eq_true.1 h
  cases v with
  | double x => simp [Val.isKind] at hk
  | invalid => simp [Val.isKind] at hk
  | data k' s => simp only [Val.isKind, decide_eq_true_eq] at hk; subst hk; exact ⟨s, hv⟩

omit hR hcx in
theorem not_any_kind {argv : List Val} {k : Kind} (h : argv.any (Val.isKind k) = false) (s : SD ℝ) : .data k s ∉ argv := by
  intro hm
  rw [List.any_eq_false] at h
  exact h _ hm (by simp [Val.isKind])

omit hR hcx in
theorem not_any_invalid {argv : List Val} (h : argv.any Val.isInvalid = false) : .invalid ∉ argv := by
  intro hm
  rw [List.any_eq_false] at h
  exact h _ hm (by simp [Val.isInvalid])

/-- After conversion of edge arguments, and when no error is found, the arguments are arrays of one kind and numbers. -/
theorem convertArgs_kind (hE : Elems R) {gs : List ((Str → ℝ) → ℝ)} {argv argv' : List Val}
    (hd : List.Forall₂ (Denotes R cx) gs argv) (hinv : .invalid ∉ argv) (hnode : argv.any (Val.isKind .node) = false)
    (hedge : argv.any (Val.isKind .edge) = true) (hc : convertArgs R argv = some argv') :
    List.Forall₂ (Denotes R cx) gs argv' ∧ ∃ k, UK k argv' := by
  have hboth : ∀ s s', .data .tri s ∈ argv → .data .tet s' ∈ argv → False := by
    intro s s' h1 h2
    obtain ⟨g1, hg1⟩ := mem_denotes hd h1
    obtain ⟨g2, hg2⟩ := mem_denotes hd h2
    rcases hE with hE | hE
    · exact hE (hg2.2.2.1 rfl)
    · exact hE.1 (hg1.2.1 rfl)
  unfold convertArgs at hc
  by_cases h3 : argv.any (Val.isKind .tri) = true
  · obtain ⟨s3, hs3⟩ := any_kind h3
    obtain ⟨g3, hg3⟩ := mem_denotes hd hs3
    have ht : has R .tri := hg3.2.1 rfl
    simp only [h3, if_true, Option.bind_eq_bind, Option.bind_eq_some_iff] at hc
    obtain ⟨a1, ha1, hc⟩ := hc
    have hall : ∀ v ∈ a1, (∃ x, v = .double x) ∨ ∃ s, v = .data .tri s := by
      intro v hv
      obtain ⟨w, hw, hwv⟩ := mem_mapM ha1 hv
      rcases toTri_kind hR hcx (hR.hasTri ht) hwv with ⟨rfl, hne⟩ | h
      · cases w with
        | double x => exact Or.inl ⟨x, rfl⟩
        | invalid => exact absurd hw hinv
        | data k s =>
          cases k
          · exact absurd hw (not_any_kind hnode s)
          · simp [Val.isKind] at hne
          · exact Or.inr ⟨s, rfl⟩
          · exact (hboth _ _ hs3 hw).elim
      · exact Or.inr h
    have hno : a1.any (Val.isKind .tet) = false := by
      rw [List.any_eq_false]
      intro v hv
      rcases hall v hv with ⟨x, rfl⟩ | ⟨s, rfl⟩ <;> simp [Val.isKind]
    simp only [hno, Bool.false_eq_true, if_false, Option.some.injEq] at hc
    subst hc
    refine ⟨mapM_forall₂ hd (fun g v v' hv he => toTri_denotes hR hv ht he) ha1, .tri, hall, ?_⟩
    obtain ⟨v', hv', he⟩ := mem_mapM' ha1 hs3
    simp only [toTri, Option.some.injEq] at he
    subst he
    exact ⟨_, hv', s3, rfl⟩
  · have h3' : argv.any (Val.isKind .tri) = false := by simpa using h3
    simp only [h3', Bool.false_eq_true, if_false, Option.bind_eq_bind, Option.bind_some] at hc
    by_cases h4 : argv.any (Val.isKind .tet) = true
    · obtain ⟨s4, hs4⟩ := any_kind h4
      obtain ⟨g4, hg4⟩ := mem_denotes hd hs4
      have ht : has R .tet := hg4.2.2.1 rfl
      simp only [h4, if_true] at hc
      refine ⟨mapM_forall₂ hd (fun g v v' hv he => toTet_denotes hR hv ht he) hc, .tet, ?_, ?_⟩
      · intro v hv
        obtain ⟨w, hw, hwv⟩ := mem_mapM hc hv
        rcases toTet_kind hR hcx (hR.hasTet ht) hwv with ⟨rfl, hne⟩ | h
        · cases w with
          | double x => exact Or.inl ⟨x, rfl⟩
          | invalid => exact absurd hw hinv
          | data k s =>
            cases k
            · exact absurd hw (not_any_kind hnode s)
            · simp [Val.isKind] at hne
            · exact absurd hw (not_any_kind h3' s)
            · exact Or.inr ⟨s, rfl⟩
        · exact Or.inr h
      · obtain ⟨v', hv', he⟩ := mem_mapM' hc hs4
        simp only [toTet, Option.some.injEq] at he
        subst he
        exact ⟨_, hv', s4, rfl⟩
    · have h4' : argv.any (Val.isKind .tet) = false := by simpa using h4
      simp only [h4', Bool.false_eq_true, if_false, Option.some.injEq] at hc
      subst hc
      refine ⟨hd, .edge, fun v hv => ?_, ?_⟩
      · cases v with
        | double x => exact Or.inl ⟨x, rfl⟩
        | invalid => exact absurd hv hinv
        | data k s =>
          cases k
          · exact absurd hv (not_any_kind hnode s)
          · exact Or.inr ⟨s, rfl⟩
          · exact absurd hv (not_any_kind h3' s)
          · exact absurd hv (not_any_kind h4' s)
      · obtain ⟨s, hs⟩ := any_kind hedge
        exact ⟨_, hs, s, rfl⟩

/-- After conversion, and when no error is found, the arguments are numbers, or numbers and arrays of one kind. -/
theorem preConvert_kind (hE : Elems R) {gs : List ((Str → ℝ) → ℝ)} {argv argv' : List Val}
    (hd : List.Forall₂ (Denotes R cx) gs argv) (h0 : nErrs argv = 0) (hc : preConvert R argv = some argv') :
    List.Forall₂ (Denotes R cx) gs argv' ∧ (argv'.all Val.isDouble = true ∨ ∃ k, UK k argv') := by
  unfold preConvert at hc
  have h0' : argv.any Val.isInvalid = false ∧ (argv.any (Val.isKind .node) && argv.any (Val.isKind .edge)) = false ∧
      (argv.any (Val.isKind .node) && (argv.any (Val.isKind .tri) || argv.any (Val.isKind .tet))) = false ∧
      (!argv.any (Val.isKind .node) && !argv.any (Val.isKind .edge) && argv.any (Val.isKind .tet) && argv.any (Val.isKind .tri)) = false := by
    simp only [nErrs, Nat.add_eq_zero_iff, ite_eq_right_iff, one_ne_zero, imp_false, Bool.not_eq_true] at h0
    exact ⟨h0.1.1.1, h0.1.1.2, h0.1.2, h0.2⟩
  obtain ⟨e1, e2, e3, e4⟩ := h0'
  have hinv := not_any_invalid e1
  by_cases hnode : argv.any (Val.isKind .node) = true
  · simp only [hnode, Bool.true_and, Bool.or_eq_false_iff] at e2 e3
    simp only [hnode, Bool.not_true, Bool.false_and, Bool.false_eq_true, if_false, Option.some.injEq] at hc
    subst hc
    refine ⟨hd, Or.inr ⟨.node, fun v hv => ?_, ?_⟩⟩
    · cases v with
      | double x => exact Or.inl ⟨x, rfl⟩
      | invalid => exact absurd hv hinv
      | data k s =>
        cases k
        · exact Or.inr ⟨s, rfl⟩
        · exact absurd hv (not_any_kind e2 s)
        · exact absurd hv (not_any_kind e3.1 s)
        · exact absurd hv (not_any_kind e3.2 s)
    · obtain ⟨s, hs⟩ := any_kind hnode
      exact ⟨_, hs, s, rfl⟩
  · have hnode' : argv.any (Val.isKind .node) = false := by simpa using hnode
    by_cases hedge : argv.any (Val.isKind .edge) = true
    · simp only [hnode', hedge, Bool.not_false, Bool.and_self, if_true] at hc
      obtain ⟨c1, c2⟩ := convertArgs_kind hR hcx hE hd hinv hnode' hedge hc
      exact ⟨c1, Or.inr c2⟩
    · have hedge' : argv.any (Val.isKind .edge) = false := by simpa using hedge
      simp only [hnode', hedge', Bool.not_false, Bool.and_false, Bool.false_eq_true, if_false, Option.some.injEq] at hc
      subst hc
      refine ⟨hd, ?_⟩
      simp only [hnode', hedge', Bool.not_false, Bool.and_self, Bool.true_and] at e4
      by_cases h3 : argv.any (Val.isKind .tri) = true
      · rw [h3, Bool.and_true] at e4
        refine Or.inr ⟨.tri, fun v hv => ?_, ?_⟩
        · cases v with
          | double x => exact Or.inl ⟨x, rfl⟩
          | invalid => exact absurd hv hinv
          | data k s =>
            cases k
            · exact absurd hv (not_any_kind hnode' s)
            · exact absurd hv (not_any_kind hedge' s)
            · exact Or.inr ⟨s, rfl⟩
            · exact absurd hv (not_any_kind e4 s)
        · obtain ⟨s, hs⟩ := any_kind h3
          exact ⟨_, hs, s, rfl⟩
      · have h3' : argv.any (Val.isKind .tri) = false := by simpa using h3
        by_cases h4 : argv.any (Val.isKind .tet) = true
        · refine Or.inr ⟨.tet, fun v hv => ?_, ?_⟩
          · cases v with
            | double x => exact Or.inl ⟨x, rfl⟩
            | invalid => exact absurd hv hinv
            | data k s =>
              cases k
              · exact absurd hv (not_any_kind hnode' s)
              · exact absurd hv (not_any_kind hedge' s)
              · exact absurd hv (not_any_kind h3' s)
              · exact Or.inr ⟨s, rfl⟩
          · obtain ⟨s, hs⟩ := any_kind h4
            exact ⟨_, hs, s, rfl⟩
        · have h4' : argv.any (Val.isKind .tet) = false := by simpa using h4
          refine Or.inl (List.all_eq_true.2 fun v hv => ?_)
          cases v with
          | double x => rfl
          | invalid => exact absurd hv hinv
          | data k s =>
            cases k
            · exact absurd hv (not_any_kind hnode' s)
            · exact absurd hv (not_any_kind hedge' s)
            · exact absurd hv (not_any_kind h3' s)
            · exact absurd hv (not_any_kind h4' s)

/-- A function of model data computes the function at every point, or makes the result invalid. -/
theorem extMath_denotes (hE : Elems R) {name : Str} {gs : List ((Str → ℝ) → ℝ)} {argv : List Val} {errs : Nat} {r : Val × Nat × Bool}
    (hd : List.Forall₂ (Denotes R cx) gs argv) (hkn : known R name) (hn : name ≠ nVecSum ∧ name ≠ nVecMax ∧ name ≠ nVecMin)
    {G : (Str → ℝ) → ℝ} (hG : ∀ m y, appl R name (gs.map (· m)) = some y → G m = y)
    (hr : extMath R cx name argv errs = some r) (hf : r.2.2 = false) :
    Denotes R cx G r.1 := by
  unfold extMath at hr
  by_cases hem : argv.isEmpty = true
  · simp [hem] at hr
  rw [if_neg hem, Option.bind_eq_some_iff] at hr
  obtain ⟨argv', hc, hr⟩ := hr
  by_cases h0 : nErrs argv ≠ 0
  · rw [if_pos h0] at hr; cases hr; trivial
  rw [if_neg h0] at hr
  have conv := preConvert_kind hR hcx hE hd (not_not.1 h0) hc
  unfold extEval at hr
  by_cases hall : argv'.all Val.isDouble = true
  · rw [if_pos hall] at hr
    by_cases herr : (mathScalar R name (argv'.map Val.dbl)).err = true
    · simp only [herr, if_true] at hr
      cases hr
      trivial
    · have herr' : (mathScalar R name (argv'.map Val.dbl)).err = false := by simpa using herr
      simp only [herr', Bool.false_eq_true, if_false, Option.some.injEq] at hr
      subst hr
      simp only at hf ⊢
      split_ifs
      · trivial
      · intro m hm
        have h7 := mathScalar_ok hkn herr' hf
        rw [← doubles_ok hR hcx conv.1 hall hm] at h7 ⊢
        exact hG _ _ h7
  · rw [if_neg hall, Option.bind_eq_some_iff] at hr
    obtain ⟨q, hq, hr⟩ := hr
    rw [Option.bind_eq_some_iff] at hr
    obtain ⟨v, hv, hr⟩ := hr
    cases hr
    simp only at hf ⊢
    obtain ⟨k, hk⟩ := conv.2.resolve_left hall
    by_cases herr : q.err = true
    · simp [herr, Denotes]
    · have herr' : q.err = false := by simpa using herr
      simp only [herr', Bool.false_eq_true, if_false]
      split_ifs
      · trivial
      · exact vectorEval_denotes hR hcx conv.1 hk hkn hn hG hq herr' hf hv

end

end Verif.Eval
