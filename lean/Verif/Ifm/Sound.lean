import Verif.Ifm.Ops

/-! # The value of an interface model (property C80) -/

namespace Verif.Ifm

open Verif.ScalarData Verif.Sym Verif.Eval

variable {K : Type}

section
variable {C : Cfg K} {P : Expr K → Prop} (hP : Texts C P) {I : Ifc} (hI : I.Wf) (hstd : Std I.math)

/-- A step of the evaluation leaves a good cache and a right value. -/
def Good (C : Cfg K) (P : Expr K → Prop) (I : Ifc) (e : Expr K) : Prop :=
  ∀ st v st', CacheOK C P I st.cache → evalE C I e st = some (v, st') →
    CacheOK C P I st'.cache ∧ Denotes I (sem C I e) v

include hP in
theorem withCache_good {e : Expr K} (hw : P e) {body : St → Option (IVal × St × Bool)}
    (hb : ∀ st v st' fpe, CacheOK C P I st.cache → body st = some (v, st', fpe) →
      CacheOK C P I st'.cache ∧ (fpe = false → Denotes I (sem C I e) v))
    {st : St} {v : IVal} {st' : St} (hc : CacheOK C P I st.cache) (h : withCache (str C e) body st = some (v, st')) :
    CacheOK C P I st'.cache ∧ Denotes I (sem C I e) v := by
  unfold withCache at h
  split at h
  · rename_i w hl
    cases h
    obtain ⟨e', hw', hs, hd⟩ := hc _ (lookup_mem hl)
    refine ⟨hc, ?_⟩
    have : sem C I e' = sem C I e := by
      funext m
      exact hP.det _ _ hw' hw hs _
    rw [this] at hd
    exact hd
  · split at h
    · cases h
    · rename_i w st1 fpe hbd
      obtain ⟨h1, h2⟩ := hb st w st1 fpe hc hbd
      cases h
      by_cases hf : fpe = true
      · simp only [hf, if_true, IVal.isInvalid]
        exact ⟨h1, trivial⟩
      · have hf' : fpe = false := by simpa using hf
        simp only [hf', Bool.false_eq_true, if_false]
        refine ⟨?_, h2 hf'⟩
        split_ifs
        · exact h1
        · intro p hp
          rcases List.mem_cons.1 hp with rfl | hp
          · exact ⟨e, hw, rfl, h2 hf'⟩
          · exact h1 p hp

include hI in
theorem evalSum_good : ∀ {vs : List (Expr K)}, (∀ v ∈ vs, Good C P I v) → ∀ {out st v st'} {g : Nat → ℝ},
    CacheOK C P I st.cache → Denotes I g out → evalSum C I vs out st = some (v, st') →
    CacheOK C P I st'.cache ∧ Denotes I (fun m => g m + (vs.map fun e => sem C I e m).sum) v
  | [], _, out, st, v, st', g, hc, hd, h => by
    simp only [evalSum, Option.some.injEq, Prod.mk.injEq] at h
    obtain ⟨rfl, rfl⟩ := h
    exact ⟨hc, by simpa using hd⟩
  | e :: vs, hv, out, st, v, st', g, hc, hd, h => by
    simp only [evalSum, Option.bind_eq_some_iff] at h
    obtain ⟨⟨w, st1⟩, h1, out', h2, h3⟩ := h
    obtain ⟨c1, d1⟩ := hv e (by simp) _ _ _ hc h1
    have d2 := opEqual_denotes hI hd d1 h2
    obtain ⟨c3, d3⟩ := evalSum_good (fun v hv' => hv v (by simp [hv'])) c1 d2 h3
    refine ⟨c3, ?_⟩
    simpa [add_assoc] using d3

theorem denotes_congr {g h : Nat → ℝ} {v : IVal} (e : ∀ m, g m = h m) (hd : Denotes I g v) : Denotes I h v := by
  have : g = h := funext e
  exact this ▸ hd

include hI in
theorem readNodes_spec {r : Side} {m : Str} {l d : List ℝ} (hl : I.node r m = some l) (h : readNodes l (I.nodesOf r) = some d) :
    d.length = I.env.n ∧ ∀ i : Nat, i < I.env.n → d[i]? = some (atPair I r l i) := by
  have hn : I.nodesOf r = pairNodes I r := by
    cases r with
    | r0 => rfl
    | r1 =>
      simp only [Ifc.nodesOf, pairNodes]
      split_ifs with hs
      · exact (hI.same hs).symm
      · rfl
  have hlen : (pairNodes I r).length = I.env.n := by
    cases r with
    | r0 => exact hI.n.symm
    | r1 => exact hI.pairs.trans hI.n.symm
  rw [hn] at h
  obtain ⟨h1, h2⟩ := mapM_spec h
  refine ⟨by rw [h1, hlen], fun i hi => ?_⟩
  have hi' : i < (pairNodes I r).length := by omega
  rw [h2 i, List.getElem?_eq_getElem hi', Option.bind_some]
  have hj := hI.node r m l hl _ (List.getElem_mem hi')
  simp [atPair, List.getElem?_eq_getElem hi', List.getElem?_eq_getElem hj]

include hI in
theorem evalModel_denotes {m : Str} {st : St} {r : IVal × St} (h : evalModel I m st = some r) :
    r.2.cache = st.cache ∧ Denotes I (fun i => mval I i m) r.1 := by
  unfold evalModel at h
  unfold mval
  cases hf : I.find m with
  | some k =>
    simp only [hf] at h ⊢
    split_ifs at h ⊢ with hp
    · cases h; exact ⟨rfl, fun _ _ => rfl⟩
    · cases h
      obtain ⟨h1, h2⟩ := ofModel_spec I.env k
      refine ⟨rfl, h1, fun i hi => ?_⟩
      rw [h2]
      have h3 : i < ((I.env.models k).values I.env.n).length := by rw [mvalues_length _ hI.env]; exact hi
      simp [List.getElem?_eq_getElem h3]
  | none =>
    simp only [hf] at h ⊢
    rcases hs : split m with ⟨_ | r, name⟩
    · simp only [hs] at h ⊢
      cases h; exact ⟨rfl, fun _ _ => rfl⟩
    · simp only [hs] at h ⊢
      cases hn : I.node r name with
      | none => simp only [hn] at h ⊢; cases h; exact ⟨rfl, fun _ _ => rfl⟩
      | some l =>
        simp only [hn] at h ⊢
        rw [Option.map_eq_some_iff] at h
        obtain ⟨d, hd, rfl⟩ := h
        obtain ⟨h1, h2⟩ := readNodes_spec hI hn hd
        obtain ⟨w, e⟩ := ofVector_spec I.env d h1
        exact ⟨rfl, w, fun i hi => by rw [e, h2 i hi]⟩

theorem evalVar_denotes (x : Str) (st : St) :
    (evalVar I x st).2.cache = st.cache ∧ Denotes I (fun _ => vars I x) (evalVar I x st).1 := by
  unfold evalVar vars
  rcases split x with ⟨_ | r, name⟩
  · cases h0 : I.param0 x with
    | none => cases hc : I.circ x <;> simp [Denotes]
    | some a =>
      cases h1 : I.param1 x with
      | none => cases hc : I.circ x <;> simp [Denotes]
      | some b =>
        simp only
        split_ifs
        · exact ⟨rfl, trivial⟩
        · exact ⟨rfl, fun _ _ => rfl⟩
  · cases hp : I.param r name with
    | some v => simp [hp, Denotes]
    | none => cases hc : I.circ x <;> simp [hp, hc, Denotes]

include hI in
theorem callExt_good {name : Str} {es : List (Expr K)} {argv : List IVal} {st : St} {r : IVal × St × Bool}
    (hd : List.Forall₂ (fun e v => Denotes I (sem C I e) v) es argv) (hkn : known I.math name)
    (hn : name ≠ nVecSum ∧ name ≠ nVecMax ∧ name ≠ nVecMin) {G : Nat → ℝ}
    (hG : ∀ m y, appl I.math name (es.map fun e => sem C I e m) = some y → G m = y)
    (h : callExt I name argv st = some r) :
    r.2.1.cache = st.cache ∧ (r.2.2 = false → Denotes I G r.1) := by
  unfold callExt at h
  rw [Option.map_eq_some_iff] at h
  obtain ⟨q, hq, rfl⟩ := h
  refine ⟨rfl, fun hf => ?_⟩
  refine extMath_denotes (gs := es.map (sem C I)) hI ?_ hkn hn ?_ hq hf
  · rwa [List.forall₂_map_left_iff]
  · intro m y hy
    refine hG m y ?_
    rw [← hy, List.map_map]; rfl

include hI in
theorem evalProd_good : ∀ {vs : List (Expr K)}, (∀ v ∈ vs, Good C P I v) → ∀ {out st v st'} {g : Nat → ℝ},
    CacheOK C P I st.cache → Denotes I g out → evalProd C I vs out st = some (v, st') →
    CacheOK C P I st'.cache ∧ Denotes I (fun m => g m * (vs.map fun e => sem C I e m).prod) v
  | [], _, out, st, v, st', g, hc, hd, h => by
    simp only [evalProd, Option.some.injEq, Prod.mk.injEq] at h
    obtain ⟨rfl, rfl⟩ := h
    exact ⟨hc, by simpa using hd⟩
  | e :: vs, hv, out, st, v, st', g, hc, hd, h => by
    simp only [evalProd, Option.bind_eq_some_iff] at h
    obtain ⟨⟨w, st1⟩, h1, h⟩ := h
    obtain ⟨c1, d1⟩ := hv e (by simp) _ _ _ hc h1
    have step : ∀ out', opEqual I (· * ·) out w = some out' → evalProd C I vs out' st1 = some (v, st') →
        CacheOK C P I st'.cache ∧ Denotes I (fun m => g m * ((e :: vs).map fun e => sem C I e m).prod) v := by
      intro out' h2 h3
      have d2 := opEqual_denotes hI hd d1 h2
      obtain ⟨c3, d3⟩ := evalProd_good (fun v hv' => hv v (by simp [hv'])) c1 d2 h3
      exact ⟨c3, denotes_congr (fun m => by simp [mul_assoc]) d3⟩
    cases w with
    | double x =>
      simp only at h
      split_ifs at h with hx
      · cases h
        subst hx
        refine ⟨c1, fun m hm => ?_⟩
        simp [d1 m hm]
      · rw [Option.bind_eq_some_iff] at h
        obtain ⟨out', h2, h3⟩ := h
        exact step out' h2 h3
    | data s =>
      simp only [Option.bind_eq_some_iff] at h
      obtain ⟨out', h2, h3⟩ := h
      exact step out' h2 h3
    | invalid =>
      simp only [Option.bind_eq_some_iff] at h
      obtain ⟨out', h2, h3⟩ := h
      exact step out' h2 h3

theorem evalArgs_good : ∀ {vs : List (Expr K)}, (∀ v ∈ vs, Good C P I v) → ∀ {st vals st'},
    CacheOK C P I st.cache → evalArgs C I vs st = some (vals, st') →
    CacheOK C P I st'.cache ∧ List.Forall₂ (fun e v => Denotes I (sem C I e) v) vs vals
  | [], _, st, vals, st', hc, h => by
    simp only [evalArgs, Option.some.injEq, Prod.mk.injEq] at h
    obtain ⟨rfl, rfl⟩ := h
    exact ⟨hc, List.Forall₂.nil⟩
  | e :: vs, hv, st, vals, st', hc, h => by
    simp only [evalArgs, Option.bind_eq_some_iff, Option.map_eq_some_iff, Prod.mk.injEq] at h
    obtain ⟨⟨w, st1⟩, h1, ⟨ws, st2⟩, h2, rfl, rfl⟩ := h
    obtain ⟨c1, d1⟩ := hv e (by simp) _ _ _ hc h1
    obtain ⟨c2, d2⟩ := evalArgs_good (fun v hv' => hv v (by simp [hv'])) c1 h2
    exact ⟨c2, List.Forall₂.cons d1 d2⟩

include hP hI hstd in
/-- The evaluator computes the value of the expression at every point, or reports the result as invalid; and keeps the
cache right. -/
theorem evalI_good : ∀ e : Expr K, P e → Calls I.math e → Good C P I e := by
  intro e
  induction e using Expr.ind with
  | hcon c =>
    intro hw _ st v st' hc h
    simp only [evalE] at h
    refine withCache_good hP hw (fun st v st' fpe hc hb => ?_) hc h
    cases hb
    exact ⟨hc, fun _ _ _ => by simp [sem]⟩
  | hvar x =>
    intro hw _ st v st' hc h
    simp only [evalE] at h
    refine withCache_good hP hw (fun st v st' fpe hc hb => ?_) hc h
    cases hb
    exact ⟨(evalVar_denotes x st).1 ▸ hc, fun _ => denotes_congr (fun m => by simp [sem, ienv]) (evalVar_denotes x st).2⟩
  | hmodel x =>
    intro hw _ st v st' hc h
    simp only [evalE] at h
    refine withCache_good hP hw (fun st v st' fpe hc hb => ?_) hc h
    rw [Option.map_eq_some_iff] at hb
    obtain ⟨r, h1, h2⟩ := hb
    cases h2
    obtain ⟨e1, e2⟩ := evalModel_denotes hI h1
    exact ⟨by rw [e1]; exact hc, fun _ => denotes_congr (fun m => by simp [sem, ienv]) e2⟩
  | hadd vs ih =>
    intro hw hcl st v st' hc h
    simp only [evalE] at h
    refine withCache_good hP hw (fun st v st' fpe hc hb => ?_) hc h
    rw [Option.map_eq_some_iff] at hb
    obtain ⟨⟨w, st1⟩, h1, h2⟩ := hb
    cases h2
    have hv := hP.add _ hw
    obtain ⟨c, d⟩ := evalSum_good hI (fun u hu => ih u hu (hv u hu) fun f hf => hcl f (by
      simp only [fnNames]; exact fnNamesL_mem hu hf)) hc (g := fun _ => 0) (out := .double 0) (fun _ _ => rfl) h1
    exact ⟨c, fun _ => denotes_congr (fun m => by simp [sem]) d⟩
  | hprod vs ih =>
    intro hw hcl st v st' hc h
    simp only [evalE] at h
    refine withCache_good hP hw (fun st v st' fpe hc hb => ?_) hc h
    rw [Option.map_eq_some_iff] at hb
    obtain ⟨⟨w, st1⟩, h1, h2⟩ := hb
    cases h2
    have hv := hP.prod _ hw
    obtain ⟨c, d⟩ := evalProd_good hI (fun u hu => ih u hu (hv u hu) fun f hf => hcl f (by
      simp only [fnNames]; exact fnNamesL_mem hu hf)) hc (g := fun _ => 1) (out := .double 1) (fun _ _ => rfl) h1
    exact ⟨c, fun _ => denotes_congr (fun m => by simp [sem]) d⟩
  | hexp a ih =>
    intro hw hcl st v st' hc h
    simp only [evalE] at h
    refine withCache_good hP hw (fun st v st' fpe hc hb => ?_) hc h
    rw [Option.bind_eq_some_iff] at hb
    obtain ⟨⟨w, st1⟩, h1, h2⟩ := hb
    have ha := hP.exp _ hw
    obtain ⟨c, d⟩ := ih ha (fun f hf => hcl f (by simp [fnNames, hf])) _ _ _ hc h1
    have hk := hcl ['e', 'x', 'p'] (by simp [fnNames])
    obtain ⟨e1, e2⟩ := callExt_good (C := C) (G := sem C I (.exp a)) (es := [a]) hI (.cons d .nil) hk.1 hk.2
      (fun m y hy => by simp only [sem, eval_exp]; exact (hstd.exp _ _ hy).symm) h2
    simp only at e1 e2
    rw [e1]; exact ⟨c, e2⟩
  | hlog a ih =>
    intro hw hcl st v st' hc h
    simp only [evalE] at h
    refine withCache_good hP hw (fun st v st' fpe hc hb => ?_) hc h
    rw [Option.bind_eq_some_iff] at hb
    obtain ⟨⟨w, st1⟩, h1, h2⟩ := hb
    have ha := hP.log _ hw
    obtain ⟨c, d⟩ := ih ha (fun f hf => hcl f (by simp [fnNames, hf])) _ _ _ hc h1
    have hk := hcl ['l', 'o', 'g'] (by simp [fnNames])
    obtain ⟨e1, e2⟩ := callExt_good (C := C) (G := sem C I (.log a)) (es := [a]) hI (.cons d .nil) hk.1 hk.2
      (fun m y hy => by simp only [sem, eval_log]; exact (hstd.log _ _ hy).symm) h2
    simp only at e1 e2
    rw [e1]; exact ⟨c, e2⟩
  | hulog a ih =>
    intro hw hcl st v st' hc h
    simp only [evalE] at h
    refine withCache_good hP hw (fun st v st' fpe hc hb => ?_) hc h
    rw [Option.bind_eq_some_iff] at hb
    obtain ⟨⟨w, st1⟩, h1, h2⟩ := hb
    have ha := hP.ulog _ hw
    obtain ⟨c, d⟩ := ih ha (fun f hf => hcl f (by simp [fnNames, hf])) _ _ _ hc h1
    have hk := hcl ['!'] (by simp [fnNames])
    obtain ⟨e1, e2⟩ := callExt_good (C := C) (G := sem C I (.ulog a)) (es := [a]) hI (.cons d .nil) hk.1 hk.2
      (fun m y hy => by simp only [sem, eval_ulog]; exact (hstd.ulog _ _ hy).symm) h2
    simp only at e1 e2
    rw [e1]; exact ⟨c, e2⟩
  | hpow a b iha ihb =>
    intro hw hcl st v st' hc h
    simp only [evalE] at h
    refine withCache_good hP hw (fun st v st' fpe hc hb => ?_) hc h
    simp only [Option.bind_eq_some_iff] at hb
    obtain ⟨⟨w, st1⟩, h1, ⟨w2, st2⟩, h2, h3⟩ := hb
    obtain ⟨ha, hb⟩ := hP.pow _ _ hw
    obtain ⟨c, d⟩ := iha ha (fun f hf => hcl f (by simp [fnNames, hf])) _ _ _ hc h1
    obtain ⟨c2, d2⟩ := ihb hb (fun f hf => hcl f (by simp [fnNames, hf])) _ _ _ c h2
    have hk := hcl ['p', 'o', 'w'] (by simp [fnNames])
    obtain ⟨e1, e2⟩ := callExt_good (C := C) (G := sem C I (.pow a b)) (es := [a, b]) hI (.cons d (.cons d2 .nil)) hk.1 hk.2
      (fun m y hy => by simp only [sem, eval_pow]; exact (hstd.pow _ _ _ hy).symm) h3
    simp only at e1 e2
    rw [e1]; exact ⟨c2, e2⟩
  | hblog op a b iha ihb =>
    intro hw hcl st v st' hc h
    simp only [evalE] at h
    refine withCache_good hP hw (fun st v st' fpe hc hb => ?_) hc h
    simp only [Option.bind_eq_some_iff] at hb
    obtain ⟨⟨w, st1⟩, h1, ⟨w2, st2⟩, h2, h3⟩ := hb
    obtain ⟨ha, hb⟩ := hP.blog _ _ _ hw
    obtain ⟨c, d⟩ := iha ha (fun f hf => hcl f (by simp [fnNames, hf])) _ _ _ hc h1
    obtain ⟨c2, d2⟩ := ihb hb (fun f hf => hcl f (by simp [fnNames, hf])) _ _ _ c h2
    have hk := hcl (opName op) (by simp [fnNames])
    obtain ⟨e1, e2⟩ := callExt_good (C := C) (G := sem C I (.blog op a b)) (es := [a, b]) hI (.cons d (.cons d2 .nil)) hk.1 hk.2
      (fun m y hy => by simp only [sem, eval_blog]; exact (hstd.blog _ _ _ _ hy).symm) h3
    simp only at e1 e2
    rw [e1]; exact ⟨c2, e2⟩
  | huser f as ih =>
    intro hw hcl st v st' hc h
    simp only [evalE] at h
    refine withCache_good hP hw (fun st v st' fpe hc hb => ?_) hc h
    rw [Option.bind_eq_some_iff] at hb
    obtain ⟨⟨ws, st1⟩, h1, h2⟩ := hb
    have hv := hP.user _ _ hw
    obtain ⟨c, d⟩ := evalArgs_good (fun u hu => ih u hu (hv u hu) fun g hg => hcl g (by
      simp only [fnNames]; exact List.mem_cons_of_mem _ (fnNamesL_mem hu hg))) hc h1
    have hk := hcl f (by simp [fnNames])
    obtain ⟨e1, e2⟩ := callExt_good (C := C) (G := sem C I (.user f as)) hI d hk.1 hk.2
      (fun m y hy => by simp only [sem, eval_user, ienv]; exact congrArg (Option.getD · 0) hy) h2
    simp only at e1 e2
    rw [e1]; exact ⟨c, e2⟩

end

end Verif.Ifm
