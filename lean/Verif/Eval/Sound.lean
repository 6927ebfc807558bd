import Verif.Eval.Ext

/-! # The value of an expression model (property C53) -/

namespace Verif.Eval

open Verif.ScalarData Verif.Sym

variable {K : Type}

theorem lookup_mem {β : Type} : ∀ {l : List (Str × β)} {k : Str} {v : β}, l.lookup k = some v → (k, v) ∈ l
  | [], k, v, h => by simp at h
  | (k', v') :: l, k, v, h => by
    rw [List.lookup_cons] at h
    split at h
    · rename_i hk
      rw [beq_iff_eq] at hk
      cases h
      simp [hk]
    · exact List.mem_cons_of_mem _ (lookup_mem h)

theorem resolve_has {R : Reg} {m : Str} {k : Kind} {j : Nat} (h : resolve R m = some (k, j)) :
    ∃ a, R.find k a = some j := by
  unfold resolve at h
  split at h
  · cases h; exact ⟨_, ‹_›⟩
  split at h
  · cases h; exact ⟨_, ‹_›⟩
  split at h
  · cases h; exact ⟨_, ‹_›⟩
  split at h
  · cases h; exact ⟨_, ‹_›⟩
  split at h
  · rw [Option.map_eq_some_iff] at h
    obtain ⟨i, hi, h⟩ := h
    cases h
    exact ⟨_, hi⟩
  · cases h

section
variable {C : Cfg K} {P : Expr K → Prop} (hP : Texts C P)
  {R : Reg} (hR : R.Wf) (hE : Elems R) (hstd : Std R) {cx : Ctx} (hcx : cx.Wf)

/-- The quantity an expression stands for. -/
noncomputable def sem (C : Cfg K) (R : Reg) (e : Expr K) : (Str → ℝ) → ℝ := fun m => eval C (genv R m) e

/-- A step of the evaluation leaves a good cache and a right value. -/
def Good (C : Cfg K) (P : Expr K → Prop) (R : Reg) (cx : Ctx) (e : Expr K) : Prop :=
  ∀ st v st', CacheOK C P R cx st.cache → evalE C R cx e st = some (v, st') →
    CacheOK C P R cx st'.cache ∧ Denotes R cx (sem C R e) v

include hP in
theorem withCache_good {e : Expr K} (hw : P e) {body : St → Option (Val × St × Bool)}
    (hb : ∀ st v st' fpe, CacheOK C P R cx st.cache → body st = some (v, st', fpe) →
      CacheOK C P R cx st'.cache ∧ (fpe = false → Denotes R cx (sem C R e) v))
    {st : St} {v : Val} {st' : St} (hc : CacheOK C P R cx st.cache) (h : withCache (str C e) body st = some (v, st')) :
    CacheOK C P R cx st'.cache ∧ Denotes R cx (sem C R e) v := by
  unfold withCache at h
  split at h
  · rename_i w hl
    cases h
    obtain ⟨e', hw', hs, hd⟩ := hc _ (lookup_mem hl)
    refine ⟨hc, ?_⟩
    have : (fun m => eval C (genv R m) e') = sem C R e := by
      funext m
      exact hP.det _ _ hw' hw hs _
    rw [this] at hd
    exact hd
  · split at h
    · cases h
    · rename_i w st1 fpe hbd
      obtain ⟨h1, h2⟩ := hb st w st1 fpe hc hbd
      cases h
      by_cases hf : fpe = true
      · simp only [hf, if_true, Val.isInvalid]
        exact ⟨h1, trivial⟩
      · have hf' : fpe = false := by simpa using hf
        simp only [hf', Bool.false_eq_true, if_false]
        refine ⟨?_, h2 hf'⟩
        split_ifs
        · exact h1
        · intro p hp
          rcases List.mem_cons.1 hp with rfl | hp
          · exact ⟨e, hw, rfl, h2 hf'⟩
          · exact h1 p hp

include hR hE in
theorem evalModel_denotes (m : Str) (st : St) : Denotes R cx (fun μ => μ m) (evalModel R m st).1 := by
  unfold evalModel
  cases hres : resolve R m with
  | none => exact fun μ hμ => hμ m hres
  | some p =>
    obtain ⟨k, j⟩ := p
    simp only
    split_ifs
    · trivial
    · obtain ⟨a, ha⟩ := resolve_has hres
      obtain ⟨h1, h2⟩ := ofModel_spec (R.env k) j
      have hh : has R k := ⟨a, by simp [ha]⟩
      refine ⟨h1, fun h => h ▸ hh, fun h => h ▸ hh, fun hk ht hn => ?_, fun k' i l hc hi hl => ?_⟩
      · subst hk
        rcases hE with hE | ⟨-, hE | hE⟩
        · exact absurd ht hE
        · exact absurd hE hn
        · simp [ofModel, hE j]
      · rw [h2]
        have h3 : l < (((R.env k).models j).values (R.env k).n).length := by
          rw [mvalues_length _ (hR.env k)]; exact denote_lookup_lt hR hi hl
        simp only [mval, hres, valueAt, hl, List.getD_eq_getElem?_getD, List.getElem?_eq_getElem h3, Option.getD_some]

theorem evalVar_denotes (x : Str) (st : St) : Denotes R cx (fun _ => vars R x) (evalVar R x st).1 := by
  unfold evalVar vars
  cases hp : R.param x with
  | some v => exact fun _ _ => rfl
  | none =>
    cases hc : R.circ x with
    | some v => exact fun _ _ => rfl
    | none => trivial

include hR hE hcx in
theorem callExt_good {name : Str} {es : List (Expr K)} {argv : List Val} {st : St} {r : Val × St × Bool}
    (hd : List.Forall₂ (fun e v => Denotes R cx (sem C R e) v) es argv) (hkn : known R name)
    (hn : name ≠ nVecSum ∧ name ≠ nVecMax ∧ name ≠ nVecMin) {G : (Str → ℝ) → ℝ}
    (hG : ∀ m y, appl R name (es.map fun e => sem C R e m) = some y → G m = y)
    (h : callExt R cx name argv st = some r) :
    r.2.1.cache = st.cache ∧ (r.2.2 = false → Denotes R cx G r.1) := by
  unfold callExt at h
  rw [Option.map_eq_some_iff] at h
  obtain ⟨q, hq, rfl⟩ := h
  refine ⟨rfl, fun hf => ?_⟩
  refine extMath_denotes (gs := es.map (sem C R)) hR hcx hE ?_ hkn hn ?_ hq hf
  · rwa [List.forall₂_map_left_iff]
  · intro m y hy
    refine hG m y ?_
    rw [← hy, List.map_map]; rfl

theorem fnNamesL_mem {f : Str} : ∀ {vs : List (Expr K)} {v}, v ∈ vs → f ∈ fnNames v → f ∈ fnNamesL vs
  | w :: vs, v, hv, hf => by
    simp only [fnNamesL, List.mem_append]
    rcases List.mem_cons.1 hv with rfl | hv
    · exact Or.inl hf
    · exact Or.inr (fnNamesL_mem hv hf)

include hR in
theorem evalSum_good : ∀ {vs : List (Expr K)}, (∀ v ∈ vs, Good C P R cx v) → ∀ {out st v st'} {g : (Str → ℝ) → ℝ},
    CacheOK C P R cx st.cache → Denotes R cx g out → evalSum C R cx vs out st = some (v, st') →
    CacheOK C P R cx st'.cache ∧ Denotes R cx (fun m => g m + (vs.map fun e => sem C R e m).sum) v
  | [], _, out, st, v, st', g, hc, hd, h => by
    simp only [evalSum, Option.some.injEq, Prod.mk.injEq] at h
    obtain ⟨rfl, rfl⟩ := h
    exact ⟨hc, by simpa using hd⟩
  | e :: vs, hv, out, st, v, st', g, hc, hd, h => by
    simp only [evalSum, Option.bind_eq_some_iff] at h
    obtain ⟨⟨w, st1⟩, h1, out', h2, h3⟩ := h
    obtain ⟨c1, d1⟩ := hv e (by simp) _ _ _ hc h1
    have d2 := opEqual_denotes hR hd d1 h2
    obtain ⟨c3, d3⟩ := evalSum_good (fun v hv' => hv v (by simp [hv'])) c1 d2 h3
    refine ⟨c3, ?_⟩
    simpa [add_assoc] using d3

theorem denotes_congr {g h : (Str → ℝ) → ℝ} {v : Val} (e : ∀ m, g m = h m) (hd : Denotes R cx g v) : Denotes R cx h v := by
  have : g = h := funext e
  exact this ▸ hd

/-- For a factor that is the number 0 the product is 0 at every admissible point. -/
theorem zero_denotes {g : (Str → ℝ) → ℝ} (h : ∀ m, Adm R m → g m = 0) : Denotes R cx g (.double 0) := h

include hR in
theorem evalProd_good : ∀ {vs : List (Expr K)}, (∀ v ∈ vs, Good C P R cx v) → ∀ {out st v st'} {g : (Str → ℝ) → ℝ},
    CacheOK C P R cx st.cache → Denotes R cx g out → evalProd C R cx vs out st = some (v, st') →
    CacheOK C P R cx st'.cache ∧ Denotes R cx (fun m => g m * (vs.map fun e => sem C R e m).prod) v
  | [], _, out, st, v, st', g, hc, hd, h => by
    simp only [evalProd, Option.some.injEq, Prod.mk.injEq] at h
    obtain ⟨rfl, rfl⟩ := h
    exact ⟨hc, by simpa using hd⟩
  | e :: vs, hv, out, st, v, st', g, hc, hd, h => by
    simp only [evalProd, Option.bind_eq_some_iff] at h
    obtain ⟨⟨w, st1⟩, h1, h⟩ := h
    obtain ⟨c1, d1⟩ := hv e (by simp) _ _ _ hc h1
    have step : ∀ out', opEqual R (· * ·) out w = some out' → evalProd C R cx vs out' st1 = some (v, st') →
        CacheOK C P R cx st'.cache ∧ Denotes R cx (fun m => g m * ((e :: vs).map fun e => sem C R e m).prod) v := by
      intro out' h2 h3
      have d2 := opEqual_denotes hR hd d1 h2
      obtain ⟨c3, d3⟩ := evalProd_good (fun v hv' => hv v (by simp [hv'])) c1 d2 h3
      exact ⟨c3, denotes_congr (fun m => by simp [mul_assoc]) d3⟩
    cases w with
    | double x =>
      simp only at h
      split_ifs at h with hx
      · cases h
        subst hx
        refine ⟨c1, fun m hm => ?_⟩
        simp [d1 m hm]
      · rw [Option.bind_eq_some_iff] at h
        obtain ⟨out', h2, h3⟩ := h
        exact step out' h2 h3
    | data k s =>
      simp only [Option.bind_eq_some_iff] at h
      obtain ⟨out', h2, h3⟩ := h
      exact step out' h2 h3
    | invalid =>
      simp only [Option.bind_eq_some_iff] at h
      obtain ⟨out', h2, h3⟩ := h
      exact step out' h2 h3

theorem evalArgs_good : ∀ {vs : List (Expr K)}, (∀ v ∈ vs, Good C P R cx v) → ∀ {st vals st'},
    CacheOK C P R cx st.cache → evalArgs C R cx vs st = some (vals, st') →
    CacheOK C P R cx st'.cache ∧ List.Forall₂ (fun e v => Denotes R cx (sem C R e) v) vs vals
  | [], _, st, vals, st', hc, h => by
    simp only [evalArgs, Option.some.injEq, Prod.mk.injEq] at h
    obtain ⟨rfl, rfl⟩ := h
    exact ⟨hc, List.Forall₂.nil⟩
  | e :: vs, hv, st, vals, st', hc, h => by
    simp only [evalArgs, Option.bind_eq_some_iff, Option.map_eq_some_iff, Prod.mk.injEq] at h
    obtain ⟨⟨w, st1⟩, h1, ⟨ws, st2⟩, h2, rfl, rfl⟩ := h
    obtain ⟨c1, d1⟩ := hv e (by simp) _ _ _ hc h1
    obtain ⟨c2, d2⟩ := evalArgs_good (fun v hv' => hv v (by simp [hv'])) c1 h2
    exact ⟨c2, List.Forall₂.cons d1 d2⟩

include hP hR hE hstd hcx in
/-- The evaluator computes the value of the expression at every point, or reports the result as invalid; and keeps the
cache right. -/
theorem evalE_good : ∀ e : Expr K, P e → Calls R e → Good C P R cx e := by
  intro e
  induction e using Expr.ind with
  | hcon c =>
    intro hw _ st v st' hc h
    simp only [evalE] at h
    refine withCache_good hP hw (fun st v st' fpe hc hb => ?_) hc h
    cases hb
    exact ⟨hc, fun _ _ _ => by simp [sem]⟩
  | hvar x =>
    intro hw _ st v st' hc h
    simp only [evalE] at h
    refine withCache_good hP hw (fun st v st' fpe hc hb => ?_) hc h
    cases hb
    refine ⟨by unfold evalVar; split <;> [exact hc; (split <;> exact hc)], fun _ => ?_⟩
    exact denotes_congr (fun m => by simp [sem, genv]) (evalVar_denotes x st)
  | hmodel x =>
    intro hw _ st v st' hc h
    simp only [evalE] at h
    refine withCache_good hP hw (fun st v st' fpe hc hb => ?_) hc h
    cases hb
    refine ⟨by unfold evalModel; split <;> [(split <;> exact hc); exact hc], fun _ => ?_⟩
    exact denotes_congr (fun m => by simp [sem, genv]) (evalModel_denotes hR hE x st)
  | hadd vs ih =>
    intro hw hcl st v st' hc h
    simp only [evalE] at h
    refine withCache_good hP hw (fun st v st' fpe hc hb => ?_) hc h
    rw [Option.map_eq_some_iff] at hb
    obtain ⟨⟨w, st1⟩, h1, h2⟩ := hb
    cases h2
    have hv := hP.add _ hw
    obtain ⟨c, d⟩ := evalSum_good hR (fun u hu => ih u hu (hv u hu) fun f hf => hcl f (by
      simp only [fnNames]; exact fnNamesL_mem hu hf)) hc (g := fun _ => 0) (out := .double 0) (fun _ _ => rfl) h1
    exact ⟨c, fun _ => denotes_congr (fun m => by simp [sem]) d⟩
  | hprod vs ih =>
    intro hw hcl st v st' hc h
    simp only [evalE] at h
    refine withCache_good hP hw (fun st v st' fpe hc hb => ?_) hc h
    rw [Option.map_eq_some_iff] at hb
    obtain ⟨⟨w, st1⟩, h1, h2⟩ := hb
    cases h2
    have hv := hP.prod _ hw
    obtain ⟨c, d⟩ := evalProd_good hR (fun u hu => ih u hu (hv u hu) fun f hf => hcl f (by
      simp only [fnNames]; exact fnNamesL_mem hu hf)) hc (g := fun _ => 1) (out := .double 1) (fun _ _ => rfl) h1
    exact ⟨c, fun _ => denotes_congr (fun m => by simp [sem]) d⟩
  | hexp a ih =>
    intro hw hcl st v st' hc h
    simp only [evalE] at h
    refine withCache_good hP hw (fun st v st' fpe hc hb => ?_) hc h
    rw [Option.bind_eq_some_iff] at hb
    obtain ⟨⟨w, st1⟩, h1, h2⟩ := hb
    have ha := hP.exp _ hw
    obtain ⟨c, d⟩ := ih ha (fun f hf => hcl f (by simp [fnNames, hf])) _ _ _ hc h1
    have hk := hcl ['e', 'x', 'p'] (by simp [fnNames])
    obtain ⟨e1, e2⟩ := callExt_good (C := C) (G := sem C R (.exp a)) (es := [a]) hR hE hcx (.cons d .nil) hk.1 hk.2
      (fun m y hy => by simp only [sem, eval_exp]; exact (hstd.exp _ _ hy).symm) h2
    simp only at e1 e2
    rw [e1]; exact ⟨c, e2⟩
  | hlog a ih =>
    intro hw hcl st v st' hc h
    simp only [evalE] at h
    refine withCache_good hP hw (fun st v st' fpe hc hb => ?_) hc h
    rw [Option.bind_eq_some_iff] at hb
    obtain ⟨⟨w, st1⟩, h1, h2⟩ := hb
    have ha := hP.log _ hw
    obtain ⟨c, d⟩ := ih ha (fun f hf => hcl f (by simp [fnNames, hf])) _ _ _ hc h1
    have hk := hcl ['l', 'o', 'g'] (by simp [fnNames])
    obtain ⟨e1, e2⟩ := callExt_good (C := C) (G := sem C R (.log a)) (es := [a]) hR hE hcx (.cons d .nil) hk.1 hk.2
      (fun m y hy => by simp only [sem, eval_log]; exact (hstd.log _ _ hy).symm) h2
    simp only at e1 e2
    rw [e1]; exact ⟨c, e2⟩
  | hulog a ih =>
    intro hw hcl st v st' hc h
    simp only [evalE] at h
    refine withCache_good hP hw (fun st v st' fpe hc hb => ?_) hc h
    rw [Option.bind_eq_some_iff] at hb
    obtain ⟨⟨w, st1⟩, h1, h2⟩ := hb
    have ha := hP.ulog _ hw
    obtain ⟨c, d⟩ := ih ha (fun f hf => hcl f (by simp [fnNames, hf])) _ _ _ hc h1
    have hk := hcl ['!'] (by simp [fnNames])
    obtain ⟨e1, e2⟩ := callExt_good (C := C) (G := sem C R (.ulog a)) (es := [a]) hR hE hcx (.cons d .nil) hk.1 hk.2
      (fun m y hy => by simp only [sem, eval_ulog]; exact (hstd.ulog _ _ hy).symm) h2
    simp only at e1 e2
    rw [e1]; exact ⟨c, e2⟩
  | hpow a b iha ihb =>
    intro hw hcl st v st' hc h
    simp only [evalE] at h
    refine withCache_good hP hw (fun st v st' fpe hc hb => ?_) hc h
    simp only [Option.bind_eq_some_iff] at hb
    obtain ⟨⟨w, st1⟩, h1, ⟨w2, st2⟩, h2, h3⟩ := hb
    obtain ⟨ha, hb⟩ := hP.pow _ _ hw
    obtain ⟨c, d⟩ := iha ha (fun f hf => hcl f (by simp [fnNames, hf])) _ _ _ hc h1
    obtain ⟨c2, d2⟩ := ihb hb (fun f hf => hcl f (by simp [fnNames, hf])) _ _ _ c h2
    have hk := hcl ['p', 'o', 'w'] (by simp [fnNames])
    obtain ⟨e1, e2⟩ := callExt_good (C := C) (G := sem C R (.pow a b)) (es := [a, b]) hR hE hcx (.cons d (.cons d2 .nil)) hk.1 hk.2
      (fun m y hy => by simp only [sem, eval_pow]; exact (hstd.pow _ _ _ hy).symm) h3
    simp only at e1 e2
    rw [e1]; exact ⟨c2, e2⟩
  | hblog op a b iha ihb =>
    intro hw hcl st v st' hc h
    simp only [evalE] at h
    refine withCache_good hP hw (fun st v st' fpe hc hb => ?_) hc h
    simp only [Option.bind_eq_some_iff] at hb
    obtain ⟨⟨w, st1⟩, h1, ⟨w2, st2⟩, h2, h3⟩ := hb
    obtain ⟨ha, hb⟩ := hP.blog _ _ _ hw
    obtain ⟨c, d⟩ := iha ha (fun f hf => hcl f (by simp [fnNames, hf])) _ _ _ hc h1
    obtain ⟨c2, d2⟩ := ihb hb (fun f hf => hcl f (by simp [fnNames, hf])) _ _ _ c h2
    have hk := hcl (opName op) (by simp [fnNames])
    obtain ⟨e1, e2⟩ := callExt_good (C := C) (G := sem C R (.blog op a b)) (es := [a, b]) hR hE hcx (.cons d (.cons d2 .nil)) hk.1 hk.2
      (fun m y hy => by simp only [sem, eval_blog]; exact (hstd.blog _ _ _ _ hy).symm) h3
    simp only at e1 e2
    rw [e1]; exact ⟨c2, e2⟩
  | huser f as ih =>
    intro hw hcl st v st' hc h
    simp only [evalE] at h
    refine withCache_good hP hw (fun st v st' fpe hc hb => ?_) hc h
    rw [Option.bind_eq_some_iff] at hb
    obtain ⟨⟨ws, st1⟩, h1, h2⟩ := hb
    have hv := hP.user _ _ hw
    obtain ⟨c, d⟩ := evalArgs_good (fun u hu => ih u hu (hv u hu) fun g hg => hcl g (by
      simp only [fnNames]; exact List.mem_cons_of_mem _ (fnNamesL_mem hu hg))) hc h1
    have hk := hcl f (by simp [fnNames])
    obtain ⟨e1, e2⟩ := callExt_good (C := C) (G := sem C R (.user f as)) hR hE hcx d hk.1 hk.2
      (fun m y hy => by simp only [sem, eval_user, genv]; exact congrArg (Option.getD · 0) hy) h2
    simp only at e1 e2
    rw [e1]; exact ⟨c, e2⟩

end

end Verif.Eval
