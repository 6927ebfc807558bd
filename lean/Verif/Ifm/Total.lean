import Verif.Ifm.Sound

/-! # When the evaluation of an interface model succeeds (property C80) -/

namespace Verif.Ifm

open Verif.ScalarData Verif.Sym Verif.Eval

variable {K : Type}

theorem Evaluable.toCalls {C : Cfg K} {I : Ifc} {e : Expr K} (h : Evaluable C I e) : Calls I.math e := by
  intro f hf
  obtain ⟨as, ha⟩ := fnNames_calls e f hf
  obtain ⟨-, h1, h2, h3, h4, -⟩ := h.calls _ ha
  exact ⟨takes_known h1, h2, h3, h4⟩

section
variable {C : Cfg K} {P : Expr K → Prop} (hP : Texts C P) {I : Ifc} (hI : I.Wf) (hstd : Std I.math) (hpos : 0 < I.env.n)

/-- No error so far, and a cache of right, valid values. -/
structure Inv (C : Cfg K) (P : Expr K → Prop) (I : Ifc) (st : St) : Prop where
  cache : CacheOK C P I st.cache
  ok : ∀ p ∈ st.cache, p.2.isInvalid = false
  errs : st.errs = 0

/-- The evaluation of `e` succeeds. -/
def Succ (C : Cfg K) (P : Expr K → Prop) (I : Ifc) (e : Expr K) : Prop :=
  ∀ st, Inv C P I st → ∃ v st', evalE C I e st = some (v, st') ∧ Inv C P I st' ∧ v.isInvalid = false ∧
    Denotes I (sem C I e) v

theorem evalVar_total {x : Str} (h : hasVar I x) (st : St) : ∃ y, evalVar I x st = (.double y, st) := by
  unfold hasVar at h
  unfold evalVar
  rcases hs : split x with ⟨_ | r, name⟩
  · simp only [hs] at h ⊢
    cases h0 : I.param0 x with
    | none =>
      cases hc : I.circ x with
      | none => simp [h0, hc] at h
      | some y => exact ⟨y, by simp⟩
    | some a =>
      cases h1 : I.param1 x with
      | none =>
        cases hc : I.circ x with
        | none => simp [h0, h1, hc] at h
        | some y => exact ⟨y, by simp⟩
      | some b =>
        simp only [h0, h1] at h
        exact ⟨a, by simp [h]⟩
  · simp only [hs] at h ⊢
    cases hp : I.param r name with
    | some y => exact ⟨y, rfl⟩
    | none =>
      cases hc : I.circ x with
      | some y => exact ⟨y, rfl⟩
      | none => simp [hp, hc] at h

include hI in
theorem evalModel_total {m : Str} (h : hasModel I m) (st : St) : ∃ s, evalModel I m st = some (.data s, st) := by
  unfold hasModel at h
  unfold evalModel
  cases hf : I.find m with
  | some k => simp only [hf] at h ⊢; exact ⟨ofModel I.env k, by simp [h]⟩
  | none =>
    simp only [hf] at h ⊢
    rcases hs : split m with ⟨_ | r, name⟩
    · simp [hs] at h
    · simp only [hs] at h ⊢
      obtain ⟨l, hl⟩ := Option.isSome_iff_exists.1 h
      obtain ⟨d, hd⟩ := mapM_some_of_forall (f := fun j => l[j]?) (l := I.nodesOf r) (by
        intro j hj
        have : j ∈ pairNodes I r := by
          cases r with
          | r0 => exact hj
          | r1 =>
            simp only [Ifc.nodesOf] at hj
            simp only [pairNodes]
            split_ifs at hj with hs
            · rw [hI.same hs]; exact hj
            · exact hj
        simpa using hI.node r name l hl j this)
      exact ⟨ofVector d, by simp only [hl, readNodes, hd, Option.map_some]⟩

theorem withCache_total {e : Expr K} {body : St → Option (IVal × St × Bool)} {st : St} (hst : Inv C P I st)
    (hb : ∃ v st', body st = some (v, st', false) ∧ v.isInvalid = false ∧ st'.errs = 0 ∧ ∀ p ∈ st'.cache, p.2.isInvalid = false) :
    ∃ v st', withCache (str C e) body st = some (v, st') ∧ v.isInvalid = false ∧ st'.errs = 0 ∧ ∀ p ∈ st'.cache, p.2.isInvalid = false := by
  unfold withCache
  cases hl : st.cache.lookup (str C e) with
  | some v => exact ⟨v, st, rfl, hst.ok _ (lookup_mem hl), hst.errs, hst.ok⟩
  | none =>
    obtain ⟨v, st', hb, o, e1, e2⟩ := hb
    simp only [hb, Bool.false_eq_true, if_false]
    refine ⟨_, _, rfl, o, e1, ?_⟩
    have hv : v.isInvalid = false := by cases v <;> simp_all [Ok, IVal.isInvalid]
    simp only [hv, Bool.false_eq_true, if_false]
    intro p hp
    rcases List.mem_cons.1 hp with rfl | hp
    · exact o
    · exact e2 p hp

include hI in
theorem evalSum_total : ∀ {vs : List (Expr K)}, (∀ v ∈ vs, Succ C P I v) → ∀ {out st} {g : Nat → ℝ},
    Inv C P I st → out.isInvalid = false → Denotes I g out →
    ∃ v st', evalSum C I vs out st = some (v, st') ∧ v.isInvalid = false ∧ st'.errs = 0 ∧ ∀ p ∈ st'.cache, p.2.isInvalid = false
  | [], _, out, st, g, hst, ho, hd => ⟨out, st, by simp [evalSum], ho, hst.errs, hst.ok⟩
  | e :: vs, hv, out, st, g, hst, ho, hd => by
    obtain ⟨v, st', h1, h2, h3, h4⟩ := hv e (by simp) st hst
    obtain ⟨r, hr, or⟩ := opEqual_total hI (op := (· + ·)) hd h4 ho h3
    have dr := opEqual_denotes hI hd h4 hr
    obtain ⟨w, st2, h5, h6⟩ := evalSum_total (vs := vs) (fun v hv' => hv v (by simp [hv'])) h2 or dr
    exact ⟨w, st2, by simp only [evalSum, h1, Option.bind_some, hr, h5], h6⟩

include hI in
theorem evalProd_total : ∀ {vs : List (Expr K)}, (∀ v ∈ vs, Succ C P I v) → ∀ {out st} {g : Nat → ℝ},
    Inv C P I st → out.isInvalid = false → Denotes I g out →
    ∃ v st', evalProd C I vs out st = some (v, st') ∧ v.isInvalid = false ∧ st'.errs = 0 ∧ ∀ p ∈ st'.cache, p.2.isInvalid = false
  | [], _, out, st, g, hst, ho, hd => ⟨out, st, by simp [evalProd], ho, hst.errs, hst.ok⟩
  | e :: vs, hv, out, st, g, hst, ho, hd => by
    obtain ⟨v, st', h1, h2, h3, h4⟩ := hv e (by simp) st hst
    obtain ⟨r, hr, or⟩ := opEqual_total hI (op := (· * ·)) hd h4 ho h3
    have dr := opEqual_denotes hI hd h4 hr
    obtain ⟨w, st2, h5, h6⟩ := evalProd_total (vs := vs) (fun v hv' => hv v (by simp [hv'])) h2 or dr
    cases v with
    | invalid => cases h3
    | data s => exact ⟨w, st2, by simp only [evalProd, h1, Option.bind_some, hr, h5], h6⟩
    | double x =>
      by_cases hx : x = 0
      · exact ⟨.double 0, st', by simp [evalProd, h1, hx], rfl, h2.errs, h2.ok⟩
      · exact ⟨w, st2, by simp only [evalProd, h1, Option.bind_some, if_neg hx, hr, h5], h6⟩

theorem evalArgs_total : ∀ {vs : List (Expr K)}, (∀ v ∈ vs, Succ C P I v) → ∀ {st}, Inv C P I st →
    ∃ vals st', evalArgs C I vs st = some (vals, st') ∧ (∀ v ∈ vals, v.isInvalid = false) ∧ Inv C P I st' ∧
      List.Forall₂ (fun e v => Denotes I (sem C I e) v) vs vals
  | [], _, st, hst => ⟨[], st, by simp [evalArgs], by simp, hst, .nil⟩
  | e :: vs, hv, st, hst => by
    obtain ⟨v, st', h1, h2, h3, h4⟩ := hv e (by simp) st hst
    obtain ⟨ws, st2, h5, h6, h7, h8⟩ := evalArgs_total (vs := vs) (fun v hv' => hv v (by simp [hv'])) h2
    refine ⟨v :: ws, st2, by simp [evalArgs, h1, h5], ?_, h7, .cons h4 h8⟩
    intro w hw
    rcases List.mem_cons.1 hw with rfl | hw
    · exact h3
    · exact h6 w hw

include hI hpos in
theorem callExt_total {name : Str} {es : List (Expr K)} {argv : List IVal} {st : St} (hst : Inv C P I st)
    (hd : List.Forall₂ (fun e v => Denotes I (sem C I e) v) es argv) (h : ∀ v ∈ argv, v.isInvalid = false)
    (hcall0 : es ≠ [] ∧ takes I.math name es.length ∧ name ≠ nVecSum ∧ name ≠ nVecMax ∧ name ≠ nVecMin ∧
      ∀ i, i < I.env.n → (appl I.math name (es.map (eval C (ienv I i)))).isSome = true) :
    ∃ v st', callExt I name argv st = some (v, st', false) ∧ v.isInvalid = false ∧ st'.errs = 0 ∧ ∀ p ∈ st'.cache, p.2.isInvalid = false := by
  obtain ⟨hne, hcall⟩ := hcall0
  obtain ⟨v, hv, o⟩ := extMath_total (name := name) (gs := es.map (sem C I)) (argv := argv) hI hpos
    (by rwa [List.forall₂_map_left_iff]) h (by
      rintro rfl
      have := hd.length_eq
      simp only [List.length_nil, List.length_eq_zero_iff] at this
      exact hne this) (by simpa using hcall.1)
    ⟨hcall.2.1, hcall.2.2.1, hcall.2.2.2.1⟩ (fun i hi => by
      have := hcall.2.2.2.2 i hi
      rw [List.map_map]
      exact this)
  exact ⟨v, { st with errs := 0 }, by simp [callExt, hst.errs, hv], o, rfl, hst.ok⟩

include hP hI hstd hpos in
/-- The evaluation of an expression that can be evaluated succeeds. -/
theorem evalI_total : ∀ e : Expr K, P e → Evaluable C I e → Succ C P I e := by
  have lift : ∀ e : Expr K, P e → Evaluable C I e → (∀ st, Inv C P I st →
      ∃ v st', evalE C I e st = some (v, st') ∧ v.isInvalid = false ∧ st'.errs = 0 ∧ ∀ p ∈ st'.cache, p.2.isInvalid = false) →
      Succ C P I e := by
    intro e hw hev h st hst
    obtain ⟨v, st', h1, h2, h3, h4⟩ := h st hst
    obtain ⟨g1, g2⟩ := evalI_good hP hI hstd e hw hev.toCalls st v st' hst.cache h1
    exact ⟨v, st', h1, ⟨g1, h4, h3⟩, h2, g2⟩
  intro e
  induction e using Expr.ind with
  | hcon c =>
    refine fun hw hev => lift _ hw hev fun st hst => ?_
    simp only [evalE]
    exact withCache_total hst ⟨_, _, rfl, rfl, hst.errs, hst.ok⟩
  | hvar x =>
    refine fun hw hev => lift _ hw hev fun st hst => ?_
    simp only [evalE]
    refine withCache_total hst ?_
    obtain ⟨y, hy⟩ := evalVar_total (hev.vars x (by simp [varNames])) st
    exact ⟨.double y, st, by simp [hy], rfl, hst.errs, hst.ok⟩
  | hmodel m =>
    refine fun hw hev => lift _ hw hev fun st hst => ?_
    simp only [evalE]
    refine withCache_total hst ?_
    obtain ⟨s, hs⟩ := evalModel_total hI (hev.models m (by simp [modelNames])) st
    exact ⟨.data s, st, by simp [hs], rfl, hst.errs, hst.ok⟩
  | hadd vs ih =>
    intro hw hev
    refine lift _ hw hev fun st hst => ?_
    simp only [evalE]
    have hv := hP.add _ hw
    obtain ⟨v, st', h1, h2⟩ := evalSum_total hI (C := C) (P := P) (fun u hu => ih u hu (hv u hu)
      ⟨fun x hx => hev.vars x (by simp only [varNames]; exact varNamesL_mem hu hx),
       fun x hx => hev.models x (by simp only [modelNames]; exact modelNamesL_mem hu hx),
       fun x hx => hev.calls x (by simp only [calls]; exact callsL_mem hu hx)⟩) hst (out := .double 0) (g := fun _ => 0) rfl
       (fun _ _ => rfl)
    exact withCache_total hst ⟨v, st', by simp [h1], h2⟩
  | hprod vs ih =>
    intro hw hev
    refine lift _ hw hev fun st hst => ?_
    simp only [evalE]
    have hv := hP.prod _ hw
    obtain ⟨v, st', h1, h2⟩ := evalProd_total hI (C := C) (P := P) (fun u hu => ih u hu (hv u hu)
      ⟨fun x hx => hev.vars x (by simp only [varNames]; exact varNamesL_mem hu hx),
       fun x hx => hev.models x (by simp only [modelNames]; exact modelNamesL_mem hu hx),
       fun x hx => hev.calls x (by simp only [calls]; exact callsL_mem hu hx)⟩) hst (out := .double 1) (g := fun _ => 1) rfl
       (fun _ _ => rfl)
    exact withCache_total hst ⟨v, st', by simp [h1], h2⟩
  | hexp a ih =>
    intro hw hev
    refine lift _ hw hev fun st hst => ?_
    simp only [evalE]
    have ha := hP.exp _ hw
    obtain ⟨v, st', h1, h2, h3, h4⟩ := ih ha ⟨fun x hx => hev.vars x (by simpa [varNames] using hx),
      fun x hx => hev.models x (by simpa [modelNames] using hx), fun x hx => hev.calls x (by simp [calls, hx])⟩ st hst
    obtain ⟨w, st2, h5, h6⟩ := callExt_total hI hpos h2 (.cons h4 .nil) (by simpa using h3)
      (hev.calls (['e', 'x', 'p'], [a]) (by simp [calls]))
    exact withCache_total hst ⟨w, st2, by simp only [h1, Option.bind_some, h5], h6⟩
  | hlog a ih =>
    intro hw hev
    refine lift _ hw hev fun st hst => ?_
    simp only [evalE]
    have ha := hP.log _ hw
    obtain ⟨v, st', h1, h2, h3, h4⟩ := ih ha ⟨fun x hx => hev.vars x (by simpa [varNames] using hx),
      fun x hx => hev.models x (by simpa [modelNames] using hx), fun x hx => hev.calls x (by simp [calls, hx])⟩ st hst
    obtain ⟨w, st2, h5, h6⟩ := callExt_total hI hpos h2 (.cons h4 .nil) (by simpa using h3)
      (hev.calls (['l', 'o', 'g'], [a]) (by simp [calls]))
    exact withCache_total hst ⟨w, st2, by simp only [h1, Option.bind_some, h5], h6⟩
  | hulog a ih =>
    intro hw hev
    refine lift _ hw hev fun st hst => ?_
    simp only [evalE]
    have ha := hP.ulog _ hw
    obtain ⟨v, st', h1, h2, h3, h4⟩ := ih ha ⟨fun x hx => hev.vars x (by simpa [varNames] using hx),
      fun x hx => hev.models x (by simpa [modelNames] using hx), fun x hx => hev.calls x (by simp [calls, hx])⟩ st hst
    obtain ⟨w, st2, h5, h6⟩ := callExt_total hI hpos h2 (.cons h4 .nil) (by simpa using h3)
      (hev.calls (['!'], [a]) (by simp [calls]))
    exact withCache_total hst ⟨w, st2, by simp only [h1, Option.bind_some, h5], h6⟩
  | hpow a b iha ihb =>
    intro hw hev
    refine lift _ hw hev fun st hst => ?_
    simp only [evalE]
    obtain ⟨ha, hb⟩ := hP.pow _ _ hw
    obtain ⟨v, st', h1, h2, h3, h4⟩ := iha ha ⟨fun x hx => hev.vars x (by simp [varNames, hx]),
      fun x hx => hev.models x (by simp [modelNames, hx]), fun x hx => hev.calls x (by simp [calls, hx])⟩ st hst
    obtain ⟨w, st2, g1, g2, g3, g4⟩ := ihb hb ⟨fun x hx => hev.vars x (by simp [varNames, hx]),
      fun x hx => hev.models x (by simp [modelNames, hx]), fun x hx => hev.calls x (by simp [calls, hx])⟩ st' h2
    obtain ⟨z, st3, h5, h6⟩ := callExt_total hI hpos g2 (.cons h4 (.cons g4 .nil))
      (by simp [h3, g3]) (hev.calls (['p', 'o', 'w'], [a, b]) (by simp [calls]))
    exact withCache_total hst ⟨z, st3, by simp only [h1, Option.bind_some, g1, h5], h6⟩
  | hblog op a b iha ihb =>
    intro hw hev
    refine lift _ hw hev fun st hst => ?_
    simp only [evalE]
    obtain ⟨ha, hb⟩ := hP.blog _ _ _ hw
    obtain ⟨v, st', h1, h2, h3, h4⟩ := iha ha ⟨fun x hx => hev.vars x (by simp [varNames, hx]),
      fun x hx => hev.models x (by simp [modelNames, hx]), fun x hx => hev.calls x (by simp [calls, hx])⟩ st hst
    obtain ⟨w, st2, g1, g2, g3, g4⟩ := ihb hb ⟨fun x hx => hev.vars x (by simp [varNames, hx]),
      fun x hx => hev.models x (by simp [modelNames, hx]), fun x hx => hev.calls x (by simp [calls, hx])⟩ st' h2
    obtain ⟨z, st3, h5, h6⟩ := callExt_total hI hpos g2 (.cons h4 (.cons g4 .nil))
      (by simp [h3, g3]) (hev.calls (opName op, [a, b]) (by simp [calls]))
    exact withCache_total hst ⟨z, st3, by simp only [h1, Option.bind_some, g1, h5], h6⟩
  | huser f as ih =>
    intro hw hev
    refine lift _ hw hev fun st hst => ?_
    simp only [evalE]
    have hv := hP.user _ _ hw
    obtain ⟨ws, st', h1, h2, h3, h4⟩ := evalArgs_total (C := C) (P := P) (I := I) (fun u hu => ih u hu (hv u hu)
      ⟨fun x hx => hev.vars x (by simp only [varNames]; exact varNamesL_mem hu hx),
       fun x hx => hev.models x (by simp only [modelNames]; exact modelNamesL_mem hu hx),
       fun x hx => hev.calls x (by simp only [calls]; exact List.mem_cons_of_mem _ (callsL_mem hu hx))⟩) hst
    obtain ⟨w, st2, h5, h6⟩ := callExt_total hI hpos h3 h4 h2
      (hev.calls (f, as) (by simp [calls]))
    exact withCache_total hst ⟨w, st2, by simp only [h1, Option.bind_some, h5], h6⟩

end

end Verif.Ifm
