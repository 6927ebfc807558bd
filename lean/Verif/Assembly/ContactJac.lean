import Verif.Assembly.Conserve

/-!
# Contact equations: the matrix is the Jacobian of the residual, except on circuit rows
-/

namespace Verif.Assembly

/-- All or none of the derivative models with respect to a variable exist. -/
def Complete {K : Type} (g : Topo) (sh : Shape) (tbl : String → Option (Nat → K)) (model : String) : Prop :=
  ∀ var ∈ g.vars, tbl (derName model var ++ sh.s0) = none →
    tbl (derName model var ++ sh.s1) = none ∧ ∀ s ∈ sh.sopp, tbl (derName model var ++ s) = none

section
variable {K : Type} [CommRing K]

/-- The chain rule term of the circuit node. -/
def circDeriv (ccol : Option Nat) (o : Option (Nat → K)) (d : Nat → K) (i : Nat) : K :=
  match ccol with
  | some cc => val o i * d cc
  | none => 0

/-- What node `c` contributes to row `r` through element edge `s`. -/
def cw (g : Topo) (eq : Nat) (n0s n1s : K) (r c : Nat) (s : Site) : K :=
  if g.num eq c = r then headOrTail s c n0s n1s else 0

theorem rowSum_contactSiteRHS (g : Topo) (eq : Nat) (sites : List Site) (active : List Nat)
    (flux : Nat → K) (n0s n1s : K) (r : Nat) :
    rowSum (contactSiteRHS g eq sites active flux n0s n1s) r =
      (active.map fun c => ((sitesAt sites c).map fun s => cw g eq n0s n1s r c s * flux s.idx).sum).sum := by
  rw [contactSiteRHS, rowSum_flatMap]
  congr 1
  refine List.map_congr_left fun c _ => ?_
  rw [rowSum_flatMap]
  congr 1
  refine List.map_congr_left fun s _ => ?_
  by_cases h0 : s.n0 = c
  · simp [h0, cw, headOrTail]
  · by_cases h1 : s.n1 = c
    · simp [h0, h1, cw, headOrTail]
    · simp [h0, h1, cw, headOrTail]

theorem matVec_map_zip (row : Nat) (l : List (Nat × (Nat → K))) (k : K) (F : Nat → Nat) (d : Nat → K)
    (i r : Nat) :
    matVec (l.map fun (o, f) => (row, F o, k * f i)) d r =
      if row = r then k * (l.map fun (o, f) => f i * d (F o)).sum else 0 := by
  induction l with
  | nil => simp
  | cons a as ih =>
    simp only [List.map_cons, matVec_cons, ih, List.sum_cons]
    by_cases h : row = r
    · simp only [h, if_true]; ring
    · simp [h]

theorem matVec_contactSiteJacobian (g : Topo) (eq eqv : Nat) (sites : List Site) (active : List Nat)
    (d0 d1 : Nat → K) (dopp : List (Nat → K)) (n0s n1s : K) (d : Nat → K) (r : Nat) :
    matVec (contactSiteJacobian g eq eqv sites active d0 d1 dopp n0s n1s) d r =
      (active.map fun c => ((sitesAt sites c).map fun s => cw g eq n0s n1s r c s *
        (d0 s.idx * d (g.num eqv s.n0) + d1 s.idx * d (g.num eqv s.n1) +
          ((s.opp.zip dopp).map fun (o, f) => f s.idx * d (g.num eqv o)).sum)).sum).sum := by
  rw [contactSiteJacobian, matVec_flatMap]
  congr 1
  refine List.map_congr_left fun c _ => ?_
  rw [matVec_flatMap]
  congr 1
  refine List.map_congr_left fun s _ => ?_
  by_cases h0 : s.n0 = c
  · subst h0
    rw [if_pos rfl, matVec_append, matVec_map_zip _ _ _ (fun o => g.num eqv o)]
    simp only [matVec_cons, matVec_nil, cw, headOrTail, if_true]
    split <;> ring
  · by_cases h1 : s.n1 = c
    · subst h1
      rw [if_neg h0, if_pos rfl, matVec_append, matVec_map_zip _ _ _ (fun o => g.num eqv o)]
      simp only [matVec_cons, matVec_nil, cw, headOrTail, if_neg h0, if_true]
      split <;> ring
    · simp [h0, h1, cw, headOrTail]

theorem matVec_contactSiteCircuit (g : Topo) (eq : Nat) (sites : List Site) (active : List Nat) (cc : Nat)
    (f : Nat → K) (n0s n1s : K) (d : Nat → K) (r : Nat) :
    matVec (contactSiteCircuit g eq sites active cc f n0s n1s) d r =
      (active.map fun c => ((sitesAt sites c).map fun s => cw g eq n0s n1s r c s *
        (f s.idx * d cc)).sum).sum := by
  rw [contactSiteCircuit, matVec_flatMap]
  congr 1
  refine List.map_congr_left fun c _ => ?_
  rw [matVec_flatMap]
  congr 1
  refine List.map_congr_left fun s _ => ?_
  by_cases h0 : s.n0 = c
  · subst h0
    simp only [if_true, matVec_cons, matVec_nil, cw, headOrTail]
    split <;> ring
  · by_cases h1 : s.n1 = c
    · subst h1
      simp only [if_true, if_neg h0, matVec_cons, matVec_nil, cw, headOrTail]
      split <;> ring
    · simp [h0, h1, cw, headOrTail]

/-- The chain rule for one variable. -/
def varDeriv (g : Topo) (sh : Shape) (tbl : String → Option (Nat → K)) (d : Nat → K) (model : String)
    (s : Site) (var : String) : K :=
  val (tbl (derName model var ++ sh.s0)) s.idx * d (g.col var s.n0) +
    val (tbl (derName model var ++ sh.s1)) s.idx * d (g.col var s.n1) +
    ((s.opp.zip sh.sopp).map fun (o, sf) =>
      val (tbl (derName model var ++ sf)) s.idx * d (g.col var o)).sum

theorem siteDeriv_eq (g : Topo) (sh : Shape) (tbl : String → Option (Nat → K)) (d : Nat → K)
    (model : String) (s : Site) :
    siteDeriv g sh tbl d model s = (g.vars.map fun var => varDeriv g sh tbl d model s var).sum := rfl

theorem varDeriv_missing {g : Topo} {sh : Shape} {tbl : String → Option (Nat → K)} {model var : String}
    (h0 : tbl (derName model var ++ sh.s0) = none) (h1 : tbl (derName model var ++ sh.s1) = none)
    (ho : ∀ s ∈ sh.sopp, tbl (derName model var ++ s) = none) (d : Nat → K) (s : Site) :
    varDeriv g sh tbl d model s var = 0 := by
  have : ((s.opp.zip sh.sopp).map fun (o, sf) =>
      val (tbl (derName model var ++ sf)) s.idx * d (g.col var o)).sum = 0 := by
    apply List.sum_eq_zero
    intro x hx
    simp only [List.mem_map] at hx
    obtain ⟨p, hp, rfl⟩ := hx
    have := ho p.2 (List.of_mem_zip (b := p.2) (a := p.1) hp).2
    simp [this, val]
  rw [varDeriv, this, h0, h1]
  simp [val]

theorem varDeriv_present {g : Topo} {sh : Shape} {tbl : String → Option (Nat → K)} {model var : String}
    {d0 d1 : Nat → K} {dopp : List (Nat → K)} {eqv : Nat} (ec : Nat → K)
    (h0 : tbl (derName model var ++ sh.s0) = some d0) (h1 : tbl (derName model var ++ sh.s1) = some d1)
    (ho : allSome (sh.sopp.map fun s => tbl (derName model var ++ s)) = some dopp)
    (he : g.eqIndex (g.eqOfVar var) = some eqv) (d : Nat → K) (s : Site) :
    times ec d0 s.idx * d (g.num eqv s.n0) + times ec d1 s.idx * d (g.num eqv s.n1) +
      ((s.opp.zip (dopp.map fun d => times ec d)).map fun (o, f) => f s.idx * d (g.num eqv o)).sum =
      ec s.idx * varDeriv g sh tbl d model s var := by
  have hz := zip_map_some_sum s.opp sh.sopp dopp (fun sf => tbl (derName model var ++ sf))
    (allSome_eq ho) (fun o x => x * d (g.num eqv o)) ec s.idx (by intros; ring)
  dsimp only at hz
  have hc : (fun d => times ec d) = fun d : Nat → K => times d ec := by
    funext a b; simp [times, mul_comm]
  have hcol : ∀ i, g.col var i = g.num eqv i := by intro i; simp [Topo.col, he]
  rw [hc, hz]
  simp only [varDeriv, h0, h1, hcol, val, times]
  ring

theorem contactVarModels_some {sh : Shape} {tbl : String → Option (Nat → K)} {model var : String}
    {x : Option ((Nat → K) × (Nat → K) × List (Nat → K))}
    (h : contactVarModels sh tbl model var = some x) :
    (x = none ∧ tbl (derName model var ++ sh.s0) = none) ∨
    (∃ d0 d1 dopp, x = some (d0, d1, dopp) ∧ tbl (derName model var ++ sh.s0) = some d0 ∧
      tbl (derName model var ++ sh.s1) = some d1 ∧
      allSome (sh.sopp.map fun s => tbl (derName model var ++ s)) = some dopp) := by
  unfold contactVarModels at h
  cases h0 : tbl (derName model var ++ sh.s0) with
  | none => simp [h0] at h; exact Or.inl ⟨h.symm, rfl⟩
  | some d0 =>
    cases h1 : tbl (derName model var ++ sh.s1) with
    | none => simp [h0, h1] at h
    | some d1 =>
      cases ho : allSome (sh.sopp.map fun s => tbl (derName model var ++ s)) with
      | none => simp [h0, h1, ho] at h
      | some dopp =>
        simp [h0, h1, ho] at h
        exact Or.inr ⟨d0, d1, dopp, h.symm, rfl, rfl, rfl⟩

theorem contactSiteAssemble_spec {g : Topo} {sh : Shape} {tbl : String → Option (Nat → K)}
    {circ : String → Option (Option Nat)} {active : List Nat} {name cnode model couple : String}
    {n0s n1s : K} {m : List (MEntry K)} {v : List (VEntry K)}
    (h : contactSiteAssemble g sh tbl circ active name cnode model couple n0s n1s .matrixAndRhs
      = some (m, v)) (hc : Complete g sh tbl model) :
    ∃ eq cc, g.eqIndex name = some eq ∧ circuitCol circ cnode = some cc ∧
      (∀ r, rowSum v r = (active.map fun c => ((sitesAt sh.sites c).map fun s =>
        (cw g eq n0s n1s r c s * val (tbl couple) s.idx) * val (tbl model) s.idx).sum).sum) ∧
      (∀ d r, matVec m d r = (active.map fun c => ((sitesAt sh.sites c).map fun s =>
        (cw g eq n0s n1s r c s * val (tbl couple) s.idx) *
          (siteDeriv g sh tbl d model s + circDeriv cc (tbl (derName model cnode)) d s.idx)).sum).sum) := by
  unfold contactSiteAssemble at h
  simp only [What.doRhs, What.doMat, if_true, Option.bind_eq_bind, Option.bind_eq_some_iff,
    Option.pure_def, Option.some.injEq, Prod.mk.injEq, Option.map_eq_some_iff] at h
  obtain ⟨eq, heq, ec, hec, cc, hcc, v', ⟨em, hem, hv'⟩, m', hm', h1, rfl⟩ := h
  refine ⟨eq, cc, heq, hcc, ?_, ?_⟩
  · intro r
    rw [← hv', rowSum_contactSiteRHS]
    congr 1
    refine List.map_congr_left fun c _ => ?_
    congr 1
    refine List.map_congr_left fun s _ => ?_
    simp only [times, hem, hec, val]; ring
  · intro d r
    rw [← h1, matVec_append]
    obtain ⟨hs, h2⟩ := collect_some hm'
    rw [h2, matVec_flatMap]
    have key : ∀ var ∈ g.vars,
        matVec ((contactSiteVar g sh tbl active eq model ec n0s n1s var).getD []) d r =
          (active.map fun c => ((sitesAt sh.sites c).map fun s =>
            (cw g eq n0s n1s r c s * val (tbl couple) s.idx) * varDeriv g sh tbl d model s var).sum).sum := by
      intro var hvar
      obtain ⟨b, hb⟩ := hs var hvar
      rw [hb]
      unfold contactSiteVar at hb
      cases hx : contactVarModels sh tbl model var with
      | none => simp [hx] at hb
      | some x =>
        rcases contactVarModels_some hx with ⟨rfl, h0⟩ | ⟨d0, d1, dopp, rfl, h0, h1, ho⟩
        · simp only [hx, Option.some.injEq] at hb
          subst hb
          obtain ⟨h1, ho⟩ := hc var hvar h0
          simp [varDeriv_missing h0 h1 ho]
        · cases hev : g.eqIndex (g.eqOfVar var) with
          | none => simp [hx, hev] at hb
          | some eqv =>
            simp only [hx, hev, Option.map_some, Option.some.injEq] at hb
            rw [Option.getD_some, ← hb, matVec_contactSiteJacobian]
            congr 1
            refine List.map_congr_left fun c _ => ?_
            congr 1
            refine List.map_congr_left fun s _ => ?_
            rw [varDeriv_present ec h0 h1 ho hev d s, hec]
            simp only [val]; ring
    rw [List.map_congr_left key, list_sum_comm]
    have hcirc : matVec (contactSiteCirc g sh tbl active eq cnode model ec n0s n1s cc) d r = (active.map fun c => ((sitesAt sh.sites c).map fun s =>
        (cw g eq n0s n1s r c s * val (tbl couple) s.idx) *
          circDeriv cc (tbl (derName model cnode)) d s.idx).sum).sum := by
      cases cc with
      | none => simp [circDeriv, contactSiteCirc, contactNodeCirc]
      | some cc =>
        cases hdc : tbl (derName model cnode) with
        | none => simp [circDeriv, val, contactSiteCirc, contactNodeCirc, hdc]
        | some dc =>
          simp only [contactSiteCirc, hdc]
          rw [matVec_contactSiteCircuit]
          congr 1
          refine List.map_congr_left fun c _ => ?_
          congr 1
          refine List.map_congr_left fun s _ => ?_
          simp only [circDeriv, hec, val, times]; ring
    rw [hcirc, ← List.sum_map_add]
    congr 1
    refine List.map_congr_left fun c _ => ?_
    rw [list_sum_comm, ← List.sum_map_add]
    congr 1
    refine List.map_congr_left fun s _ => ?_
    rw [list_sum_mul_left, siteDeriv_eq]; ring

end

/-- The derivative models of an edge model used by a contact equation are right, including the one with
respect to the circuit node. -/
def ContactSiteExact (g : Topo) (sh : Shape) (tbl : ℝ → String → Option (Nat → ℝ)) (cc : Option Nat)
    (cnode : String) (t0 : ℝ) (d : Nat → ℝ) (model : String) : Prop :=
  ∀ s ∈ sh.sites, HasDerivAt (fun t => val (tbl t model) s.idx)
    (siteDeriv g sh (tbl t0) d model s + circDeriv cc (tbl t0 (derName model cnode)) d s.idx) t0

/-- **C39 (contacts, interior rows, edge and element models)**: the matrix of the interior contact equation is
the Jacobian of its residual with respect to the device unknowns and the circuit node. -/
theorem contactSite_jacobian (g : Topo) (sh : Shape) (tbl : ℝ → String → Option (Nat → ℝ))
    (circ : String → Option (Option Nat)) (active : List Nat) (name cnode model couple : String)
    (n0s n1s t0 : ℝ) (d : Nat → ℝ) (cc : Option Nat) (hcc : circuitCol circ cnode = some cc)
    (hx : ContactSiteExact g sh tbl cc cnode t0 d model) (hc : Fixed tbl couple)
    (hcm : ∀ t, Complete g sh (tbl t) model) :
    IsJacobianAlong (fun t => contactSiteAssemble g sh (tbl t) circ active name cnode model couple n0s n1s
      .matrixAndRhs) t0 d := by
  intro out hout r
  obtain ⟨eq, cc', he, hcc', -, hm⟩ := contactSiteAssemble_spec (hout t0) (hcm t0)
  rw [hcc] at hcc'; cases hcc'
  have hv : ∀ t, rowSum (out t).2 r = (active.map fun c => ((sitesAt sh.sites c).map fun s =>
        (cw g eq n0s n1s r c s * val (tbl t0 couple) s.idx) * val (tbl t model) s.idx).sum).sum := by
    intro t
    obtain ⟨eq', cc', he', -, hv, -⟩ := contactSiteAssemble_spec (hout t) (hcm t)
    rw [he] at he'
    cases he'
    rw [hv]
    congr 1
    refine List.map_congr_left fun c _ => ?_
    congr 1
    refine List.map_congr_left fun s _ => ?_
    rw [hc t t0]
  simp only [hv]
  rw [hm]
  refine hasDerivAt_list_sum _ (fun c t => _) _ _ fun c _ => hasDerivAt_list_sum _ (fun s t => _) _ _
    fun s hs => (hx s ?_).const_mul _
  exact (List.mem_filter.1 hs).1

/-! ## Node models on contacts -/

section
variable {K : Type} [CommRing K]

theorem contactNodeAssemble_spec {g : Topo} {T : Tables K} {circ : String → Option (Option Nat)}
    {active : List Nat} {name cnode model : String} {m : List (MEntry K)} {v : List (VEntry K)}
    (h : contactNodeAssemble g T circ active name cnode model .matrixAndRhs = some (m, v)) :
    ∃ eq cc, g.eqIndex name = some eq ∧ circuitCol circ cnode = some cc ∧
      (∀ r, rowSum v r = (active.map fun c =>
        ((if g.num eq c = r then 1 else 0) * val (T.node g.nodeVolume) c) * val (T.node model) c).sum) ∧
      (∀ d r, matVec m d r = (active.map fun c =>
        ((if g.num eq c = r then 1 else 0) * val (T.node g.nodeVolume) c) *
          ((g.vars.map fun var => val (T.node (derName model var)) c * d (g.col var c)).sum +
            circDeriv cc (T.node (derName model cnode)) d c)).sum) := by
  unfold contactNodeAssemble at h
  simp only [What.doRhs, What.doMat, if_true, Option.bind_eq_bind, Option.bind_eq_some_iff,
    Option.pure_def, Option.some.injEq, Prod.mk.injEq, Option.map_eq_some_iff] at h
  obtain ⟨eq, heq, nv, hnv, cc, hcc, v', ⟨nm, hnm, hv'⟩, m', hm', h1, rfl⟩ := h
  refine ⟨eq, cc, heq, hcc, ?_, ?_⟩
  · intro r
    rw [← hv', rowSum, List.map_map]
    congr 1
    refine List.map_congr_left fun c _ => ?_
    simp only [Function.comp, hnv, hnm, val]
    split <;> ring
  · intro d r
    rw [← h1, matVec_append]
    obtain ⟨hs, h2⟩ := collect_some hm'
    rw [h2, matVec_flatMap]
    have key : ∀ var ∈ g.vars,
        matVec ((contactNodeVar g T.node active eq model nv var).getD []) d r =
          (active.map fun c => ((if g.num eq c = r then 1 else 0) * val (T.node g.nodeVolume) c) *
            (val (T.node (derName model var)) c * d (g.col var c))).sum := by
      intro var hvar
      obtain ⟨b, hb⟩ := hs var hvar
      rw [hb]
      unfold contactNodeVar at hb
      cases hx : T.node (derName model var) with
      | none =>
        simp only [hx, Option.some.injEq] at hb
        subst hb
        simp [val]
      | some nd =>
        cases hev : g.eqIndex (g.eqOfVar var) with
        | none => simp [hx, hev] at hb
        | some eqv =>
          simp only [hx, hev, Option.map_some, Option.some.injEq] at hb
          rw [Option.getD_some, ← hb, matVec, List.map_map]
          congr 1
          refine List.map_congr_left fun c _ => ?_
          simp only [Function.comp, hnv, val, Topo.col, hev, Option.getD_some]
          split <;> ring
    rw [List.map_congr_left key, list_sum_comm]
    have hcirc : matVec (contactNodeCirc g T.node active eq cnode model nv cc) d r = (active.map fun c =>
        ((if g.num eq c = r then 1 else 0) * val (T.node g.nodeVolume) c) *
          circDeriv cc (T.node (derName model cnode)) d c).sum := by
      cases cc with
      | none => simp [circDeriv, contactSiteCirc, contactNodeCirc]
      | some cc =>
        cases hdc : T.node (derName model cnode) with
        | none => simp [circDeriv, val, contactSiteCirc, contactNodeCirc, hdc]
        | some dc =>
          simp only [contactNodeCirc, hdc]
          rw [matVec, List.map_map]
          congr 1
          refine List.map_congr_left fun c _ => ?_
          simp only [Function.comp, circDeriv, hnv, val]
          split <;> ring
    rw [hcirc, ← List.sum_map_add]
    congr 1
    refine List.map_congr_left fun c _ => ?_
    rw [list_sum_mul_left]; ring

end

/-- The derivative models of a node model used by a contact equation are right. -/
def ContactNodeExact (g : Topo) (tbl : ℝ → String → Option (Nat → ℝ)) (cc : Option Nat) (cnode : String)
    (t0 : ℝ) (d : Nat → ℝ) (model : String) : Prop :=
  ∀ i, HasDerivAt (fun t => val (tbl t model) i)
    ((g.vars.map fun var => val (tbl t0 (derName model var)) i * d (g.col var i)).sum +
      circDeriv cc (tbl t0 (derName model cnode)) d i) t0

theorem contactNode_jacobian (g : Topo) (T : ℝ → Tables ℝ) (circ : String → Option (Option Nat))
    (active : List Nat) (name cnode model : String) (t0 : ℝ) (d : Nat → ℝ) (cc : Option Nat)
    (hcc : circuitCol circ cnode = some cc)
    (hx : ContactNodeExact g (fun t => (T t).node) cc cnode t0 d model)
    (hc : Fixed (fun t => (T t).node) g.nodeVolume) :
    IsJacobianAlong (fun t => contactNodeAssemble g (T t) circ active name cnode model .matrixAndRhs)
      t0 d := by
  intro out hout r
  obtain ⟨eq, cc', he, hcc', -, hm⟩ := contactNodeAssemble_spec (hout t0)
  rw [hcc] at hcc'; cases hcc'
  have hv : ∀ t, rowSum (out t).2 r = (active.map fun c =>
        ((if g.num eq c = r then 1 else 0) * val ((T t0).node g.nodeVolume) c) *
          val ((T t).node model) c).sum := by
    intro t
    obtain ⟨eq', cc', he', -, hv, -⟩ := contactNodeAssemble_spec (hout t)
    rw [he] at he'
    cases he'
    rw [hv]
    congr 1
    refine List.map_congr_left fun s _ => ?_
    rw [show val ((T t).node g.nodeVolume) s = val ((T t0).node g.nodeVolume) s from hc t t0 s]
  simp only [hv]
  rw [hm]
  exact hasDerivAt_list_sum _ (fun s t => _) _ _ fun s _ => (hx s).const_mul _

/-- All derivative models used in the interior part of a contact equation are right, and complete. -/
structure ContactExact (g : Topo) (T : ℝ → Tables ℝ) (cc : Option Nat) (t0 : ℝ) (d : Nat → ℝ)
    (e : ContactSpec) : Prop where
  node : e.nodeModel ≠ "" → ContactNodeExact g (fun t => (T t).node) cc e.cnode t0 d e.nodeModel
  edge : ∀ model, model ≠ "" → model = e.edgeModel ∨ model = e.edgeVolumeModel →
    ContactSiteExact g (edgeShape g) (fun t => (T t).edge) cc e.cnode t0 d model ∧
      ∀ t, Complete g (edgeShape g) (T t).edge model
  elem2 : g.dim = 2 → ∀ model, (model ≠ "" ∧ model = e.elementModel) ∨
      (model = e.volumeNode0Model ∨ model = e.volumeNode1Model) ∧
        (e.volumeNode0Model ≠ "" ∨ e.volumeNode1Model ≠ "") →
    ContactSiteExact g (triShape g) (fun t => (T t).tri) cc e.cnode t0 d model ∧
      ∀ t, Complete g (triShape g) (T t).tri model
  elem3 : g.dim = 3 → ∀ model, (model ≠ "" ∧ model = e.elementModel) ∨
      (model = e.volumeNode0Model ∨ model = e.volumeNode1Model) ∧
        (e.volumeNode0Model ≠ "" ∨ e.volumeNode1Model ≠ "") →
    ContactSiteExact g (tetShape g) (fun t => (T t).tet) cc e.cnode t0 d model ∧
      ∀ t, Complete g (tetShape g) (T t).tet model

/-- **C39, interior rows of contact equations**: for every contact equation with any combination of node, edge,
edge volume, element and element volume models. -/
theorem contact_interior_jacobian (g : Topo) (T : ℝ → Tables ℝ) (circ : String → Option (Option Nat))
    (active : List Nat) (e : ContactSpec) (t0 : ℝ) (d : Nat → ℝ) (cc : Option Nat)
    (hcc : circuitCol circ e.cnode = some cc) (hg : GeometryFixed g T)
    (hx : ContactExact g T cc t0 d e) :
    IsJacobianAlong (fun t => contactInterior g (T t) circ active e .matrixAndRhs) t0 d := by
  have hedge : ∀ model couple a b, model ≠ "" → model = e.edgeModel ∨ model = e.edgeVolumeModel →
      Fixed (fun t => (T t).edge) couple →
      IsJacobianAlong (fun t => contactSiteAssemble g (edgeShape g) (T t).edge circ active e.name e.cnode
        model couple a b .matrixAndRhs) t0 d := by
    intro model couple a b h1 h2 h3
    obtain ⟨h4, h5⟩ := hx.edge model h1 h2
    exact contactSite_jacobian _ _ (fun t => (T t).edge) _ _ _ _ _ _ _ _ _ _ cc hcc h4 h3 h5
  have helem : ∀ model couple a b, ((model ≠ "" ∧ model = e.elementModel) ∨
      (model = e.volumeNode0Model ∨ model = e.volumeNode1Model) ∧
        (e.volumeNode0Model ≠ "" ∨ e.volumeNode1Model ≠ "")) →
      Fixed (fun t => (T t).tri) couple → Fixed (fun t => (T t).tet) couple →
      IsJacobianAlong (fun t => contactElementAssemble g (T t) circ active e.name e.cnode
        model couple a b .matrixAndRhs) t0 d := by
    intro model couple a b h1 h2 h3
    simp only [contactElementAssemble]
    split
    · rename_i hd
      obtain ⟨h4, h5⟩ := hx.elem2 hd model h1
      exact contactSite_jacobian _ _ (fun t => (T t).tri) _ _ _ _ _ _ _ _ _ _ cc hcc h4 h2 h5
    · split
      · rename_i hd
        obtain ⟨h4, h5⟩ := hx.elem3 hd model h1
        exact contactSite_jacobian _ _ (fun t => (T t).tet) _ _ _ _ _ _ _ _ _ _ cc hcc h4 h3 h5
      · exact .empty _ _
  simp only [contactInterior]
  refine .andThen (.whenA fun h => ?_) (.andThen (.whenA fun h => ?_) (.andThen (.whenA fun h => ?_)
    (.andThen (.whenA fun h => ?_) (.whenA fun h => ?_))))
  · exact contactNode_jacobian _ _ _ _ _ _ _ _ _ cc hcc (hx.node (by simpa using h)) hg.node
  · exact hedge _ _ _ _ (by simpa using h) (Or.inl rfl) hg.edge
  · have h' : e.edgeVolumeModel ≠ "" := by simpa using h
    split
    · exact hedge _ _ _ _ h' (Or.inr rfl) hg.edge0
    · exact .andThen (hedge _ _ _ _ h' (Or.inr rfl) hg.edge0) (hedge _ _ _ _ h' (Or.inr rfl) hg.edge1)
  · exact helem _ _ _ _ (Or.inl ⟨by simpa using h, rfl⟩) hg.tri hg.tet
  · have h' : e.volumeNode0Model ≠ "" ∨ e.volumeNode1Model ≠ "" := by simpa using h
    split
    · exact helem _ _ _ _ (Or.inr ⟨Or.inl rfl, h'⟩) hg.tri0 hg.tet0
    · exact .andThen (helem _ _ _ _ (Or.inr ⟨Or.inl rfl, h'⟩) hg.tri0 hg.tet0)
        (helem _ _ _ _ (Or.inr ⟨Or.inr rfl, h'⟩) hg.tri1 hg.tet1)

end Verif.Assembly
