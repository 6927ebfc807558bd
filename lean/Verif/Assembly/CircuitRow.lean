import Verif.Assembly.ContactJac

/-!
# Contact equations on the row of a circuit node

The residual is the current (charge) that `get_contact_current` (`get_contact_charge`) reports; the matrix is its
Jacobian for tetrahedra, and for edges and triangles when there is exactly one variable or no derivative model
with respect to the circuit node.
-/

namespace Verif.Assembly

section
variable {K : Type} [CommRing K] [DecidableEq K]

/-- Edges of node `c` that count. -/
def liveSites (sites : List Site) (active : List Nat) (n0s n1s : K) (c : Nat) : List Site :=
  (sitesAt sites c).filter fun s => !bothOn active s n0s n1s

theorem mem_liveSites {sites : List Site} {active : List Nat} {n0s n1s : K} {c : Nat} {s : Site}
    (h : s ∈ liveSites sites active n0s n1s c) : s ∈ sites ∧ (s.n0 = c ∨ s.n1 = c) := by
  have h1 := (List.mem_filter.1 h).1
  have h2 := List.mem_filter.1 h1
  refine ⟨h2.1, ?_⟩
  simpa using h2.2

omit [DecidableEq K] in
theorem rowSum_map_const (l : List Nat) (F : Nat → K) (crow r : Nat) :
    rowSum (l.map fun c => (crow, F c)) r = if crow = r then (l.map F).sum else 0 := by
  induction l with
  | nil => simp
  | cons a as ih =>
    simp only [List.map_cons, rowSum_cons, ih, List.sum_cons]
    split <;> ring

omit [DecidableEq K] in
theorem sum_ite_const {α : Type} (l : List α) (P : Prop) [Decidable P] (F : α → K) :
    (l.map fun a => if P then F a else 0).sum = if P then (l.map F).sum else 0 := by
  by_cases h : P <;> simp [h]

theorem matVec_circuitSiteJacobian (g : Topo) (eqv : Nat) (sites : List Site) (active : List Nat)
    (crow : Nat) (d0 d1 : Nat → K) (dopp : List (Nat → K)) (n0s n1s : K) (d : Nat → K) (r : Nat) :
    matVec (circuitSiteJacobian g eqv sites active crow d0 d1 dopp n0s n1s) d r =
      if crow = r then
      (active.map fun c => ((liveSites sites active n0s n1s c).map fun s => headOrTail s c n0s n1s *
        (d0 s.idx * d (g.num eqv s.n0) + d1 s.idx * d (g.num eqv s.n1) +
          ((s.opp.zip dopp).map fun (o, f) => f s.idx * d (g.num eqv o)).sum)).sum).sum else 0 := by
  rw [circuitSiteJacobian, matVec_flatMap, ← sum_ite_const]
  congr 1
  refine List.map_congr_left fun c _ => ?_
  dsimp only
  rw [matVec_append, matVec_flatMap, matVec_cons, matVec_nil, add_zero]
  have e1 : (if crow = r then (((liveSites sites active n0s n1s c).map fun s =>
      if s.n0 = c then n0s * d0 s.idx else n1s * d1 s.idx).sum) * d (g.num eqv c) else 0) =
      ((liveSites sites active n0s n1s c).map fun s => if crow = r then
        d (g.num eqv c) * (if s.n0 = c then n0s * d0 s.idx else n1s * d1 s.idx) else 0).sum := by
    rw [sum_ite_const, list_sum_mul_left, mul_comm]
  change _ + (if crow = r then (((liveSites sites active n0s n1s c).map fun s =>
      if s.n0 = c then n0s * d0 s.idx else n1s * d1 s.idx).sum) * d (g.num eqv c) else 0) = _
  rw [e1]
  change ((liveSites sites active n0s n1s c).map _).sum + _ = _
  rw [← List.sum_map_add, ← sum_ite_const]
  congr 1
  refine List.map_congr_left fun s hs => ?_
  obtain ⟨-, h⟩ := mem_liveSites hs
  by_cases h0 : s.n0 = c
  · subst h0
    rw [if_pos rfl, matVec_cons, matVec_map_zip _ _ _ (fun o => g.num eqv o)]
    simp only [headOrTail, if_true]
    split <;> ring
  · have h1 : s.n1 = c := h.resolve_left h0
    subst h1
    rw [if_neg h0, matVec_cons, matVec_map_zip _ _ _ (fun o => g.num eqv o)]
    simp only [headOrTail, if_neg h0, if_true]
    split <;> ring

theorem matVec_circuitSiteSelf (sites : List Site) (active : List Nat)
    (crow : Nat) (f : Nat → K) (n0s n1s : K) (d : Nat → K) (r : Nat) :
    matVec (circuitSiteSelf sites active crow f n0s n1s) d r =
      if crow = r then
      (active.map fun c => ((liveSites sites active n0s n1s c).map fun s => headOrTail s c n0s n1s *
        (f s.idx * d crow)).sum).sum else 0 := by
  rw [circuitSiteSelf, matVec_flatMap, ← sum_ite_const]
  congr 1
  refine List.map_congr_left fun c _ => ?_
  rw [← sum_ite_const, matVec, List.map_map]
  change ((liveSites sites active n0s n1s c).map _).sum = _
  congr 1
  refine List.map_congr_left fun s _ => ?_
  simp only [Function.comp]
  split
  · ring
  · rfl

/-- How often the derivative with respect to the circuit node is added. -/
def selfCount (inLoop : Bool) (n : Nat) : Nat := if inLoop then n else 1

theorem circuitSiteAssemble_spec {g : Topo} {sh : Shape} {inLoop : Bool} {tbl : String → Option (Nat → K)}
    {circ : String → Option (Option Nat)} {active : List Nat} {cnode model couple : String}
    {n0s n1s : K} {m : List (MEntry K)} {v : List (VEntry K)} {crow : Nat}
    (h : circuitSiteAssemble g sh inLoop tbl circ active cnode model couple n0s n1s .matrixAndRhs
      = some (m, v)) (hrow : circ cnode = some (some crow)) (hc : Complete g sh tbl model) :
    (∀ r, rowSum v r = if crow = r then
      (active.map fun c => ((liveSites sh.sites active n0s n1s c).map fun s =>
        (headOrTail s c n0s n1s * val (tbl couple) s.idx) * val (tbl model) s.idx).sum).sum else 0) ∧
    (∀ d r, matVec m d r = if crow = r then
      (active.map fun c => ((liveSites sh.sites active n0s n1s c).map fun s =>
        (headOrTail s c n0s n1s * val (tbl couple) s.idx) *
          (siteDeriv g sh tbl d model s +
            (selfCount inLoop g.vars.length : K) * (val (tbl (derName model cnode)) s.idx * d crow))).sum).sum
      else 0) := by
  unfold circuitSiteAssemble at h
  rw [hrow] at h
  simp only [What.doRhs, What.doMat, if_true, Option.bind_eq_bind, Option.bind_eq_some_iff,
    Option.pure_def, Option.some.injEq, Prod.mk.injEq, Option.map_eq_some_iff, Bool.true_and] at h
  obtain ⟨ec, hec, v', ⟨em, hem, hv'⟩, m', hm', h1, rfl⟩ := h
  refine ⟨?_, ?_⟩
  · intro r
    rw [← hv', circuitSiteRHS, rowSum_map_const]
    congr 2
    refine List.map_congr_left fun c _ => ?_
    rw [nodeFlux]
    congr 1
    refine List.map_congr_left fun s _ => ?_
    simp only [times, hem, hec, val]; ring
  · intro d r
    rw [← h1, matVec_append]
    obtain ⟨hs, h2⟩ := collect_some hm'
    rw [h2, matVec_flatMap]
    have hself : matVec (circuitSelf sh tbl active crow cnode model ec n0s n1s) d r =
        if crow = r then (active.map fun c => ((liveSites sh.sites active n0s n1s c).map fun s =>
          (headOrTail s c n0s n1s * val (tbl couple) s.idx) *
            (val (tbl (derName model cnode)) s.idx * d crow)).sum).sum else 0 := by
      unfold circuitSelf
      cases hdc : tbl (derName model cnode) with
      | none => simp [val]
      | some dc =>
        dsimp only
        rw [matVec_circuitSiteSelf]
        congr 2
        refine List.map_congr_left fun c _ => ?_
        congr 1
        refine List.map_congr_left fun s _ => ?_
        simp only [times, hec, val]; ring
    have key : ∀ var ∈ g.vars,
        matVec (((circuitSiteVar g sh tbl active crow model ec n0s n1s var).map fun l =>
          if inLoop then l ++ circuitSelf sh tbl active crow cnode model ec n0s n1s else l).getD []) d r =
          (if crow = r then (active.map fun c => ((liveSites sh.sites active n0s n1s c).map fun s =>
            (headOrTail s c n0s n1s * val (tbl couple) s.idx) * varDeriv g sh tbl d model s var).sum).sum
            else 0) +
          (if inLoop then matVec (circuitSelf sh tbl active crow cnode model ec n0s n1s) d r else 0) := by
      intro var hvar
      obtain ⟨b, hb⟩ := hs var hvar
      obtain ⟨l, hl, hlb⟩ := Option.map_eq_some_iff.1 hb
      rw [hl, Option.map_some, Option.getD_some]
      have hl2 : matVec l d r = (if crow = r then (active.map fun c =>
          ((liveSites sh.sites active n0s n1s c).map fun s =>
            (headOrTail s c n0s n1s * val (tbl couple) s.idx) * varDeriv g sh tbl d model s var).sum).sum
            else 0) := by
        unfold circuitSiteVar at hl
        cases hx : contactVarModels sh tbl model var with
        | none => simp [hx] at hl
        | some x =>
          rcases contactVarModels_some hx with ⟨rfl, h0⟩ | ⟨d0, d1, dopp, rfl, h0, h1, ho⟩
          · simp only [hx, Option.some.injEq] at hl
            subst hl
            obtain ⟨h1, ho⟩ := hc var hvar h0
            simp [varDeriv_missing h0 h1 ho]
          · cases hev : g.eqIndex (g.eqOfVar var) with
            | none => simp [hx, hev] at hl
            | some eqv =>
              simp only [hx, hev, Option.map_some, Option.some.injEq] at hl
              rw [← hl, matVec_circuitSiteJacobian]
              congr 2
              refine List.map_congr_left fun c _ => ?_
              congr 1
              refine List.map_congr_left fun s _ => ?_
              rw [varDeriv_present ec h0 h1 ho hev d s, hec]
              simp only [val]; ring
      cases inLoop with
      | true => simp only [if_true, matVec_append, hl2]
      | false => simp [hl2]
    rw [List.map_congr_left key, List.sum_map_add, sum_ite_const, list_sum_comm]
    have hcnt : (g.vars.map fun _ => if inLoop = true then
        matVec (circuitSelf sh tbl active crow cnode model ec n0s n1s) d r else 0).sum +
        matVec (if (!inLoop) = true then circuitSelf sh tbl active crow cnode model ec n0s n1s else []) d r =
        (selfCount inLoop g.vars.length : K) *
          matVec (circuitSelf sh tbl active crow cnode model ec n0s n1s) d r := by
      cases inLoop with
      | true => simp [selfCount]
      | false => simp [selfCount]
    rw [add_assoc, hcnt, hself]
    by_cases hr : crow = r
    · simp only [hr, if_true]
      rw [← list_sum_mul_left, ← List.sum_map_add]
      congr 1
      refine List.map_congr_left fun c _ => ?_
      rw [list_sum_comm, ← list_sum_mul_left, ← List.sum_map_add]
      congr 1
      refine List.map_congr_left fun s _ => ?_
      rw [list_sum_mul_left, siteDeriv_eq]
      ring
    · simp [hr]

end

/-- The derivative of the current with respect to the circuit node is added the right number of times. -/
def SelfOnce (inLoop : Bool) (g : Topo) (tbl : String → Option (Nat → ℝ)) (model cnode : String) : Prop :=
  inLoop = false ∨ g.vars.length = 1 ∨ tbl (derName model cnode) = none

/-- **C39, circuit rows (edge, triangle, tetrahedron)**, under `SelfOnce`: without that hypothesis the statement is
false for edges and triangles (`circuit_row_counterexample`). -/
theorem circuitSite_jacobian_partial (g : Topo) (sh : Shape) (inLoop : Bool)
    (tbl : ℝ → String → Option (Nat → ℝ)) (circ : String → Option (Option Nat)) (active : List Nat)
    (cnode model couple : String) (n0s n1s t0 : ℝ) (d : Nat → ℝ) (cc : Option Nat)
    (hcc : circ cnode = some cc)
    (hx : ContactSiteExact g sh tbl cc cnode t0 d model) (hc : Fixed tbl couple)
    (hcm : ∀ t, Complete g sh (tbl t) model) (hso : SelfOnce inLoop g (tbl t0) model cnode) :
    IsJacobianAlong (fun t => circuitSiteAssemble g sh inLoop (tbl t) circ active cnode model couple n0s n1s
      .matrixAndRhs) t0 d := by
  cases cc with
  | none =>
    have : (fun t => circuitSiteAssemble g sh inLoop (tbl t) circ active cnode model couple n0s n1s
        .matrixAndRhs) = fun _ => some ([], []) := by
      funext t; unfold circuitSiteAssemble; rw [hcc]
    rw [this]
    exact .empty _ _
  | some crow =>
    intro out hout r
    obtain ⟨-, hm⟩ := circuitSiteAssemble_spec (hout t0) hcc (hcm t0)
    have hv : ∀ t, rowSum (out t).2 r = if crow = r then
        (active.map fun c => ((liveSites sh.sites active n0s n1s c).map fun s =>
          (headOrTail s c n0s n1s * val (tbl t0 couple) s.idx) * val (tbl t model) s.idx).sum).sum else 0 := by
      intro t
      rw [(circuitSiteAssemble_spec (hout t) hcc (hcm t)).1]
      congr 2
      refine List.map_congr_left fun c _ => ?_
      congr 1
      refine List.map_congr_left fun s _ => ?_
      rw [hc t t0]
    simp only [hv]
    rw [hm]
    by_cases hr : crow = r
    · simp only [hr, if_true]
      refine hasDerivAt_list_sum _ (fun c t => _) _ _ fun c _ => hasDerivAt_list_sum _ (fun s t => _) _ _
        fun s hs => ?_
      have h1 := (hx s (mem_liveSites hs).1).const_mul (headOrTail s c n0s n1s * val (tbl t0 couple) s.idx)
      have e : (selfCount inLoop g.vars.length : ℝ) * (val (tbl t0 (derName model cnode)) s.idx * d r) =
          circDeriv (some crow) (tbl t0 (derName model cnode)) d s.idx := by
        subst hr
        unfold circDeriv
        rcases hso with h | h | h
        · simp [selfCount, h]
        · cases inLoop <;> simp [selfCount, h]
        · simp [h, val]
      rw [e]
      exact h1
    · simp only [hr, if_false]
      exact hasDerivAt_const _ _

section
variable {K : Type} [CommRing K]

theorem circuitNodeAssemble_spec {g : Topo} {T : Tables K} {circ : String → Option (Option Nat)}
    {active : List Nat} {cnode model : String} {m : List (MEntry K)} {v : List (VEntry K)} {crow : Nat}
    (h : circuitNodeAssemble g T circ active cnode model .matrixAndRhs = some (m, v))
    (hrow : circ cnode = some (some crow)) :
    (∀ r, rowSum v r = if crow = r then (active.map fun c =>
        val (T.node g.nodeVolume) c * val (T.node model) c).sum else 0) ∧
    (∀ d r, matVec m d r = if crow = r then (active.map fun c => val (T.node g.nodeVolume) c *
          ((g.vars.map fun var => val (T.node (derName model var)) c * d (g.col var c)).sum +
            val (T.node (derName model cnode)) c * d crow)).sum else 0) := by
  unfold circuitNodeAssemble at h
  rw [hrow] at h
  simp only [What.doRhs, What.doMat, if_true, Option.bind_eq_bind, Option.bind_eq_some_iff,
    Option.pure_def, Option.some.injEq, Prod.mk.injEq, Option.map_eq_some_iff] at h
  obtain ⟨nv, hnv, v', ⟨nm, hnm, hv'⟩, m', hm', h1, rfl⟩ := h
  refine ⟨?_, ?_⟩
  · intro r
    rw [← hv', rowSum_map_const]
    simp only [hnv, hnm, val]
  · intro d r
    rw [← h1, matVec_append]
    obtain ⟨hs, h2⟩ := collect_some hm'
    rw [h2, matVec_flatMap]
    have key : ∀ var ∈ g.vars,
        matVec ((circuitNodeVar g T.node active crow model nv var).getD []) d r =
          if crow = r then (active.map fun c => val (T.node g.nodeVolume) c *
            (val (T.node (derName model var)) c * d (g.col var c))).sum else 0 := by
      intro var hvar
      obtain ⟨b, hb⟩ := hs var hvar
      rw [hb]
      unfold circuitNodeVar at hb
      cases hx : T.node (derName model var) with
      | none =>
        simp only [hx, Option.some.injEq] at hb
        subst hb
        simp [val]
      | some nd =>
        cases hev : g.eqIndex (g.eqOfVar var) with
        | none =>
          cases active with
          | nil => simp [hx] at hb; subst hb; simp
          | cons a as => simp [hx, hev] at hb
        | some eqv =>
          cases active with
          | nil => simp [hx] at hb; subst hb; simp
          | cons a as =>
            simp only [hx, hev, List.isEmpty_cons, Bool.false_eq_true, if_false, Option.map_some,
              Option.some.injEq] at hb
            rw [Option.getD_some, ← hb, matVec, List.map_map, ← sum_ite_const]
            congr 1
            refine List.map_congr_left fun c _ => ?_
            simp only [Function.comp, hnv, val, Topo.col, hev, Option.getD_some]
            split
            · ring
            · rfl
    rw [List.map_congr_left key, sum_ite_const, list_sum_comm]
    have hcirc : matVec (circuitNodeSelf T.node active crow cnode model nv) d r =
        if crow = r then (active.map fun c => val (T.node g.nodeVolume) c *
          (val (T.node (derName model cnode)) c * d crow)).sum else 0 := by
      unfold circuitNodeSelf
      cases hdc : T.node (derName model cnode) with
      | none => simp [val]
      | some dc =>
        dsimp only
        rw [matVec, List.map_map, ← sum_ite_const]
        congr 1
        refine List.map_congr_left fun c _ => ?_
        simp only [Function.comp, hnv, val]
        split
        · ring
        · rfl
    rw [hcirc]
    by_cases hr : crow = r
    · simp only [hr, if_true]
      rw [← List.sum_map_add]
      congr 1
      refine List.map_congr_left fun c _ => ?_
      rw [list_sum_mul_left]; ring
    · simp [hr]

end

theorem circuitNode_jacobian (g : Topo) (T : ℝ → Tables ℝ) (circ : String → Option (Option Nat))
    (active : List Nat) (cnode model : String) (t0 : ℝ) (d : Nat → ℝ) (cc : Option Nat)
    (hcc : circ cnode = some cc)
    (hx : ContactNodeExact g (fun t => (T t).node) cc cnode t0 d model)
    (hc : Fixed (fun t => (T t).node) g.nodeVolume) :
    IsJacobianAlong (fun t => circuitNodeAssemble g (T t) circ active cnode model .matrixAndRhs) t0 d := by
  cases cc with
  | none =>
    have : (fun t => circuitNodeAssemble g (T t) circ active cnode model .matrixAndRhs) =
        fun _ => some ([], []) := by
      funext t; unfold circuitNodeAssemble; rw [hcc]
    rw [this]
    exact .empty _ _
  | some crow =>
    intro out hout r
    obtain ⟨-, hm⟩ := circuitNodeAssemble_spec (hout t0) hcc
    have hv : ∀ t, rowSum (out t).2 r = if crow = r then (active.map fun c =>
        val ((T t0).node g.nodeVolume) c * val ((T t).node model) c).sum else 0 := by
      intro t
      rw [(circuitNodeAssemble_spec (hout t) hcc).1]
      congr 2
      refine List.map_congr_left fun s _ => ?_
      rw [show val ((T t).node g.nodeVolume) s = val ((T t0).node g.nodeVolume) s from hc t t0 s]
    simp only [hv]
    rw [hm]
    by_cases hr : crow = r
    · simp only [hr, if_true]
      refine hasDerivAt_list_sum _ (fun s t => _) _ _ fun s _ => ?_
      subst hr
      exact (hx s).const_mul _
    · simp only [hr, if_false]
      exact hasDerivAt_const _ _

/-- All derivative models of the current (charge) models of a contact are right and complete. -/
structure CircuitExact (g : Topo) (T : ℝ → Tables ℝ) (cc : Option Nat) (cnode : String) (t0 : ℝ)
    (d : Nat → ℝ) (nodeM edgeM elemM : String) : Prop where
  node : nodeM ≠ "" → ContactNodeExact g (fun t => (T t).node) cc cnode t0 d nodeM
  edge : edgeM ≠ "" → ContactSiteExact g (edgeShape g) (fun t => (T t).edge) cc cnode t0 d edgeM ∧
      (∀ t, Complete g (edgeShape g) (T t).edge edgeM) ∧ SelfOnce true g (T t0).edge edgeM cnode
  elem2 : g.dim = 2 → elemM ≠ "" →
    ContactSiteExact g (triShape g) (fun t => (T t).tri) cc cnode t0 d elemM ∧
      (∀ t, Complete g (triShape g) (T t).tri elemM) ∧ SelfOnce true g (T t0).tri elemM cnode
  elem3 : g.dim = 3 → elemM ≠ "" →
    ContactSiteExact g (tetShape g) (fun t => (T t).tet) cc cnode t0 d elemM ∧
      (∀ t, Complete g (tetShape g) (T t).tet elemM)

/-- **C39, circuit rows of a contact equation**: the part of a contact equation which goes to its circuit node,
currents (DC) or charges (TIME).  Partial: `CircuitExact` asks for `SelfOnce`. -/
theorem contact_circuit_jacobian_partial (g : Topo) (T : ℝ → Tables ℝ)
    (circ : String → Option (Option Nat)) (active : List Nat) (cnode nodeM edgeM elemM : String)
    (t0 : ℝ) (d : Nat → ℝ) (cc : Option Nat) (hcc : cnode ≠ "" → circ cnode = some cc)
    (hg : GeometryFixed g T) (hx : CircuitExact g T cc cnode t0 d nodeM edgeM elemM) :
    IsJacobianAlong (fun t => contactCircuit g (T t) circ active cnode nodeM edgeM elemM .matrixAndRhs)
      t0 d := by
  simp only [contactCircuit]
  refine .whenA fun h => ?_
  have hcc' := hcc (by simpa using h)
  refine .andThen (.whenA fun h => ?_) (.andThen (.whenA fun h => ?_) (.whenA fun h => ?_))
  · exact circuitNode_jacobian _ _ _ _ _ _ _ _ cc hcc' (hx.node (by simpa using h)) hg.node
  · obtain ⟨h1, h2, h3⟩ := hx.edge (by simpa using h)
    exact circuitSite_jacobian_partial _ _ _ (fun t => (T t).edge) _ _ _ _ _ _ _ _ _ cc hcc' h1 hg.edge h2 h3
  · have hne : elemM ≠ "" := by simpa using h
    simp only [circuitElementAssemble]
    split
    · rename_i hd
      obtain ⟨h1, h2, h3⟩ := hx.elem2 hd hne
      exact circuitSite_jacobian_partial _ _ _ (fun t => (T t).tri) _ _ _ _ _ _ _ _ _ cc hcc' h1 hg.tri h2 h3
    · split
      · rename_i hd
        obtain ⟨h1, h2⟩ := hx.elem3 hd hne
        exact circuitSite_jacobian_partial _ _ _ (fun t => (T t).tet) _ _ _ _ _ _ _ _ _ cc hcc' h1 hg.tet h2
          (Or.inl rfl)
      · exact .empty _ _

/-- **C39, a whole contact equation in DC mode.** -/
theorem contact_dc_jacobian_partial (g : Topo) (T : ℝ → Tables ℝ) (circ : String → Option (Option Nat))
    (active : List Nat) (e : ContactSpec) (t0 : ℝ) (d : Nat → ℝ) (cc : Option Nat)
    (hcc : circuitCol circ e.cnode = some cc) (hg : GeometryFixed g T)
    (hx : ContactExact g T cc t0 d e)
    (hx2 : CircuitExact g T cc e.cnode t0 d e.nodeCurrent e.edgeCurrent e.elementCurrent) :
    IsJacobianAlong (fun t => contactAssemble g (T t) circ active e .matrixAndRhs .dc) t0 d := by
  refine .andThen (contact_interior_jacobian _ _ _ _ _ _ _ cc hcc hg hx)
    (contact_circuit_jacobian_partial _ _ _ _ _ _ _ _ _ _ cc (fun h => ?_) hg hx2)
  simpa [circuitCol, h] using hcc

/-! ## The circuit row carries the reported current -/

section
variable {K : Type} [CommRing K] [DecidableEq K]

theorem circuitSite_loads_total {g : Topo} {sh : Shape} {inLoop : Bool} {tbl : String → Option (Nat → K)}
    {circ : String → Option (Option Nat)} {active : List Nat} {cnode model couple : String}
    {n0s n1s : K} {m : List (MEntry K)} {v : List (VEntry K)} {crow : Nat}
    (h : circuitSiteAssemble g sh inLoop tbl circ active cnode model couple n0s n1s .matrixAndRhs
      = some (m, v)) (hrow : circ cnode = some (some crow)) (hne : model ≠ "") :
    ∃ I, integrateSites sh tbl active model couple n0s n1s = some I ∧
      ∀ r, rowSum v r = if crow = r then I else 0 := by
  unfold circuitSiteAssemble at h
  rw [hrow] at h
  simp only [What.doRhs, What.doMat, if_true, Option.bind_eq_bind, Option.bind_eq_some_iff,
    Option.pure_def, Option.some.injEq, Prod.mk.injEq, Option.map_eq_some_iff, Bool.true_and] at h
  obtain ⟨ec, hec, v', ⟨em, hem, hv'⟩, m', hm', h1, rfl⟩ := h
  refine ⟨(active.map fun c => nodeFlux sh.sites active (times ec em) n0s n1s c).sum, ?_, ?_⟩
  · simp [integrateSites, hne, hem, hec]
  · intro r
    rw [← hv', circuitSiteRHS, rowSum_map_const]

theorem circuitNode_loads_total {g : Topo} {T : Tables K} {circ : String → Option (Option Nat)}
    {active : List Nat} {cnode model : String} {m : List (MEntry K)} {v : List (VEntry K)} {crow : Nat}
    (h : circuitNodeAssemble g T circ active cnode model .matrixAndRhs = some (m, v))
    (hrow : circ cnode = some (some crow)) (hne : model ≠ "") :
    ∃ I, integrateNodes g T.node active model = some I ∧ ∀ r, rowSum v r = if crow = r then I else 0 := by
  unfold circuitNodeAssemble at h
  rw [hrow] at h
  simp only [What.doRhs, What.doMat, if_true, Option.bind_eq_bind, Option.bind_eq_some_iff,
    Option.pure_def, Option.some.injEq, Prod.mk.injEq, Option.map_eq_some_iff] at h
  obtain ⟨nv, hnv, v', ⟨nm, hnm, hv'⟩, m', hm', h1, rfl⟩ := h
  refine ⟨(active.map fun c => nv c * nm c).sum, ?_, ?_⟩
  · simp [integrateNodes, hne, hnm, hnv]
  · intro r
    rw [← hv', rowSum_map_const]

omit [CommRing K] [DecidableEq K] in
theorem andThen_some {A B : Option (List (MEntry K) × List (VEntry K))} {m : List (MEntry K)}
    {v : List (VEntry K)} (h : andThen A B = some (m, v)) :
    ∃ m1 v1 m2 v2, A = some (m1, v1) ∧ B = some (m2, v2) ∧ m = m1 ++ m2 ∧ v = v1 ++ v2 := by
  cases A with
  | none => simp [andThen] at h
  | some a =>
    cases B with
    | none => simp [andThen] at h
    | some b =>
      simp [andThen] at h
      exact ⟨a.1, a.2, b.1, b.2, rfl, rfl, h.1.symm, h.2.symm⟩

/-- **C38** What a contact equation loads at its circuit node is the current (charge) that
`get_contact_current` (`get_contact_charge`) reports for the contact, and it loads nothing anywhere else. -/
theorem circuit_row_is_reported_current {g : Topo} {T : Tables K} {circ : String → Option (Option Nat)}
    {active : List Nat} {cnode nodeM edgeM elemM : String} {m : List (MEntry K)} {v : List (VEntry K)}
    {crow : Nat} (hcn : cnode ≠ "") (hrow : circ cnode = some (some crow))
    (h : contactCircuit g T circ active cnode nodeM edgeM elemM .matrixAndRhs = some (m, v)) :
    ∃ I, contactTotal g T active nodeM edgeM elemM = some I ∧ ∀ r, rowSum v r = if crow = r then I else 0 := by
  simp only [contactCircuit, whenA, ne_eq, hcn, not_false_eq_true, decide_true, if_true] at h
  obtain ⟨m1, v1, m2, v2, h1, h2, rfl, rfl⟩ := andThen_some h
  obtain ⟨m3, v3, m4, v4, h3, h4, rfl, rfl⟩ := andThen_some h2
  have a : ∃ I, integrateNodes g T.node active nodeM = some I ∧
      ∀ r, rowSum v1 r = if crow = r then I else 0 := by
    by_cases hn : nodeM = ""
    · simp [hn] at h1
      exact ⟨0, by simp [integrateNodes, hn], by simp [h1.2]⟩
    · simp only [hn, not_false_eq_true, decide_true, if_true] at h1
      exact circuitNode_loads_total h1 hrow hn
  have b : ∃ I, integrateSites (edgeShape g) T.edge active edgeM g.edgeCouple (1 : K) (-1) = some I ∧
      ∀ r, rowSum v3 r = if crow = r then I else 0 := by
    by_cases hn : edgeM = ""
    · simp [hn] at h3
      exact ⟨0, by simp [integrateSites, hn], by simp [h3.2]⟩
    · simp only [hn, not_false_eq_true, decide_true, if_true] at h3
      exact circuitSite_loads_total h3 hrow hn
  have c : ∃ I, integrateElements g T active elemM g.elementEdgeCouple (1 : K) (-1) = some I ∧
      ∀ r, rowSum v4 r = if crow = r then I else 0 := by
    unfold integrateElements
    by_cases hn : elemM = ""
    · simp [hn] at h4
      refine ⟨0, ?_, by simp [h4.2]⟩
      split <;> [skip; split] <;> simp [integrateSites, hn]
    · simp only [hn, not_false_eq_true, decide_true, if_true] at h4
      unfold circuitElementAssemble at h4
      split at h4
      · rename_i hd
        simp only [hd, if_true]
        exact circuitSite_loads_total h4 hrow hn
      · rename_i hd
        simp only [hd, if_false]
        split at h4
        · rename_i hd
          simp only [hd, if_true]
          exact circuitSite_loads_total h4 hrow hn
        · rename_i hd
          simp only [hd, if_false]
          simp at h4
          exact ⟨0, rfl, by simp [h4.2]⟩
  obtain ⟨Ia, ha, ha'⟩ := a
  obtain ⟨Ib, hb, hb'⟩ := b
  obtain ⟨Ic, hc, hc'⟩ := c
  refine ⟨Ia + Ib + Ic, by simp [contactTotal, ha, hb, hc], fun r => ?_⟩
  rw [rowSum_append, rowSum_append, ha', hb', hc']
  split <;> ring

end
end Verif.Assembly
