import Verif.Assembly.Lemmas

/-!
# Bulk equations: the assembled matrix is the Jacobian of the assembled residual
-/

namespace Verif.Assembly

section
variable {K : Type} [CommRing K]

theorem zip_map_some_sum (l : List Nat) (ss : List String) (fs : List (Nat → K))
    (tb : String → Option (Nat → K)) (h : ss.map tb = fs.map some) (F : Nat → K → K) (ec : Nat → K) (i : Nat)
    (hF : ∀ o x, F o (x * ec i) = ec i * F o x) :
    ((l.zip (fs.map fun d => times d ec)).map fun (o, f) => F o (f i)).sum =
      ec i * ((l.zip ss).map fun (o, s) => F o (val (tb s) i)).sum := by
  induction l generalizing ss fs with
  | nil => simp
  | cons a as ih =>
    cases ss with
    | nil =>
      cases fs with
      | nil => simp
      | cons f fs => simp at h
    | cons s ss =>
      cases fs with
      | nil => simp at h
      | cons f fs =>
        simp only [List.map_cons, List.cons.injEq] at h
        have := ih ss fs h.2
        simp only [List.map_cons, List.zip_cons_cons, List.sum_cons, this, h.1, val, times, hF, mul_add]

/-- What a successful `coupleAssemble` has produced. -/
theorem coupleAssemble_spec {g : Topo} {sh : Shape} {tbl : String → Option (Nat → K)}
    {name model couple : String} {n0s n1s : K} {m : List (MEntry K)} {v : List (VEntry K)}
    (h : coupleAssemble g sh tbl name model couple n0s n1s .matrixAndRhs = some (m, v)) :
    ∃ eq, g.eqIndex name = some eq ∧
      (∀ r, rowSum v r = (sh.sites.map fun s =>
        (weight g eq n0s n1s r s * val (tbl couple) s.idx) * val (tbl model) s.idx).sum) ∧
      (∀ d r, matVec m d r = (sh.sites.map fun s =>
        (weight g eq n0s n1s r s * val (tbl couple) s.idx) * siteDeriv g sh tbl d model s).sum) := by
  unfold coupleAssemble at h
  simp only [What.doRhs, What.doMat, if_true, Option.bind_eq_bind, Option.bind_eq_some_iff,
    Option.pure_def, Option.some.injEq, Prod.mk.injEq] at h
  obtain ⟨ef, hef, ec, hec, v', hv', m', hm', rfl, rfl⟩ := h
  cases heq : g.eqIndex name with
  | none => simp [heq] at hv'
  | some eq =>
    simp only [heq, Option.map_some, Option.some.injEq] at hv'
    refine ⟨eq, rfl, ?_, ?_⟩
    · intro r
      rw [← hv', rowSum_siteRHS]
      congr 1
      refine List.map_congr_left fun s _ => ?_
      simp only [times, hec, hef, val]; ring
    · intro d r
      obtain ⟨h1, h2⟩ := collect_some hm'
      rw [h2, matVec_flatMap]
      have key : ∀ var ∈ g.vars,
          matVec ((coupleVar g sh tbl name model ec n0s n1s var).getD []) d r =
          (sh.sites.map fun s => (weight g eq n0s n1s r s * val (tbl couple) s.idx) *
            (val (tbl (derName model var ++ sh.s0)) s.idx * d (g.col var s.n0) +
             val (tbl (derName model var ++ sh.s1)) s.idx * d (g.col var s.n1) +
             ((s.opp.zip sh.sopp).map fun (o, sf) =>
               val (tbl (derName model var ++ sf)) s.idx * d (g.col var o)).sum)).sum := by
        intro var hvar
        obtain ⟨b, hb⟩ := h1 var hvar
        rw [hb]
        simp only [coupleVar, heq] at hb
        split at hb
        · rename_i hnone
          simp only [Option.some.injEq] at hb
          subst hb
          simp only [Bool.and_eq_true, Option.isNone_iff_eq_none, List.all_map, List.all_eq_true,
            Function.comp] at hnone
          obtain ⟨⟨hn0, hn1⟩, hno⟩ := hnone
          have : ∀ s : Site, ((s.opp.zip sh.sopp).map fun (o, sf) =>
               val (tbl (derName model var ++ sf)) s.idx * d (g.col var o)).sum = 0 := by
            intro s
            apply List.sum_eq_zero
            intro x hx
            simp only [List.mem_map] at hx
            obtain ⟨p, hp, rfl⟩ := hx
            have := hno p.2 (List.of_mem_zip (b := p.2) (a := p.1) hp).2
            simp [this, val]
          rw [Option.getD_some, matVec_nil]
          symm
          apply List.sum_eq_zero
          intro x hx
          obtain ⟨s, -, rfl⟩ := List.mem_map.1 hx
          rw [this s, hn0, hn1]
          simp [val]
        · split at hb
          · rename_i d0 d1 dopp hd0 hd1 hdo
            cases hev : g.eqIndex (g.eqOfVar var) with
            | none => simp [hev] at hb
            | some eqv =>
              simp only [hev, Option.some.injEq] at hb
              rw [Option.getD_some, ← hb, matVec_siteJacobian]
              congr 1
              refine List.map_congr_left fun s _ => ?_
              have hz := zip_map_some_sum s.opp sh.sopp dopp (fun sf => tbl (derName model var ++ sf))
                (allSome_eq hdo) (fun o x => x * d (g.num eqv o)) ec s.idx (by intros; ring)
              dsimp only at hz
              rw [hz]
              have hcol : ∀ i, g.col var i = g.num eqv i := by intro i; simp [Topo.col, hev]
              simp only [hcol, hd0, hd1, hec, val, times]
              ring
          · simp at hb
      have := List.map_congr_left key
      rw [this, list_sum_comm]
      congr 1
      refine List.map_congr_left fun s _ => ?_
      rw [siteDeriv, ← list_sum_mul_left]

end

/-- **C39 (bulk, edge/triangle/tetrahedron part)**. -/
theorem couple_jacobian (g : Topo) (sh : Shape) (tbl : ℝ → String → Option (Nat → ℝ))
    (name model couple : String) (n0s n1s t0 : ℝ) (d : Nat → ℝ)
    (hx : SiteExact g sh tbl t0 d model) (hc : Fixed tbl couple) :
    IsJacobianAlong
      (fun t => coupleAssemble g sh (tbl t) name model couple n0s n1s .matrixAndRhs) t0 d := by
  intro out hout r
  obtain ⟨eq, he, -, hm⟩ := coupleAssemble_spec (hout t0)
  have hv : ∀ t, rowSum (out t).2 r = (sh.sites.map fun s =>
      (weight g eq n0s n1s r s * val (tbl t0 couple) s.idx) * val (tbl t model) s.idx).sum := by
    intro t
    obtain ⟨eq', he', hv, -⟩ := coupleAssemble_spec (hout t)
    rw [he] at he'
    cases he'
    rw [hv]
    congr 1
    refine List.map_congr_left fun s _ => ?_
    rw [hc t t0]
  simp only [hv]
  rw [hm]
  exact hasDerivAt_list_sum _ (fun s t => _) _ _ fun s hs => (hx s hs).const_mul _

/-- What a successful `nodeVolumeAssemble` has produced. -/
theorem nodeVolumeAssemble_spec {g : Topo} {T : Tables ℝ} {name model : String}
    {m : List (MEntry ℝ)} {v : List (VEntry ℝ)}
    (h : nodeVolumeAssemble g T name model .matrixAndRhs = some (m, v)) :
    ∃ eq, g.eqIndex name = some eq ∧
      (∀ r, rowSum v r = ((List.range g.numNodes).map fun i =>
        ((if g.num eq i = r then 1 else 0) * val (T.node g.nodeVolume) i) * val (T.node model) i).sum) ∧
      (∀ d r, matVec m d r = ((List.range g.numNodes).map fun i =>
        ((if g.num eq i = r then 1 else 0) * val (T.node g.nodeVolume) i) *
          (g.vars.map fun var => val (T.node (derName model var)) i * d (g.col var i)).sum).sum) := by
  unfold nodeVolumeAssemble at h
  simp only [What.doRhs, What.doMat, if_true, Option.bind_eq_bind, Option.bind_eq_some_iff,
    Option.pure_def, Option.some.injEq, Prod.mk.injEq] at h
  obtain ⟨nm, hnm, nv, hnv, v', hv', m', hm', rfl, rfl⟩ := h
  cases heq : g.eqIndex name with
  | none => simp [heq] at hv'
  | some eq =>
    simp only [heq, Option.map_some, Option.some.injEq] at hv'
    refine ⟨eq, rfl, ?_, ?_⟩
    · intro r
      rw [← hv', nodeRHS, rowSum, List.map_map]
      congr 1
      refine List.map_congr_left fun s _ => ?_
      simp only [times, Function.comp, hnm, hnv, val]
      split <;> ring
    · intro d r
      obtain ⟨h1, h2⟩ := collect_some hm'
      rw [h2, matVec_flatMap]
      simp_rw [← list_sum_mul_left]
      rw [list_sum_comm]
      congr 1
      refine List.map_congr_left fun var hvar => ?_
      obtain ⟨b, hb⟩ := h1 var hvar
      rw [hb]
      simp only [nodeVar] at hb
      cases hd : T.node (derName model var) with
      | none =>
        simp [hd] at hb
        subst hb
        simp [val]
      | some nd =>
        cases hev : g.eqIndex (g.eqOfVar var) with
        | none => simp [hd, heq, hev] at hb
        | some eqv =>
          simp only [hd, heq, hev, Option.some.injEq] at hb
          rw [Option.getD_some, ← hb, nodeJacobian, matVec, List.map_map]
          congr 1
          refine List.map_congr_left fun i _ => ?_
          simp only [times, Function.comp, hnv, val, Topo.col, hev, Option.getD_some]
          split <;> ring

theorem nodeVolume_jacobian (g : Topo) (T : ℝ → Tables ℝ) (name model : String) (t0 : ℝ) (d : Nat → ℝ)
    (hx : NodeExact g (fun t => (T t).node) t0 d model) (hc : Fixed (fun t => (T t).node) g.nodeVolume) :
    IsJacobianAlong (fun t => nodeVolumeAssemble g (T t) name model .matrixAndRhs) t0 d := by
  intro out hout r
  obtain ⟨eq, he, -, hm⟩ := nodeVolumeAssemble_spec (hout t0)
  have hv : ∀ t, rowSum (out t).2 r = ((List.range g.numNodes).map fun i =>
        ((if g.num eq i = r then 1 else 0) * val ((T t0).node g.nodeVolume) i) *
          val ((T t).node model) i).sum := by
    intro t
    obtain ⟨eq', he', hv, -⟩ := nodeVolumeAssemble_spec (hout t)
    rw [he] at he'
    cases he'
    rw [hv]
    congr 1
    refine List.map_congr_left fun s _ => ?_
    rw [show val ((T t).node g.nodeVolume) s = val ((T t0).node g.nodeVolume) s from hc t t0 s]
  simp only [hv]
  rw [hm]
  exact hasDerivAt_list_sum _ (fun s t => _) _ _ fun s _ => (hx s).const_mul _

/-- The geometry models of the region do not move along the curve. -/
structure GeometryFixed (g : Topo) (T : ℝ → Tables ℝ) : Prop where
  node : Fixed (fun t => (T t).node) g.nodeVolume
  edge : Fixed (fun t => (T t).edge) g.edgeCouple
  edge0 : Fixed (fun t => (T t).edge) g.edgeNode0Volume
  edge1 : Fixed (fun t => (T t).edge) g.edgeNode1Volume
  tri : Fixed (fun t => (T t).tri) g.elementEdgeCouple
  tri0 : Fixed (fun t => (T t).tri) g.elementNode0Volume
  tri1 : Fixed (fun t => (T t).tri) g.elementNode1Volume
  tet : Fixed (fun t => (T t).tet) g.elementEdgeCouple
  tet0 : Fixed (fun t => (T t).tet) g.elementNode0Volume
  tet1 : Fixed (fun t => (T t).tet) g.elementNode1Volume

/-- All derivative models of the models named in an equation are right (only of those which are used). -/
structure EqExact (g : Topo) (T : ℝ → Tables ℝ) (t0 : ℝ) (d : Nat → ℝ) (e : EqSpec) : Prop where
  node : e.nodeModel ≠ "" → NodeExact g (fun t => (T t).node) t0 d e.nodeModel
  time : e.timeNodeModel ≠ "" → NodeExact g (fun t => (T t).node) t0 d e.timeNodeModel
  edge : e.edgeModel ≠ "" → SiteExact g (edgeShape g) (fun t => (T t).edge) t0 d e.edgeModel
  edgeVolume : e.edgeVolumeModel ≠ "" →
    SiteExact g (edgeShape g) (fun t => (T t).edge) t0 d e.edgeVolumeModel
  element2 : g.dim = 2 → e.elementModel ≠ "" →
    SiteExact g (triShape g) (fun t => (T t).tri) t0 d e.elementModel
  element3 : g.dim = 3 → e.elementModel ≠ "" →
    SiteExact g (tetShape g) (fun t => (T t).tet) t0 d e.elementModel
  volume2 : g.dim = 2 → (e.volumeNode0Model ≠ "" ∨ e.volumeNode1Model ≠ "") →
    SiteExact g (triShape g) (fun t => (T t).tri) t0 d e.volumeNode0Model ∧
    SiteExact g (triShape g) (fun t => (T t).tri) t0 d e.volumeNode1Model
  volume3 : g.dim = 3 → (e.volumeNode0Model ≠ "" ∨ e.volumeNode1Model ≠ "") →
    SiteExact g (tetShape g) (fun t => (T t).tet) t0 d e.volumeNode0Model ∧
    SiteExact g (tetShape g) (fun t => (T t).tet) t0 d e.volumeNode1Model

/-- **C39, bulk equations.** For every equation (any combination of node, edge, edge volume, element and
element volume models), in the static and in the time derivative assembly, in every dimension, the assembled
matrix is the Jacobian of the assembled residual along every curve of the unknowns, provided that the
derivative models are right. -/
theorem bulk_jacobian (g : Topo) (T : ℝ → Tables ℝ) (e : EqSpec) (tm : TimeMode) (t0 : ℝ) (d : Nat → ℝ)
    (hg : GeometryFixed g T) (hx : EqExact g T t0 d e) :
    IsJacobianAlong (fun t => exprAssemble g (T t) e .matrixAndRhs tm) t0 d := by
  cases tm with
  | time =>
    simp only [exprAssemble]
    refine .whenA fun h => nodeVolume_jacobian _ _ _ _ _ _ (hx.time (by simpa using h)) hg.node
  | dc =>
    simp only [exprAssemble]
    refine .andThen (.whenA fun h => .andThen ?_ (.whenA fun h2 => ?_))
      (.andThen (.whenA fun h => ?_) (.andThen (.whenA fun h => ?_) (.whenA fun h => ?_)))
    · exact couple_jacobian _ _ (fun t => (T t).edge) _ _ _ _ _ _ _ (hx.edge (by simpa using h)) hg.edge
    · have hx' := hx.edgeVolume (by simpa using h2)
      simp only [edgeNodeVolumeAssemble]
      split
      · exact couple_jacobian _ _ (fun t => (T t).edge) _ _ _ _ _ _ _ hx' hg.edge0
      · exact .andThen (couple_jacobian _ _ (fun t => (T t).edge) _ _ _ _ _ _ _ hx' hg.edge0)
          (couple_jacobian _ _ (fun t => (T t).edge) _ _ _ _ _ _ _ hx' hg.edge1)
    · exact nodeVolume_jacobian _ _ _ _ _ _ (hx.node (by simpa using h)) hg.node
    · simp only [elementEdgeCoupleAssemble]
      split
      · rename_i h2
        exact couple_jacobian _ _ (fun t => (T t).tri) _ _ _ _ _ _ _ (hx.element2 h2 (by simpa using h))
          hg.tri
      · split
        · rename_i h2
          exact couple_jacobian _ _ (fun t => (T t).tet) _ _ _ _ _ _ _
            (hx.element3 h2 (by simpa using h)) hg.tet
        · exact .empty _ _
    · have h' : e.volumeNode0Model ≠ "" ∨ e.volumeNode1Model ≠ "" := by simpa using h
      simp only [elementNodeVolumeAssemble]
      split
      · rename_i h2
        obtain ⟨hx0, hx1⟩ := hx.volume2 h2 h'
        split
        · exact couple_jacobian _ _ (fun t => (T t).tri) _ _ _ _ _ _ _ hx0 hg.tri0
        · exact .andThen (couple_jacobian _ _ (fun t => (T t).tri) _ _ _ _ _ _ _ hx0 hg.tri0)
            (couple_jacobian _ _ (fun t => (T t).tri) _ _ _ _ _ _ _ hx1 hg.tri1)
      · split
        · rename_i h2
          obtain ⟨hx0, hx1⟩ := hx.volume3 h2 h'
          split
          · exact couple_jacobian _ _ (fun t => (T t).tet) _ _ _ _ _ _ _ hx0 hg.tet0
          · exact .andThen (couple_jacobian _ _ (fun t => (T t).tet) _ _ _ _ _ _ _ hx0 hg.tet0)
              (couple_jacobian _ _ (fun t => (T t).tet) _ _ _ _ _ _ _ hx1 hg.tet1)
        · exact .empty _ _

/-- **C39 for a whole region**: all its equations together. -/
theorem region_jacobian (g : Topo) (T : ℝ → Tables ℝ) (es : List EqSpec) (tm : TimeMode) (t0 : ℝ)
    (d : Nat → ℝ) (hg : GeometryFixed g T) (hx : ∀ e ∈ es, EqExact g T t0 d e) :
    IsJacobianAlong (fun t => regionAssemble g (T t) es .matrixAndRhs tm) t0 d := by
  induction es with
  | nil => exact .empty _ _
  | cons e es ih =>
    simp only [regionAssemble, List.foldr_cons]
    exact .andThen (bulk_jacobian g T e tm t0 d hg (hx e (by simp)))
      (ih fun e' he => hx e' (by simp [he]))

end Verif.Assembly
