import Verif.Assembly.Residual

/-!
# Residuals of contact and interface equations, of whole regions, and the load modes (C40, C41)
-/

namespace Verif.Assembly

section
variable {K : Type} [CommRing K]

/-! ## Contact equations -/

/-- the models of the interior part of a contact equation, as those of an equation -/
def ContactSpec.interior (e : ContactSpec) : EqSpec :=
  ⟨e.name, e.nodeModel, e.edgeModel, e.edgeVolumeModel, e.elementModel, e.volumeNode0Model, e.volumeNode1Model, ""⟩

theorem sum_pick (g : Topo) (eq n : Nat) (l : List Nat) (hl : l.Nodup) (hn : n ∈ l) (f : Nat → K) :
    (l.map fun c => if g.num eq c = g.num eq n then f c else 0).sum = f n := by
  have h : ∀ x, g.num eq x = g.num eq n ↔ x = n := fun x => ⟨Topo.num_inj, fun h => by rw [h]⟩
  simp only [h]
  induction l with
  | nil => simp at hn
  | cons a as ih =>
    rw [List.nodup_cons] at hl
    rw [List.map_cons, List.sum_cons]
    rcases List.mem_cons.1 hn with rfl | h'
    · have : (as.map fun c => if c = n then f c else 0).sum = 0 := by
        apply List.sum_eq_zero
        intro x hx
        obtain ⟨c, hc, rfl⟩ := List.mem_map.1 hx
        have : c ≠ n := fun h => hl.1 (h ▸ hc)
        simp [this]
      rw [this]; simp
    · have : a ≠ n := fun h => hl.1 (h ▸ h')
      rw [ih hl.2 h']; simp [this]

/-- the sites at `n` with their sign, or all sites with their incidence -/
theorem sitesAt_sum (g : Topo) (sites : List Site) (hg : GoodSites g sites) (n : Nat) (a b : K) (q : Nat → K) :
    ((sitesAt sites n).map fun s => headOrTail s n a b * q s.idx).sum =
      (sites.map fun s => inc (s.n0, s.n1) n a b * q s.idx).sum := by
  induction sites with
  | nil => rfl
  | cons s ss ih =>
    have ih := ih (fun s' hs' => hg s' (List.mem_cons_of_mem _ hs'))
    have hne := (hg s List.mem_cons_self).2.2
    simp only [sitesAt] at ih ⊢
    rw [List.filter_cons, List.map_cons (f := fun s => inc _ _ _ _ * _), List.sum_cons, ← ih]
    by_cases h0 : s.n0 = n
    · have h1 : s.n1 ≠ n := fun h => hne (h0.trans h.symm)
      simp [h0, h1, headOrTail, inc]
    · by_cases h1 : s.n1 = n
      · simp [h0, h1, headOrTail, inc]
      · simp [h0, h1, inc]

theorem assembles_contactSite {g : Topo} {sh : Shape} {tbl : String → Option (Nat → K)}
    {circ : String → Option (Option Nat)} {active : List Nat} {name cnode model couple : String} {a b : K} {w : What}
    (hw : w.doRhs = true) (hg : GoodSites g sh.sites) (hl : active.Nodup) :
    Assembles g name active (contactSiteAssemble g sh tbl circ active name cnode model couple a b w) (fun n =>
      (sh.sites.map fun s => inc (s.n0, s.n1) n a b * (val (tbl couple) s.idx * val (tbl model) s.idx)).sum) := by
  intro m v h eq heq
  unfold contactSiteAssemble at h
  have key : ∃ em ec, tbl model = some em ∧ tbl couple = some ec ∧ contactSiteRHS g eq sh.sites active (times ec em) a b = v := by
    rw [heq] at h
    cases hdm : w.doMat <;>
      simp only [hw, hdm, if_true, Bool.false_eq_true, if_false, Option.bind_eq_bind, Option.bind_eq_some_iff, Option.pure_def,
        Option.some.injEq, Prod.mk.injEq, Option.map_eq_some_iff] at h <;>
      obtain ⟨eq', rfl, ec, hec, cc, hcc, v', ⟨em, hem, hv'⟩, _, _, _, rfl⟩ := h <;>
      exact ⟨em, ec, hem, hec, hv'⟩
  obtain ⟨em, ec, hem, hec, rfl⟩ := key
  constructor
  · intro n hn
    rw [rowSum_contactSiteRHS]
    have : ∀ c, ((sitesAt sh.sites c).map fun s => cw g eq a b (g.num eq n) c s * times ec em s.idx).sum =
        if g.num eq c = g.num eq n then ((sitesAt sh.sites c).map fun s => headOrTail s c a b * times ec em s.idx).sum else 0 := by
      intro c
      unfold cw
      by_cases h : g.num eq c = g.num eq n
      · simp [h]
      · simp [h]
    simp only [this]
    rw [sum_pick g eq n active hl hn (fun c => ((sitesAt sh.sites c).map fun s => headOrTail s c a b * times ec em s.idx).sum),
      sitesAt_sum g sh.sites hg]
    simp only [times, hem, hec, val]
  · intro x hx
    rw [contactSiteRHS, List.mem_flatMap] at hx
    obtain ⟨c, hc, hx⟩ := hx
    rw [List.mem_flatMap] at hx
    obtain ⟨s, hs, hx⟩ := hx
    split at hx
    · rename_i h0
      simp only [List.mem_singleton] at hx
      subst hx
      exact ⟨c, hc, by rw [h0]⟩
    · split at hx
      · rename_i h1
        simp only [List.mem_singleton] at hx
        subst hx
        exact ⟨c, hc, by rw [h1]⟩
      · simp at hx

theorem assembles_contactNode {g : Topo} {T : Tables K} {circ : String → Option (Option Nat)} {active : List Nat}
    {name cnode model : String} {w : What} (hw : w.doRhs = true) (hl : active.Nodup) :
    Assembles g name active (contactNodeAssemble g T circ active name cnode model w)
      (fun n => val (T.node g.nodeVolume) n * val (T.node model) n) := by
  intro m v h eq heq
  unfold contactNodeAssemble at h
  have key : ∃ nm nv, T.node model = some nm ∧ T.node g.nodeVolume = some nv ∧
      (active.map fun c => (g.num eq c, nv c * nm c)) = v := by
    rw [heq] at h
    cases hdm : w.doMat <;>
      simp only [hw, hdm, if_true, Bool.false_eq_true, if_false, Option.bind_eq_bind, Option.bind_eq_some_iff, Option.pure_def,
        Option.some.injEq, Prod.mk.injEq, Option.map_eq_some_iff] at h <;>
      obtain ⟨eq', rfl, ec, hec, cc, hcc, v', ⟨em, hem, hv'⟩, _, _, _, rfl⟩ := h <;>
      exact ⟨em, ec, hem, hec, hv'⟩
  obtain ⟨nm, nv, hnm, hnv, rfl⟩ := key
  constructor
  · intro n hn
    rw [rowSum, List.map_map]
    have := sum_pick g eq n active hl hn (fun c => nv c * nm c)
    simp only [Function.comp_def]
    rw [this, hnm, hnv]
    rfl
  · intro x hx
    obtain ⟨c, hc, rfl⟩ := List.mem_map.1 hx
    exact ⟨c, hc, rfl⟩

theorem assembles_contactEdge {g : Topo} {T : Tables K} {circ : String → Option (Option Nat)} {active : List Nat}
    {name cnode model couple : String} {a b : K} {w : What} (hw : w.doRhs = true) (hg : GoodMesh g) (hl : active.Nodup) :
    Assembles g name active (contactSiteAssemble g (edgeShape g) T.edge circ active name cnode model couple a b w)
      (overEdges g a b (fun i => val (T.edge couple) i * val (T.edge model) i)) :=
  (assembles_contactSite (sh := edgeShape g) hw hg.edges hl).congr fun n =>
    edgeSites_sum g a b (fun i => val (T.edge couple) i * val (T.edge model) i) n

theorem assembles_contactElement {g : Topo} {T : Tables K} {circ : String → Option (Option Nat)} {active : List Nat}
    {name cnode model couple : String} {a b : K} {w : What} (hw : w.doRhs = true) (hg : GoodMesh g) (hl : active.Nodup) :
    Assembles g name active (contactElementAssemble g T circ active name cnode model couple a b w)
      (overElements g T a b couple model) := by
  unfold overElements contactElementAssemble
  by_cases h2 : g.dim = 2
  · simp only [h2, if_true]
    exact (assembles_contactSite (sh := triShape g) hw hg.tris hl).congr fun n =>
      triSites_sum g a b (fun i => val (T.tri couple) i * val (T.tri model) i) n
  · by_cases h3 : g.dim = 3
    · simp only [h3, if_true, show ¬ (3 = 2) by decide, if_false]
      exact (assembles_contactSite (sh := tetShape g) hw hg.tets hl).congr fun n =>
        tetSites_sum g a b (fun i => val (T.tet couple) i * val (T.tet model) i) n
    · simp only [h2, h3, if_false]
      exact Assembles.none'

/-- **C40 (contacts)**: the interior part of a contact equation assembles, at its active nodes and in no other row, the finite
volume residual of the models given in the `contact_equation` command. -/
theorem contact_residual {g : Topo} {T : Tables K} {circ : String → Option (Option Nat)} {active : List Nat} {e : ContactSpec}
    {w : What} {m : List (MEntry K)} {v : List (VEntry K)} {eq : Nat} (hw : w.doRhs = true) (hg : GoodMesh g) (hl : active.Nodup)
    (heq : g.eqIndex e.name = some eq) (h : contactInterior g T circ active e w = some (m, v)) :
    (∀ n ∈ active, rowSum v (g.num eq n) = bulkResidual g T e.interior .dc n) ∧ (∀ x ∈ v, ∃ n ∈ active, x.1 = g.num eq n) := by
  suffices hh : Assembles g e.name active (contactInterior g T circ active e w) (bulkResidual g T e.interior .dc) from hh m v h eq heq
  have hE : Assembles g e.name active
      (if g.edgeNode0Volume = g.edgeNode1Volume then
        contactSiteAssemble g (edgeShape g) T.edge circ active e.name e.cnode e.edgeVolumeModel g.edgeNode0Volume 1 1 w
       else andThen
        (contactSiteAssemble g (edgeShape g) T.edge circ active e.name e.cnode e.edgeVolumeModel g.edgeNode0Volume 1 0 w)
        (contactSiteAssemble g (edgeShape g) T.edge circ active e.name e.cnode e.edgeVolumeModel g.edgeNode1Volume 0 1 w))
      (fun n => overEdges g 1 0 (fun i => val (T.edge g.edgeNode0Volume) i * val (T.edge e.edgeVolumeModel) i) n +
        overEdges g 0 1 (fun i => val (T.edge g.edgeNode1Volume) i * val (T.edge e.edgeVolumeModel) i) n) := by
    split
    · rename_i h
      refine (assembles_contactEdge hw hg hl).congr fun n => ?_
      rw [← h, overEdges_add]
    · exact Assembles.both (assembles_contactEdge hw hg hl) (assembles_contactEdge hw hg hl)
  have hV : Assembles g e.name active
      (if g.elementNode0Volume = g.elementNode1Volume ∧ e.volumeNode0Model = e.volumeNode1Model then
        contactElementAssemble g T circ active e.name e.cnode e.volumeNode0Model g.elementNode0Volume 1 1 w
       else andThen (contactElementAssemble g T circ active e.name e.cnode e.volumeNode0Model g.elementNode0Volume 1 0 w)
        (contactElementAssemble g T circ active e.name e.cnode e.volumeNode1Model g.elementNode1Volume 0 1 w))
      (fun n => overElements g T 1 0 g.elementNode0Volume e.volumeNode0Model n +
        overElements g T 0 1 g.elementNode1Volume e.volumeNode1Model n) := by
    split
    · rename_i h
      refine (assembles_contactElement hw hg hl).congr fun n => ?_
      rw [← h.1, ← h.2, overElements_add]
    · exact Assembles.both (assembles_contactElement hw hg hl) (assembles_contactElement hw hg hl)
  simp only [contactInterior]
  refine (Assembles.both (Assembles.cond fun _ => assembles_contactNode hw hl)
    (Assembles.both (Assembles.cond fun _ => assembles_contactEdge hw hg hl)
    (Assembles.both (Assembles.cond fun _ => hE)
    (Assembles.both (Assembles.cond fun _ => assembles_contactElement hw hg hl)
      (Assembles.cond fun _ => hV))))).congr fun n => ?_
  have h1 : (decide (e.volumeNode0Model ≠ "") || decide (e.volumeNode1Model ≠ "")) = true ↔
      ¬ (e.volumeNode0Model = "" ∧ e.volumeNode1Model = "") := by
    simp only [Bool.or_eq_true, decide_eq_true_eq]; tauto
  have hr : bulkResidual g T e.interior .dc n =
    (if e.edgeModel = "" then 0
      else overEdges g 1 (-1) (fun i => val (T.edge g.edgeCouple) i * val (T.edge e.edgeModel) i) n) +
    (if e.edgeVolumeModel = "" then 0
      else overEdges g 1 0 (fun i => val (T.edge g.edgeNode0Volume) i * val (T.edge e.edgeVolumeModel) i) n +
        overEdges g 0 1 (fun i => val (T.edge g.edgeNode1Volume) i * val (T.edge e.edgeVolumeModel) i) n) +
    (if e.nodeModel = "" then 0 else val (T.node g.nodeVolume) n * val (T.node e.nodeModel) n) +
    (if e.elementModel = "" then 0 else overElements g T 1 (-1) g.elementEdgeCouple e.elementModel n) +
    (if e.volumeNode0Model = "" ∧ e.volumeNode1Model = "" then 0
      else overElements g T 1 0 g.elementNode0Volume e.volumeNode0Model n +
        overElements g T 0 1 g.elementNode1Volume e.volumeNode1Model n) := rfl
  rw [hr]
  simp only [h1, decide_eq_true_eq, ne_eq, ite_not]
  split_ifs <;> ring

/-! ## Whole regions -/

/-- **C40 (regions)**: for a region with any number of equations with different indices, the row of equation `e` at node `n`
receives exactly the residual of `e`. -/
theorem region_residual_partial {g : Topo} {T : Tables K} {w : What} {t : TimeMode} (hw : w.doRhs = true) (hg : GoodMesh g)
    (es : List EqSpec) {m : List (MEntry K)} {v : List (VEntry K)} (h : regionAssemble g T es w t = some (m, v))
    (hv : ∀ e ∈ es, e.edgeModel = "" → e.edgeVolumeModel = "")
    (hidx : ∀ e ∈ es, (g.eqIndex e.name).isSome)
    (hdist : es.Pairwise fun e e' => g.eqIndex e.name ≠ g.eqIndex e'.name) :
    (∀ e ∈ es, ∀ eq, g.eqIndex e.name = some eq → ∀ n, n < g.numNodes → rowSum v (g.num eq n) = bulkResidual g T e t n) ∧
    (∀ x ∈ v, ∃ e ∈ es, ∃ eq, g.eqIndex e.name = some eq ∧ ∃ n, n < g.numNodes ∧ x.1 = g.num eq n) := by
  induction es generalizing m v with
  | nil =>
    simp only [regionAssemble, List.foldr_nil, Option.some.injEq, Prod.mk.injEq] at h
    obtain ⟨-, rfl⟩ := h
    exact ⟨fun e he => by simp at he, fun x hx => by simp at hx⟩
  | cons e es ih =>
    rw [regionAssemble, List.foldr_cons] at h
    cases h1 : exprAssemble g T e w t with
    | none => simp [h1, andThen] at h
    | some p =>
      obtain ⟨m1, v1⟩ := p
      cases h2 : es.foldr (fun e acc => andThen (exprAssemble g T e w t) acc) (some ([], [])) with
      | none => rw [h1, h2] at h; simp [andThen] at h
      | some p =>
        obtain ⟨m2, v2⟩ := p
        rw [h1, h2] at h
        simp only [andThen, Option.some.injEq, Prod.mk.injEq] at h
        obtain ⟨rfl, rfl⟩ := h
        rw [List.pairwise_cons] at hdist
        obtain ⟨ih1, ih2⟩ := ih h2 (fun e' h' => hv e' (List.mem_cons_of_mem _ h')) (fun e' h' => hidx e' (List.mem_cons_of_mem _ h'))
          hdist.2
        obtain ⟨eq0, heq0⟩ := Option.isSome_iff_exists.1 (hidx e List.mem_cons_self)
        obtain ⟨r1, r2⟩ := bulk_residual_partial hw hg (hv e List.mem_cons_self) heq0 h1
        have zero : ∀ (v : List (VEntry K)) (r : Nat), (∀ x ∈ v, x.1 ≠ r) → rowSum v r = 0 := by
          intro v r hx
          apply List.sum_eq_zero
          intro y hy
          obtain ⟨x, hx', rfl⟩ := List.mem_map.1 hy
          simp [hx x hx']
        have inj : ∀ a b i j, i < g.numNodes → j < g.numNodes → g.num a i = g.num b j → a = b := by
          intro a b i j hi hj hab
          simp only [Topo.num, Nat.add_assoc, Nat.add_left_cancel_iff] at hab
          have e1 : (a * g.numNodes + i) / g.numNodes = a := by
            rw [Nat.mul_comm, Nat.mul_add_div (by omega), Nat.div_eq_of_lt hi]; rfl
          have e2 : (b * g.numNodes + j) / g.numNodes = b := by
            rw [Nat.mul_comm, Nat.mul_add_div (by omega), Nat.div_eq_of_lt hj]; rfl
          rw [← e1, hab, e2]
        constructor
        · intro e' he' eq heq n hn
          rw [rowSum_append]
          rcases List.mem_cons.1 he' with rfl | h'
          · rw [heq0] at heq; cases heq
            rw [r1 n hn, zero v2, add_zero]
            intro x hx hxr
            obtain ⟨e2, he2, eq2, heq2, i, hi, hxi⟩ := ih2 x hx
            have := inj _ _ _ _ hi hn (hxi.symm.trans hxr)
            exact hdist.1 e2 he2 (by rw [heq0, heq2, this])
          · rw [ih1 e' h' eq heq n hn, zero v1, zero_add]
            intro x hx hxr
            obtain ⟨i, hi, hxi⟩ := r2 x hx
            have := inj _ _ _ _ hi hn (hxi.symm.trans hxr)
            exact hdist.1 e' h' (by rw [heq0, heq, this])
        · intro x hx
          rcases List.mem_append.1 hx with h | h
          · obtain ⟨i, hi, hxi⟩ := r2 x h
            exact ⟨e, List.mem_cons_self, eq0, heq0, i, hi, hxi⟩
          · obtain ⟨e2, he2, q⟩ := ih2 x h
            exact ⟨e2, List.mem_cons_of_mem _ he2, q⟩

/-! ## Interface equations -/

/-- **C40 (interfaces)**: what an interface equation with value `f i` at pair `i` adds to the row of region 1 and of region 0.
Continuous: `f` in region 1. Flux: `f` times surface area in region 0 and minus that in region 1. Hybrid: minus `f` times area in
region 1. -/
theorem iface_residual {g0 g1 : Topo} {t : IfaceType} {itbl : String → Option (Nat → K)} {s0 s1 : Option (Nat → K)}
    {pairs : List (Nat × Nat × Nat)} {name0 name1 model : String} {w : What} {m : List (MEntry K)} {v : List (VEntry K)}
    {eq0 eq1 : Nat} (hw : w.doRhs = true) (h0 : g0.eqIndex name0 = some eq0) (h1 : g1.eqIndex name1 = some eq1)
    (h : ifaceAssemble g0 g1 t itbl s0 s1 pairs name0 name1 model w = some (m, v)) (r : Nat) :
    rowSum v r = (pairs.map fun q =>
      let f := val (itbl model) q.1
      let at0 := if r = g0.num eq0 q.2.1 then 1 else 0
      let at1 := if r = g1.num eq1 q.2.2 then 1 else 0
      match t with
      | .continuous => at1 * f
      | .fluxterm => at0 * (f * val s0 q.2.1) - at1 * (f * val s1 q.2.2)
      | .hybrid => - (at1 * (f * val s1 q.2.2))).sum := by
  unfold ifaceAssemble at h
  rw [h0, h1] at h
  have key : ∃ f sa, itbl model = some f ∧ ifaceAreas t s0 s1 = some sa ∧
      (pairs.flatMap fun q => (ifaceRows g0 g1 t eq0 eq1 sa.1 sa.2 q.2.1 q.2.2).map fun (row, a) => (row, f q.1 * a)) = v := by
    cases hdm : w.doMat <;>
      simp only [hw, hdm, if_true, Bool.false_eq_true, if_false, Option.bind_eq_bind, Option.bind_some, Option.bind_eq_some_iff,
        Option.pure_def, Option.some.injEq, Prod.mk.injEq] at h
    · obtain ⟨f, hf, sa, hsa, -, rfl⟩ := h
      exact ⟨f, sa, hf, hsa, rfl⟩
    · obtain ⟨f, hf, sa, hsa, m0, hm0, m1, hm1, -, rfl⟩ := h
      exact ⟨f, sa, hf, hsa, rfl⟩
  obtain ⟨f, sa, hf, hsa, rfl⟩ := key
  rw [rowSum_flatMap]
  congr 1
  refine List.map_congr_left fun q _ => ?_
  have flip : ∀ a : Nat, (r = a) = (a = r) := fun a => propext eq_comm
  cases t with
  | continuous => simp [ifaceRows, hf, val, flip]
  | fluxterm =>
    simp only [ifaceAreas] at hsa
    split at hsa
    · rename_i a b
      simp only [Option.some.injEq] at hsa
      subst hsa
      simp only [ifaceRows, List.map_cons, List.map_nil, rowSum, List.sum_cons, List.sum_nil, hf, val, flip]
      split <;> split <;> ring
    · simp at hsa
  | hybrid =>
    simp only [ifaceAreas] at hsa
    split at hsa
    · rename_i a b
      simp only [Option.some.injEq] at hsa
      subst hsa
      simp only [ifaceRows, List.map_cons, List.map_nil, rowSum, List.sum_cons, List.sum_nil, hf, val, flip]
      split <;> ring
    · simp at hsa

/-! ## Load modes -/

/-- the result of loading only the right hand side, only the matrix, and both, fit together -/
def ModesAgree (A : What → Option (List (MEntry K) × List (VEntry K))) : Prop :=
  ∀ m v, A .matrixAndRhs = some (m, v) → A .rhs = some ([], v) ∧ A .matrixOnly = some (m, [])

theorem ModesAgree.both {A B : What → Option (List (MEntry K) × List (VEntry K))} (ha : ModesAgree A) (hb : ModesAgree B) :
    ModesAgree (fun w => andThen (A w) (B w)) := by
  intro m v h
  cases hA : A .matrixAndRhs with
  | none => simp [hA, andThen] at h
  | some p =>
    cases hB : B .matrixAndRhs with
    | none => simp [hA, hB, andThen] at h
    | some p' =>
      obtain ⟨m1, v1⟩ := p
      obtain ⟨m2, v2⟩ := p'
      simp only [hA, hB, andThen, Option.some.injEq, Prod.mk.injEq] at h
      obtain ⟨rfl, rfl⟩ := h
      obtain ⟨a1, a2⟩ := ha _ _ hA
      obtain ⟨b1, b2⟩ := hb _ _ hB
      dsimp only
      rw [a1, a2, b1, b2]
      exact ⟨rfl, rfl⟩

theorem ModesAgree.cond {A : What → Option (List (MEntry K) × List (VEntry K))} (c : Bool) (ha : ModesAgree A) :
    ModesAgree (fun w => whenA c (A w)) := by
  cases c with
  | true => exact ha
  | false => intro m v h; simp [whenA] at h ⊢; exact ⟨h.2, h.1⟩

theorem ModesAgree.none' : ModesAgree (fun _ => some (([] : List (MEntry K)), ([] : List (VEntry K)))) := by
  intro m v h; simp at h ⊢; exact ⟨h.2, h.1⟩

theorem modes_couple {g : Topo} {sh : Shape} {tbl : String → Option (Nat → K)} {name model couple : String} {a b : K} :
    ModesAgree (coupleAssemble g sh tbl name model couple a b) := by
  intro m v h
  simp only [coupleAssemble, What.doRhs, What.doMat, if_true, Bool.false_eq_true, if_false, Option.bind_eq_bind,
    Option.bind_eq_some_iff, Option.pure_def, Option.some.injEq, Prod.mk.injEq] at h ⊢
  obtain ⟨ef, hef, ec, hec, v', hv', m', hm', rfl, rfl⟩ := h
  exact ⟨⟨ef, hef, ec, hec, v', hv', [], rfl, rfl, rfl⟩, ⟨ef, hef, ec, hec, [], rfl, m', hm', rfl, rfl⟩⟩

theorem modes_node {g : Topo} {T : Tables K} {name model : String} : ModesAgree (nodeVolumeAssemble g T name model) := by
  intro m v h
  simp only [nodeVolumeAssemble, What.doRhs, What.doMat, if_true, Bool.false_eq_true, if_false, Option.bind_eq_bind,
    Option.bind_eq_some_iff, Option.pure_def, Option.some.injEq, Prod.mk.injEq] at h ⊢
  obtain ⟨ef, hef, ec, hec, v', hv', m', hm', rfl, rfl⟩ := h
  exact ⟨⟨ef, hef, ec, hec, v', hv', [], rfl, rfl, rfl⟩, ⟨ef, hef, ec, hec, [], rfl, m', hm', rfl, rfl⟩⟩

theorem modes_ite {A B : What → Option (List (MEntry K) × List (VEntry K))} (c : Prop) [Decidable c] (ha : ModesAgree A)
    (hb : ModesAgree B) : ModesAgree (fun w => if c then A w else B w) := by
  by_cases h : c
  · simpa only [h, if_true] using ha
  · simpa only [h, if_false] using hb

/-- **C41 (bulk)**: assembling only the right hand side, or only the matrix, gives the same entries as assembling both. -/
theorem bulk_modes_agree (g : Topo) (T : Tables K) (e : EqSpec) (t : TimeMode) : ModesAgree (fun w => exprAssemble g T e w t) := by
  cases t with
  | time => exact (modes_node).cond _
  | dc =>
    refine .both (.cond _ (.both modes_couple (.cond _ ?_))) (.both (.cond _ modes_node) (.both (.cond _ ?_) (.cond _ ?_)))
    · exact modes_ite _ modes_couple (.both modes_couple modes_couple)
    · exact modes_ite _ modes_couple (modes_ite _ modes_couple .none')
    · refine modes_ite _ ?_ (modes_ite _ ?_ .none')
      · exact modes_ite _ modes_couple (.both modes_couple modes_couple)
      · exact modes_ite _ modes_couple (.both modes_couple modes_couple)

theorem modes_contactSite {g : Topo} {sh : Shape} {tbl : String → Option (Nat → K)} {circ : String → Option (Option Nat)}
    {active : List Nat} {name cnode model couple : String} {a b : K} :
    ModesAgree (contactSiteAssemble g sh tbl circ active name cnode model couple a b) := by
  intro m v h
  simp only [contactSiteAssemble, What.doRhs, What.doMat, if_true, Bool.false_eq_true, if_false, Option.bind_eq_bind,
    Option.bind_eq_some_iff, Option.pure_def, Option.some.injEq, Prod.mk.injEq] at h ⊢
  obtain ⟨eq, heq, ec, hec, cc, hcc, v', hv', m', hm', rfl, rfl⟩ := h
  exact ⟨⟨eq, heq, ec, hec, cc, hcc, v', hv', [], rfl, rfl, rfl⟩, ⟨eq, heq, ec, hec, cc, hcc, [], rfl, m', hm', rfl, rfl⟩⟩

theorem modes_contactNode {g : Topo} {T : Tables K} {circ : String → Option (Option Nat)} {active : List Nat}
    {name cnode model : String} : ModesAgree (contactNodeAssemble g T circ active name cnode model) := by
  intro m v h
  simp only [contactNodeAssemble, What.doRhs, What.doMat, if_true, Bool.false_eq_true, if_false, Option.bind_eq_bind,
    Option.bind_eq_some_iff, Option.pure_def, Option.some.injEq, Prod.mk.injEq] at h ⊢
  obtain ⟨eq, heq, ec, hec, cc, hcc, v', hv', m', hm', rfl, rfl⟩ := h
  exact ⟨⟨eq, heq, ec, hec, cc, hcc, v', hv', [], rfl, rfl, rfl⟩, ⟨eq, heq, ec, hec, cc, hcc, [], rfl, m', hm', rfl, rfl⟩⟩

variable [DecidableEq K]

theorem modes_circuitSite {g : Topo} {sh : Shape} {inLoop : Bool} {tbl : String → Option (Nat → K)}
    {circ : String → Option (Option Nat)} {active : List Nat} {cnode model couple : String} {a b : K} :
    ModesAgree (circuitSiteAssemble g sh inLoop tbl circ active cnode model couple a b) := by
  intro m v h
  unfold circuitSiteAssemble at h ⊢
  cases hc : circ cnode with
  | none => simp [hc] at h
  | some o =>
    cases o with
    | none => simp [hc] at h ⊢; exact ⟨h.2, h.1⟩
    | some crow =>
      simp only [hc, What.doRhs, What.doMat, if_true, Bool.false_eq_true, if_false, Option.bind_eq_bind,
        Option.bind_eq_some_iff, Option.pure_def, Option.some.injEq, Prod.mk.injEq, Bool.true_and, Bool.false_and] at h ⊢
      obtain ⟨ec, hec, v', hv', m', hm', rfl, rfl⟩ := h
      exact ⟨⟨ec, hec, v', hv', [], rfl, rfl, rfl⟩, ⟨ec, hec, [], rfl, m', hm', rfl, rfl⟩⟩

theorem modes_circuitNode {g : Topo} {T : Tables K} {circ : String → Option (Option Nat)} {active : List Nat}
    {cnode model : String} : ModesAgree (circuitNodeAssemble g T circ active cnode model) := by
  intro m v h
  unfold circuitNodeAssemble at h ⊢
  cases hc : circ cnode with
  | none => simp [hc] at h
  | some o =>
    cases o with
    | none => simp [hc] at h ⊢; exact ⟨h.2, h.1⟩
    | some crow =>
      simp only [hc, What.doRhs, What.doMat, if_true, Bool.false_eq_true, if_false, Option.bind_eq_bind,
        Option.bind_eq_some_iff, Option.pure_def, Option.some.injEq, Prod.mk.injEq] at h ⊢
      obtain ⟨ec, hec, v', hv', m', hm', rfl, rfl⟩ := h
      exact ⟨⟨ec, hec, v', hv', [], rfl, rfl, rfl⟩, ⟨ec, hec, [], rfl, m', hm', rfl, rfl⟩⟩

theorem modes_contactCircuit {g : Topo} {T : Tables K} {circ : String → Option (Option Nat)} {active : List Nat}
    {cnode nodeM edgeM elemM : String} : ModesAgree (contactCircuit g T circ active cnode nodeM edgeM elemM) :=
  .cond _ (.both (.cond _ modes_circuitNode) (.both (.cond _ modes_circuitSite)
    (.cond _ (modes_ite _ modes_circuitSite (modes_ite _ modes_circuitSite .none')))))

/-- **C41 (contacts)**. -/
theorem contact_modes_agree (g : Topo) (T : Tables K) (circ : String → Option (Option Nat)) (active : List Nat)
    (e : ContactSpec) (t : TimeMode) : ModesAgree (fun w => contactAssemble g T circ active e w t) := by
  have elem : ∀ (model couple : String) (a b : K),
      ModesAgree (contactElementAssemble g T circ active e.name e.cnode model couple a b) :=
    fun model couple a b => modes_ite _ modes_contactSite (modes_ite _ modes_contactSite .none')
  cases t with
  | time => exact modes_contactCircuit
  | dc =>
    refine .both (.both (.cond _ modes_contactNode) (.both (.cond _ modes_contactSite) (.both (.cond _ ?_)
      (.both (.cond _ (elem _ _ _ _)) (.cond _ ?_))))) modes_contactCircuit
    · exact modes_ite _ modes_contactSite (.both modes_contactSite modes_contactSite)
    · exact modes_ite _ (elem _ _ _ _) (.both (elem _ _ _ _) (elem _ _ _ _))

/-- **C41 (interfaces)**. -/
theorem iface_modes_agree (g0 g1 : Topo) (t : IfaceType) (itbl : String → Option (Nat → K))
    (s0 s1 : Option (Nat → K)) (pairs : List (Nat × Nat × Nat)) (name0 name1 model : String) :
    ModesAgree (ifaceAssemble g0 g1 t itbl s0 s1 pairs name0 name1 model) := by
  intro m v h
  simp only [ifaceAssemble, What.doRhs, What.doMat, if_true, Bool.false_eq_true, if_false, Option.bind_eq_bind,
    Option.bind_eq_some_iff, Option.pure_def, Option.some.injEq, Prod.mk.injEq] at h ⊢
  obtain ⟨eq0, h0, eq1, h1, f, hf, sa, hsa, m0, hm0, m1, hm1, rfl, rfl⟩ := h
  exact ⟨⟨eq0, h0, eq1, h1, f, hf, sa, hsa, [], rfl, [], rfl, rfl, rfl⟩,
    ⟨eq0, h0, eq1, h1, f, hf, sa, hsa, m0, hm0, m1, hm1, rfl, trivial⟩⟩

end

/-! ## Instances, and the case that fails -/

/-- a triangle: three nodes, one element -/
def exTri : Topo where
  numNodes := 3
  dim := 2
  base := 4
  edges := [(1, 2), (0, 2), (0, 1)]
  tris := [([(1, 2), (0, 2), (0, 1)], [0, 1, 2])]
  tets := []
  vars := ["u"]
  eqOfVar := fun _ => "E"
  eqIndex := fun n => if n = "E" then some 1 else none
  nodeVolume := "NV"
  edgeCouple := "EC"
  edgeNode0Volume := "V0"
  edgeNode1Volume := "V1"
  elementEdgeCouple := "EEC"
  elementNode0Volume := "EV"
  elementNode1Volume := "EV"

def exTriT : Tables Int where
  node := fun n => if n = "NV" then some fun i => i + 1 else if n = "N" then some fun i => i else none
  edge := fun n => if n = "EC" then some fun _ => 1 else if n = "F" then some fun i => i + 5
    else if n = "V0" then some fun _ => 2 else if n = "V1" then some fun _ => 3 else if n = "G" then some fun i => i else none
  tri := fun n => if n = "EEC" then some fun _ => 1 else if n = "J" then some fun i => 10 * i
    else if n = "EV" then some fun _ => 1 else none
  tet := fun _ => none

theorem exTri_good : GoodMesh exTri := by
  constructor <;> intro s hs <;>
    simp [Topo.edgeSites, Topo.triSites, Topo.tetSites, exTri] at hs
  · rcases hs with rfl | rfl | rfl <;> decide
  · rcases hs with rfl | rfl | rfl <;> decide

/-- all kinds of terms together: the assembly succeeds, and the residual at node 1 is `1*5 - 7 + ...` -/
example : ∃ m v, exprAssemble exTri exTriT ⟨"E", "N", "F", "G", "J", "J", "J", ""⟩ .rhs .dc = some (m, v) ∧
    rowSum v (exTri.num 1 1) = bulkResidual exTri exTriT ⟨"E", "N", "F", "G", "J", "J", "J", ""⟩ .dc 1 ∧
    rowSum v (exTri.num 1 1) = -(7 : Int) + 5 + (0 * 2 + 2 * 3) + 2 * 1 + (0 - 20) + (0 + 20) := by
  refine ⟨_, _, rfl, ?_, ?_⟩
  · exact (bulk_residual_partial (w := .rhs) (m := []) (eq := 1) rfl exTri_good (by intro h; exact absurd h (by decide)) rfl rfl).1 1 (by decide)
  · decide

/-- a contact on the triangle -/
example : ∃ m v, contactInterior exTri exTriT (fun _ => none) [0, 2] ⟨"E", "", "N", "F", "G", "J", "", "", "", "", "", "", "", ""⟩ .rhs
    = some (m, v) ∧ rowSum v (exTri.num 1 0) ≠ 0 ∧
    rowSum v (exTri.num 1 0) = bulkResidual exTri exTriT ⟨"E", "N", "F", "G", "J", "", "", ""⟩ .dc 0 := by
  refine ⟨_, _, rfl, by decide, ?_⟩
  exact (contact_residual (e := ⟨"E", "", "N", "F", "G", "J", "", "", "", "", "", "", "", ""⟩) (w := .rhs) (m := []) (circ := fun _ => none) (active := [0, 2])
    (eq := 1) rfl exTri_good (by decide) rfl rfl).1 0 (by decide)

/-- The full statement of C40 fails: an equation that is given only an edge volume model assembles nothing, although its residual
is not zero (`ExprEquation.cc` 49-57). -/
theorem edge_volume_ignored : exprAssemble exTri exTriT ⟨"E", "", "", "G", "", "", "", ""⟩ .matrixAndRhs .dc = some ([], []) ∧
    bulkResidual exTri exTriT ⟨"E", "", "", "G", "", "", "", ""⟩ .dc 1 = 6 := by
  constructor
  · rfl
  · decide

end Verif.Assembly
