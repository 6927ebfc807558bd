import Verif.Assembly.Bulk
import Verif.Assembly.Contact

/-!
# Conservation: edge models move quantity from node to node, contacts collect exactly what leaves

`GoodSites`: the mesh is well formed – element edges join two different nodes of the region.
-/

namespace Verif.Assembly

/-- Element edges join two different nodes of the region. -/
def GoodSites (g : Topo) (sites : List Site) : Prop :=
  ∀ s ∈ sites, s.n0 < g.numNodes ∧ s.n1 < g.numNodes ∧ s.n0 ≠ s.n1

theorem Topo.num_inj {g : Topo} {eq a b : Nat} (h : g.num eq a = g.num eq b) : a = b := by
  simp only [Topo.num] at h; omega

section
variable {K : Type} [CommRing K]

theorem cell_eq_matVec (m : List (MEntry K)) (r c : Nat) :
    cell m r c = matVec m (fun x => if x = c then 1 else 0) r := by
  simp only [cell, matVec]
  congr 1
  refine List.map_congr_left fun e _ => ?_
  by_cases h1 : e.1 = r <;> by_cases h2 : e.2.1 = c <;> simp [h1, h2]

theorem sum_ite_num (g : Topo) (eq n : Nat) (a : K) (l : List Nat) (hl : l.Nodup) :
    (l.map fun c => if g.num eq n = g.num eq c then a else 0).sum = if n ∈ l then a else 0 := by
  induction l with
  | nil => simp
  | cons x xs ih =>
    rw [List.nodup_cons] at hl
    simp only [List.map_cons, List.sum_cons, ih hl.2, List.mem_cons]
    by_cases h : n = x
    · subst h; simp [hl.1]
    · have : g.num eq n ≠ g.num eq x := fun h' => h (Topo.num_inj h')
      simp [this, h]

theorem sum_weight (g : Topo) (eq : Nat) (n0s n1s : K) (s : Site) (l : List Nat) (hl : l.Nodup) :
    (l.map fun c => weight g eq n0s n1s (g.num eq c) s).sum =
      (if s.n0 ∈ l then n0s else 0) + (if s.n1 ∈ l then n1s else 0) := by
  simp only [weight, List.sum_map_add, sum_ite_num g eq _ _ l hl]

/-- The sum of the residuals of an equation over a set of nodes, for an edge model. -/
theorem sum_rowSum_couple {g : Topo} {sh : Shape} {tbl : String → Option (Nat → K)}
    {name model couple : String} {n0s n1s : K} {m : List (MEntry K)} {v : List (VEntry K)} {eq : Nat}
    (h : coupleAssemble g sh tbl name model couple n0s n1s .matrixAndRhs = some (m, v))
    (he : g.eqIndex name = some eq) (l : List Nat) (hl : l.Nodup) :
    (l.map fun n => rowSum v (g.num eq n)).sum = (sh.sites.map fun s =>
      ((if s.n0 ∈ l then n0s else 0) + (if s.n1 ∈ l then n1s else 0)) *
        (val (tbl couple) s.idx * val (tbl model) s.idx)).sum := by
  obtain ⟨eq', he', hv, -⟩ := coupleAssemble_spec h
  rw [he] at he'; cases he'
  simp only [hv]
  rw [list_sum_comm]
  congr 1
  refine List.map_congr_left fun s _ => ?_
  rw [← sum_weight g eq n0s n1s s l hl, mul_comm, ← list_sum_mul_left]
  congr 1
  refine List.map_congr_left fun c _ => ?_
  ring

theorem sum_cell_couple {g : Topo} {sh : Shape} {tbl : String → Option (Nat → K)}
    {name model couple : String} {n0s n1s : K} {m : List (MEntry K)} {v : List (VEntry K)} {eq : Nat}
    (h : coupleAssemble g sh tbl name model couple n0s n1s .matrixAndRhs = some (m, v))
    (he : g.eqIndex name = some eq) (l : List Nat) (hl : l.Nodup) (c : Nat) :
    (l.map fun n => cell m (g.num eq n) c).sum = (sh.sites.map fun s =>
      ((if s.n0 ∈ l then n0s else 0) + (if s.n1 ∈ l then n1s else 0)) *
        (val (tbl couple) s.idx * siteDeriv g sh tbl (fun x => if x = c then 1 else 0) model s)).sum := by
  obtain ⟨eq', he', -, hm⟩ := coupleAssemble_spec h
  rw [he] at he'; cases he'
  simp only [cell_eq_matVec, hm]
  rw [list_sum_comm]
  congr 1
  refine List.map_congr_left fun s _ => ?_
  rw [← sum_weight g eq n0s n1s s l hl, mul_comm, ← list_sum_mul_left]
  congr 1
  refine List.map_congr_left fun c _ => ?_
  ring

/-- **C26** Whatever the model values, an edge model (on edges, triangle edges or tetrahedron edges) assembled
with the signs `1, -1` only moves quantity between nodes: its contributions to the residuals of the equation
add up to zero over the nodes of the region, and so does every column of the matrix. -/
theorem couple_conserves {g : Topo} {sh : Shape} {tbl : String → Option (Nat → K)}
    {name model couple : String} {m : List (MEntry K)} {v : List (VEntry K)} {eq : Nat}
    (hs : GoodSites g sh.sites)
    (h : coupleAssemble g sh tbl name model couple 1 (-1) .matrixAndRhs = some (m, v))
    (he : g.eqIndex name = some eq) :
    ((List.range g.numNodes).map fun n => rowSum v (g.num eq n)).sum = 0 ∧
    ∀ c, ((List.range g.numNodes).map fun n => cell m (g.num eq n) c).sum = 0 := by
  refine ⟨?_, fun c => ?_⟩
  · rw [sum_rowSum_couple h he _ List.nodup_range]
    apply List.sum_eq_zero
    intro x hx
    obtain ⟨s, hs', rfl⟩ := List.mem_map.1 hx
    obtain ⟨h0, h1, -⟩ := hs s hs'
    simp [h0, h1]
  · rw [sum_cell_couple h he _ List.nodup_range]
    apply List.sum_eq_zero
    intro x hx
    obtain ⟨s, hs', rfl⟩ := List.mem_map.1 hx
    obtain ⟨h0, h1, -⟩ := hs s hs'
    simp [h0, h1]

/-- **C26**, edge models of an equation. -/
theorem edge_conserves {g : Topo} {T : Tables K} {name model : String} {m : List (MEntry K)}
    {v : List (VEntry K)} {eq : Nat} (hs : GoodSites g g.edgeSites)
    (h : edgeCoupleAssemble g T name model .matrixAndRhs = some (m, v)) (he : g.eqIndex name = some eq) :
    ((List.range g.numNodes).map fun n => rowSum v (g.num eq n)).sum = 0 ∧
    ∀ c, ((List.range g.numNodes).map fun n => cell m (g.num eq n) c).sum = 0 :=
  couple_conserves (sh := edgeShape g) hs h he

/-- **C26**, element models of an equation (dimension 2 and 3). -/
theorem element_conserves {g : Topo} {T : Tables K} {name model : String} {m : List (MEntry K)}
    {v : List (VEntry K)} {eq : Nat} (hs : GoodSites g g.triSites) (hs3 : GoodSites g g.tetSites)
    (h : elementEdgeCoupleAssemble g T name model .matrixAndRhs = some (m, v))
    (he : g.eqIndex name = some eq) :
    ((List.range g.numNodes).map fun n => rowSum v (g.num eq n)).sum = 0 ∧
    ∀ c, ((List.range g.numNodes).map fun n => cell m (g.num eq n) c).sum = 0 := by
  unfold elementEdgeCoupleAssemble at h
  split at h
  · exact couple_conserves (sh := triShape g) hs h he
  · split at h
    · exact couple_conserves (sh := tetShape g) hs3 h he
    · simp only [Option.some.injEq, Prod.mk.injEq] at h
      obtain ⟨rfl, rfl⟩ := h
      simp [cell]

/-! ## Contact currents -/

theorem sum_filter_map {α : Type} (l : List α) (p : α → Bool) (f : α → K) :
    ((l.filter p).map f).sum = (l.map fun a => if p a then f a else 0).sum := by
  induction l with
  | nil => simp
  | cons a as ih =>
    by_cases h : p a = true
    · simp [h, ih]
    · simp [h, ih]

theorem sum_ite_mem (n : Nat) (a : K) (l : List Nat) (hl : l.Nodup) :
    (l.map fun c => if n = c then a else 0).sum = if n ∈ l then a else 0 := by
  have := sum_ite_num ⟨0,0,0,[],[],[],[],fun _ => "",fun _ => none,"","","","","","",""⟩ 0 n a l hl
  simpa [Topo.num] using this

theorem sum_nodeFlux [DecidableEq K] {g : Topo} (sites : List Site) (hs : GoodSites g sites)
    (active : List Nat) (ha : active.Nodup) (flux : Nat → K) :
    (active.map fun c => nodeFlux sites active flux 1 (-1) c).sum =
      (sites.map fun s => ((if s.n0 ∈ active then (1 : K) else 0) + (if s.n1 ∈ active then -1 else 0)) *
        flux s.idx).sum := by
  simp only [nodeFlux, sitesAt, sum_filter_map]
  rw [list_sum_comm]
  congr 1
  refine List.map_congr_left fun s hs' => ?_
  obtain ⟨-, -, hne⟩ := hs s hs'
  by_cases hb : bothOn active s (1 : K) (-1) = true
  · have hb' := hb
    simp only [bothOn, Bool.and_eq_true, List.contains_iff_mem] at hb'
    simp [hb, hb'.1.2, hb'.2]
  · have hb2 : bothOn active s (1 : K) (-1) = false := by simpa using hb
    have hh : ∀ c, (if (s.n0 == c || s.n1 == c) = true then
        if (!bothOn active s (1 : K) (-1)) = true then headOrTail s c 1 (-1) * flux s.idx else 0 else 0) =
        (if s.n0 = c then flux s.idx else 0) + (if s.n1 = c then - flux s.idx else 0) := by
      intro c
      simp only [hb2, headOrTail]
      by_cases h0 : s.n0 = c
      · have h1 : s.n1 ≠ c := fun h => hne (h0.trans h.symm)
        simp [h0, h1]
      · by_cases h1 : s.n1 = c <;> simp [h0, h1]
    simp only [hh, List.sum_map_add, sum_ite_mem _ _ _ ha]
    split <;> split <;> simp

/-- **C38** The current (or charge) of a contact that comes from an edge or element edge model is exactly the
sum, over the nodes of the contact, of what the same model puts into the bulk equation of these nodes: nothing
that flows into the contact is lost or counted twice. -/
theorem contact_current_is_bulk_flux [DecidableEq K] {g : Topo} {sh : Shape}
    {tbl : String → Option (Nat → K)} {name model couple : String} {m : List (MEntry K)}
    {v : List (VEntry K)} {eq : Nat} {active : List Nat}
    (hs : GoodSites g sh.sites) (ha : active.Nodup) (hne : model ≠ "")
    (h : coupleAssemble g sh tbl name model couple 1 (-1) .matrixAndRhs = some (m, v))
    (he : g.eqIndex name = some eq) :
    integrateSites sh tbl active model couple 1 (-1) =
      some ((active.map fun n => rowSum v (g.num eq n)).sum) := by
  rw [sum_rowSum_couple h he _ ha]
  unfold coupleAssemble at h
  simp only [What.doRhs, What.doMat, if_true, Option.bind_eq_bind, Option.bind_eq_some_iff,
    Option.pure_def, Option.some.injEq, Prod.mk.injEq] at h
  obtain ⟨ef, hef, ec, hec, -⟩ := h
  unfold integrateSites
  rw [if_neg hne]
  simp only [hef, hec, Option.bind_eq_bind, Option.bind_some, Option.pure_def, Option.some.injEq, val]
  exact sum_nodeFlux _ hs _ ha _

/-- **C38, Kirchhoff's law for a device.** Let the contacts' nodes be disjoint. The contact currents and the
flux residuals at all nodes which are on no contact add up to zero. -/
theorem device_currents_balance [DecidableEq K] {g : Topo} {sh : Shape}
    {tbl : String → Option (Nat → K)} {name model couple : String} {m : List (MEntry K)}
    {v : List (VEntry K)} {eq : Nat} (contacts : List (List Nat))
    (hs : GoodSites g sh.sites) (hne : model ≠ "")
    (hdis : contacts.flatten.Nodup) (hin : ∀ n ∈ contacts.flatten, n < g.numNodes)
    (h : coupleAssemble g sh tbl name model couple 1 (-1) .matrixAndRhs = some (m, v))
    (he : g.eqIndex name = some eq) :
    (contacts.map fun active =>
        (integrateSites sh tbl active model couple 1 (-1)).getD 0).sum +
      (((List.range g.numNodes).filter fun n => ¬ n ∈ contacts.flatten).map fun n =>
        rowSum v (g.num eq n)).sum = 0 := by
  have h1 : (contacts.map fun active =>
      (integrateSites sh tbl active model couple 1 (-1)).getD 0) =
      contacts.map fun active => (active.map fun n => rowSum v (g.num eq n)).sum := by
    refine List.map_congr_left fun active hact => ?_
    rw [contact_current_is_bulk_flux hs ((List.nodup_flatten.1 hdis).1 active hact) hne h he]
    rfl
  have h2 : ∀ F : Nat → K, (contacts.map fun active => (active.map F).sum).sum =
      (contacts.flatten.map F).sum := by
    intro F
    induction contacts with
    | nil => rfl
    | cons a as ih =>
      have hd : as.flatten.Nodup := by
        rw [List.flatten_cons] at hdis
        exact (List.nodup_append.1 hdis).2.1
      have := ih hd (fun n hn => hin n (by simp only [List.flatten_cons, List.mem_append]; exact Or.inr hn))
        (by
          refine List.map_congr_left fun active hact => ?_
          rw [contact_current_is_bulk_flux hs ((List.nodup_flatten.1 hd).1 active hact) hne h he]
          rfl)
      simp [this]
  rw [h1, h2]
  have hp : (List.range g.numNodes).Perm
      (contacts.flatten ++ (List.range g.numNodes).filter fun n => ¬ n ∈ contacts.flatten) := by
    apply (List.perm_ext_iff_of_nodup List.nodup_range _).2
    · intro a
      simp only [List.mem_range, List.mem_append, List.mem_filter, decide_eq_true_eq]
      constructor
      · intro ha
        by_cases hm : a ∈ contacts.flatten
        · exact Or.inl hm
        · exact Or.inr ⟨ha, hm⟩
      · rintro (ha | ha)
        · exact hin a ha
        · exact ha.1
    · refine List.nodup_append.2 ⟨hdis, List.Nodup.filter _ List.nodup_range, ?_⟩
      intro a ha b hb
      rw [List.mem_filter] at hb
      rintro rfl
      simp only [decide_eq_true_eq] at hb
      exact hb.2 ha
  have := (couple_conserves hs h he).1
  rw [(hp.map _).sum_eq, List.map_append, List.sum_append] at this
  exact this

end
end Verif.Assembly
