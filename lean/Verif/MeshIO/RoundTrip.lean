import Verif.MeshIO.Steps

/-!
# A device that is written and loaded again
-/

namespace Verif.MeshIO

variable {α : Type}

/-! ### Devices -/

/-- An element of a region with `N` nodes: `m` node indices in increasing order. -/
def IsElem (m N : Nat) (l : List Nat) : Prop := l.length = m ∧ l.Pairwise (· < ·) ∧ ∀ i ∈ l, i < N

/-- The models of one kind (nodes or edges) of a region: sorted by name; the built-in models are there;
data have one value for each node or edge. -/
structure ModelsOK (env : Env α) (r : Reg α) (k : MK) : Prop where
  sorted : SMap.Sorted (r.models k)
  builtins : ∀ n ∈ env.bnames r.dim k, (r.models k).has n = true
  only : ∀ e ∈ r.models k, e.2 = .builtin → e.1 ∈ env.bnames r.dim k
  size : ∀ n l, (n, Src.data l) ∈ r.models k → l.length = r.size k

/-- A region as every mesh loader makes it and the commands on models leave it. -/
structure RegOK (env : Env α) (nc dim : Nat) (r : Reg α) : Prop where
  dim : r.dim = dim
  dimElems : r.dim = if r.tets ≠ [] then 3 else if r.tris ≠ [] then 2 else 1
  nodes : r.nodes ≠ [] ∧ r.nodes.length ≤ nc ∧ ∀ i ∈ r.nodes, i < nc
  edges : r.edges ≠ [] ∧ r.edges.Pairwise (· < ·) ∧ ∀ e ∈ r.edges, IsElem 2 r.nodes.length e
  tris : (r.tets ≠ [] → r.tris ≠ []) ∧ r.tris.Pairwise (· < ·) ∧ ∀ e ∈ r.tris, IsElem 3 r.nodes.length e
  tets : r.tets.Pairwise (· < ·) ∧ ∀ e ∈ r.tets, IsElem 4 r.nodes.length e
  topo : env.topoOK r.dim r.nodes.length r.edges r.tris r.tets = true
  nm : ModelsOK env r .node
  em : ModelsOK env r .edge
  /-- `Region::AddNodeModel`, `AddEdgeModel` (`Region.cc:884-960`) -/
  disjoint : ∀ n, r.nm.has n = true → r.em.has n = false

/-- A device. -/
structure DevOK (env : Env α) (d : Dev α) : Prop where
  coords : d.coords ≠ []
  regions : d.regions ≠ [] ∧ SMap.Sorted d.regions
  reg : ∀ e ∈ d.regions, RegOK env d.coords.length d.dim e.2
  contacts : SMap.Sorted d.contacts
  con : ∀ e ∈ d.contacts, ∃ r, d.regions.get e.2.region = some r ∧ ∀ i ∈ e.2.nodes, i < r.nodes.length
  ifaces : SMap.Sorted d.ifaces
  ifc : ∀ e ∈ d.ifaces, e.2.nodes0.length = e.2.nodes1.length ∧
    (∃ r, d.regions.get e.2.region0 = some r ∧ ∀ i ∈ e.2.nodes0, i < r.nodes.length) ∧
    (∃ r, d.regions.get e.2.region1 = some r ∧ ∀ i ∈ e.2.nodes1, i < r.nodes.length)

/-! ### What is loaded -/

/-- A number after it was written and read. -/
def rho (env : Env α) (F : Fmt α) (x : α) : α := env.atof (F.fmt x)

/-- A model after it was written and read: built-in models are computed again, the others are data. -/
def repModels (env : Env α) (F : Fmt α) (d : Dev α) (rn : Text) (r : Reg α) (k : MK) : SMap Text (Src α) :=
  (r.models k).map fun e => (e.1, if e.1 ∈ env.bnames r.dim k then .builtin
    else .data ((srcVals F d rn r k e.1 e.2).map (rho env F)))

/-- A region after it was written and read. -/
def repReg (env : Env α) (F : Fmt α) (d : Dev α) (rn : Text) (r : Reg α) : Reg α :=
  { r with nm := repModels env F d rn r .node, em := repModels env F d rn r .edge,
           tm := builtins env r.dim .tri, um := builtins env r.dim .tet }

/-- A device after it was written and read: elements of contacts and interfaces are not written. -/
def rep (env : Env α) (F : Fmt α) (d : Dev α) : Dev α :=
  { dim := d.dim
    coords := d.coords.map fun c => (rho env F c.1, rho env F c.2.1, rho env F c.2.2)
    regions := d.regions.map fun e => (e.1, repReg env F d e.1 e.2)
    contacts := d.contacts.map fun e => (e.1, { e.2 with edges := [], tris := [] })
    ifaces := d.ifaces.map fun e => (e.1, { e.2 with edges0 := [], edges1 := [], tris0 := [], tris1 := [] }) }

/-! ### The models of a region -/

/-- What a solution adds to the models of a kind. -/
def solSrc (k : MK) (s : Sol α) : Option (Src α) := if s.kind = k then some (.data s.vals) else none

theorem addSols_spec (env : Env α) (l : SMap Text (Sol α)) : ∀ (r : Reg α),
    SMap.Sorted r.nm → SMap.Sorted r.em → (l.map Prod.fst).Nodup →
    (∀ e ∈ l, ∃ k vals, e.2 = dSol k vals ∧ (k = .node ∨ k = .edge) ∧
      ((r.models k).has e.1 = true ∨ vals.length = r.size k)) →
    ∃ nm em, addSols env r l = (true, { r with nm := nm, em := em }) ∧ SMap.Sorted nm ∧ SMap.Sorted em ∧
      (∀ x, SMap.get nm x = (SMap.get r.nm x).or ((SMap.get l x).bind (solSrc .node))) ∧
      (∀ x, SMap.get em x = (SMap.get r.em x).or ((SMap.get l x).bind (solSrc .edge))) := by
  induction l with
  | nil =>
    intro r h1 h2 _ _
    exact ⟨r.nm, r.em, rfl, h1, h2, by simp [SMap.get], by simp [SMap.get]⟩
  | cons e l ih =>
    obtain ⟨n, s⟩ := e
    intro r h1 h2 hnd hl
    simp only [List.map_cons, List.nodup_cons] at hnd
    obtain ⟨k, vals, hs, hk, hv⟩ := hl (n, s) (by simp)
    simp only at hs hv
    subst hs
    have hln : SMap.get l n = none := by
      rw [SMap.get_none_iff, ← Bool.not_eq_true, SMap.has_iff]
      rintro ⟨v, hv⟩
      exact hnd.1 (List.mem_map.2 ⟨(n, v), hv, rfl⟩)
    by_cases hh : (r.models k).has n = true
    · obtain ⟨nm, em, h3, h4, h5, h6, h7⟩ := ih r h1 h2 hnd.2 fun e he => hl e (by simp [he])
      have ha : addSol env r n (dSol k vals) = (true, r) := by
        have : (r.models (dSol k vals).kind).has n = true := hh
        simp only [addSol, this, if_true]
      refine ⟨nm, em, ?_, h4, h5, ?_, ?_⟩
      · simp only [addSols, ha, h3, Bool.and_self]
      · intro x
        rw [h6, SMap.get_cons]
        by_cases hx : n = x
        · subst hx
          rw [if_pos rfl, hln]
          rcases hk with rfl | rfl
          · have : (SMap.get r.nm n).isSome = true := by rw [SMap.get_isSome]; exact hh
            obtain ⟨v, hv⟩ := Option.isSome_iff_exists.1 this
            simp [hv]
          · simp [solSrc, dSol]
        · rw [if_neg hx]
      · intro x
        rw [h7, SMap.get_cons]
        by_cases hx : n = x
        · subst hx
          rw [if_pos rfl, hln]
          rcases hk with rfl | rfl
          · simp [solSrc, dSol]
          · have : (SMap.get r.em n).isSome = true := by rw [SMap.get_isSome]; exact hh
            obtain ⟨v, hv⟩ := Option.isSome_iff_exists.1 this
            simp [hv]
        · rw [if_neg hx]
    · have hlen : vals.length = r.size k := hv.resolve_left hh
      have hf : (r.models k).has n = false := by simpa using hh
      have ha : addSol env r n (dSol k vals) = (true, r.setModel k n (.data vals)) := by
        have : (r.models (dSol k vals).kind).has n = false := hf
        have h' : (dSol k vals).vals.length = r.size (dSol k vals).kind := hlen
        simp only [addSol, this, Bool.false_eq_true, if_false]
        exact if_pos h'
      have hsz : ∀ k', (r.setModel k n (.data vals)).size k' = r.size k' := by
        intro k'; rcases hk with rfl | rfl <;> cases k' <;> rfl
      have hmono : ∀ k' x, (k' = .node ∨ k' = .edge) → (r.models k').has x = true →
          ((r.setModel k n (.data vals)).models k').has x = true := by
        intro k' x hk' h
        rcases hk with rfl | rfl <;> rcases hk' with rfl | rfl <;>
          simp only [Reg.setModel, Reg.models] at h ⊢ <;>
          first
          | exact h
          | (rw [SMap.has_put, h, Bool.or_true])
      obtain ⟨nm, em, h3, h4, h5, h6, h7⟩ := ih (r.setModel k n (.data vals))
        (by rcases hk with rfl | rfl
            · exact SMap.put_sorted h1 _ _
            · exact h1)
        (by rcases hk with rfl | rfl
            · exact h2
            · exact SMap.put_sorted h2 _ _) hnd.2
        (fun e he => by
          obtain ⟨k', v', e1, e2, e3⟩ := hl e (by simp [he])
          refine ⟨k', v', e1, e2, ?_⟩
          rw [hsz]
          exact e3.imp (hmono k' e.1 e2) id)
      refine ⟨nm, em, ?_, h4, h5, ?_, ?_⟩
      · simp only [addSols, ha, h3, Bool.and_self]
        rcases hk with rfl | rfl <;> rfl
      · intro x
        rw [h6, SMap.get_cons]
        rcases hk with rfl | rfl
        · simp only [Reg.setModel]
          rw [SMap.get_put]
          by_cases hx : n = x
          · subst hx
            have : SMap.get r.nm n = none := SMap.get_none_iff.2 hf
            rw [if_pos rfl, if_pos rfl, this]
            simp [solSrc, dSol]
          · rw [if_neg hx, if_neg (Ne.symm hx)]
        · simp only [Reg.setModel]
          by_cases hx : n = x
          · subst hx
            rw [if_pos rfl, hln]
            simp [solSrc, dSol]
          · rw [if_neg hx]
      · intro x
        rw [h7, SMap.get_cons]
        rcases hk with rfl | rfl
        · simp only [Reg.setModel]
          by_cases hx : n = x
          · subst hx
            rw [if_pos rfl, hln]
            simp [solSrc, dSol]
          · rw [if_neg hx]
        · simp only [Reg.setModel]
          rw [SMap.get_put]
          by_cases hx : n = x
          · subst hx
            have : SMap.get r.em n = none := SMap.get_none_iff.2 hf
            rw [if_pos rfl, if_pos rfl, this]
            simp [solSrc, dSol]
          · rw [if_neg hx, if_neg (Ne.symm hx)]

theorem putSols_sorted (k : MK) (ρ : α → α) (l : List (Text × List α)) {m : SMap Text (Sol α)}
    (h : SMap.Sorted m) : SMap.Sorted (putSols k ρ m l) := by
  induction l generalizing m with
  | nil => exact h
  | cons e l ih => exact ih (SMap.put_sorted h _ _)

theorem putSols_get (k : MK) (ρ : α → α) (l : SMap Text (List α)) (hl : SMap.Sorted l)
    (m : SMap Text (Sol α)) (x : Text) :
    SMap.get (putSols k ρ m l) x = ((SMap.get l x).map fun v => dSol k (v.map ρ)).or (SMap.get m x) := by
  induction l generalizing m with
  | nil => simp [putSols, SMap.get]
  | cons e l ih =>
    obtain ⟨n, v⟩ := e
    obtain ⟨h1, h2⟩ := List.pairwise_cons.mp hl
    have := ih h2 (SMap.put m n (dSol k (v.map ρ)))
    simp only [putSols, List.foldl_cons] at this ⊢
    rw [this, SMap.get_cons, SMap.get_put]
    by_cases hx : n = x
    · subst hx
      rw [SMap.get_none_of_lt h1]
      simp
    · rw [if_neg hx, if_neg (Ne.symm hx)]

theorem putSols_mem (k : MK) (ρ : α → α) (l : List (Text × List α)) {m : SMap Text (Sol α)} {e : Text × Sol α}
    (h : e ∈ putSols k ρ m l) : (∃ v, (e.1, v) ∈ l ∧ e.2 = dSol k (v.map ρ)) ∨ e ∈ m := by
  induction l generalizing m with
  | nil => exact .inr h
  | cons a l ih =>
    rcases ih h with ⟨v, h1, h2⟩ | h
    · exact .inl ⟨v, by simp [h1], h2⟩
    · rcases SMap.mem_put h with rfl | h
      · exact .inl ⟨a.2, by simp, rfl⟩
      · exact .inr h

/-- The models of a region that is read: those that were written. -/
theorem addSols_mreg (env : Env α) (F : Fmt α) (d : Dev α) (rn : Text) (r : Reg α) {nc dim : Nat}
    (h : RegOK env nc dim r) :
    addSols env (Reg.defaults env { r with nm := [], em := [], tm := [], um := [] }) (mreg env F d rn r).sols =
      (true, repReg env F d rn r) := by
  have sv : ∀ k, (k = .node ∨ k = .edge) → ModelsOK env r k → SMap.Sorted (modelVals F d rn r k) := by
    intro k _ hk
    exact SMap.sorted_map (fun n s => srcVals F d rn r k n s) hk.sorted
  have gv : ∀ k x, SMap.get (modelVals F d rn r k) x = (SMap.get (r.models k) x).map (srcVals F d rn r k x) :=
    fun k x => SMap.get_map (fun n s => srcVals F d rn r k n s) (r.models k) x
  have hsrt : SMap.Sorted (mreg env F d rn r).sols :=
    putSols_sorted _ _ _ (putSols_sorted _ _ _ List.Pairwise.nil)
  have hlen : ∀ k, (k = .node ∨ k = .edge) → ModelsOK env r k → ∀ n v, (n, v) ∈ modelVals F d rn r k →
      (builtins env r.dim k).has n = true ∨ v.length = r.size k := by
    intro k hk hm n v hv
    simp only [modelVals, List.mem_map, Prod.mk.injEq] at hv
    obtain ⟨⟨a, s⟩, h1, rfl, rfl⟩ := hv
    cases s with
    | builtin =>
      left
      rw [← SMap.get_isSome, builtins, SMap.get_foldl_const, if_pos (hm.only _ h1 rfl)]
      rfl
    | unif x => right; simp [srcVals]
    | data l => right; exact hm.size a l h1
  obtain ⟨nm, em, h3, h4, h5, h6, h7⟩ := addSols_spec env (mreg env F d rn r).sols
    (Reg.defaults env { r with nm := [], em := [], tm := [], um := [] })
    (SMap.sorted_foldl_const _ _ List.Pairwise.nil) (SMap.sorted_foldl_const _ _ List.Pairwise.nil)
    (SMap.keys_nodup hsrt)
    (fun e he => by
      rcases putSols_mem _ _ _ he with ⟨v, h1, h2⟩ | h1
      · refine ⟨.edge, _, h2, .inr rfl, ?_⟩
        rw [List.length_map]
        exact hlen .edge (.inr rfl) h.em e.1 v h1
      · rcases putSols_mem _ _ _ h1 with ⟨v, h1, h2⟩ | h1
        · refine ⟨.node, _, h2, .inl rfl, ?_⟩
          rw [List.length_map]
          exact hlen .node (.inl rfl) h.nm e.1 v h1
        · simp at h1)
  have hsol : ∀ x, SMap.get (mreg env F d rn r).sols x =
      ((SMap.get r.em x).map fun s => dSol .edge ((srcVals F d rn r .edge x s).map (rho env F))).or
        ((SMap.get r.nm x).map fun s => dSol .node ((srcVals F d rn r .node x s).map (rho env F))) := by
    intro x
    unfold mreg
    simp only
    rw [putSols_get _ _ _ (sv .edge (.inr rfl) h.em), putSols_get _ _ _ (sv .node (.inl rfl) h.nm), gv, gv]
    simp only [Option.map_map]
    simp only [Reg.models, SMap.get, List.find?_nil, Option.map_none, Option.or_none]
    rfl
  have hb : ∀ k x, SMap.get (builtins env r.dim k) x = if x ∈ env.bnames r.dim k then some .builtin else none := by
    intro k x
    rw [builtins, SMap.get_foldl_const]
    by_cases hx : x ∈ env.bnames r.dim k
    · rw [if_pos hx, if_pos hx]
    · rw [if_neg hx, if_neg hx]; rfl
  rw [h3]
  have en : nm = repModels env F d rn r .node := by
    refine SMap.ext h4 (SMap.sorted_map (fun n s => if n ∈ env.bnames r.dim .node then Src.builtin
      else .data ((srcVals F d rn r .node n s).map (rho env F))) h.nm.sorted) fun x => ?_
    rw [h6, hsol]
    unfold repModels
    rw [SMap.get_map (fun n s => if n ∈ env.bnames r.dim .node then Src.builtin
      else .data ((srcVals F d rn r .node n s).map (rho env F)))]
    simp only [Reg.defaults]
    rw [hb]
    by_cases hx : x ∈ env.bnames r.dim .node
    · have : (SMap.get r.nm x).isSome = true := by rw [SMap.get_isSome]; exact h.nm.builtins x hx
      obtain ⟨v, hv⟩ := Option.isSome_iff_exists.1 this
      simp [hx, Reg.models, hv]
    · simp only [hx, if_false, Option.none_or, Reg.models]
      cases hv : SMap.get r.nm x with
      | none =>
        cases hw : SMap.get r.em x with
        | none => simp
        | some w => simp [solSrc, dSol]
      | some v =>
        have h1 : r.nm.has x = true := by rw [← SMap.get_isSome, hv]; rfl
        have h2 : SMap.get r.em x = none := SMap.get_none_iff.2 (h.disjoint x h1)
        simp [h2, solSrc, dSol]
  have ee : em = repModels env F d rn r .edge := by
    refine SMap.ext h5 (SMap.sorted_map (fun n s => if n ∈ env.bnames r.dim .edge then Src.builtin
      else .data ((srcVals F d rn r .edge n s).map (rho env F))) h.em.sorted) fun x => ?_
    rw [h7, hsol]
    unfold repModels
    rw [SMap.get_map (fun n s => if n ∈ env.bnames r.dim .edge then Src.builtin
      else .data ((srcVals F d rn r .edge n s).map (rho env F)))]
    simp only [Reg.defaults]
    rw [hb]
    by_cases hx : x ∈ env.bnames r.dim .edge
    · have : (SMap.get r.em x).isSome = true := by rw [SMap.get_isSome]; exact h.em.builtins x hx
      obtain ⟨v, hv⟩ := Option.isSome_iff_exists.1 this
      simp [hx, Reg.models, hv]
    · simp only [hx, if_false, Option.none_or, Reg.models]
      cases hv : SMap.get r.em x with
      | none =>
        cases hw : SMap.get r.nm x with
        | none => simp
        | some w => simp [solSrc, dSol]
      | some v => simp [solSrc, dSol]
  subst en ee
  rfl

/-! ### The mesh is accepted -/

/-- A region without models. -/
def bare (r : Reg α) : Reg α := { r with nm := [], em := [], tm := [], um := [] }

section
variable {env : Env α} {F : Fmt α} {d : Dev α} {rn : Text} {r : Reg α} {nc dim : Nat}

theorem decompose_mreg (h : RegOK env nc dim r) : (mreg env F d rn r).decompose = mreg env F d rn r := by
  have h1 : (!(mreg env F d rn r).tets.isEmpty && (mreg env F d rn r).tris.isEmpty) = false := by
    have := h.tris.1
    cases e : r.tets <;> cases e' : r.tris <;> simp_all [mreg]
  have h2 : (mreg env F d rn r).edges.isEmpty = false := by
    have := h.edges.1
    cases e : r.edges <;> simp_all [mreg]
  have h3 : (mreg env F d rn r).nodes.isEmpty = false := by
    have := h.nodes.1
    cases e : r.nodes <;> simp_all [mreg]
  simp only [MReg.decompose, h1, h2, h3, Bool.and_false, Bool.false_eq_true, if_false]

theorem dim_mreg (h : RegOK env nc dim r) : (mreg env F d rn r).dim = dim := by
  rw [← h.dim, h.dimElems]
  simp only [MReg.dim, mreg]
  by_cases h1 : r.tets = [] <;> by_cases h2 : r.tris = [] <;> simp [h1, h2]

theorem topo_mreg (h : RegOK env nc dim r) : (mreg env F d rn r).topo = bare r := by
  have hd : (mreg env F d rn r).dim = r.dim := by rw [dim_mreg h, h.dim]
  have e1 : sortUniq r.edges = r.edges := sortUniq_of_sorted h.edges.2.1
  have e2 : sortUniq r.tris = r.tris := sortUniq_of_sorted h.tris.2.1
  have e3 : (if r.dim = 3 then sortUniq r.tets else []) = r.tets := by
    split
    · exact sortUniq_of_sorted h.tets.1
    · rename_i h3
      have := h.dimElems
      cases e : r.tets with
      | nil => rfl
      | cons a l => rw [if_pos (by simp [e])] at this; exact absurd this h3
  unfold MReg.topo bare
  rw [hd]
  simp only [mreg, e1, e2, e3]

theorem asserts_bare (h : RegOK env nc dim r) : (bare r).asserts env nc = true := by
  have h1 : r.nodes.all (· < nc) = true := by simpa using h.nodes.2.2
  have h2 : ∀ m (l : List (List Nat)), (∀ e ∈ l, IsElem m r.nodes.length e) →
      l.all (fun e => e.all (· < r.nodes.length)) = true := by
    intro m l hl
    simp only [List.all_eq_true, decide_eq_true_eq]
    exact fun e he => (hl e he).2.2
  simp only [Reg.asserts, Bool.and_eq_true]
  exact ⟨⟨⟨⟨h1, h2 2 _ h.edges.2.2⟩, h2 3 _ h.tris.2.2⟩, h2 4 _ h.tets.2⟩, h.topo⟩

theorem check_mreg (h : RegOK env nc dim r) : (mreg env F d rn r).check nc dim = true := by
  have h1 : r.nodes.all (· < nc) = true := by simpa using h.nodes.2.2
  have h2 : ∀ m (l : List (List Nat)), (∀ e ∈ l, IsElem m r.nodes.length e) →
      l.all (fun e => e.all (· < r.nodes.length)) = true := by
    intro m l hl
    simp only [List.all_eq_true, decide_eq_true_eq]
    exact fun e he => (hl e he).2.2
  have h3 : r.nodes.isEmpty = false := by have := h.nodes.1; cases e : r.nodes <;> simp_all
  have h4 : r.edges.isEmpty = false := by have := h.edges.1; cases e : r.edges <;> simp_all
  simp only [MReg.check, dim_mreg h, Bool.and_eq_true]
  exact ⟨⟨⟨⟨⟨⟨decide_eq_true trivial, by simp [mreg, h3]⟩, decide_eq_true h.nodes.2.1⟩, h1⟩, by simp [mreg, h4]⟩,
    h2 2 _ h.edges.2.2⟩, h2 3 _ h.tris.2.2⟩

end

theorem finalize_mloader {env : Env α} {F : Fmt α} {dn : Text} {d : Dev α} (h : DevOK env d) :
    (mloader env F dn d).finalize = (true, mloader env F dn d) := by
  have h0 : (mloader env F dn d).regions.map (fun e => (e.1, e.2.decompose)) = (mloader env F dn d).regions := by
    simp only [mloader, List.map_map]
    refine List.map_congr_left fun e he => ?_
    simp only [Function.comp_apply, decompose_mreg (h.reg e he)]
  have hlen : (mloader env F dn d).coords.length = d.coords.length := by simp [mloader]
  have hc : (mloader env F dn d).coords.isEmpty = false := by
    have := h.coords
    cases e : d.coords <;> simp_all [mloader]
  have hr : (mloader env F dn d).regions.isEmpty = false := by
    have := h.regions.1
    cases e : d.regions <;> simp_all [mloader]
  have hd0 : (mloader env F dn d).dim0 = d.dim := by
    have h1 := h.regions.1
    have h2 := h.reg
    cases e : d.regions with
    | nil => exact absurd e h1
    | cons x l =>
      have h3 := h2 x (by simp [e])
      have h4 := h3.edges.1
      simp only [Loader.dim0, mloader, e, List.map_cons]
      rw [← h3.dim, h3.dimElems]
      simp only [mreg]
      by_cases e1 : x.2.tets = [] <;> by_cases e2 : x.2.tris = [] <;> simp [e1, e2, h4]
  have hall : (mloader env F dn d).regions.all (fun e => e.2.check (mloader env F dn d).coords.length
      (mloader env F dn d).dim0) = true := by
    rw [hlen, hd0]
    simp only [List.all_eq_true, mloader, List.mem_map]
    rintro _ ⟨e, he, rfl⟩
    exact check_mreg (h.reg e he)
  simp only [Loader.finalize, h0, hc, hr, hall, Bool.not_false, Bool.and_self]

/-! ### The device is made -/

/-- Entries put one after the other, in order. -/
theorem mkRegions_ok {env : Env α} {F : Fmt α} {d : Dev α} {nc dim : Nat} : ∀ (l : SMap Text (Reg α)) (acc : SMap Text (Reg α)),
    SMap.Sorted l → (∀ x ∈ acc, ∀ e ∈ l, x.1 < e.1) → (∀ e ∈ l, RegOK env nc dim e.2) →
    mkRegions env nc (l.map fun e => (e.1, mreg env F d e.1 e.2)) acc =
      (.ok, acc ++ l.map fun e => (e.1, (bare e.2).defaults env))
  | [], acc, _, _, _ => by simp [mkRegions]
  | e :: l, acc, hs, ha, h => by
    obtain ⟨h1, h2⟩ := List.pairwise_cons.mp hs
    have he := h e (by simp)
    simp only [List.map_cons, mkRegions, topo_mreg he]
    rw [if_pos (asserts_bare he), SMap.put_last fun x hx => ha x hx e (by simp),
      mkRegions_ok l _ h2 ?_ fun x hx => h x (by simp [hx])]
    · simp
    · intro x hx y hy
      rcases List.mem_append.1 hx with hx | hx
      · exact ha x hx y (by simp [hy])
      · simp only [List.mem_singleton] at hx
        subst hx
        exact h1 y hy

theorem mkContacts_ok {d : Dev α} (rs : SMap Text (Reg α)) :
    ∀ (l : SMap Text Con) (acc : SMap Text Con), SMap.Sorted l → (∀ x ∈ acc, ∀ e ∈ l, x.1 < e.1) →
    (∀ e ∈ l, ∃ r, rs.get e.2.region = some r ∧ ∀ i ∈ e.2.nodes, i < r.nodes.length) →
    mkContacts rs (l.map fun e => (e.1, mcon e.2)) acc =
      (true, acc ++ l.map fun e => (e.1, { e.2 with edges := [], tris := [] }))
  | [], acc, _, _, _ => by simp [mkContacts]
  | e :: l, acc, hs, ha, h => by
    obtain ⟨h1, h2⟩ := List.pairwise_cons.mp hs
    obtain ⟨r, hr, hi⟩ := h e (by simp)
    have hk : mkContact rs (mcon e.2) = some { e.2 with edges := [], tris := [] } := by
      have : e.2.nodes.all (· < r.nodes.length) = true := by simpa using hi
      simp only [mkContact, mcon, hr, MReg.decompose, List.isEmpty_nil, Bool.not_true, Bool.false_and,
        Bool.false_eq_true, if_false, this, if_true, getElems, List.filterMap_nil]
    simp only [List.map_cons, mkContacts, hk]
    rw [SMap.put_last fun x hx => ha x hx e (by simp),
      mkContacts_ok (d := d) rs l _ h2 ?_ fun x hx => h x (by simp [hx])]
    · simp
    · intro x hx y hy
      rcases List.mem_append.1 hx with hx | hx
      · exact ha x hx y (by simp [hy])
      · simp only [List.mem_singleton] at hx
        subst hx
        exact h1 y hy

theorem mkIfaces_ok {d : Dev α} (rs : SMap Text (Reg α)) :
    ∀ (l : SMap Text Ifc) (acc : SMap Text Ifc), SMap.Sorted l → (∀ x ∈ acc, ∀ e ∈ l, x.1 < e.1) →
    (∀ e ∈ l, e.2.nodes0.length = e.2.nodes1.length ∧
      (∃ r, rs.get e.2.region0 = some r ∧ ∀ i ∈ e.2.nodes0, i < r.nodes.length) ∧
      (∃ r, rs.get e.2.region1 = some r ∧ ∀ i ∈ e.2.nodes1, i < r.nodes.length)) →
    mkIfaces rs (l.map fun e => (e.1, mifc e.2)) acc =
      (true, acc ++ l.map fun e => (e.1, { e.2 with edges0 := [], edges1 := [], tris0 := [], tris1 := [] }))
  | [], acc, _, _, _ => by simp [mkIfaces]
  | e :: l, acc, hs, ha, h => by
    obtain ⟨h1, h2⟩ := List.pairwise_cons.mp hs
    obtain ⟨hlen, ⟨r0, hr0, hi0⟩, ⟨r1, hr1, hi1⟩⟩ := h e (by simp)
    have hk : mkIface rs (mifc e.2) =
        some { e.2 with edges0 := [], edges1 := [], tris0 := [], tris1 := [] } := by
      have hall : (e.2.nodes0.zip e.2.nodes1).all
          (fun p => decide (p.1 < r0.nodes.length) && decide (p.2 < r1.nodes.length)) = true := by
        rw [List.all_eq_true]
        intro p hp
        have := List.of_mem_zip hp
        simp [hi0 _ this.1, hi1 _ this.2]
      have hm0 : (e.2.nodes0.zip e.2.nodes1).map Prod.fst = e.2.nodes0 :=
        List.map_fst_zip (by omega)
      have hm1 : (e.2.nodes0.zip e.2.nodes1).map Prod.snd = e.2.nodes1 :=
        List.map_snd_zip (by omega)
      have hn0 : (if (e.2.nodes0.zip e.2.nodes1).isEmpty then ([] : List Nat).filter (· < r0.nodes.length)
          else (e.2.nodes0.zip e.2.nodes1).map Prod.fst) = e.2.nodes0 := by
        rw [hm0]
        split
        · rename_i hz
          rw [List.isEmpty_iff] at hz
          rw [← hm0, hz]; rfl
        · rfl
      have hn1 : (if (e.2.nodes0.zip e.2.nodes1).isEmpty then ([] : List Nat).filter (· < r1.nodes.length)
          else (e.2.nodes0.zip e.2.nodes1).map Prod.snd) = e.2.nodes1 := by
        rw [hm1]
        split
        · rename_i hz
          rw [List.isEmpty_iff] at hz
          rw [← hm1, hz]; rfl
        · rfl
      simp only [mkIface, mifc, hr0, hr1, MReg.decompose, List.isEmpty_nil, Bool.not_true, Bool.false_and,
        Bool.false_eq_true, if_false, hall, if_true, getElems, List.filterMap_nil, hn0, hn1]
    simp only [List.map_cons, mkIfaces, hk]
    rw [SMap.put_last fun x hx => ha x hx e (by simp),
      mkIfaces_ok (d := d) rs l _ h2 ?_ fun x hx => h x (by simp [hx])]
    · simp
    · intro x hx y hy
      rcases List.mem_append.1 hx with hx | hx
      · exact ha x hx y (by simp [hy])
      · simp only [List.mem_singleton] at hx
        subst hx
        exact h1 y hy

theorem solCmds_mreg (env : Env α) (F : Fmt α) (d : Dev α) (rn : Text) (r : Reg α) :
    solCmds (mreg env F d rn r).sols ++ eqnCmds (mreg env F d rn r).eqns = [] := by
  have h1 : (mreg env F d rn r).sols.filter (fun e => e.2.dt = .command) = [] := by
    rw [List.filter_eq_nil_iff]
    intro e he
    rcases putSols_mem _ _ _ he with ⟨v, -, h2⟩ | h1
    · simp [h2, dSol]
    · rcases putSols_mem _ _ _ h1 with ⟨v, -, h2⟩ | h1
      · simp [h2, dSol]
      · simp at h1
  simp only [solCmds, h1, List.map_nil, List.nil_append]
  rfl

/-- Regions in the last pass: finished and not finished. -/
def regsAt (env : Env α) (F : Fmt α) (d : Dev α) (done l : SMap Text (Reg α)) : SMap Text (Reg α) :=
  (done.map fun e => (e.1, repReg env F d e.1 e.2)) ++ l.map fun e => (e.1, (bare e.2).defaults env)

/-- The last pass over the regions. -/
theorem finish_ok {env : Env α} {F : Fmt α} {d : Dev α} {nc dim : Nat} (dn : Text) (devs : Devs α)
    (hdevs : SMap.Sorted devs) (dev : Dev α) : ∀ (l done : SMap Text (Reg α)),
    SMap.Sorted (done ++ l) → (∀ e ∈ l, RegOK env nc dim e.2) →
    (l.map fun e => (e.1, mreg env F d e.1 e.2)).foldl (fun st e => finishRegion env dn st e.1 e.2)
      (true, devs.put dn { dev with regions := regsAt env F d done l }) =
      (true, devs.put dn { dev with regions := regsAt env F d (done ++ l) [] })
  | [], done, _, _ => by simp
  | e :: l, done, hs, h => by
    have he := h e (by simp)
    have hsrt : SMap.Sorted (regsAt env F d done (e :: l)) := by
      unfold SMap.Sorted regsAt at *
      rw [List.pairwise_append] at hs ⊢
      refine ⟨by rw [List.pairwise_map]; exact hs.1, by rw [List.pairwise_map]; exact hs.2.1, ?_⟩
      intro a ha b hb
      simp only [List.mem_map] at ha hb
      obtain ⟨a', ha', rfl⟩ := ha
      obtain ⟨b', hb', rfl⟩ := hb
      exact hs.2.2 a' ha' b' hb'
    have hget : SMap.get (regsAt env F d done (e :: l)) e.1 = some ((bare e.2).defaults env) :=
      SMap.get_of_mem hsrt (e := (e.1, (bare e.2).defaults env)) (by simp [regsAt])
    have hmod : SMap.mod (regsAt env F d done (e :: l)) e.1 (fun _ => repReg env F d e.1 e.2) =
        regsAt env F d (done ++ [e]) l := by
      have := SMap.mod_mid (a := done.map fun e : Text × Reg α => (e.1, repReg env F d e.1 e.2)) (k := e.1)
        (v := (bare e.2).defaults env) (b := l.map fun e : Text × Reg α => (e.1, (bare e.2).defaults env)) hsrt
        (fun _ => repReg env F d e.1 e.2)
      simpa [regsAt] using this
    have h1 : finishRegion env dn (true, devs.put dn { dev with regions := regsAt env F d done (e :: l) }) e.1
        (mreg env F d e.1 e.2) =
        (true, devs.put dn { dev with regions := regsAt env F d (done ++ [e]) l }) := by
      unfold finishRegion
      simp only [SMap.get_put, if_pos, Option.bind_some, hget]
      rw [show addSols env ((bare e.2).defaults env) (mreg env F d e.1 e.2).sols = _ from addSols_mreg env F d e.1 e.2 he]
      rw [solCmds_mreg, SMap.mod_put hdevs]
      simp only [runAll, Bool.and_self, hmod]
    simp only [List.map_cons, List.foldl_cons]
    rw [h1, finish_ok dn devs hdevs dev l (done ++ [e]) (by simpa using hs) fun x hx => h x (by simp [hx])]
    simp

theorem instantiate_mloader {env : Env α} {F : Fmt α} {dn : Text} {d : Dev α} (h : DevOK env d) {devs : Devs α}
    (hdevs : SMap.Sorted devs) (hn : devs.has dn = false) :
    instantiate env (mloader env F dn d) devs = (.ok, devs.put dn (rep env F d)) := by
  have hdim : (mloader env F dn d).dim1 = d.dim := by
    have h1 := h.regions.1
    have h2 := h.reg
    cases e : d.regions with
    | nil => exact absurd e h1
    | cons x l =>
      simp only [Loader.dim1, mloader, e, List.map_cons]
      exact dim_mreg (h2 x (by simp [e]))
  have hlen : (mloader env F dn d).coords.length = d.coords.length := by simp [mloader]
  have hrs : mkRegions env (mloader env F dn d).coords.length (mloader env F dn d).regions [] =
      (.ok, d.regions.map fun e => (e.1, (bare e.2).defaults env)) := by
    rw [hlen]
    have := mkRegions_ok (F := F) (d := d) d.regions [] h.regions.2 (by simp) h.reg
    simpa [mloader] using this
  have hg : ∀ n r, d.regions.get n = some r →
      SMap.get (d.regions.map fun e => (e.1, (bare e.2).defaults env)) n = some ((bare r).defaults env) := by
    intro n r hr
    rw [SMap.get_map (fun _ r => (bare r).defaults env), hr]
    rfl
  have hcs : mkContacts (d.regions.map fun e => (e.1, (bare e.2).defaults env)) (mloader env F dn d).contacts [] =
      (true, (rep env F d).contacts) := by
    have := mkContacts_ok (d := d) (d.regions.map fun e => (e.1, (bare e.2).defaults env)) d.contacts [] h.contacts
      (by simp) (fun e he => by
        obtain ⟨r, h1, h2⟩ := h.con e he
        exact ⟨_, hg _ _ h1, h2⟩)
    simpa [mloader, rep] using this
  have his : mkIfaces (d.regions.map fun e => (e.1, (bare e.2).defaults env)) (mloader env F dn d).ifaces [] =
      (true, (rep env F d).ifaces) := by
    have := mkIfaces_ok (d := d) (d.regions.map fun e => (e.1, (bare e.2).defaults env)) d.ifaces [] h.ifaces
      (by simp) (fun e he => by
        obtain ⟨h0, ⟨r, h1, h2⟩, ⟨r', h3, h4⟩⟩ := h.ifc e he
        exact ⟨h0, ⟨_, hg _ _ h1, h2⟩, ⟨_, hg _ _ h3, h4⟩⟩)
    simpa [mloader, rep] using this
  have hfin := finish_ok (env := env) (F := F) (d := d) (nc := d.coords.length) (dim := d.dim) dn devs hdevs
    { dim := d.dim, coords := (mloader env F dn d).coords, contacts := (rep env F d).contacts,
      ifaces := (rep env F d).ifaces } d.regions [] (by simpa using h.regions.2) h.reg
  have hname : (mloader env F dn d).name = dn := rfl
  have hc1 : ((mloader env F dn d).ifaces.flatMap fun e => solCmds e.2.sols ++ eqnCmds e.2.eqns) = [] := by
    rw [List.flatMap_eq_nil_iff]
    intro x hx
    simp only [mloader, List.mem_map] at hx
    obtain ⟨e, -, rfl⟩ := hx
    rfl
  have hc2 : ((mloader env F dn d).contacts.flatMap fun e => eqnCmds e.2.eqns) = [] := by
    rw [List.flatMap_eq_nil_iff]
    intro x hx
    simp only [mloader, List.mem_map] at hx
    obtain ⟨e, -, rfl⟩ := hx
    rfl
  unfold instantiate
  rw [hname, hn, hdim, hrs]
  simp only [Bool.false_eq_true, if_false, ne_eq, not_true_eq_false, hcs, his, hc1, hc2, runAll]
  have e0 : (mloader env F dn d).regions = d.regions.map fun e => (e.1, mreg env F d e.1 e.2) := rfl
  rw [e0]
  have e1 : regsAt env F d [] d.regions = d.regions.map fun e => (e.1, (bare e.2).defaults env) := by simp [regsAt]
  have e2 : regsAt env F d ([] ++ d.regions) [] = d.regions.map fun e => (e.1, repReg env F d e.1 e.2) := by
    simp [regsAt]
  rw [e1, e2] at hfin
  rw [hfin]
  rfl

/-! ### The whole file -/

theorem RegOK.file {env : Env α} {nc dim : Nat} {r : Reg α} (h : RegOK env nc dim r) : FileReg r where
  edges := fun l hl => ⟨(h.edges.2.2 l hl).1, (h.edges.2.2 l hl).2.1⟩
  tris := fun l hl => ⟨(h.tris.2.2 l hl).1, (h.tris.2.2 l hl).2.1⟩
  tets := fun l hl => ⟨(h.tets.2 l hl).1, (h.tets.2 l hl).2.1⟩
  nodup := by
    rw [List.nodup_append]
    refine ⟨SMap.keys_nodup h.nm.sorted, SMap.keys_nodup h.em.sorted, ?_⟩
    intro a ha b hb hab
    subst hab
    rw [List.mem_map] at ha hb
    obtain ⟨⟨_, v⟩, hv, rfl⟩ := ha
    obtain ⟨⟨_, w⟩, hw, e⟩ := hb
    subst e
    have h1 := h.disjoint _ (SMap.has_iff.2 ⟨v, hv⟩)
    rw [SMap.has_iff.2 ⟨w, hw⟩] at h1
    exact absurd h1 (by simp)

theorem steps_device_ok {env : Env α} {F : Fmt α} {dn : Text} {d : Dev α} (h : DevOK env d) {ms : List Text}
    {devs : Devs α} (hdevs : SMap.Sorted devs) (hn : devs.has dn = false) (hms : dn ∉ ms) {c : Ctx α}
    (hc : c = .all ∨ c = .device) :
    steps env c (sIdle ms devs) (deviceToks F dn d) =
      some (.device, sIdle (dn :: ms) (devs.put dn (rep env F d))) := by
  rw [steps_device env ms devs F dn d (fun e he => (h.reg e he).file) h.regions.2 h.contacts h.ifaces hms hc]
  have : endDevice env (sDev (mloader env F dn d) (dn :: ms) devs) =
      .ok .device (sIdle (dn :: ms) (devs.put dn (rep env F d))) := by
    simp only [endDevice, sDev, finalize_mloader h, if_true, instantiate_mloader h hdevs hn]
    rfl
  rw [this]

/-- Devices that are loaded one after the other into the list of devices. -/
def loaded (env : Env α) (F : Fmt α) (ds : Devs α) (devs : Devs α) : Devs α :=
  ds.foldl (fun m e => m.put e.1 (rep env F e.2)) devs

theorem steps_devices {env : Env α} {F : Fmt α} : ∀ (ds : Devs α), (∀ e ∈ ds, DevOK env e.2) →
    (ds.map Prod.fst).Nodup → ∀ {ms : List Text} {devs : Devs α}, SMap.Sorted devs →
    (∀ e ∈ ds, devs.has e.1 = false ∧ e.1 ∉ ms) → ∀ {c : Ctx α}, c = .all ∨ c = .device →
    ∃ c', (c' = .all ∨ c' = .device) ∧
      steps env c (sIdle ms devs) (ds.flatMap fun e => deviceToks F e.1 e.2) =
        some (c', sIdle ((ds.map Prod.fst).reverse ++ ms) (loaded env F ds devs))
  | [], _, _, _, _, _, _, c, hc => ⟨c, hc, by simp [steps, loaded]⟩
  | e :: ds, h, hnd, ms, devs, hs, hn, c, hc => by
    simp only [List.map_cons, List.nodup_cons] at hnd
    have h1 := steps_device_ok (F := F) (dn := e.1) (h e (by simp)) hs (hn e (by simp)).1 (hn e (by simp)).2 hc
    obtain ⟨c', hc', h2⟩ := steps_devices (F := F) ds (fun x hx => h x (by simp [hx])) hnd.2 (ms := e.1 :: ms)
      (devs := devs.put e.1 (rep env F e.2)) (SMap.put_sorted hs _ _)
      (fun x hx => by
        have hne : x.1 ≠ e.1 := fun h => hnd.1 (by rw [← h]; exact List.mem_map_of_mem hx)
        refine ⟨?_, ?_⟩
        · rw [SMap.has_put, (hn x (by simp [hx])).1]; simp [hne]
        · simp [hne, (hn x (by simp [hx])).2]) (c := .device) (.inr rfl)
    refine ⟨c', hc', ?_⟩
    simp only [List.flatMap_cons]
    rw [steps_append env h1, h2]
    simp [loaded]

/-- **A file written by `write_devices` is loaded again**: reading it succeeds, in a session that has
neither meshes nor devices of these names, and adds exactly the devices that were written, each with the
same dimension, regions, materials, nodes, elements, contacts and interfaces, every coordinate and every
value of a model being what reading its printed form gives; the reader is ready for the next file. -/
theorem load_written {env : Env α} {F : Fmt α} {ds : Devs α} (hW : ∀ e ∈ ds, Writable F e.1 e.2)
    (hd : ∀ e ∈ ds, DevOK env e.2) (hs : SMap.Sorted ds) {ms : List Text} {devs : Devs α}
    (hdevs : SMap.Sorted devs) (hn : ∀ e ∈ ds, devs.has e.1 = false ∧ e.1 ∉ ms) :
    load env (sIdle ms devs) [] (writeDevices F ds) =
      (.ok, sIdle ((ds.map Prod.fst).reverse ++ ms) (loaded env F ds devs), []) := by
  obtain ⟨h1, h2⟩ := lexes_devices hW [] trivial
  rw [List.append_nil] at h1 h2
  have h3 : (lex [] true []).1 = [] ∧ (lex [] true []).2 = [] := by
    constructor <;> rfl
  rw [h3.1, List.map_nil, List.append_nil] at h1
  rw [h3.2] at h2
  obtain ⟨c', hc', h4⟩ := steps_devices (F := F) ds hd (SMap.keys_nodup hs) hdevs hn (c := .all) (.inl rfl)
  rw [← h1] at h4
  have h5 := parse_of_steps env (fin := (lex [] true (writeDevices F ds)).2) h4
  have h6 : c'.closedN 5 = true := by rcases hc' with rfl | rfl <;> rfl
  rw [h6, if_pos rfl, h2] at h5
  simp only [load, h2, h5]
  rfl

/-- In a fresh session the devices are exactly those that were written. -/
theorem load_written_fresh {env : Env α} {F : Fmt α} {ds : Devs α} (hW : ∀ e ∈ ds, Writable F e.1 e.2)
    (hd : ∀ e ∈ ds, DevOK env e.2) (hs : SMap.Sorted ds) :
    (load env {} [] (writeDevices F ds)).1 = .ok ∧
    (load env {} [] (writeDevices F ds)).2.1.devs = ds.map fun e => (e.1, rep env F e.2) := by
  have h := load_written (env := env) hW hd hs (ms := []) (devs := []) List.Pairwise.nil (by simp [SMap.has])
  have e : loaded env F ds [] = ds.map fun e => (e.1, rep env F e.2) := by
    have := SMap.foldl_put (ds.map fun e => (e.1, rep env F e.2)) (SMap.sorted_map (fun _ d => rep env F d) hs)
    rw [List.foldl_map] at this
    exact this
  have h' : load env {} [] (writeDevices F ds) = _ := h
  rw [h', e]
  exact ⟨rfl, rfl⟩

end Verif.MeshIO
