import Verif.Mesh2d.Process

/-!
# C66: the regions that the triangles make
-/

namespace Verif.Mesh2d
open Classical Verif.MeshIO

/-- The region of a triangle, by the indices of its corners. -/
noncomputable def own (coords : List (ℝ × ℝ × ℝ)) (regions : List (Text × RegDef)) (t : List Nat) : Option (Text × RegDef) :=
  match t with
  | [i0, i1, i2] =>
    let c := centre (at_ coords i0) (at_ coords i1) (at_ coords i2)
    findRegion regions c.1 c.2
  | _ => none

/-- A triangle of the region, by its nodes. -/
def Corner (own : List Nat → Option (Text × RegDef)) (done : List (List Nat)) (n : Text) (nodes : List Nat) (a b c : Nat) : Prop :=
  ∃ i0 i1 i2, [i0, i1, i2] ∈ done ∧ (∃ d, own [i0, i1, i2] = some (n, d)) ∧
    nodes[a]? = some i0 ∧ nodes[b]? = some i1 ∧ nodes[c]? = some i2

/-- What a region must be after the triangles `done`. -/
structure RInv (regions : List (Text × RegDef)) (own : List Nat → Option (Text × RegDef)) (done : List (List Nat)) (n : Text)
    (r : MReg ℝ) : Prop where
  material : ∃ d, (n, d) ∈ regions ∧ r.material = d.material
  tris : ∀ e, e ∈ r.tris ↔ ∃ a b c, Corner own done n r.nodes a b c ∧ e = mkElem [a, b, c]
  edges : ∀ e, e ∈ r.edges ↔ ∃ a b c, Corner own done n r.nodes a b c ∧
    (e = mkElem [a, b] ∨ e = mkElem [b, c] ∨ e = mkElem [c, a])
  rest : r.tets = [] ∧ r.sols = [] ∧ r.eqns = []

/-- The invariant after the triangles `done`. -/
structure PInv (name : Text) (coords : List (ℝ × ℝ × ℝ)) (regions : List (Text × RegDef))
    (own : List Nat → Option (Text × RegDef)) (done : List (List Nat)) (s : St) : Prop where
  ninv : NInv (regions.map Prod.fst) s
  sorted : SMap.Sorted s.L.regions
  same : s.L.coords = coords ∧ s.L.contacts = [] ∧ s.L.ifaces = [] ∧ s.L.name = name
  has : ∀ n, (∃ r, s.L.regions.get n = some r) ↔ ∃ t ∈ done, ∃ d, own t = some (n, d)
  node : ∀ n i, i ∈ nodesOf s n ↔ ∃ t ∈ done, (∃ d, own t = some (n, d)) ∧ i ∈ t
  reg : ∀ n r, s.L.regions.get n = some r → RInv regions own done n r

theorem initial_inv (name : Text) (coords : List (ℝ × ℝ × ℝ)) (regions : List (Text × RegDef))
    (own : List Nat → Option (Text × RegDef)) : PInv name coords regions own [] (initial name coords) where
  ninv := by
    have h : ∀ n, nodesOf (initial name coords) n = [] := fun n => rfl
    constructor
    · intro n; rw [h]; exact List.nodup_nil
    · intro n; rw [h]; rfl
    · intro n i k; rw [h]; simp [initial]
    · intro i
      rw [show (initial name coords).cnt i = 0 from rfl]
      simp [h]
  sorted := List.Pairwise.nil
  same := ⟨rfl, rfl, rfl, rfl⟩
  has := fun n => by simp [initial, SMap.get]
  node := fun n i => by simp [nodesOf, initial, SMap.get]
  reg := fun n r h => by simp [initial, SMap.get] at h

theorem addMeshRegion_spec {names : List Text} {s : St} (h : NInv names s) (hs : SMap.Sorted s.L.regions) (n mat : Text) :
    NInv names (addMeshRegion n mat s) ∧ SMap.Sorted (addMeshRegion n mat s).L.regions ∧
    (addMeshRegion n mat s).L.regions.get n = some ((s.L.regions.get n).getD { material := mat }) ∧
    (∀ n', n' ≠ n → (addMeshRegion n mat s).L.regions.get n' = s.L.regions.get n') ∧
    (∀ n', nodesOf (addMeshRegion n mat s) n' = nodesOf s n') ∧
    (addMeshRegion n mat s).L.coords = s.L.coords ∧ (addMeshRegion n mat s).L.contacts = s.L.contacts ∧
    (addMeshRegion n mat s).L.ifaces = s.L.ifaces ∧ (addMeshRegion n mat s).L.name = s.L.name := by
  unfold addMeshRegion
  split
  · rename_i hh
    rw [← SMap.get_isSome] at hh
    obtain ⟨r, hr⟩ := Option.isSome_iff_exists.1 hh
    exact ⟨h, hs, by rw [hr]; rfl, fun _ _ => rfl, fun _ => rfl, rfl, rfl, rfl, rfl⟩
  · rename_i hh
    have hh' : s.L.regions.get n = none := SMap.get_none_iff.2 (by simpa using hh)
    have hg : ∀ n', SMap.get (s.L.regions.put n { material := mat }) n' =
        if n' = n then some { material := mat } else s.L.regions.get n' := fun n' => by
      rw [SMap.get_put]
      by_cases hx : n' = n
      · rw [if_pos hx, if_pos hx]
      · rw [if_neg hx, if_neg hx]
    have hno : ∀ n', nodesOf { s with L := { s.L with regions := s.L.regions.put n { material := mat } } } n' = nodesOf s n' := by
      intro n'
      unfold nodesOf
      dsimp only
      rw [hg]
      split
      · rename_i he; subst he; rw [hh']; rfl
      · rfl
    refine ⟨⟨?_, ?_, ?_, ?_⟩, SMap.put_sorted hs _ _, ?_, ?_, hno, rfl, rfl, rfl, rfl⟩
    · intro n'; rw [hno]; exact h.nodup n'
    · intro n'; rw [hno]; exact h.mni n'
    · intro n' i k; rw [hno]; exact h.cn n' i k
    · intro i; simp only [hno]; exact h.cnt i
    · rw [hh']; dsimp only; rw [hg, if_pos rfl]; rfl
    · intro n' hn'; dsimp only; rw [hg, if_neg hn']

theorem Corner.append {own : List Nat → Option (Text × RegDef)} {done : List (List Nat)} {n : Text} {nodes l : List Nat}
    (hnd : (nodes ++ l).Nodup) (hm : ∀ t ∈ done, (∃ d, own t = some (n, d)) → ∀ i ∈ t, i ∈ nodes) {a b c : Nat} :
    Corner own done n (nodes ++ l) a b c ↔ Corner own done n nodes a b c := by
  have key : ∀ {i k : Nat}, i ∈ nodes → ((nodes ++ l)[k]? = some i ↔ nodes[k]? = some i) := by
    intro i k hi
    obtain ⟨k', hk'⟩ := List.mem_iff_getElem?.1 hi
    obtain ⟨hlt', _⟩ := List.getElem?_eq_some_iff.1 hk'
    constructor
    · intro h
      have h' : (nodes ++ l)[k']? = some i := by rw [List.getElem?_append_left hlt']; exact hk'
      obtain ⟨g1, e1⟩ := List.getElem?_eq_some_iff.1 h
      obtain ⟨g2, e2⟩ := List.getElem?_eq_some_iff.1 h'
      have := (List.Nodup.getElem_inj_iff hnd).1 (e1.trans e2.symm)
      rw [this]; exact hk'
    · intro h
      obtain ⟨hlt, _⟩ := List.getElem?_eq_some_iff.1 h
      rw [List.getElem?_append_left hlt]; exact h
  unfold Corner
  constructor
  · rintro ⟨i0, i1, i2, ht, ho, h0, h1, h2⟩
    exact ⟨i0, i1, i2, ht, ho, (key (hm _ ht ho _ (by simp))).1 h0, (key (hm _ ht ho _ (by simp))).1 h1,
      (key (hm _ ht ho _ (by simp))).1 h2⟩
  · rintro ⟨i0, i1, i2, ht, ho, h0, h1, h2⟩
    exact ⟨i0, i1, i2, ht, ho, (key (hm _ ht ho _ (by simp))).2 h0, (key (hm _ ht ho _ (by simp))).2 h1,
      (key (hm _ ht ho _ (by simp))).2 h2⟩

theorem findRegion_mem {rs : List (Text × RegDef)} {x y : ℝ} {e : Text × RegDef} (h : findRegion rs x y = some e) : e ∈ rs := by
  obtain ⟨n, d⟩ := e
  obtain ⟨pre, post, rfl, _⟩ := findRegion_some.1 h
  simp

/-- One triangle. -/
theorem addTri_inv {name : Text} {coords : List (ℝ × ℝ × ℝ)} {regions : List (Text × RegDef)}
    (hnames : (regions.map Prod.fst).Nodup) {done : List (List Nat)} {s : St}
    (h : PInv name coords regions (own coords regions) done s) (i0 i1 i2 : Nat) :
    PInv name coords regions (own coords regions) (done ++ [[i0, i1, i2]]) (addTri coords regions s [i0, i1, i2]) := by
  have hown : own coords regions [i0, i1, i2] = findRegion regions
    (centre (at_ coords i0) (at_ coords i1) (at_ coords i2)).1 (centre (at_ coords i0) (at_ coords i1) (at_ coords i2)).2 := rfl
  have hadd : addTri coords regions s [i0, i1, i2] = match own coords regions [i0, i1, i2] with
    | none => s
    | some (n, d) => addElems n (addNode n (addNode n (addNode n (addMeshRegion n d.material s) i0) i1) i2) i0 i1 i2 := rfl
  have hmem0 : ∀ e, own coords regions [i0, i1, i2] = some e → e ∈ regions := fun e he => findRegion_mem (hown ▸ he)
  rw [hadd]
  generalize hO : own coords regions = O at *
  clear hown hadd hO
  cases e : O [i0, i1, i2] with
  | none =>
    dsimp only
    have hx : ∀ (P : List Nat → Prop) (n : Text), (∃ t ∈ done ++ [[i0, i1, i2]], (∃ d, O t = some (n, d)) ∧ P t) ↔
        ∃ t ∈ done, (∃ d, O t = some (n, d)) ∧ P t := by
      intro P n
      constructor
      · rintro ⟨t, ht, ⟨d, hd⟩, hp⟩
        rcases List.mem_append.1 ht with ht | ht
        · exact ⟨t, ht, ⟨d, hd⟩, hp⟩
        · simp only [List.mem_singleton] at ht
          subst ht
          rw [e] at hd
          simp at hd
      · rintro ⟨t, ht, hd, hp⟩
        exact ⟨t, List.mem_append_left _ ht, hd, hp⟩
    have hc : ∀ n nodes a b c, Corner O (done ++ [[i0, i1, i2]]) n nodes a b c ↔ Corner O done n nodes a b c := by
      intro n nodes a b c
      constructor
      · rintro ⟨j0, j1, j2, ht, ⟨d, hd⟩, g⟩
        rcases List.mem_append.1 ht with ht | ht
        · exact ⟨j0, j1, j2, ht, ⟨d, hd⟩, g⟩
        · simp only [List.mem_singleton] at ht
          rw [ht, e] at hd
          simp at hd
      · rintro ⟨j0, j1, j2, ht, hd, g⟩
        exact ⟨j0, j1, j2, List.mem_append_left _ ht, hd, g⟩
    refine ⟨h.ninv, h.sorted, h.same, ?_, ?_, ?_⟩
    · intro n
      rw [h.has]
      have := hx (fun _ => True) n
      simp only [and_true] at this
      exact this.symm
    · intro n i; rw [h.node]; exact (hx (fun t => i ∈ t) n).symm
    · intro n r hr
      have := h.reg n r hr
      exact ⟨this.material, fun e => by simp only [hc]; exact this.tris e, fun e => by simp only [hc]; exact this.edges e, this.rest⟩
  | some p =>
    obtain ⟨n, d⟩ := p
    dsimp only
    have hreg := hmem0 _ e
    have hnn : n ∈ regions.map Prod.fst := List.mem_map_of_mem hreg
    obtain ⟨a1, a2, a3, a4, a5, a6, a7, a8, a9⟩ := addMeshRegion_spec h.ninv h.sorted n d.material
    generalize addMeshRegion n d.material s = s1 at *
    obtain ⟨r1, hr1⟩ : ∃ r1, r1 = ((s.L.regions.get n).getD { material := d.material } : MReg ℝ) := ⟨_, rfl⟩
    rw [← hr1] at a3
    obtain ⟨b1, ⟨l0, b2, b3⟩, b4, b5, b6, b7, b8, b9⟩ := addNode_spec hnames a1 hnn a3 i0
    generalize addNode n s1 i0 = s2 at *
    obtain ⟨c1, ⟨l1, c2, c3⟩, c4, c5, c6, c7, c8, c9⟩ := addNode_spec hnames b1 hnn b2 i1
    generalize addNode n s2 i1 = s3 at *
    obtain ⟨d1, ⟨l2, d2, d3⟩, d4, d5, d6, d7, d8, d9⟩ := addNode_spec hnames c1 hnn c2 i2
    generalize addNode n s3 i2 = s4 at *
    dsimp only at c2 c3 d2 d3
    rw [List.append_assoc, List.append_assoc] at d2 d3
    obtain ⟨l, hl⟩ : ∃ l, l = l0 ++ (l1 ++ l2) := ⟨_, rfl⟩
    rw [← hl] at d2 d3
    have hr1n : nodesOf s n = r1.nodes := by rw [← a5 n]; simp [nodesOf, a3]
    have hn4 : nodesOf s4 n = r1.nodes ++ l := by simp [nodesOf, d2]
    have hmem : ∀ j, j ∈ r1.nodes ++ l ↔ j ∈ r1.nodes ∨ j = i0 ∨ j = i1 ∨ j = i2 := by
      intro j
      rw [d3, c3, b3]; tauto
    have hget : ∀ i, i ∈ r1.nodes ++ l → (r1.nodes ++ l)[(s4.cn n i).getD 0]? = some i := by
      intro i hi
      obtain ⟨k, hk⟩ := List.mem_iff_getElem?.1 hi
      rw [← hn4] at hk ⊢
      rw [(d1.cn n i k).2 hk]
      exact hk
    have g0 := hget i0 ((hmem _).2 (by simp))
    have g1 := hget i1 ((hmem _).2 (by simp))
    have g2 := hget i2 ((hmem _).2 (by simp))
    unfold addElems
    generalize (s4.cn n i0).getD 0 = k0 at *
    generalize (s4.cn n i1).getD 0 = k1 at *
    generalize (s4.cn n i2).getD 0 = k2 at *
    dsimp only
    have hnd : (r1.nodes ++ l).Nodup := by rw [← hn4]; exact d1.nodup n
    have uniq : ∀ {a b i : Nat}, (r1.nodes ++ l)[a]? = some i → (r1.nodes ++ l)[b]? = some i → a = b := by
      intro a b i h1 h2
      obtain ⟨u1, e1⟩ := List.getElem?_eq_some_iff.1 h1
      obtain ⟨u2, e2⟩ := List.getElem?_eq_some_iff.1 h2
      exact (List.Nodup.getElem_inj_iff hnd).1 (e1.trans e2.symm)
    have hG : ∀ n', SMap.get (SMap.mod s4.L.regions n fun r =>
        { r with edges := r.edges ++ [mkElem [k0, k1], mkElem [k1, k2], mkElem [k2, k0]]
                 tris := r.tris ++ [mkElem [k0, k1, k2]] }) n' =
        if n' = n then some { r1 with nodes := r1.nodes ++ l
                                      edges := r1.edges ++ [mkElem [k0, k1], mkElem [k1, k2], mkElem [k2, k0]]
                                      tris := r1.tris ++ [mkElem [k0, k1, k2]] } else s.L.regions.get n' := by
      intro n'
      rw [get_mod, d2]
      split
      · rfl
      · rename_i hne; rw [d4 n' hne, c4 n' hne, b4 n' hne, a4 n' hne]
    have hN : ∀ n', nodesOf { s4 with L := { s4.L with regions := SMap.mod s4.L.regions n fun r =>
        { r with edges := r.edges ++ [mkElem [k0, k1], mkElem [k1, k2], mkElem [k2, k0]]
                 tris := r.tris ++ [mkElem [k0, k1, k2]] } } } n' = nodesOf s4 n' := by
      intro n'
      unfold nodesOf
      dsimp only
      rw [hG]
      split
      · rename_i he; subst he; rw [d2]; rfl
      · rename_i hne; rw [d4 n' hne, c4 n' hne, b4 n' hne, a4 n' hne]
    have hN' : ∀ n', n' ≠ n → nodesOf s4 n' = nodesOf s n' := by
      intro n' hne
      unfold nodesOf
      rw [d4 n' hne, c4 n' hne, b4 n' hne, a4 n' hne]
    have hx : ∀ (P : List Nat → Prop) (n' : Text), (∃ t ∈ done ++ [[i0, i1, i2]], (∃ d, O t = some (n', d)) ∧ P t) ↔
        (∃ t ∈ done, (∃ d, O t = some (n', d)) ∧ P t) ∨ (n' = n ∧ P [i0, i1, i2]) := by
      intro P n'
      constructor
      · rintro ⟨t, ht, ⟨d', hd⟩, hp⟩
        rcases List.mem_append.1 ht with ht | ht
        · exact .inl ⟨t, ht, ⟨d', hd⟩, hp⟩
        · simp only [List.mem_singleton] at ht
          subst ht
          rw [e] at hd
          simp only [Option.some.injEq, Prod.mk.injEq] at hd
          exact .inr ⟨hd.1.symm, hp⟩
      · rintro (⟨t, ht, hd, hp⟩ | ⟨rfl, hp⟩)
        · exact ⟨t, List.mem_append_left _ ht, hd, hp⟩
        · exact ⟨_, by simp, ⟨d, e⟩, hp⟩
    refine ⟨⟨?_, ?_, ?_, ?_⟩, ?_, ?_, ?_, ?_, ?_⟩
    · intro n'; rw [hN]; exact d1.nodup n'
    · intro n'; rw [hN]; exact d1.mni n'
    · intro n' i k; rw [hN]; exact d1.cn n' i k
    · intro i; simp only [hN]; exact d1.cnt i
    · dsimp only; exact sorted_mod (d5 (c5 (b5 a2))) _ _
    · obtain ⟨e1, e2, e3, e4⟩ := h.same
      exact ⟨by rw [← e1, ← a6, ← b6, ← c6, ← d6], by rw [← e2, ← a7, ← b7, ← c7, ← d7],
        by rw [← e3, ← a8, ← b8, ← c8, ← d8], by rw [← e4, ← a9, ← b9, ← c9, ← d9]⟩
    · intro n'
      have := hx (fun _ => True) n'
      simp only [and_true] at this
      rw [this, ← h.has]
      dsimp only
      rw [hG]
      by_cases hne : n' = n
      · rw [if_pos hne]; simp [hne]
      · rw [if_neg hne]; simp [hne]
    · intro n' i
      rw [hN, hx (fun t => i ∈ t), ← h.node]
      by_cases hne : n' = n
      · subst hne
        rw [hn4, hmem, hr1n]; simp
      · rw [hN' n' hne]; simp [hne]
    · intro n' r hr
      dsimp only at hr
      rw [hG] at hr
      by_cases hne : n' = n
      · subst hne
        rw [if_pos rfl] at hr
        simp only [Option.some.injEq] at hr
        subst hr
        have hold : RInv regions O done n' r1 := by
          cases hg : s.L.regions.get n' with
          | some r0 =>
            rw [hg] at hr1
            rw [hr1]
            exact h.reg n' r0 hg
          | none =>
            rw [hg] at hr1
            rw [hr1]
            have hno : ¬ ∃ t ∈ done, ∃ d, O t = some (n', d) := by
              rw [← h.has, hg]; simp
            have hnc : ∀ nodes a b c, ¬ Corner O done n' nodes a b c := by
              rintro nodes a b c ⟨j0, j1, j2, ht, hd, _⟩
              exact hno ⟨_, ht, hd⟩
            refine ⟨⟨d, hreg, rfl⟩, ?_, ?_, rfl, rfl, rfl⟩
            · intro e'; simp [hnc]
            · intro e'; simp [hnc]
        have hcor : ∀ a b c, Corner O (done ++ [[i0, i1, i2]]) n' (r1.nodes ++ l) a b c ↔
            Corner O done n' r1.nodes a b c ∨ (a = k0 ∧ b = k1 ∧ c = k2) := by
          intro a b c
          have hap := Corner.append (own := O) (done := done) (n := n') (a := a) (b := b) (c := c) hnd (by
            intro t ht hd i hi
            rw [← hr1n]
            exact (h.node n' i).2 ⟨t, ht, hd, hi⟩)
          rw [← hap]
          constructor
          · rintro ⟨j0, j1, j2, ht, hd, q0, q1, q2⟩
            rcases List.mem_append.1 ht with ht | ht
            · exact .inl ⟨j0, j1, j2, ht, hd, q0, q1, q2⟩
            · simp only [List.mem_singleton, List.cons.injEq, and_true] at ht
              obtain ⟨rfl, rfl, rfl⟩ := ht
              exact .inr ⟨uniq q0 g0, uniq q1 g1, uniq q2 g2⟩
          · rintro (⟨j0, j1, j2, ht, hd, q⟩ | ⟨rfl, rfl, rfl⟩)
            · exact ⟨j0, j1, j2, List.mem_append_left _ ht, hd, q⟩
            · exact ⟨i0, i1, i2, by simp, ⟨d, e⟩, g0, g1, g2⟩
        refine ⟨hold.material, ?_, ?_, hold.rest⟩
        · intro e'
          dsimp only
          rw [List.mem_append, hold.tris, List.mem_singleton]
          constructor
          · rintro (⟨a, b, c, hc, he⟩ | he)
            · exact ⟨a, b, c, (hcor a b c).2 (.inl hc), he⟩
            · exact ⟨k0, k1, k2, (hcor _ _ _).2 (.inr ⟨rfl, rfl, rfl⟩), he⟩
          · rintro ⟨a, b, c, hc, he⟩
            rcases (hcor a b c).1 hc with hc | ⟨rfl, rfl, rfl⟩
            · exact .inl ⟨a, b, c, hc, he⟩
            · exact .inr he
        · intro e'
          dsimp only
          rw [List.mem_append, hold.edges]
          simp only [List.mem_cons, List.not_mem_nil, or_false]
          constructor
          · rintro (⟨a, b, c, hc, he⟩ | he)
            · exact ⟨a, b, c, (hcor a b c).2 (.inl hc), he⟩
            · exact ⟨k0, k1, k2, (hcor _ _ _).2 (.inr ⟨rfl, rfl, rfl⟩), he⟩
          · rintro ⟨a, b, c, hc, he⟩
            rcases (hcor a b c).1 hc with hc | ⟨rfl, rfl, rfl⟩
            · exact .inl ⟨a, b, c, hc, he⟩
            · exact .inr he
      · rw [if_neg hne] at hr
        have hold := h.reg n' r hr
        have hcor : ∀ a b c, Corner O (done ++ [[i0, i1, i2]]) n' r.nodes a b c ↔ Corner O done n' r.nodes a b c := by
          intro a b c
          constructor
          · rintro ⟨j0, j1, j2, ht, ⟨d', hd⟩, q⟩
            rcases List.mem_append.1 ht with ht | ht
            · exact ⟨j0, j1, j2, ht, ⟨d', hd⟩, q⟩
            · simp only [List.mem_singleton] at ht
              rw [ht, e] at hd
              simp only [Option.some.injEq, Prod.mk.injEq] at hd
              exact absurd hd.1.symm hne
          · rintro ⟨j0, j1, j2, ht, hd, q⟩
            exact ⟨j0, j1, j2, List.mem_append_left _ ht, hd, q⟩
        exact ⟨hold.material, fun e => by simp only [hcor]; exact hold.tris e,
          fun e => by simp only [hcor]; exact hold.edges e, hold.rest⟩

/-- All triangles. -/
theorem addTris_inv {name : Text} {coords : List (ℝ × ℝ × ℝ)} {regions : List (Text × RegDef)}
    (hnames : (regions.map Prod.fst).Nodup) : ∀ (ts done : List (List Nat)) (s : St),
    (∀ t ∈ ts, ∃ i0 i1 i2, t = [i0, i1, i2]) → PInv name coords regions (own coords regions) done s →
    PInv name coords regions (own coords regions) (done ++ ts) (ts.foldl (addTri coords regions) s) := by
  intro ts
  induction ts with
  | nil => intro done s _ h; simpa using h
  | cons t ts ih =>
    intro done s hts h
    obtain ⟨i0, i1, i2, rfl⟩ := hts t (by simp)
    have := ih (done ++ [[i0, i1, i2]]) _ (fun t ht => hts t (List.mem_cons_of_mem _ ht)) (addTri_inv hnames h i0 i1 i2)
    simpa using this

end Verif.Mesh2d
