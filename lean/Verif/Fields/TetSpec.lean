import Verif.Fields.Tet

/-!
# Fields on tetrahedra: what is proved
-/

namespace Verif.Fields

open Verif.Geom

/-! ### Loops that write -/

/-- A loop whose body writes some entries: afterwards every entry is the last value written to it, or what it was. `R i key v`
says that the body for `i` writes `v` to `key`. -/
theorem foldlM_writes {S K V ι : Type} (get : S → K → V) (step : S → ι → Option S) (R : ι → K → V → Prop) (l : List ι)
    (h : ∀ i ∈ l, ∀ s, ∃ s', step s i = some s' ∧ ∀ key, R i key (get s' key) ∨ ((∀ v, ¬R i key v) ∧ get s' key = get s key)) (s : S) :
    ∃ s', l.foldlM step s = some s' ∧ ∀ key, (∃ i ∈ l, R i key (get s' key)) ∨ ((∀ i ∈ l, ∀ v, ¬R i key v) ∧ get s' key = get s key) := by
  induction l generalizing s with
  | nil => exact ⟨s, rfl, fun key => .inr ⟨by simp, rfl⟩⟩
  | cons i l ih =>
    obtain ⟨s1, e1, h1⟩ := h i (by simp) s
    obtain ⟨s2, e2, h2⟩ := ih (fun i hi => h i (by simp [hi])) s1
    refine ⟨s2, by simp [List.foldlM_cons, e1, e2], fun key => ?_⟩
    rcases h2 key with ⟨i', hi', hr⟩ | ⟨hn, he⟩
    · exact .inl ⟨i', by simp [hi'], hr⟩
    · rw [he]
      rcases h1 key with hr | ⟨hn', he'⟩
      · exact .inl ⟨i, by simp, hr⟩
      · refine .inr ⟨fun i' hi' => ?_, he'⟩
        rcases List.mem_cons.1 hi' with rfl | hi'
        · exact hn'
        · exact hn i' hi'

theorem getD_get {α : Type} {l : List α} {j : Nat} (h : j < l.length) {x : α} : l.getD j x = l[j] := by
  rw [List.getD_eq_getElem?_getD, List.getElem?_eq_getElem h, Option.getD_some]

/-! ### The edges of a tetrahedron -/

section
variable {m : Mesh} {t a b c d : Nat}

theorem TetOf.length (hT : TetOf m t a b c d) : ((tables m).tetEdge.getD t []).length = 6 := by
  have := hT.perm.length_eq
  simpa using this

theorem TetOf.node (hT : TetOf m t a b c d) (i : Nat) : tetNode m t i = [a, b, c, d].getD i 0 := by rw [tetNode, hT.nodes]

theorem TetOf.inj (hT : TetOf m t a b c d) {i i' : Nat} (hi : i < 4) (hi' : i' < 4) (e : tetNode m t i = tetNode m t i') : i = i' := by
  have h1 := hT.ab
  have h2 := hT.bc
  have h3 := hT.cd
  rw [hT.node, hT.node] at e
  interval_cases i <;> interval_cases i' <;> simp only [List.getD_cons_zero, List.getD_cons_succ] at e <;> omega

/-- The two nodes of an edge of the tetrahedron. -/
theorem TetOf.edge (hT : TetOf m t a b c d) {j : Nat} (hj : j < 6) :
    ∃ p q, p < q ∧ q < 4 ∧ nodesOf m.edges (tetEdgeNo m t j) = [tetNode m t p, tetNode m t q] ∧
      edgeNode m (tetEdgeNo m t j) 0 = tetNode m t p ∧ edgeNode m (tetEdgeNo m t j) 1 = tetNode m t q := by
  have hm : nodesOf m.edges (tetEdgeNo m t j) ∈ ((tables m).tetEdge.getD t []).map fun x => nodesOf m.edges x.edge := by
    refine List.mem_map.2 ⟨edgeDataAt m t j, ?_, rfl⟩
    have hl : j < ((tables m).tetEdge.getD t []).length := by rw [hT.length]; exact hj
    rw [edgeDataAt, getD_get hl]
    exact List.getElem_mem hl
  rw [hT.perm.mem_iff] at hm
  suffices h : ∃ p q, p < q ∧ q < 4 ∧ nodesOf m.edges (tetEdgeNo m t j) = [tetNode m t p, tetNode m t q] by
    obtain ⟨p, q, h1, h2, h3⟩ := h
    exact ⟨p, q, h1, h2, h3, by rw [edgeNode, h3]; rfl, by rw [edgeNode, h3]; rfl⟩
  simp only [hT.node]
  simp only [List.mem_cons, List.not_mem_nil, or_false] at hm
  rcases hm with e | e | e | e | e | e
  · exact ⟨0, 1, by omega, by omega, e⟩
  · exact ⟨0, 2, by omega, by omega, e⟩
  · exact ⟨0, 3, by omega, by omega, e⟩
  · exact ⟨1, 2, by omega, by omega, e⟩
  · exact ⟨1, 3, by omega, by omega, e⟩
  · exact ⟨2, 3, by omega, by omega, e⟩

theorem TetOf.ne (hT : TetOf m t a b c d) {j : Nat} (hj : j < 6) :
    edgeNode m (tetEdgeNo m t j) 0 ≠ edgeNode m (tetEdgeNo m t j) 1 := by
  obtain ⟨p, q, h1, h2, -, e0, e1⟩ := hT.edge hj
  rw [e0, e1]
  intro e
  have := hT.inj (by omega) h2 e
  omega

/-- Every two nodes are joined by an edge. -/
theorem TetOf.join (hT : TetOf m t a b c d) {p q : Nat} (hpq : p < q) (hq : q < 4) :
    ∃ j < 6, edgeNode m (tetEdgeNo m t j) 0 = tetNode m t p ∧ edgeNode m (tetEdgeNo m t j) 1 = tetNode m t q := by
  have hm : [tetNode m t p, tetNode m t q] ∈ ((tables m).tetEdge.getD t []).map fun x => nodesOf m.edges x.edge := by
    rw [hT.perm.mem_iff, hT.node, hT.node]
    interval_cases q <;> interval_cases p <;> simp
  obtain ⟨x, hx, e⟩ := List.mem_map.1 hm
  obtain ⟨j, hj⟩ := List.mem_iff_getElem?.1 hx
  have hl := (List.getElem?_eq_some_iff.1 hj).1
  rw [hT.length] at hl
  have hx' : tetEdgeNo m t j = x.edge := by
    rw [tetEdgeNo, edgeDataAt, List.getD_eq_getElem?_getD, hj]; rfl
  refine ⟨j, hl, ?_, ?_⟩ <;> rw [hx', edgeNode, e] <;> rfl

theorem TetOf.mem_nodeEdges (hT : TetOf m t a b c d) {i j : Nat} :
    j ∈ nodeEdges m t i ↔ j < 6 ∧ (edgeNode m (tetEdgeNo m t j) 0 = tetNode m t i ∨ edgeNode m (tetEdgeNo m t j) 1 = tetNode m t i) := by
  rw [nodeEdges, List.mem_filter, List.mem_range, hT.length]
  simp

/-- Three edges meet in every node: the check `k == 3` (`TetrahedronElementField.cc:126`) never fails. -/
theorem TetOf.three (hT : TetOf m t a b c d) {i : Nat} (hi : i < 4) : (nodeEdges m t i).length = 3 := by
  let P : List Nat → Bool := fun s => s.getD 0 0 = tetNode m t i ∨ s.getD 1 0 = tetNode m t i
  have h1 : (nodeEdges m t i).length = (((tables m).tetEdge.getD t []).map fun x => nodesOf m.edges x.edge).countP P := by
    have e : ((tables m).tetEdge.getD t []) = (List.range ((tables m).tetEdge.getD t []).length).map fun j => edgeDataAt m t j := by
      refine List.ext_getElem (by simp) fun j h1 h2 => ?_
      rw [List.getElem_map, List.getElem_range, edgeDataAt, getD_get h1]
    rw [nodeEdges, ← List.countP_eq_length_filter]
    conv_rhs => rw [e]
    rw [List.map_map, List.countP_map]
    rfl
  rw [h1, hT.perm.countP_eq]
  have h1 := hT.ab
  have h2 := hT.bc
  have h3 := hT.cd
  have n1 : a ≠ b := by omega
  have n2 : a ≠ c := by omega
  have n3 : a ≠ d := by omega
  have n4 : b ≠ c := by omega
  have n5 : b ≠ d := by omega
  have n6 : c ≠ d := by omega
  simp only [P, hT.node]
  interval_cases i <;> simp [List.countP_cons, n1, n2, n3, n4, n5, n6, n1.symm, n2.symm, n3.symm, n4.symm, n5.symm, n6.symm]

/-! ### Vectors of the nodes -/

theorem dot_unit (m : Mesh) (pos : Pos) (i : Nat) (x : V3) :
    V3.dot (V3.sub (pos (edgeNode m i 1)) (pos (edgeNode m i 0))) x =
      V3.mag (V3.sub (pos (edgeNode m i 1)) (pos (edgeNode m i 0))) * V3.dot (unitVec m pos i) x := by
  simp only [unitVec]
  by_cases h : V3.mag (V3.sub (pos (edgeNode m i 1)) (pos (edgeNode m i 0))) = 0
  · rw [h, mag_eq_zero h]
    simp [V3.dot]
  · generalize V3.mag (V3.sub (pos (edgeNode m i 1)) (pos (edgeNode m i 0))) = L at *
    simp only [V3.dot]
    field_simp

theorem perp_all (hT : TetOf m t a b c d) {pos : Pos} (hg : GoodTet m pos t) {i : Nat} (hi : i < 4) {x : V3}
    (h : ∀ j ∈ nodeEdges m t i, V3.dot (tetUnit m pos t j) x = 0) : x = ⟨0, 0, 0⟩ := by
  have key : ∀ i' < 4, V3.dot (V3.sub (pos (tetNode m t i')) (pos (tetNode m t i))) x = 0 := by
    intro i' hi'
    rcases lt_trichotomy i i' with hlt | rfl | hlt
    · obtain ⟨j, hj, e0, e1⟩ := hT.join hlt hi'
      have := h j (hT.mem_nodeEdges.2 ⟨hj, .inl e0⟩)
      have hd := dot_unit m pos (tetEdgeNo m t j) x
      rw [e0, e1] at hd
      rw [hd]
      rw [tetUnit] at this
      rw [this, mul_zero]
    · simp [V3.sub, V3.dot]
    · obtain ⟨j, hj, e0, e1⟩ := hT.join hlt hi
      have := h j (hT.mem_nodeEdges.2 ⟨hj, .inr e1⟩)
      have hd := dot_unit m pos (tetEdgeNo m t j) x
      rw [e0, e1] at hd
      rw [tetUnit] at this
      rw [this, mul_zero] at hd
      simp only [V3.dot, V3.sub] at hd ⊢
      linarith
  have hcorner : ∀ k, corner4 m pos t k = pos (tetNode m t k) := fun k => rfl
  unfold GoodTet at hg
  refine perp_zero hg ?_ ?_ ?_ <;> rw [hcorner, hcorner]
  · have k0 := key 0 (by omega)
    have k1 := key 1 (by omega)
    simp only [V3.dot, V3.sub] at k0 k1 ⊢
    linarith
  · have k0 := key 0 (by omega)
    have k1 := key 2 (by omega)
    simp only [V3.dot, V3.sub] at k0 k1 ⊢
    linarith
  · have k0 := key 0 (by omega)
    have k1 := key 3 (by omega)
    simp only [V3.dot, V3.sub] at k0 k1 ⊢
    linarith

theorem nodeVector_spec (hT : TetOf m t a b c d) {pos : Pos} (hg : GoodTet m pos t) (ed : Nat → ℝ) {i : Nat} (hi : i < 4) :
    ∃ w, nodeVector m pos t ed i = some w ∧ ∀ j ∈ nodeEdges m t i, V3.dot (tetUnit m pos t j) w = ed j := by
  have h3 := hT.three hi
  have hp := fun x => perp_all hT hg hi (x := x)
  unfold nodeVector
  generalize nodeEdges m t i = l at *
  match l, h3 with
  | [j0, j1, j2], _ =>
    have hdet : det3 (tetUnit m pos t j0) (tetUnit m pos t j1) (tetUnit m pos t j2) ≠ 0 := by
      intro h0
      obtain ⟨x, hx, x0, x1, x2⟩ := kernel_of_det3 h0
      refine hx (hp x ?_)
      simp [x0, x1, x2]
    obtain ⟨w, e, e0, e1, e2⟩ := solve3_spec hdet (ed j0) (ed j1) (ed j2)
    refine ⟨w, e, ?_⟩
    simp [e0, e1, e2]

theorem nodeVector_unique (hT : TetOf m t a b c d) {pos : Pos} (hg : GoodTet m pos t) (ed : Nat → ℝ) {i : Nat} (hi : i < 4) {w : V3}
    (h : ∀ j ∈ nodeEdges m t i, V3.dot (tetUnit m pos t j) w = ed j) : nodeVector m pos t ed i = some w := by
  obtain ⟨w', e, h'⟩ := nodeVector_spec hT hg ed hi
  rw [e]
  have := perp_all hT hg hi (x := V3.sub w' w) fun j hj => by
    have e1 := h j hj
    have e2 := h' j hj
    simp only [V3.dot, V3.sub] at e1 e2 ⊢
    linarith
  simp only [V3.sub, V3.mk.injEq] at this
  congr 1
  ext <;> linarith [this.1, this.2.1, this.2.2]

/-! ### The arrays -/

theorem endOf_some {e v k : Nat} (h : endOf m e v = some k) : k < 2 ∧ edgeNode m e k = v := by
  unfold endOf at h
  split at h
  · next h0 => cases h; exact ⟨by omega, h0⟩
  · split at h
    · next h1 => cases h; exact ⟨by omega, h1⟩
    · cases h

theorem endOf_eq {e : Nat} (hne : edgeNode m e 0 ≠ edgeNode m e 1) {k : Nat} (hk : k < 2) : endOf m e (edgeNode m e k) = some k := by
  unfold endOf
  interval_cases k
  · rw [if_pos rfl]
  · rw [if_neg hne, if_pos rfl]

theorem endOf_edges (hT : TetOf m t a b c d) {i j : Nat} (hj : j ∈ nodeEdges m t i) :
    ∃ k, endOf m (tetEdgeNo m t j) (tetNode m t i) = some k := by
  unfold endOf
  rcases (hT.mem_nodeEdges.1 hj).2 with h | h
  · exact ⟨0, by rw [if_pos h]⟩
  · by_cases h0 : edgeNode m (tetEdgeNo m t j) 0 = tetNode m t i
    · exact ⟨0, by rw [if_pos h0]⟩
    · exact ⟨1, by rw [if_neg h0, if_pos h]⟩

/-- Entry `(j, k)` of the array is the vector of the node at end `k` of edge `j`. -/
theorem fieldPairs3_spec (hT : TetOf m t a b c d) {pos : Pos} (hg : GoodTet m pos t) (ed : Nat → ℝ) (s : Nat → Nat → V3) :
    ∃ p, fieldPairs3 m pos t ed s = some p ∧ ∀ j < 6, ∀ k < 2, ∀ i < 4, edgeNode m (tetEdgeNo m t j) k = tetNode m t i →
      nodeVector m pos t ed i = some (p j k) := by
  obtain ⟨w0, e0, -⟩ := nodeVector_spec hT hg ed (i := 0) (by omega)
  obtain ⟨w1, e1, -⟩ := nodeVector_spec hT hg ed (i := 1) (by omega)
  obtain ⟨w2, e2, -⟩ := nodeVector_spec hT hg ed (i := 2) (by omega)
  obtain ⟨w3, e3, -⟩ := nodeVector_spec hT hg ed (i := 3) (by omega)
  have hv : [0, 1, 2, 3].mapM (nodeVector m pos t ed) = some [w0, w1, w2, w3] := by simp [e0, e1, e2, e3]
  have hval : ∀ i < 4, nodeVector m pos t ed i = some ([w0, w1, w2, w3].getD i ⟨0, 0, 0⟩) := by
    intro i hi
    interval_cases i <;> assumption
  let R : Nat → Nat × Nat → V3 → Prop := fun i key v =>
    key.1 ∈ nodeEdges m t i ∧ endOf m (tetEdgeNo m t key.1) (tetNode m t i) = some key.2 ∧ v = [w0, w1, w2, w3].getD i ⟨0, 0, 0⟩
  obtain ⟨p, hp, hw⟩ := foldlM_writes (S := Nat → Nat → V3) (fun s (key : Nat × Nat) => s key.1 key.2)
    (fun s i => (nodeEdges m t i).foldlM (pairStep3 m t i ([w0, w1, w2, w3].getD i ⟨0, 0, 0⟩)) s) R [0, 1, 2, 3] (by
      intro i hi s
      obtain ⟨s', hs', h⟩ := foldlM_writes (S := Nat → Nat → V3) (fun s (key : Nat × Nat) => s key.1 key.2)
        (pairStep3 m t i ([w0, w1, w2, w3].getD i ⟨0, 0, 0⟩))
        (fun j key v => key.1 = j ∧ endOf m (tetEdgeNo m t j) (tetNode m t i) = some key.2 ∧ v = [w0, w1, w2, w3].getD i ⟨0, 0, 0⟩)
        (nodeEdges m t i) (by
          intro j hj s
          obtain ⟨k, hk⟩ := endOf_edges hT hj
          refine ⟨_, by rw [pairStep3, hk]; rfl, fun key => ?_⟩
          simp only [set2]
          by_cases hkey : key.1 = j ∧ key.2 = k
          · left
            rw [if_pos hkey]
            exact ⟨hkey.1, by rw [hk, hkey.2], rfl⟩
          · right
            rw [if_neg hkey]
            refine ⟨fun v hv => hkey ⟨hv.1, ?_⟩, rfl⟩
            have := hv.2.1
            rw [hk] at this
            exact (Option.some.inj this).symm) s
      refine ⟨s', hs', fun key => ?_⟩
      rcases h key with ⟨j, hj, rfl, h1, h2⟩ | ⟨hn, he⟩
      · exact .inl ⟨hj, h1, h2⟩
      · exact .inr ⟨fun v hv => hn key.1 hv.1 v ⟨rfl, hv.2.1, hv.2.2⟩, he⟩) s
  refine ⟨p, by simp only [fieldPairs3, hv, Option.bind_eq_bind, Option.bind_some]; exact hp, ?_⟩
  intro j hj k hk i hi he
  have hend : endOf m (tetEdgeNo m t j) (tetNode m t i) = some k := by rw [← he]; exact endOf_eq (hT.ne hj) hk
  have hmem : j ∈ nodeEdges m t i := hT.mem_nodeEdges.2 ⟨hj, by interval_cases k <;> simp [he]⟩
  rcases hw (j, k) with ⟨i', hi', hr⟩ | ⟨hn, -⟩
  · obtain ⟨-, h1, h2⟩ := hr
    have := (endOf_some h1).2
    rw [he] at this
    have hi4 : i' < 4 := by simp at hi'; omega
    obtain rfl := hT.inj hi hi4 this
    rw [hval i hi]
    exact congrArg some h2.symm
  · exact absurd ⟨hmem, hend, rfl⟩ (hn i (by simp; omega) _)

/-! ### Values -/

theorem half_dot {u x y : V3} {e : ℝ} (hx : V3.dot u x = e) (hy : V3.dot u y = e) : V3.dot u (half x y) = e := by
  simp only [half, V3.dot, V3.smul, V3.add] at *
  linarith

theorem half_self (x : V3) : half x x = x := by
  unfold half V3.smul V3.add
  ext <;> simp only <;> ring

theorem entry_proj (hT : TetOf m t a b c d) {pos : Pos} (hg : GoodTet m pos t) {ed : Nat → ℝ} {p : Nat → Nat → V3}
    (h : ∀ j < 6, ∀ k < 2, ∀ i < 4, edgeNode m (tetEdgeNo m t j) k = tetNode m t i → nodeVector m pos t ed i = some (p j k))
    {j : Nat} (hj : j < 6) {k : Nat} (hk : k < 2) :
    ∀ j' < 6, (∃ k' < 2, edgeNode m (tetEdgeNo m t j') k' = edgeNode m (tetEdgeNo m t j) k) → V3.dot (tetUnit m pos t j') (p j k) = ed j' := by
  obtain ⟨q0, q1, h1, h2, -, e0, e1⟩ := hT.edge hj
  obtain ⟨i, hi, he⟩ : ∃ i < 4, edgeNode m (tetEdgeNo m t j) k = tetNode m t i := by
    interval_cases k
    · exact ⟨q0, by omega, e0⟩
    · exact ⟨q1, h2, e1⟩
  obtain ⟨w, hw, hp⟩ := nodeVector_spec hT hg ed hi
  have := h j hj k hk i hi he
  rw [hw] at this
  obtain rfl := Option.some.inj this
  rintro j' hj' ⟨k', hk', e'⟩
  refine hp j' (hT.mem_nodeEdges.2 ⟨hj', ?_⟩)
  rw [he] at e'
  interval_cases k'
  · exact .inl e'
  · exact .inr e'

theorem entry_const (hT : TetOf m t a b c d) {pos : Pos} (hg : GoodTet m pos t) {ed : Nat → ℝ} {p : Nat → Nat → V3}
    (h : ∀ j < 6, ∀ k < 2, ∀ i < 4, edgeNode m (tetEdgeNo m t j) k = tetNode m t i → nodeVector m pos t ed i = some (p j k))
    {E : V3} (hE : ∀ j < 6, ed j = V3.dot (tetUnit m pos t j) E) {j : Nat} (hj : j < 6) {k : Nat} (hk : k < 2) : p j k = E := by
  obtain ⟨q0, q1, h1, h2, -, e0, e1⟩ := hT.edge hj
  obtain ⟨i, hi, he⟩ : ∃ i < 4, edgeNode m (tetEdgeNo m t j) k = tetNode m t i := by
    interval_cases k
    · exact ⟨q0, by omega, e0⟩
    · exact ⟨q1, h2, e1⟩
  have := h j hj k hk i hi he
  rw [nodeVector_unique hT hg ed hi (w := E) fun j' hj' => (hE j' (hT.mem_nodeEdges.1 hj').1).symm] at this
  exact (Option.some.inj this).symm

end

/-- **Values on every edge**: on a tetrahedron with a volume `element_from_edge_model` gives one vector for each edge; it has
the given value in the direction of its edge. -/
theorem elementField3_spec {m : Mesh} (h : m.Good) (hc : m.Complete) {pos : Pos} {t : Nat} (ht : t < m.tets.length)
    (hg : GoodTet m pos t) (ed : Nat → ℝ) (s : Nat → Nat → V3) :
    ∃ r, elementField3 m pos t ed s = some r ∧ r.length = 6 ∧
      ∀ j < 6, ∃ w, r[j]? = some w ∧ V3.dot (tetUnit m pos t j) w = ed j := by
  obtain ⟨a, b, c, d, hT⟩ := tetOf h hc ht
  obtain ⟨p, hp, hs⟩ := fieldPairs3_spec hT hg ed s
  refine ⟨(List.range 6).map fun j => half (p j 0) (p j 1), by simp [elementField3, hp], by simp, fun j hj => ⟨half (p j 0) (p j 1), ?_, ?_⟩⟩
  · simp [List.getElem?_map, List.getElem?_range hj]
  · exact half_dot (entry_proj hT hg hs hj (k := 0) (by omega) j hj ⟨0, by omega, rfl⟩)
      (entry_proj hT hg hs hj (k := 1) (by omega) j hj ⟨1, by omega, rfl⟩)

/-- **A constant field is found exactly** on every edge of every tetrahedron with a volume. -/
theorem elementField3_constant {m : Mesh} (h : m.Good) (hc : m.Complete) {pos : Pos} {t : Nat} (ht : t < m.tets.length)
    (hg : GoodTet m pos t) {ed : Nat → ℝ} (s : Nat → Nat → V3) (E : V3) (hE : ∀ j < 6, ed j = V3.dot (tetUnit m pos t j) E) :
    elementField3 m pos t ed s = some (List.replicate 6 E) := by
  obtain ⟨a, b, c, d, hT⟩ := tetOf h hc ht
  obtain ⟨p, hp, hs⟩ := fieldPairs3_spec hT hg ed s
  have : ∀ j ∈ List.range 6, half (p j 0) (p j 1) = E := fun j hj => by
    have hj' := List.mem_range.1 hj
    rw [entry_const hT hg hs hE hj' (by omega), entry_const hT hg hs hE hj' (by omega), half_self]
  simp only [elementField3, hp, Option.bind_eq_bind, Option.bind_some, Option.pure_def]
  rw [List.map_congr_left this]
  simp

/-- **Pairs**: the vector at each end of an edge has the given values in the direction of all three edges of the tetrahedron at
that node, and no other vector has. -/
theorem elementPairs3_spec {m : Mesh} (h : m.Good) (hc : m.Complete) {pos : Pos} {t : Nat} (ht : t < m.tets.length)
    (hg : GoodTet m pos t) (ed : Nat → ℝ) (s : Nat → Nat → V3) :
    ∃ r0 r1, elementPairs3 m pos t ed s = some (r0, r1) ∧ r0.length = 6 ∧ r1.length = 6 ∧
      ∀ j < 6, ∀ k < 2, ∃ w, (if k = 0 then r0 else r1)[j]? = some w ∧
        ∀ j' < 6, (∃ k' < 2, edgeNode m (tetEdgeNo m t j') k' = edgeNode m (tetEdgeNo m t j) k) → V3.dot (tetUnit m pos t j') w = ed j' := by
  obtain ⟨a, b, c, d, hT⟩ := tetOf h hc ht
  obtain ⟨p, hp, hs⟩ := fieldPairs3_spec hT hg ed s
  refine ⟨(List.range 6).map fun j => p j 0, (List.range 6).map fun j => p j 1, by simp [elementPairs3, hp], by simp, by simp,
    fun j hj k hk => ⟨p j k, ?_, entry_proj hT hg hs hj hk⟩⟩
  interval_cases k <;> simp [List.getElem?_map, List.getElem?_range hj]

theorem elementPairs3_constant {m : Mesh} (h : m.Good) (hc : m.Complete) {pos : Pos} {t : Nat} (ht : t < m.tets.length)
    (hg : GoodTet m pos t) {ed : Nat → ℝ} (s : Nat → Nat → V3) (E : V3) (hE : ∀ j < 6, ed j = V3.dot (tetUnit m pos t j) E) :
    elementPairs3 m pos t ed s = some (List.replicate 6 E, List.replicate 6 E) := by
  obtain ⟨a, b, c, d, hT⟩ := tetOf h hc ht
  obtain ⟨p, hp, hs⟩ := fieldPairs3_spec hT hg ed s
  have : ∀ k < 2, ∀ j ∈ List.range 6, p j k = E := fun k hk j hj => entry_const hT hg hs hE (List.mem_range.1 hj) hk
  simp only [elementPairs3, hp, Option.bind_eq_bind, Option.bind_some, Option.pure_def]
  rw [List.map_congr_left (this 0 (by omega)), List.map_congr_left (this 1 (by omega))]
  simp

theorem tet_edgeLength_pos {m : Mesh} {t a b c d : Nat} (hT : TetOf m t a b c d) {pos : Pos} (hg : GoodTet m pos t) {j : Nat} (hj : j < 6) :
    0 < edgeLength m pos (tetEdgeNo m t j) := by
  refine lt_of_le_of_ne (V3.mag_nonneg _) (Ne.symm fun h0 => ?_)
  obtain ⟨p, q, h1, h2, -, e0, e1⟩ := hT.edge hj
  have hz := mag_eq_zero h0
  rw [e0, e1] at hz
  simp only [V3.sub, V3.mk.injEq] at hz
  have heq : corner4 m pos t p = corner4 m pos t q := by
    show pos (tetNode m t p) = pos (tetNode m t q)
    ext <;> linarith [hz.1, hz.2.1, hz.2.2]
  refine hg ?_
  generalize corner4 m pos t = f at *
  interval_cases q <;> interval_cases p <;> rw [heq] <;> simp only [det4, V3.dot, V3.cross, V3.sub] <;> ring

/-- **From the nodes to the tetrahedra**: for node values that are a linear function of the position, the vectors that
`element_from_edge_model` makes of the gradient model are the gradient of the function. -/
theorem elementField3_gradient {m : Mesh} (h : m.Good) (hc : m.Complete) {pos : Pos} {t : Nat} (ht : t < m.tets.length)
    (hg : GoodTet m pos t) (s : Nat → Nat → V3) (g : V3) (c0 : ℝ) :
    elementField3 m pos t (edgeData3 m t (averageModel .gradient m pos fun n => V3.dot g (pos n) + c0)) s = some (List.replicate 6 g) := by
  obtain ⟨a, b, c, d, hT⟩ := tetOf h hc ht
  refine elementField3_constant h hc ht hg s g fun j hj => ?_
  rw [edgeData3, gradient_linear (tet_edgeLength_pos hT hg hj) g c0]
  simp only [V3.dot, tetUnit]
  ring

theorem entry_scratch {m : Mesh} {t a b c d : Nat} (hT : TetOf m t a b c d) {pos : Pos} {ed : Nat → ℝ} {p p' : Nat → Nat → V3}
    (h : ∀ j < 6, ∀ k < 2, ∀ i < 4, edgeNode m (tetEdgeNo m t j) k = tetNode m t i → nodeVector m pos t ed i = some (p j k))
    (h' : ∀ j < 6, ∀ k < 2, ∀ i < 4, edgeNode m (tetEdgeNo m t j) k = tetNode m t i → nodeVector m pos t ed i = some (p' j k))
    {j : Nat} (hj : j < 6) {k : Nat} (hk : k < 2) : p j k = p' j k := by
  obtain ⟨q0, q1, h1, h2, -, e0, e1⟩ := hT.edge hj
  obtain ⟨i, hi, he⟩ : ∃ i < 4, edgeNode m (tetEdgeNo m t j) k = tetNode m t i := by
    interval_cases k
    · exact ⟨q0, by omega, e0⟩
    · exact ⟨q1, h2, e1⟩
  have e := h j hj k hk i hi he
  rw [h' j hj k hk i hi he] at e
  exact (Option.some.inj e).symm

/-- **Nothing is left of another tetrahedron.** -/
theorem elementField3_scratch {m : Mesh} (h : m.Good) (hc : m.Complete) {pos : Pos} {t : Nat} (ht : t < m.tets.length)
    (hg : GoodTet m pos t) (ed : Nat → ℝ) (s s' : Nat → Nat → V3) : elementField3 m pos t ed s = elementField3 m pos t ed s' := by
  obtain ⟨a, b, c, d, hT⟩ := tetOf h hc ht
  obtain ⟨p, hp, hs⟩ := fieldPairs3_spec hT hg ed s
  obtain ⟨p', hp', hs'⟩ := fieldPairs3_spec hT hg ed s'
  simp only [elementField3, hp, hp', Option.bind_eq_bind, Option.bind_some, Option.pure_def, Option.some.injEq]
  refine List.map_congr_left fun j hj => ?_
  have hj' := List.mem_range.1 hj
  rw [entry_scratch hT hs hs' hj' (k := 0) (by omega), entry_scratch hT hs hs' hj' (k := 1) (by omega)]

/-! ### Derivatives -/

/-- A component of a vector in space. -/
def comp3 (ax : Nat) (w : V3) : ℝ := if ax = 0 then w.x else if ax = 1 then w.y else w.z

theorem solve3_hasDerivAt (u v w : V3) {f g k : ℝ → ℝ} {f' g' k' s : ℝ} (hf : HasDerivAt f f' s) (hg : HasDerivAt g g' s)
    (hk : HasDerivAt k k' s) (ax : Nat) :
    HasDerivAt (fun s => comp3 ax ((solve3 u v w (f s) (g s) (k s)).getD ⟨0, 0, 0⟩)) (comp3 ax ((solve3 u v w f' g' k').getD ⟨0, 0, 0⟩)) s := by
  unfold solve3
  by_cases h : det3 u v w = 0
  · simp only [if_pos h, Option.getD_none]
    exact (hasDerivAt_const s (comp3 ax ⟨0, 0, 0⟩)).congr_deriv (by unfold comp3; split_ifs <;> rfl)
  · simp only [if_neg h, Option.getD_some]
    unfold comp3
    split_ifs
    · exact (((hf.const_mul _).add (hg.const_mul _)).add (hk.const_mul _)).mul_const _
    · exact (((hf.const_mul _).add (hg.const_mul _)).add (hk.const_mul _)).mul_const _
    · exact (((hf.const_mul _).add (hg.const_mul _)).add (hk.const_mul _)).mul_const _

theorem nodeVector_hasDerivAt (m : Mesh) (pos : Pos) (t : Nat) {ed : ℝ → Nat → ℝ} {ed' : Nat → ℝ} {s : ℝ} (i : Nat)
    (h : ∀ j ∈ nodeEdges m t i, HasDerivAt (fun s => ed s j) (ed' j) s) (ax : Nat) :
    HasDerivAt (fun s => comp3 ax ((nodeVector m pos t (ed s) i).getD ⟨0, 0, 0⟩)) (comp3 ax ((nodeVector m pos t ed' i).getD ⟨0, 0, 0⟩)) s := by
  unfold nodeVector
  generalize nodeEdges m t i = l at *
  match l with
  | [j0, j1, j2] => exact solve3_hasDerivAt _ _ _ (h j0 (by simp)) (h j1 (by simp)) (h j2 (by simp)) ax
  | [] | [_] | [_, _] | _ :: _ :: _ :: _ :: _ =>
    exact (hasDerivAt_const s (comp3 ax ⟨0, 0, 0⟩)).congr_deriv (by unfold comp3; split_ifs <;> rfl)

/-- The four nodes of the tetrahedron, seen from edge `j`. -/
theorem localNode3_spec {m : Mesh} (h : m.Good) (hc : m.Complete) {t : Nat} (ht : t < m.tets.length) {a b c d : Nat} (hT : TetOf m t a b c d)
    {j : Nat} (hj : j < 6) :
    (∀ nd < 4, ∃ jd < 4, localNode3 m t j nd = tetNode m t jd ∧ derIndex3 m t j (tetNode m t jd) = some nd) ∧
    (∀ jd < 4, ∃ nd < 4, derIndex3 m t j (tetNode m t jd) = some nd ∧ localNode3 m t j nd = tetNode m t jd) ∧
    (nodesOf m.tets t).Perm [localNode3 m t j 0, localNode3 m t j 1, localNode3 m t j 2, localNode3 m t j 3] := by
  have hl : j < ((tables m).tetEdge.getD t []).length := by rw [hT.length]; exact hj
  have hmem : edgeDataAt m t j ∈ (tables m).tetEdge.getD t [] := by
    rw [edgeDataAt, getD_get hl]; exact List.getElem_mem hl
  have htt := nodesOf_get ht
  rw [hT.nodes] at htt
  obtain ⟨p, q, hpq, hq, he, -, ho⟩ := tet_edge_data h hc htt hmem
  have hnodes := (get_nodesOf he).1
  have h1 := hT.ab
  have h2 := hT.bc
  have h3 := hT.cd
  have n1 : a ≠ b := by omega
  have n2 : a ≠ c := by omega
  have n3 : a ≠ d := by omega
  have n4 : b ≠ c := by omega
  have n5 : b ≠ d := by omega
  have n6 : c ≠ d := by omega
  have t0 : tetNode m t 0 = a := by rw [hT.node]; rfl
  have t1 : tetNode m t 1 = b := by rw [hT.node]; rfl
  have t2 : tetNode m t 2 = c := by rw [hT.node]; rfl
  have t3 : tetNode m t 3 = d := by rw [hT.node]; rfl
  -- what to show in each of the six cases
  have key : ∀ x y z w : Nat, edgeNode m (tetEdgeNo m t j) 0 = x → edgeNode m (tetEdgeNo m t j) 1 = y →
      (edgeDataAt m t j).opp = [some z, some w] → [a, b, c, d].Perm [x, y, z, w] →
      (∀ nd < 4, ∃ jd < 4, localNode3 m t j nd = tetNode m t jd ∧ derIndex3 m t j (tetNode m t jd) = some nd) ∧
      (∀ jd < 4, ∃ nd < 4, derIndex3 m t j (tetNode m t jd) = some nd ∧ localNode3 m t j nd = tetNode m t jd) ∧
      (nodesOf m.tets t).Perm [localNode3 m t j 0, localNode3 m t j 1, localNode3 m t j 2, localNode3 m t j 3] := by
    intro x y z w ex ey eo hp
    have l0 : localNode3 m t j 0 = x := by simp [localNode3, ex]
    have l1 : localNode3 m t j 1 = y := by simp [localNode3, ey]
    have l2 : localNode3 m t j 2 = z := by simp [localNode3, eo]
    have l3 : localNode3 m t j 3 = w := by simp [localNode3, eo]
    have hnd : [x, y, z, w].Nodup := hp.nodup_iff.1 (by simp [n1, n2, n3, n4, n5, n6])
    simp only [List.nodup_cons, List.mem_cons, List.not_mem_nil, or_false, not_or, List.nodup_nil, and_true, not_false_iff] at hnd
    obtain ⟨⟨xy, xz, xw⟩, ⟨yz, yw⟩, zw⟩ := hnd
    have d0 : derIndex3 m t j x = some 0 := by simp [derIndex3, ex]
    have d1 : derIndex3 m t j y = some 1 := by simp [derIndex3, ex, ey, xy]
    have d2 : derIndex3 m t j z = some 2 := by simp [derIndex3, ex, ey, eo, xz, yz]
    have d3 : derIndex3 m t j w = some 3 := by simp [derIndex3, ex, ey, eo, xw, yw, zw]
    have hfind : ∀ v ∈ [x, y, z, w], ∃ jd < 4, tetNode m t jd = v := by
      intro v hv
      rw [← hp.mem_iff] at hv
      simp only [List.mem_cons, List.not_mem_nil, or_false] at hv
      rcases hv with rfl | rfl | rfl | rfl
      · exact ⟨0, by omega, t0⟩
      · exact ⟨1, by omega, t1⟩
      · exact ⟨2, by omega, t2⟩
      · exact ⟨3, by omega, t3⟩
    have hall : ∀ jd < 4, tetNode m t jd ∈ [x, y, z, w] := by
      intro jd hjd
      rw [← hp.mem_iff]
      interval_cases jd <;> simp [t0, t1, t2, t3]
    refine ⟨fun nd hnd => ?_, fun jd hjd => ?_, ?_⟩
    · obtain ⟨jd, hjd, e⟩ := hfind (localNode3 m t j nd) (by interval_cases nd <;> simp [l0, l1, l2, l3])
      refine ⟨jd, hjd, e.symm, ?_⟩
      rw [e]
      interval_cases nd
      · rw [l0]; exact d0
      · rw [l1]; exact d1
      · rw [l2]; exact d2
      · rw [l3]; exact d3
    · have := hall jd hjd
      simp only [List.mem_cons, List.not_mem_nil, or_false] at this
      rcases this with e | e | e | e <;> rw [e]
      · exact ⟨0, by omega, d0, l0⟩
      · exact ⟨1, by omega, d1, l1⟩
      · exact ⟨2, by omega, d2, l2⟩
      · exact ⟨3, by omega, d3, l3⟩
    · rw [hT.nodes, l0, l1, l2, l3]
      exact hp
  have he0 : ∀ k, edgeNode m (tetEdgeNo m t j) k = ((([a, b, c, d] : List Nat).eraseIdx q).eraseIdx p).getD k 0 := fun k => by
    rw [edgeNode, tetEdgeNo, hnodes]
  interval_cases q <;> interval_cases p
  · exact key c d b a (he0 0) (he0 1) ho (by
      rw [List.perm_iff_count]; intro v; simp only [List.count_cons, List.count_nil]; omega)
  · exact key b d c a (he0 0) (he0 1) ho (by
      rw [List.perm_iff_count]; intro v; simp only [List.count_cons, List.count_nil]; omega)
  · exact key a d c b (he0 0) (he0 1) ho (by
      rw [List.perm_iff_count]; intro v; simp only [List.count_cons, List.count_nil]; omega)
  · exact key b c d a (he0 0) (he0 1) ho (by
      rw [List.perm_iff_count]; intro v; simp only [List.count_cons, List.count_nil]; omega)
  · exact key a c d b (he0 0) (he0 1) ho (by
      rw [List.perm_iff_count]; intro v; simp only [List.count_cons, List.count_nil]; omega)
  · exact key a b d c (he0 0) (he0 1) ho (by
      rw [List.perm_iff_count]; intro v; simp only [List.count_cons, List.count_nil]; omega)

/-- `element_from_node_model` on a tetrahedron: the values on the four nodes. -/
theorem elementFromNode3_spec {m : Mesh} (h : m.Good) (hc : m.Complete) {t : Nat} (ht : t < m.tets.length) (nv : Nat → ℝ)
    {j : Nat} (hj : j < 6) :
    elementFromNode3 m nv t j =
      (nv (localNode3 m t j 0), nv (localNode3 m t j 1), nv (localNode3 m t j 2), nv (localNode3 m t j 3)) ∧
    (nodesOf m.tets t).Perm [localNode3 m t j 0, localNode3 m t j 1, localNode3 m t j 2, localNode3 m t j 3] := by
  obtain ⟨a, b, c, d, hT⟩ := tetOf h hc ht
  exact ⟨rfl, (localNode3_spec h hc ht hT hj).2.2⟩

/-- Entry `(nd, j, k)` of the array: the derivative by the node `nd` of edge `j` of the vector of the node at end `k` of edge `j`. -/
theorem dfieldPairs3_spec {m : Mesh} (h : m.Good) (hc : m.Complete) {t : Nat} (ht : t < m.tets.length) {a b c d : Nat} (hT : TetOf m t a b c d)
    {pos : Pos} (hg : GoodTet m pos t) (ev0 ev1 : Nat → ℝ) (s : Nat → Nat → Nat → V3) :
    ∃ p, dfieldPairs3 m pos t ev0 ev1 s = some p ∧ ∀ nd < 4, ∀ j < 6, ∀ k < 2, ∀ i < 4, edgeNode m (tetEdgeNo m t j) k = tetNode m t i →
      nodeVector m pos t (dvals3 m t ev0 ev1 (localNode3 m t j nd)) i = some (p nd j k) := by
  have hrow : ∀ i < 4, ∃ row : List V3, [0, 1, 2, 3].mapM (dnodeVector m pos t ev0 ev1 i) = some row ∧
      ∀ jd < 4, dnodeVector m pos t ev0 ev1 i jd = some (row.getD jd ⟨0, 0, 0⟩) := by
    intro i hi
    obtain ⟨w0, e0, -⟩ := nodeVector_spec hT hg (dvals3 m t ev0 ev1 (tetNode m t 0)) hi
    obtain ⟨w1, e1, -⟩ := nodeVector_spec hT hg (dvals3 m t ev0 ev1 (tetNode m t 1)) hi
    obtain ⟨w2, e2, -⟩ := nodeVector_spec hT hg (dvals3 m t ev0 ev1 (tetNode m t 2)) hi
    obtain ⟨w3, e3, -⟩ := nodeVector_spec hT hg (dvals3 m t ev0 ev1 (tetNode m t 3)) hi
    refine ⟨[w0, w1, w2, w3], by simp [dnodeVector, e0, e1, e2, e3], fun jd hjd => ?_⟩
    interval_cases jd <;> assumption
  obtain ⟨r0, m0, g0⟩ := hrow 0 (by omega)
  obtain ⟨r1, m1, g1⟩ := hrow 1 (by omega)
  obtain ⟨r2, m2, g2⟩ := hrow 2 (by omega)
  obtain ⟨r3, m3, g3⟩ := hrow 3 (by omega)
  have hvs : [0, 1, 2, 3].mapM (fun i => [0, 1, 2, 3].mapM (dnodeVector m pos t ev0 ev1 i)) = some [r0, r1, r2, r3] := by
    have aux : ∀ f : Nat → Option (List V3), f 0 = some r0 → f 1 = some r1 → f 2 = some r2 → f 3 = some r3 →
        [0, 1, 2, 3].mapM f = some [r0, r1, r2, r3] := by
      intro f h0 h1 h2 h3
      simp [h0, h1, h2, h3]
    exact aux _ m0 m1 m2 m3
  let val : Nat → Nat → V3 := fun i jd => ([r0, r1, r2, r3].getD i []).getD jd ⟨0, 0, 0⟩
  have hval : ∀ i < 4, ∀ jd < 4, dnodeVector m pos t ev0 ev1 i jd = some (val i jd) := by
    intro i hi jd hjd
    interval_cases i
    · exact g0 jd hjd
    · exact g1 jd hjd
    · exact g2 jd hjd
    · exact g3 jd hjd
  let get : (Nat → Nat → Nat → V3) → Nat × Nat × Nat → V3 := fun s key => s key.1 key.2.1 key.2.2
  let R0 : Nat → Nat → Nat → Nat × Nat × Nat → V3 → Prop := fun i jd j key v =>
    key.2.1 = j ∧ derIndex3 m t j (tetNode m t jd) = some key.1 ∧ endOf m (tetEdgeNo m t j) (tetNode m t i) = some key.2.2 ∧ v = val i jd
  have hstep : ∀ i < 4, ∀ jd < 4, ∀ j ∈ nodeEdges m t i, ∀ s, ∃ s', dpairStep3 m t i jd (val i jd) s j = some s' ∧
      ∀ key, R0 i jd j key (get s' key) ∨ ((∀ v, ¬R0 i jd j key v) ∧ get s' key = get s key) := by
    intro i hi jd hjd j hj s
    obtain ⟨k, hk⟩ := endOf_edges hT hj
    obtain ⟨nd, -, hnd, -⟩ := (localNode3_spec h hc ht hT (hT.mem_nodeEdges.1 hj).1).2.1 jd hjd
    refine ⟨_, by rw [dpairStep3, hk, hnd]; rfl, fun key => ?_⟩
    simp only [set3, get]
    by_cases hkey : key.1 = nd ∧ key.2.1 = j ∧ key.2.2 = k
    · left
      rw [if_pos hkey]
      exact ⟨hkey.2.1, by rw [hnd, hkey.1], by rw [hk, hkey.2.2], rfl⟩
    · right
      rw [if_neg hkey]
      refine ⟨fun v hv => hkey ⟨?_, hv.1, ?_⟩, rfl⟩
      · have := hv.2.1
        rw [hnd] at this
        exact (Option.some.inj this).symm
      · have := hv.2.2.1
        rw [hk] at this
        exact (Option.some.inj this).symm
  have h4 : ∀ {i}, i ∈ [0, 1, 2, 3] → i < 4 := by intro i hi; simp at hi; omega
  obtain ⟨p, hp, hw⟩ := foldlM_writes get
    (fun s i => [0, 1, 2, 3].foldlM (fun s jd => (nodeEdges m t i).foldlM (dpairStep3 m t i jd (val i jd)) s) s)
    (fun i key v => ∃ jd ∈ [0, 1, 2, 3], ∃ j ∈ nodeEdges m t i, R0 i jd j key v) [0, 1, 2, 3] (by
      intro i hi s
      obtain ⟨s', hs', h1⟩ := foldlM_writes get (fun s jd => (nodeEdges m t i).foldlM (dpairStep3 m t i jd (val i jd)) s)
        (fun jd key v => ∃ j ∈ nodeEdges m t i, R0 i jd j key v) [0, 1, 2, 3] (by
          intro jd hjd s
          obtain ⟨s', hs', h2⟩ := foldlM_writes get (dpairStep3 m t i jd (val i jd)) (R0 i jd) (nodeEdges m t i)
            (hstep i (h4 hi) jd (h4 hjd)) s
          refine ⟨s', hs', fun key => ?_⟩
          rcases h2 key with h3 | ⟨hn, he⟩
          · exact .inl h3
          · exact .inr ⟨fun v ⟨j, hj, hr⟩ => hn j hj v hr, he⟩) s
      refine ⟨s', hs', fun key => ?_⟩
      rcases h1 key with h3 | ⟨hn, he⟩
      · exact .inl h3
      · exact .inr ⟨fun v ⟨jd, hjd, hr⟩ => hn jd hjd v hr, he⟩) s
  refine ⟨p, by simp only [dfieldPairs3, hvs, Option.bind_eq_bind, Option.bind_some]; exact hp, ?_⟩
  intro nd hnd j hj k hk i hi he
  obtain ⟨jd, hjd, hloc, hder⟩ := (localNode3_spec h hc ht hT hj).1 nd hnd
  have hend : endOf m (tetEdgeNo m t j) (tetNode m t i) = some k := by rw [← he]; exact endOf_eq (hT.ne hj) hk
  have hmem : j ∈ nodeEdges m t i := hT.mem_nodeEdges.2 ⟨hj, by interval_cases k <;> simp [he]⟩
  rcases hw (nd, j, k) with ⟨i', hi', jd', hjd', j', hj', e1, e2, e3, e4⟩ | ⟨hn, -⟩
  · simp only at e1 e2 e3
    subst e1
    have hi1 := (endOf_some e3).2
    rw [he] at hi1
    obtain rfl := hT.inj hi (h4 hi') hi1
    obtain ⟨nd', -, hd', hl'⟩ := (localNode3_spec h hc ht hT hj).2.1 jd' (h4 hjd')
    rw [e2] at hd'
    obtain rfl := Option.some.inj hd'
    have := hval i hi jd' (h4 hjd')
    rw [dnodeVector, ← hl'] at this
    rw [this]
    exact congrArg some e4.symm
  · exact absurd ⟨jd, by simp; omega, j, hmem, rfl, hder, hend, rfl⟩ (hn i (by simp; omega) (val i jd))

/-- The vector on edge `j` of the tetrahedron, for a variable with the values `u`. -/
noncomputable def fieldAt3 (m : Mesh) (pos : Pos) (t : Nat) (s : Nat → Nat → V3) (F : Nat → ℝ → ℝ → ℝ) (j : Nat) (u : Nat → ℝ) : V3 :=
  ((elementField3 m pos t (edgeData3 m t (edgeModel m F u)) s).getD []).getD j ⟨0, 0, 0⟩

/-- The vector at end `k` of edge `j` of the tetrahedron. -/
noncomputable def pairAt3 (m : Mesh) (pos : Pos) (t : Nat) (s : Nat → Nat → V3) (F : Nat → ℝ → ℝ → ℝ) (j k : Nat) (u : Nat → ℝ) : V3 :=
  let r := (elementPairs3 m pos t (edgeData3 m t (edgeModel m F u)) s).getD ([], [])
  (if k = 0 then r.1 else r.2).getD j ⟨0, 0, 0⟩

theorem half_hasDerivAt {x y : ℝ → V3} {x' y' : V3} {s : ℝ} (ax : Nat)
    (hx : HasDerivAt (fun s => comp3 ax (x s)) (comp3 ax x') s) (hy : HasDerivAt (fun s => comp3 ax (y s)) (comp3 ax y') s) :
    HasDerivAt (fun s => comp3 ax (half (x s) (y s))) (comp3 ax (half x' y')) s := by
  unfold comp3 at *
  split_ifs at *
  · exact (hx.add hy).mul_const (1 / 2)
  · exact (hx.add hy).mul_const (1 / 2)
  · exact (hx.add hy).mul_const (1 / 2)

/-- The derivative of the vector at one end of an edge. -/
theorem pairVec3_hasDerivAt {m : Mesh} (h : m.Good) (hc : m.Complete) {pos : Pos} {t : Nat} (ht : t < m.tets.length)
    (hg : GoodTet m pos t) {F : Nat → ℝ → ℝ → ℝ} {u ev0 ev1 : Nat → ℝ} (hd : EdgeDerivs m F u ev0 ev1) (s' : Nat → Nat → Nat → V3) :
    ∃ p, dfieldPairs3 m pos t ev0 ev1 s' = some p ∧ ∃ f : (Nat → ℝ) → Nat → Nat → V3,
      (∀ u s, ∃ q, fieldPairs3 m pos t (edgeData3 m t (edgeModel m F u)) s = some q ∧ ∀ j < 6, ∀ k < 2, q j k = f u j k) ∧
      ∀ nd < 4, ∀ j < 6, ∀ k < 2, ∀ ax, HasDerivAt (fun x => comp3 ax (f (Function.update u (localNode3 m t j nd) x) j k))
        (comp3 ax (p nd j k)) (u (localNode3 m t j nd)) := by
  obtain ⟨a, b, c, d, hT⟩ := tetOf h hc ht
  obtain ⟨p, hp, hs⟩ := dfieldPairs3_spec h hc ht hT hg ev0 ev1 s'
  have hends : ∀ j < 6, ∀ k < 2, ∃ i < 4, edgeNode m (tetEdgeNo m t j) k = tetNode m t i := by
    intro j hj k hk
    obtain ⟨q0, q1, h1, h2, -, e0, e1⟩ := hT.edge hj
    interval_cases k
    · exact ⟨q0, by omega, e0⟩
    · exact ⟨q1, h2, e1⟩
  choose! ie hie4 hie using hends
  refine ⟨p, hp, fun u j k => (nodeVector m pos t (edgeData3 m t (edgeModel m F u)) (ie j k)).getD ⟨0, 0, 0⟩, ?_, ?_⟩
  · intro u s
    obtain ⟨q, hq, hqs⟩ := fieldPairs3_spec hT hg (edgeData3 m t (edgeModel m F u)) s
    refine ⟨q, hq, fun j hj k hk => ?_⟩
    show q j k = (nodeVector m pos t (edgeData3 m t (edgeModel m F u)) (ie j k)).getD ⟨0, 0, 0⟩
    rw [hqs j hj k hk _ (hie4 j hj k hk) (hie j hj k hk)]
    rfl
  · intro nd hnd j hj k hk ax
    have := nodeVector_hasDerivAt m pos t (ed := fun x => edgeData3 m t (edgeModel m F (Function.update u (localNode3 m t j nd) x)))
      (ed' := dvals3 m t ev0 ev1 (localNode3 m t j nd)) (s := u (localNode3 m t j nd)) (ie j k)
      (fun j' hj' => edgeModel_hasDerivAt hd (hT.ne (hT.mem_nodeEdges.1 hj').1) _) ax
    rw [hs nd hnd j hj k hk _ (hie4 j hj k hk) (hie j hj k hk), Option.getD_some] at this
    exact this

/-- **Derivatives of the element field**: for every edge model, on every tetrahedron with a volume, the models `@en0` to `@en3` of
`element_from_edge_model` with a derivative exist and are the derivatives of the vectors by the variable on the nodes that
`element_from_node_model` gives the same names. -/
theorem elementFieldD3_spec {m : Mesh} (h : m.Good) (hc : m.Complete) {pos : Pos} {t : Nat} (ht : t < m.tets.length)
    (hg : GoodTet m pos t) {F : Nat → ℝ → ℝ → ℝ} {u ev0 ev1 : Nat → ℝ} (hd : EdgeDerivs m F u ev0 ev1) (s : Nat → Nat → V3)
    (s' : Nat → Nat → Nat → V3) :
    ∃ D, elementFieldD3 m pos t ev0 ev1 s' = some D ∧ ∀ nd < 4, ∀ j < 6, ∃ row w, D[nd]? = some row ∧ row[j]? = some w ∧
      ∀ ax, HasDerivAt (fun x => comp3 ax (fieldAt3 m pos t s F j (Function.update u (localNode3 m t j nd) x))) (comp3 ax w)
        (u (localNode3 m t j nd)) := by
  obtain ⟨p, hp, f, hf, hder⟩ := pairVec3_hasDerivAt h hc ht hg hd s'
  refine ⟨(List.range 4).map fun nd => (List.range 6).map fun j => half (p nd j 0) (p nd j 1), by simp [elementFieldD3, hp],
    fun nd hnd j hj => ?_⟩
  refine ⟨(List.range 6).map fun j => half (p nd j 0) (p nd j 1), half (p nd j 0) (p nd j 1), ?_, ?_, fun ax => ?_⟩
  · simp [List.getElem?_map, List.getElem?_range hnd]
  · simp [List.getElem?_map, List.getElem?_range hj]
  · refine HasDerivAt.congr_of_eventuallyEq (half_hasDerivAt ax (hder nd hnd j hj 0 (by omega) ax) (hder nd hnd j hj 1 (by omega) ax))
      (Filter.Eventually.of_forall fun x => ?_)
    obtain ⟨q, hq, hqf⟩ := hf (Function.update u (localNode3 m t j nd) x) s
    simp only [fieldAt3, elementField3, hq, Option.bind_eq_bind, Option.bind_some, Option.pure_def, Option.getD_some]
    rw [getD_get (by simpa using hj), List.getElem_map, List.getElem_range, hqf j hj 0 (by omega), hqf j hj 1 (by omega)]

/-- **Derivatives of the pairs.** -/
theorem elementPairsD3_spec {m : Mesh} (h : m.Good) (hc : m.Complete) {pos : Pos} {t : Nat} (ht : t < m.tets.length)
    (hg : GoodTet m pos t) {F : Nat → ℝ → ℝ → ℝ} {u ev0 ev1 : Nat → ℝ} (hd : EdgeDerivs m F u ev0 ev1) (s : Nat → Nat → V3)
    (s' : Nat → Nat → Nat → V3) :
    ∃ D0 D1, elementPairsD3 m pos t ev0 ev1 s' = some (D0, D1) ∧ ∀ k < 2, ∀ nd < 4, ∀ j < 6, ∃ row w,
      (if k = 0 then D0 else D1)[nd]? = some row ∧ row[j]? = some w ∧
      ∀ ax, HasDerivAt (fun x => comp3 ax (pairAt3 m pos t s F j k (Function.update u (localNode3 m t j nd) x))) (comp3 ax w)
        (u (localNode3 m t j nd)) := by
  obtain ⟨p, hp, f, hf, hder⟩ := pairVec3_hasDerivAt h hc ht hg hd s'
  refine ⟨(List.range 4).map fun nd => (List.range 6).map fun j => p nd j 0, (List.range 4).map fun nd => (List.range 6).map fun j => p nd j 1,
    by simp [elementPairsD3, hp], fun k hk nd hnd j hj => ?_⟩
  refine ⟨(List.range 6).map fun j => p nd j k, p nd j k, ?_, ?_, fun ax => ?_⟩
  · interval_cases k <;> simp [List.getElem?_map, List.getElem?_range hnd]
  · simp [List.getElem?_map, List.getElem?_range hj]
  · refine HasDerivAt.congr_of_eventuallyEq (hder nd hnd j hj k hk ax) (Filter.Eventually.of_forall fun x => ?_)
    obtain ⟨q, hq, hqf⟩ := hf (Function.update u (localNode3 m t j nd) x) s
    simp only [pairAt3, elementPairs3, hq, Option.bind_eq_bind, Option.bind_some, Option.pure_def, Option.getD_some]
    interval_cases k
    · simp only [if_true]
      rw [getD_get (by simpa using hj), List.getElem_map, List.getElem_range, hqf j hj 0 (by omega)]
    · simp only [one_ne_zero, if_false]
      rw [getD_get (by simpa using hj), List.getElem_map, List.getElem_range, hqf j hj 1 (by omega)]

end Verif.Fields
