import Verif.Geom.Volume

/-!
# Surface areas and normals

`src/GeomModels/SurfaceAreaUtil.cc`, `SurfaceArea.cc`, `UnitVec.cc`, `EdgeInverseLength.cc`: the models
`SurfaceArea`, `ContactSurfaceArea`, `NSurfaceNormal_*`, `ContactNSurfaceNormal_*`, `unitx`, `unity`, `unitz`,
`EdgeInverseLength`.
-/

namespace Verif.Geom

open Finset

/-! ### Model -/

/-- `UnitVec::calcUnitVec` (`UnitVec.cc:71-82`) -/
noncomputable def unitVec (m : Mesh) (pos : Pos) (i : Nat) : V3 :=
  let vm := V3.sub (pos (edgeNode m i 1)) (pos (edgeNode m i 0))
  ⟨vm.x / V3.mag vm, vm.y / V3.mag vm, vm.z / V3.mag vm⟩

/-- `EdgeInverseLength` (`EdgeInverseLength.cc:29-44`) -/
noncomputable def edgeInverseLength (m : Mesh) (pos : Pos) (i : Nat) : ℝ := 1 / edgeLength m pos i

/-- The arrays `nv` and `nvx`, `nvy`, `nvz`. -/
structure Acc where
  area : Nat → ℝ
  nor : Nat → V3

/-- All zero. -/
def Acc.init : Acc := ⟨fun _ => 0, fun _ => ⟨0, 0, 0⟩⟩

/-- `ProcessAreaAndNormal` (`SurfaceAreaUtil.cc:91-109`): add to the area and to the normal of a node; the sign of
what is added is that of the direction already there. -/
noncomputable def Acc.add (A : Acc) (v : Nat) (w : V3) (x : ℝ) : Acc where
  area := Function.update A.area v (A.area v + x)
  nor := Function.update A.nor v (open Classical in if V3.dot (A.nor v) w < 0 then V3.sub (A.nor v) w else V3.add (A.nor v) w)

/-- `processEdge` (`SurfaceAreaUtil.cc:10-51`). The areas and normals are in different arrays, so that the order
of the four updates is the same as that of two calls of `Acc.add`. -/
noncomputable def processEdge (m : Mesh) (pos : Pos) (A : Acc) (i : Nat) : Acc :=
  let len := (1 / 2) * edgeLength m pos i
  let u := unitVec m pos i
  let w : V3 := ⟨u.y * len, -u.x * len, 0⟩
  (A.add (edgeNode m i 0) w len).add (edgeNode m i 1) w len

/-- `processTriangle` (`SurfaceAreaUtil.cc:112-160`) -/
noncomputable def processTriangle (eps : ℝ) (m : Mesh) (pos : Pos) (A : Acc) (t : Nat) : Acc :=
  let n0 := (nodesOf m.tris t).getD 0 0
  let n1 := (nodesOf m.tris t).getD 1 0
  let n2 := (nodesOf m.tris t).getD 2 0
  let o := triangleCenter eps m pos t
  let w01 := V3.smul (V3.cross (V3.sub (pos n0) (pos n1)) (V3.sub (pos n0) o)) (1 / 4)
  let w02 := V3.smul (V3.cross (V3.sub (pos n0) (pos n2)) (V3.sub (pos n0) o)) (1 / 4)
  let w12 := V3.smul (V3.cross (V3.sub (pos n1) (pos n2)) (V3.sub (pos n1) o)) (1 / 4)
  let A := (A.add n0 w01 (V3.mag w01)).add n1 w01 (V3.mag w01)
  let A := (A.add n0 w02 (V3.mag w02)).add n2 w02 (V3.mag w02)
  (A.add n1 w12 (V3.mag w12)).add n2 w12 (V3.mag w12)

/-- The loop over a list with the array `edge_visited`/`triangle_visited`
(`SurfaceAreaUtil.cc:56-74`, `165-182`). -/
noncomputable def visitOnce (f : Acc → Nat → Acc) (l : List Nat) (A : Acc) : Acc :=
  (l.foldl (fun (p : Acc × List Nat) i => if i ∈ p.2 then p else (f p.1 i, i :: p.2)) (A, [])).1

/-- The normalization at the end (`SurfaceAreaUtil.cc:75-87`, `184-197`). -/
noncomputable def normalize (A : Acc) : Acc where
  area := A.area
  nor := fun v => open Classical in
    if 0 < A.area v then
      if 0 < V3.mag (A.nor v) then ⟨(A.nor v).x / V3.mag (A.nor v), (A.nor v).y / V3.mag (A.nor v), (A.nor v).z / V3.mag (A.nor v)⟩
      else A.nor v
    else A.nor v

/-- `processEdgeList` (`SurfaceAreaUtil.cc:54-88`): the surface models of a region in two dimensions for a list of
contact or interface edges. -/
noncomputable def surface2d (m : Mesh) (pos : Pos) (l : List Nat) : Acc :=
  normalize (visitOnce (processEdge m pos) l Acc.init)

/-- `processTriangleList` (`SurfaceAreaUtil.cc:163-198`) -/
noncomputable def surface3d (eps : ℝ) (m : Mesh) (pos : Pos) (l : List Nat) : Acc :=
  normalize (visitOnce (processTriangle eps m pos) l Acc.init)

/-! ### Units -/

/-- **Direction of an edge**: a unit vector from the first to the second node. -/
theorem unitVec_spec {m : Mesh} {pos : Pos} {i : Nat} (h : 0 < edgeLength m pos i) :
    V3.smul (unitVec m pos i) (edgeLength m pos i) = V3.sub (pos (edgeNode m i 1)) (pos (edgeNode m i 0)) ∧
    V3.dot (unitVec m pos i) (unitVec m pos i) = 1 := by
  have he : V3.mag (V3.sub (pos (edgeNode m i 1)) (pos (edgeNode m i 0))) = edgeLength m pos i := by
    simp only [edgeLength, V3.mag, V3.sub]; congr 1; ring
  have hsq := V3.mag_sq (V3.sub (pos (edgeNode m i 1)) (pos (edgeNode m i 0)))
  have hne : edgeLength m pos i ≠ 0 := ne_of_gt h
  constructor
  · simp only [unitVec, he]
    ext <;> simp only [V3.smul] <;> field_simp
  · simp only [unitVec, he]
    rw [he] at hsq
    generalize V3.sub (pos (edgeNode m i 1)) (pos (edgeNode m i 0)) = v at hsq ⊢
    simp only [V3.dot] at hsq ⊢
    field_simp
    linarith

theorem edgeInverseLength_spec {m : Mesh} {pos : Pos} {i : Nat} (h : 0 < edgeLength m pos i) :
    edgeInverseLength m pos i * edgeLength m pos i = 1 := by
  have : edgeLength m pos i ≠ 0 := ne_of_gt h
  rw [edgeInverseLength]; field_simp

/-! ### Visiting once -/

theorem visitOnce_spec (f : Acc → Nat → Acc) (l : List Nat) (A : Acc) :
    ∃ d : List Nat, d.Nodup ∧ (∀ i, i ∈ d ↔ i ∈ l) ∧ visitOnce f l A = d.foldl f A := by
  have key : ∀ (l : List Nat) (A0 : Acc) (d0 : List Nat), d0.Nodup →
      ∃ d : List Nat, d.Nodup ∧ (∀ i, i ∈ d ↔ i ∈ d0 ∨ i ∈ l) ∧
      (l.foldl (fun (p : Acc × List Nat) i => if i ∈ p.2 then p else (f p.1 i, i :: p.2)) (d0.foldl f A0, d0.reverse)).1 =
        d.foldl f A0 := by
    intro l
    induction l with
    | nil => intro A0 d0 h; exact ⟨d0, h, by simp, rfl⟩
    | cons i l ih =>
      intro A0 d0 h
      rw [List.foldl_cons]
      by_cases hi : i ∈ d0
      · rw [if_pos (by simpa using hi)]
        obtain ⟨d, h1, h2, h3⟩ := ih A0 d0 h
        refine ⟨d, h1, fun j => ?_, h3⟩
        rw [h2, List.mem_cons]
        constructor
        · rintro (h | h)
          · exact .inl h
          · exact .inr (.inr h)
        · rintro (h | rfl | h)
          · exact .inl h
          · exact .inl hi
          · exact .inr h
      · rw [if_neg (by simpa using hi)]
        obtain ⟨d, h1, h2, h3⟩ := ih A0 (d0 ++ [i]) (by
          rw [List.nodup_append]
          refine ⟨h, by simp, ?_⟩
          intro a ha b hb
          simp only [List.mem_singleton] at hb
          subst hb
          rintro rfl
          exact hi ha)
        refine ⟨d, h1, fun j => ?_, ?_⟩
        · rw [h2]; simp only [List.mem_append, List.mem_singleton, List.mem_cons, or_assoc, List.not_mem_nil, false_or]
        · rw [← h3, List.foldl_append, List.reverse_append]
          rfl
  obtain ⟨d, h1, h2, h3⟩ := key l A [] (by simp)
  exact ⟨d, h1, fun i => by simpa using h2 i, h3⟩

/-! ### Adding up -/

theorem add_area (A : Acc) (v : Nat) (w : V3) (x : ℝ) (u : Nat) :
    (A.add v w x).area u = A.area u + if u = v then x else 0 := by
  simp only [Acc.add, Function.update_apply]
  split
  · rename_i h; rw [h]
  · simp

/-- The normal never gets shorter. -/
theorem add_nor_mag (A : Acc) (v : Nat) (w : V3) (x : ℝ) (u : Nat) :
    V3.dot (A.nor u) (A.nor u) ≤ V3.dot ((A.add v w x).nor u) ((A.add v w x).nor u) ∧
    (u = v → V3.dot w w ≤ V3.dot ((A.add v w x).nor u) ((A.add v w x).nor u)) := by
  by_cases h : u = v
  · subst h
    simp only [Acc.add, Function.update_self]
    have hA := V3.dot_self_nonneg (A.nor u)
    have hw := V3.dot_self_nonneg w
    split
    · rename_i hneg
      have : V3.dot (V3.sub (A.nor u) w) (V3.sub (A.nor u) w) =
          V3.dot (A.nor u) (A.nor u) + V3.dot w w - 2 * V3.dot (A.nor u) w := by
        simp only [V3.dot, V3.sub]; ring
      rw [this]
      exact ⟨by linarith, fun _ => by linarith⟩
    · rename_i hneg
      have : V3.dot (V3.add (A.nor u) w) (V3.add (A.nor u) w) =
          V3.dot (A.nor u) (A.nor u) + V3.dot w w + 2 * V3.dot (A.nor u) w := by
        simp only [V3.dot, V3.add]; ring
      rw [this]
      exact ⟨by linarith, fun _ => by linarith⟩
  · refine ⟨?_, fun e => absurd e h⟩
    simp only [Acc.add, Function.update_of_ne h]
    exact le_refl _

theorem add_nor_zero {A : Acc} {v : Nat} {w : V3} {x : ℝ} {u : Nat} (h : A.nor u = ⟨0, 0, 0⟩) (hv : u ≠ v ∨ w = ⟨0, 0, 0⟩) :
    (A.add v w x).nor u = ⟨0, 0, 0⟩ := by
  by_cases e : u = v
  · have hw := hv.resolve_left (fun h => h e)
    subst e
    simp only [Acc.add, Function.update_self, h, hw]
    split <;> simp [V3.sub, V3.add]
  · simp only [Acc.add, Function.update_of_ne e, h]

/-! ### Two dimensions -/

theorem processEdge_area (m : Mesh) (pos : Pos) (A : Acc) (i u : Nat) (hne : edgeNode m i 0 ≠ edgeNode m i 1) :
    (processEdge m pos A i).area u = A.area u + if u = edgeNode m i 0 ∨ u = edgeNode m i 1 then edgeLength m pos i / 2 else 0 := by
  simp only [processEdge, add_area]
  by_cases h0 : u = edgeNode m i 0
  · have h1 : u ≠ edgeNode m i 1 := by rw [h0]; exact hne
    simp only [h0, hne, if_true, true_or, if_false]; ring
  · by_cases h1 : u = edgeNode m i 1
    · simp only [h1, hne.symm, if_true, or_true, if_false]; ring
    · simp only [h0, h1, if_false, or_self]; ring

theorem edgeNode_spec {m : Mesh} (h : m.Good) {i : Nat} (hi : i < m.edges.length) :
    nodesOf m.edges i = [edgeNode m i 0, edgeNode m i 1] ∧ edgeNode m i 0 < edgeNode m i 1 ∧ edgeNode m i 1 < m.n := by
  have hE := h.edges _ (List.mem_of_getElem? (nodesOf_get hi))
  obtain ⟨a, b, he⟩ : ∃ a b, nodesOf m.edges i = [a, b] := by
    match nodesOf m.edges i, hE.1 with
    | [a, b], _ => exact ⟨a, b, rfl⟩
  rw [he] at hE
  simp only [edgeNode, he, List.getD_cons_zero, List.getD_cons_succ]
  exact ⟨trivial, by simpa using hE.2.1, hE.2.2 b (by simp)⟩

theorem foldl_area {f : Acc → Nat → Acc} {g : Nat → Nat → ℝ} {d : List Nat}
    (hf : ∀ A, ∀ i ∈ d, ∀ u, (f A i).area u = A.area u + g i u) (A : Acc) (u : Nat) :
    (d.foldl f A).area u = A.area u + (d.map fun i => g i u).sum := by
  induction d generalizing A with
  | nil => simp
  | cons i d ih =>
    rw [List.foldl_cons, ih (fun A j hj => hf A j (List.mem_cons_of_mem _ hj)), hf A i List.mem_cons_self, List.map_cons,
      List.sum_cons]
    ring

/-- **Surface area of a node**: half the length of each edge of the list at the node; an edge that is
several times in the list counts once. -/
theorem surface2d_area {m : Mesh} (h : m.Good) (pos : Pos) {l : List Nat} (hl : ∀ i ∈ l, i < m.edges.length) (u : Nat) :
    (surface2d m pos l).area u =
      ∑ i ∈ range m.edges.length, if i ∈ l ∧ u ∈ nodesOf m.edges i then edgeLength m pos i / 2 else 0 := by
  obtain ⟨d, hnd, hmem, hd⟩ := visitOnce_spec (processEdge m pos) l Acc.init
  have hA : (surface2d m pos l).area u = (visitOnce (processEdge m pos) l Acc.init).area u := rfl
  rw [hA, hd, foldl_area (g := fun i u => if u = edgeNode m i 0 ∨ u = edgeNode m i 1 then edgeLength m pos i / 2 else 0)
    (fun A i hi u => processEdge_area m pos A i u
      (ne_of_lt (edgeNode_spec h (hl i ((hmem i).1 hi))).2.1))]
  have h0 : Acc.init.area u = 0 := rfl
  rw [h0, zero_add, sum_list hnd (N := m.edges.length) (P := fun i => i ∈ l)
    (fun i => ⟨fun hi => ⟨hl i ((hmem i).1 hi), (hmem i).1 hi⟩, fun hi => (hmem i).2 hi.2⟩)]
  refine sum_congr rfl fun i hi => ?_
  have he := (edgeNode_spec h (mem_range.1 hi)).1
  by_cases hil : i ∈ l
  · simp [hil, he]
  · simp [hil]

/-- **Total surface**: the areas of all nodes add up to the lengths of the edges of the list. -/
theorem surface2d_total {m : Mesh} (h : m.Good) (pos : Pos) {l : List Nat} (hl : ∀ i ∈ l, i < m.edges.length) :
    ∑ u ∈ range m.n, (surface2d m pos l).area u =
      ∑ i ∈ range m.edges.length, if i ∈ l then edgeLength m pos i else 0 := by
  simp only [surface2d_area h pos hl]
  rw [sum_comm]
  refine sum_congr rfl fun i hi => ?_
  obtain ⟨he, h1, h2⟩ := edgeNode_spec h (mem_range.1 hi)
  by_cases hil : i ∈ l
  · simp only [hil, true_and, if_true, he]
    generalize edgeNode m i 0 = a at h1 ⊢
    generalize edgeNode m i 1 = b at h1 h2 ⊢
    have : ∀ v ∈ range m.n, (if v ∈ [a, b] then edgeLength m pos i / 2 else 0) =
        (if v = a then edgeLength m pos i / 2 else 0) + if v = b then edgeLength m pos i / 2 else 0 := by
      intro v _
      by_cases h3 : v = a
      · simp [h3, show a ≠ b by omega]
      · simp [h3]
    rw [sum_congr rfl this, sum_add_distrib, sum_ite_eq', sum_ite_eq', if_pos (mem_range.2 h2),
      if_pos (mem_range.2 (by omega))]
    ring
  · simp [hil]

theorem foldl_nor {f : Acc → Nat → Acc} {d : List Nat} {u : Nat}
    (hmono : ∀ A, ∀ i ∈ d, V3.dot (A.nor u) (A.nor u) ≤ V3.dot ((f A i).nor u) ((f A i).nor u)) (A : Acc) :
    V3.dot (A.nor u) (A.nor u) ≤ V3.dot ((d.foldl f A).nor u) ((d.foldl f A).nor u) := by
  induction d generalizing A with
  | nil => exact le_refl _
  | cons i d ih =>
    rw [List.foldl_cons]
    exact (hmono A i List.mem_cons_self).trans (ih (fun A j hj => hmono A j (List.mem_cons_of_mem _ hj)) _)

theorem foldl_nor_pos {f : Acc → Nat → Acc} {d : List Nat} {u : Nat}
    (hmono : ∀ A, ∀ i ∈ d, V3.dot (A.nor u) (A.nor u) ≤ V3.dot ((f A i).nor u) ((f A i).nor u)) {i : Nat} (hi : i ∈ d)
    (hpos : ∀ A, 0 < V3.dot ((f A i).nor u) ((f A i).nor u)) (A : Acc) :
    0 < V3.dot ((d.foldl f A).nor u) ((d.foldl f A).nor u) := by
  induction d generalizing A with
  | nil => cases hi
  | cons j d ih =>
    rw [List.foldl_cons]
    rcases List.mem_cons.1 hi with rfl | hi'
    · exact lt_of_lt_of_le (hpos A) (foldl_nor (fun A k hk => hmono A k (List.mem_cons_of_mem _ hk)) _)
    · exact ih (fun A k hk => hmono A k (List.mem_cons_of_mem _ hk)) hi' _

theorem foldl_nor_zero {f : Acc → Nat → Acc} {d : List Nat} {u : Nat}
    (hz : ∀ A, ∀ i ∈ d, A.nor u = ⟨0, 0, 0⟩ → (f A i).nor u = ⟨0, 0, 0⟩) (A : Acc) (h : A.nor u = ⟨0, 0, 0⟩) :
    (d.foldl f A).nor u = ⟨0, 0, 0⟩ := by
  induction d generalizing A with
  | nil => exact h
  | cons i d ih =>
    rw [List.foldl_cons]
    exact ih (fun A j hj => hz A j (List.mem_cons_of_mem _ hj)) _ (hz A i List.mem_cons_self h)

theorem normalize_unit {A : Acc} {u : Nat} (ha : 0 < A.area u) (hn : 0 < V3.dot (A.nor u) (A.nor u)) :
    V3.dot ((normalize A).nor u) ((normalize A).nor u) = 1 := by
  have hsq := V3.mag_sq (A.nor u)
  have hm : 0 < V3.mag (A.nor u) := by
    rw [← hsq] at hn
    exact lt_of_le_of_ne (V3.mag_nonneg _) fun e => by rw [← e] at hn; simp at hn
  simp only [normalize, if_pos ha, if_pos hm]
  have : V3.mag (A.nor u) ≠ 0 := ne_of_gt hm
  simp only [V3.dot] at hsq ⊢
  field_simp
  linarith

theorem normalize_zero {A : Acc} {u : Nat} (hn : A.nor u = ⟨0, 0, 0⟩) : (normalize A).nor u = ⟨0, 0, 0⟩ := by
  have hm : ¬ 0 < V3.mag (A.nor u) := by
    rw [hn]; simp [V3.mag]
  simp only [normalize]; rw [if_neg hm]; split <;> exact hn

/-- **Surface normals**: the normal of every node of the surface is a unit vector; that of the other nodes is
zero. -/
theorem surface2d_normal {m : Mesh} (h : m.Good) {pos : Pos} {l : List Nat} (hl : ∀ i ∈ l, i < m.edges.length)
    (hlen : ∀ i ∈ l, 0 < edgeLength m pos i) (hz : ∀ v, (pos v).z = 0) (u : Nat) :
    ((∃ i ∈ l, u ∈ nodesOf m.edges i) → V3.dot ((surface2d m pos l).nor u) ((surface2d m pos l).nor u) = 1) ∧
    ((∀ i ∈ l, u ∉ nodesOf m.edges i) → (surface2d m pos l).nor u = ⟨0, 0, 0⟩) := by
  obtain ⟨d, hnd, hmem, hd⟩ := visitOnce_spec (processEdge m pos) l Acc.init
  have hmono : ∀ A, ∀ i ∈ d, V3.dot (A.nor u) (A.nor u) ≤
      V3.dot ((processEdge m pos A i).nor u) ((processEdge m pos A i).nor u) := by
    intro A i _
    exact (add_nor_mag _ _ _ _ u).1.trans (add_nor_mag _ _ _ _ u).1
  constructor
  · rintro ⟨i, hi, hu⟩
    have harea : 0 < (visitOnce (processEdge m pos) l Acc.init).area u := by
      have e := surface2d_area h pos hl u
      have e' : (visitOnce (processEdge m pos) l Acc.init).area u = (surface2d m pos l).area u := rfl
      rw [e', e]
      refine Finset.sum_pos' (fun j _ => ?_) ⟨i, mem_range.2 (hl i hi), ?_⟩
      · split
        · rename_i hj
          have := hlen j hj.1
          linarith
        · exact le_refl _
      · rw [if_pos ⟨hi, hu⟩]
        have := hlen i hi
        linarith
    refine normalize_unit harea ?_
    rw [hd]
    refine foldl_nor_pos hmono ((hmem i).2 hi) (fun A => ?_) Acc.init
    obtain ⟨-, hunit⟩ := unitVec_spec (hlen i hi)
    have huz : (unitVec m pos i).z = 0 := by simp [unitVec, V3.sub, hz]
    have hw : 0 < V3.dot (⟨(unitVec m pos i).y * (1 / 2 * edgeLength m pos i), -(unitVec m pos i).x * (1 / 2 * edgeLength m pos i), 0⟩ : V3)
        ⟨(unitVec m pos i).y * (1 / 2 * edgeLength m pos i), -(unitVec m pos i).x * (1 / 2 * edgeLength m pos i), 0⟩ := by
      have : V3.dot (⟨(unitVec m pos i).y * (1 / 2 * edgeLength m pos i), -(unitVec m pos i).x * (1 / 2 * edgeLength m pos i), 0⟩ : V3)
          ⟨(unitVec m pos i).y * (1 / 2 * edgeLength m pos i), -(unitVec m pos i).x * (1 / 2 * edgeLength m pos i), 0⟩ =
          (1 / 2 * edgeLength m pos i) ^ 2 := by
        simp only [V3.dot, huz] at hunit ⊢
        linear_combination (1 / 2 * edgeLength m pos i) ^ 2 * hunit
      rw [this]
      have := hlen i hi
      positivity
    have he := (edgeNode_spec h (hl i hi)).1
    rw [he] at hu
    simp only [List.mem_cons, List.not_mem_nil, or_false] at hu
    rcases hu with e | e
    · exact lt_of_lt_of_le hw (((add_nor_mag A _ _ _ u).2 e).trans (add_nor_mag _ _ _ _ u).1)
    · exact lt_of_lt_of_le hw ((add_nor_mag _ _ _ _ u).2 e)
  · intro hnone
    refine normalize_zero ?_
    rw [hd]
    refine foldl_nor_zero (fun A i hi hA => ?_) Acc.init rfl
    have hil := (hmem i).1 hi
    have he := (edgeNode_spec h (hl i hil)).1
    have hu := hnone i hil
    rw [he] at hu
    simp only [List.mem_cons, List.not_mem_nil, or_false, not_or] at hu
    exact add_nor_zero (add_nor_zero hA (.inl hu.1)) (.inl hu.2)

/-! ### Three dimensions -/

/-- What each side of a triangle gives to its two nodes. -/
noncomputable def sideArea (a b o : V3) : ℝ := V3.mag (normal o a b) / 4

theorem sideArea_eq (a b o : V3) : V3.mag (V3.smul (V3.cross (V3.sub a b) (V3.sub a o)) (1 / 4)) = sideArea a b o := by
  rw [mag_smul, sideArea]
  have : V3.mag (V3.cross (V3.sub a b) (V3.sub a o)) = V3.mag (normal o a b) := by
    simp only [V3.mag, normal, V3.cross, V3.sub]; congr 1; ring
  rw [this, abs_of_pos (by norm_num)]
  ring

/-- What triangle `t` gives to node `u`. -/
noncomputable def triShare (eps : ℝ) (m : Mesh) (pos : Pos) (t u : Nat) : ℝ :=
  let a := (nodesOf m.tris t).getD 0 0
  let b := (nodesOf m.tris t).getD 1 0
  let c := (nodesOf m.tris t).getD 2 0
  let o := triangleCenter eps m pos t
  (if u = a then sideArea (pos a) (pos b) o + sideArea (pos a) (pos c) o else 0) +
  (if u = b then sideArea (pos a) (pos b) o + sideArea (pos b) (pos c) o else 0) +
  (if u = c then sideArea (pos a) (pos c) o + sideArea (pos b) (pos c) o else 0)

theorem processTriangle_area (eps : ℝ) (m : Mesh) (pos : Pos) (A : Acc) (t u : Nat) :
    (processTriangle eps m pos A t).area u = A.area u + triShare eps m pos t u := by
  simp only [processTriangle, add_area, triShare, sideArea_eq]
  split <;> split <;> split <;> ring

theorem triNodes_spec {m : Mesh} (h : m.Good) {t : Nat} (ht : t < m.tris.length) :
    ∃ a b c, nodesOf m.tris t = [a, b, c] ∧ a < b ∧ b < c ∧ c < m.n := by
  have hE := h.tris _ (List.mem_of_getElem? (nodesOf_get ht))
  obtain ⟨a, b, c, he⟩ : ∃ a b c, nodesOf m.tris t = [a, b, c] := by
    match nodesOf m.tris t, hE.1 with
    | [a, b, c], _ => exact ⟨a, b, c, rfl⟩
  rw [he] at hE
  have hord := hE.2.1
  simp only [List.pairwise_cons, List.mem_cons, List.not_mem_nil, or_false, forall_eq_or_imp, forall_eq,
    false_imp_iff, implies_true, List.Pairwise.nil, and_true] at hord
  exact ⟨a, b, c, he, hord.1.1, hord.2, hE.2.2 c (by simp)⟩

theorem surface3d_area (eps : ℝ) {m : Mesh} (pos : Pos) {l : List Nat} (hl : ∀ i ∈ l, i < m.tris.length) (u : Nat) :
    (surface3d eps m pos l).area u = ∑ t ∈ range m.tris.length, if t ∈ l then triShare eps m pos t u else 0 := by
  obtain ⟨d, hnd, hmem, hd⟩ := visitOnce_spec (processTriangle eps m pos) l Acc.init
  have hA : (surface3d eps m pos l).area u = (visitOnce (processTriangle eps m pos) l Acc.init).area u := rfl
  rw [hA, hd, foldl_area (g := fun t u => triShare eps m pos t u) (fun A i _ u => processTriangle_area eps m pos A i u)]
  have h0 : Acc.init.area u = 0 := rfl
  rw [h0, zero_add, sum_list hnd (N := m.tris.length) (P := fun i => i ∈ l)
    (fun i => ⟨fun hi => ⟨hl i ((hmem i).1 hi), (hmem i).1 hi⟩, fun hi => (hmem i).2 hi.2⟩)]

theorem triShare_total {eps : ℝ} (he : 0 < eps) {m : Mesh} (h : m.Good) {pos : Pos} {t : Nat} (ht : t < m.tris.length)
    (hs : SharpTri eps (corner m pos t 0) (corner m pos t 1) (corner m pos t 2))
    (hnd : NonDeg (corner m pos t 0) (corner m pos t 1) (corner m pos t 2)) :
    triArea m pos t ≤ ∑ u ∈ range m.n, triShare eps m pos t u ∧
    (triArea m pos t = ∑ u ∈ range m.n, triShare eps m pos t u ↔ NonObtuseTri m pos t) := by
  obtain ⟨a, b, c, hn, hab, hbc, hcn⟩ := triNodes_spec h ht
  have hc := triCenter_spec he hs hnd
  have hb := boxes_area hnd hc
  have e3 : dist2 _ _ = dist2 _ _ := hc.eq1.symm.trans hc.eq2
  rw [boxes, side_area e3, side_area hc.eq2, side_area hc.eq1] at hb
  have hsum : ∑ u ∈ range m.n, triShare eps m pos t u =
      (V3.mag (normal (triCenter eps (pos a) (pos b) (pos c)) (pos b) (pos c)) +
       V3.mag (normal (triCenter eps (pos a) (pos b) (pos c)) (pos a) (pos c)) +
       V3.mag (normal (triCenter eps (pos a) (pos b) (pos c)) (pos a) (pos b))) / 2 := by
    simp only [triShare, hn, List.getD_cons_zero, List.getD_cons_succ, triangleCenter]
    rw [sum_add_distrib, sum_add_distrib, sum_ite_eq', sum_ite_eq', sum_ite_eq', if_pos (mem_range.2 (by omega)),
      if_pos (mem_range.2 (by omega)), if_pos (mem_range.2 (by omega))]
    simp only [sideArea]
    ring
  simp only [corner, hn, List.getD_cons_zero, List.getD_cons_succ] at hb
  rw [hsum, triArea, NonObtuseTri]
  simp only [corner, hn, List.getD_cons_zero, List.getD_cons_succ]
  rw [← hb.2]
  refine ⟨by linarith [hb.1], ?_⟩
  constructor <;> intro e <;> linarith

/-- **Total surface**: the areas of all nodes add up to at least the area of the triangles of the list, and to
exactly this when, and only when, none of them has an obtuse angle. -/
theorem surface3d_total {eps : ℝ} (he : 0 < eps) {m : Mesh} (h : m.Good) {pos : Pos} {l : List Nat}
    (hl : ∀ i ∈ l, i < m.tris.length)
    (hg : ∀ t ∈ l, SharpTri eps (corner m pos t 0) (corner m pos t 1) (corner m pos t 2) ∧
      NonDeg (corner m pos t 0) (corner m pos t 1) (corner m pos t 2)) :
    (∑ t ∈ range m.tris.length, if t ∈ l then triArea m pos t else 0) ≤ ∑ u ∈ range m.n, (surface3d eps m pos l).area u ∧
    ((∑ t ∈ range m.tris.length, if t ∈ l then triArea m pos t else 0) = ∑ u ∈ range m.n, (surface3d eps m pos l).area u ↔
      ∀ t ∈ l, NonObtuseTri m pos t) := by
  have hsum : ∑ u ∈ range m.n, (surface3d eps m pos l).area u =
      ∑ t ∈ range m.tris.length, if t ∈ l then ∑ u ∈ range m.n, triShare eps m pos t u else 0 := by
    simp only [surface3d_area eps pos hl]
    rw [sum_comm]
    refine sum_congr rfl fun t _ => ?_
    split
    · rfl
    · simp
  have hle : ∀ t ∈ range m.tris.length, (if t ∈ l then triArea m pos t else 0) ≤
      if t ∈ l then ∑ u ∈ range m.n, triShare eps m pos t u else 0 := by
    intro t ht
    split
    · rename_i htl
      exact (triShare_total he h (hl t htl) (hg t htl).1 (hg t htl).2).1
    · exact le_refl _
  rw [hsum]
  refine ⟨sum_le_sum hle, ?_⟩
  rw [Finset.sum_eq_sum_iff_of_le hle]
  constructor
  · intro hh t ht
    have := hh t (mem_range.2 (hl t ht))
    rw [if_pos ht, if_pos ht] at this
    exact (triShare_total he h (hl t ht) (hg t ht).1 (hg t ht).2).2.1 this
  · intro hh t _
    split
    · rename_i ht
      exact (triShare_total he h (hl t ht) (hg t ht).1 (hg t ht).2).2.2 (hh t ht)
    · rfl

theorem cross_par {p u w : V3} (hp : V3.dot p p ≠ 0) (hA : V3.cross u p = ⟨0, 0, 0⟩) (hB : V3.cross w p = ⟨0, 0, 0⟩) :
    V3.cross u w = ⟨0, 0, 0⟩ := by
  obtain ⟨p1, p2, p3⟩ := p
  obtain ⟨u1, u2, u3⟩ := u
  obtain ⟨w1, w2, w3⟩ := w
  simp only [V3.cross, V3.mk.injEq, V3.dot] at *
  obtain ⟨A1, A2, A3⟩ := hA
  obtain ⟨B1, B2, B3⟩ := hB
  refine ⟨?_, ?_, ?_⟩ <;> refine (mul_eq_zero.1 (?_ : (p1 * p1 + p2 * p2 + p3 * p3) * _ = 0)).resolve_left hp
  · linear_combination -(p1 * u1 + p2 * u2 + p3 * u3) * B1 + (p1 * w1 + p2 * w2 + p3 * w3) * A1 -
      p1 * (w1 * A1 + w2 * A2 + w3 * A3)
  · linear_combination -(p1 * u1 + p2 * u2 + p3 * u3) * B2 + (p1 * w1 + p2 * w2 + p3 * w3) * A2 -
      p2 * (w1 * A1 + w2 * A2 + w3 * A3)
  · linear_combination -(p1 * u1 + p2 * u2 + p3 * u3) * B3 + (p1 * w1 + p2 * w2 + p3 * w3) * A3 -
      p3 * (w1 * A1 + w2 * A2 + w3 * A3)

/-- Not both of the pieces of a triangle at a corner are empty. -/
theorem corner_side {a b c o : V3} (hnd : NonDeg a b c) (h1 : dist2 o a = dist2 o b) :
    V3.cross (V3.sub a b) (V3.sub a o) ≠ ⟨0, 0, 0⟩ ∨ V3.cross (V3.sub a c) (V3.sub a o) ≠ ⟨0, 0, 0⟩ := by
  by_contra hcon
  rw [not_or, not_not, not_not] at hcon
  obtain ⟨e1, e2⟩ := hcon
  have hn : normal a b c = V3.cross (V3.sub a b) (V3.sub a c) := by
    simp only [normal, V3.cross, V3.sub, V3.mk.injEq]
    refine ⟨?_, ?_, ?_⟩ <;> ring
  apply hnd
  rw [hn]
  by_cases hp : V3.dot (V3.sub a o) (V3.sub a o) = 0
  · have ha := V3.dot_self_eq_zero hp
    have hb : V3.dot (V3.sub b o) (V3.sub b o) = 0 := by
      have q1 : V3.dot (V3.sub b o) (V3.sub b o) = dist2 o b := by simp only [V3.dot, V3.sub, dist2]; ring
      have q2 : V3.dot (V3.sub a o) (V3.sub a o) = dist2 o a := by simp only [V3.dot, V3.sub, dist2]; ring
      rw [q1, ← h1, ← q2, hp]
    have hb := V3.dot_self_eq_zero hb
    simp only [V3.sub, V3.mk.injEq] at ha hb
    have hab : V3.sub a b = ⟨0, 0, 0⟩ := by
      simp only [V3.sub, V3.mk.injEq]
      exact ⟨by linarith [ha.1, hb.1], by linarith [ha.2.1, hb.2.1], by linarith [ha.2.2, hb.2.2]⟩
    rw [hab]
    simp [V3.cross]
  · exact cross_par hp e1 e2

theorem smul_quarter_pos {w : V3} (h : w ≠ ⟨0, 0, 0⟩) : 0 < V3.dot (V3.smul w (1 / 4)) (V3.smul w (1 / 4)) := by
  have := V3.dot_self_pos h
  have e : V3.dot (V3.smul w (1 / 4)) (V3.smul w (1 / 4)) = V3.dot w w / 16 := by
    simp only [V3.dot, V3.smul]; ring
  rw [e]; linarith

theorem mag_pos_iff {w : V3} : 0 < V3.mag w ↔ 0 < V3.dot w w := by
  rw [← V3.mag_sq]
  have := V3.mag_nonneg w
  constructor
  · intro h; positivity
  · intro h; exact lt_of_le_of_ne this fun e => by rw [← e] at h; simp at h

/-- **Surface normals** in three dimensions: the normal of every node of the surface is a unit vector; that of
the other nodes is zero. -/
theorem surface3d_normal {eps : ℝ} (he : 0 < eps) {m : Mesh} (h : m.Good) {pos : Pos} {l : List Nat}
    (hl : ∀ i ∈ l, i < m.tris.length)
    (hg : ∀ t ∈ l, SharpTri eps (corner m pos t 0) (corner m pos t 1) (corner m pos t 2) ∧
      NonDeg (corner m pos t 0) (corner m pos t 1) (corner m pos t 2)) (u : Nat) :
    ((∃ t ∈ l, u ∈ nodesOf m.tris t) → V3.dot ((surface3d eps m pos l).nor u) ((surface3d eps m pos l).nor u) = 1) ∧
    ((∀ t ∈ l, u ∉ nodesOf m.tris t) → (surface3d eps m pos l).nor u = ⟨0, 0, 0⟩) := by
  obtain ⟨d, hnd, hmem, hd⟩ := visitOnce_spec (processTriangle eps m pos) l Acc.init
  have mono := fun A v w x => (add_nor_mag A v w x u).1
  have hmono : ∀ A, ∀ i ∈ d, V3.dot (A.nor u) (A.nor u) ≤
      V3.dot ((processTriangle eps m pos A i).nor u) ((processTriangle eps m pos A i).nor u) := by
    intro A i _
    simp only [processTriangle]
    exact (mono _ _ _ _).trans ((mono _ _ _ _).trans ((mono _ _ _ _).trans ((mono _ _ _ _).trans ((mono _ _ _ _).trans
      (mono _ _ _ _)))))
  constructor
  · rintro ⟨t, ht, hu⟩
    obtain ⟨a, b, c, hn, hab, hbc, hcn⟩ := triNodes_spec h (hl t ht)
    obtain ⟨hs, hdeg⟩ := hg t ht
    have hc := triCenter_spec he hs hdeg
    have hc0 : triCenter eps (corner m pos t 0) (corner m pos t 1) (corner m pos t 2) = triangleCenter eps m pos t := rfl
    rw [hc0] at hc
    have k0 : corner m pos t 0 = pos a := by simp [corner, hn]
    have k1 : corner m pos t 1 = pos b := by simp [corner, hn]
    have k2 : corner m pos t 2 = pos c := by simp [corner, hn]
    rw [k0, k1, k2] at hc hdeg
    generalize ho : triangleCenter eps m pos t = o at hc
    -- the three corners
    have d1 : NonDeg (pos b) (pos a) (pos c) := by
      intro e; apply hdeg
      simp only [normal, V3.cross, V3.sub, V3.mk.injEq] at e ⊢
      exact ⟨by linear_combination -e.1, by linear_combination -e.2.1, by linear_combination -e.2.2⟩
    have d2 : NonDeg (pos c) (pos a) (pos b) := by
      intro e; apply hdeg
      simp only [normal, V3.cross, V3.sub, V3.mk.injEq] at e ⊢
      exact ⟨by linear_combination e.1, by linear_combination e.2.1, by linear_combination e.2.2⟩
    have s0 := corner_side hdeg hc.eq1
    have s1 := corner_side d1 hc.eq1.symm
    have s2 := corner_side d2 hc.eq2.symm
    have flip : ∀ p q : V3, V3.cross (V3.sub q p) (V3.sub q o) ≠ ⟨0, 0, 0⟩ → V3.cross (V3.sub p q) (V3.sub p o) ≠ ⟨0, 0, 0⟩ := by
      intro p q hne e; apply hne
      simp only [V3.cross, V3.sub, V3.mk.injEq] at e ⊢
      exact ⟨by linear_combination -e.1, by linear_combination -e.2.1, by linear_combination -e.2.2⟩
    have hpos : ∀ A, 0 < V3.dot ((processTriangle eps m pos A t).nor u) ((processTriangle eps m pos A t).nor u) := by
      intro A
      rw [hn] at hu
      simp only [List.mem_cons, List.not_mem_nil, or_false] at hu
      simp only [processTriangle, hn, List.getD_cons_zero, List.getD_cons_succ, ho]
      have put := fun A v w x (e : u = v) => (add_nor_mag A v w x u).2 e
      rcases hu with e | e | e
      · rcases s0 with s | s
        · exact lt_of_lt_of_le (smul_quarter_pos s) ((put _ _ _ _ e).trans ((mono _ _ _ _).trans ((mono _ _ _ _).trans
            ((mono _ _ _ _).trans ((mono _ _ _ _).trans (mono _ _ _ _))))))
        · exact lt_of_lt_of_le (smul_quarter_pos s) ((put _ _ _ _ e).trans ((mono _ _ _ _).trans ((mono _ _ _ _).trans
            (mono _ _ _ _))))
      · rcases s1 with s | s
        · exact lt_of_lt_of_le (smul_quarter_pos (flip _ _ s)) ((put _ _ _ _ e).trans ((mono _ _ _ _).trans
            ((mono _ _ _ _).trans ((mono _ _ _ _).trans (mono _ _ _ _)))))
        · exact lt_of_lt_of_le (smul_quarter_pos s) ((put _ _ _ _ e).trans (mono _ _ _ _))
      · rcases s2 with s | s
        · exact lt_of_lt_of_le (smul_quarter_pos (flip _ _ s)) ((put _ _ _ _ e).trans ((mono _ _ _ _).trans
            (mono _ _ _ _)))
        · exact lt_of_lt_of_le (smul_quarter_pos (flip _ _ s)) (put _ _ _ _ e)
    have share_nonneg : ∀ t u, 0 ≤ triShare eps m pos t u := by
      intro t u
      have : ∀ p q r : V3, 0 ≤ sideArea p q r := fun p q r => by
        have := V3.mag_nonneg (normal r p q); rw [sideArea]; linarith
      simp only [triShare]
      refine add_nonneg (add_nonneg ?_ ?_) ?_ <;> split <;> first | exact add_nonneg (this _ _ _) (this _ _ _) | exact le_refl _
    have harea : 0 < (visitOnce (processTriangle eps m pos) l Acc.init).area u := by
      have e := surface3d_area eps pos hl u
      have e' : (visitOnce (processTriangle eps m pos) l Acc.init).area u = (surface3d eps m pos l).area u := rfl
      rw [e', e]
      refine Finset.sum_pos' (fun j _ => ?_) ⟨t, mem_range.2 (hl t ht), ?_⟩
      · split
        · exact share_nonneg _ _
        · exact le_refl _
      · rw [if_pos ht]
        have side : ∀ {p q : V3}, V3.cross (V3.sub p q) (V3.sub p o) ≠ ⟨0, 0, 0⟩ → 0 < sideArea p q o := by
          intro p q hne
          rw [← sideArea_eq]
          exact mag_pos_iff.2 (smul_quarter_pos hne)
        have sn : ∀ p q : V3, 0 ≤ sideArea p q o := fun p q => by
          have := V3.mag_nonneg (normal o p q); rw [sideArea]; linarith
        rw [hn] at hu
        simp only [List.mem_cons, List.not_mem_nil, or_false] at hu
        simp only [triShare, hn, List.getD_cons_zero, List.getD_cons_succ, ho]
        rcases hu with rfl | rfl | rfl
        · rw [if_pos rfl, if_neg (by omega), if_neg (by omega), add_zero, add_zero]
          rcases s0 with s | s
          · exact add_pos_of_pos_of_nonneg (side s) (sn _ _)
          · exact add_pos_of_nonneg_of_pos (sn _ _) (side s)
        · rw [if_neg (by omega), if_pos rfl, if_neg (by omega), add_zero, zero_add]
          rcases s1 with s | s
          · exact add_pos_of_pos_of_nonneg (side (flip _ _ s)) (sn _ _)
          · exact add_pos_of_nonneg_of_pos (sn _ _) (side s)
        · rw [if_neg (by omega), if_neg (by omega), if_pos rfl, add_zero, zero_add]
          rcases s2 with s | s
          · exact add_pos_of_pos_of_nonneg (side (flip _ _ s)) (sn _ _)
          · exact add_pos_of_nonneg_of_pos (sn _ _) (side (flip _ _ s))
    refine normalize_unit harea ?_
    rw [hd]
    exact foldl_nor_pos hmono ((hmem t).2 ht) hpos Acc.init
  · intro hnone
    refine normalize_zero ?_
    rw [hd]
    refine foldl_nor_zero (fun A t ht hA => ?_) Acc.init rfl
    have htl := (hmem t).1 ht
    obtain ⟨a, b, c, hn, -⟩ := triNodes_spec h (hl t htl)
    have hu := hnone t htl
    rw [hn] at hu
    simp only [List.mem_cons, List.not_mem_nil, or_false, not_or] at hu
    simp only [processTriangle, hn, List.getD_cons_zero, List.getD_cons_succ]
    refine add_nor_zero (add_nor_zero (add_nor_zero (add_nor_zero (add_nor_zero (add_nor_zero hA ?_) ?_) ?_) ?_) ?_) ?_
    · exact .inl hu.1
    · exact .inl hu.2.1
    · exact .inl hu.1
    · exact .inl hu.2.2
    · exact .inl hu.2.1
    · exact .inl hu.2.2

/-! ### Direction of the normals -/

theorem add_nor_dot {A : Acc} {v : Nat} {w : V3} {x : ℝ} {u : Nat} {τ : V3} (h : V3.dot (A.nor u) τ = 0)
    (hw : u = v → V3.dot w τ = 0) : V3.dot ((A.add v w x).nor u) τ = 0 := by
  by_cases e : u = v
  · have hw' := hw e
    subst e
    simp only [Acc.add, Function.update_self]
    simp only [V3.dot] at h hw'
    split
    · simp only [V3.dot, V3.sub]; linear_combination h - hw'
    · simp only [V3.dot, V3.add]; linear_combination h + hw'
  · simp only [Acc.add, Function.update_of_ne e, h]

theorem foldl_nor_dot {f : Acc → Nat → Acc} {d : List Nat} {u : Nat} {τ : V3}
    (hz : ∀ A, ∀ i ∈ d, V3.dot (A.nor u) τ = 0 → V3.dot ((f A i).nor u) τ = 0) (A : Acc) (h : V3.dot (A.nor u) τ = 0) :
    V3.dot ((d.foldl f A).nor u) τ = 0 := by
  induction d generalizing A with
  | nil => exact h
  | cons i d ih =>
    rw [List.foldl_cons]
    exact ih (fun A j hj => hz A j (List.mem_cons_of_mem _ hj)) _ (hz A i List.mem_cons_self h)

theorem normalize_dot {A : Acc} {u : Nat} {τ : V3} (h : V3.dot (A.nor u) τ = 0) : V3.dot ((normalize A).nor u) τ = 0 := by
  simp only [normalize]
  split
  · split
    · rename_i hm
      have := ne_of_gt hm
      simp only [V3.dot] at h ⊢
      field_simp
      linarith
    · exact h
  · exact h

/-- **The normal of a straight surface** is perpendicular to it: if all edges of the surface at a node have the
same direction `τ`, its normal is perpendicular to `τ`. -/
theorem surface2d_perp {m : Mesh} (h : m.Good) {pos : Pos} {l : List Nat} (hl : ∀ i ∈ l, i < m.edges.length) {u : Nat} {τ : V3}
    (hdir : ∀ i ∈ l, u ∈ nodesOf m.edges i → ∃ s : ℝ, V3.sub (pos (edgeNode m i 1)) (pos (edgeNode m i 0)) = V3.smul τ s) :
    V3.dot ((surface2d m pos l).nor u) τ = 0 := by
  obtain ⟨d, hnd, hmem, hd⟩ := visitOnce_spec (processEdge m pos) l Acc.init
  refine normalize_dot ?_
  rw [hd]
  refine foldl_nor_dot (fun A i hi hA => ?_) Acc.init (by simp [Acc.init, V3.dot])
  have hil := (hmem i).1 hi
  have he := (edgeNode_spec h (hl i hil)).1
  have hw : u ∈ nodesOf m.edges i → V3.dot (⟨(unitVec m pos i).y * (1 / 2 * edgeLength m pos i),
      -(unitVec m pos i).x * (1 / 2 * edgeLength m pos i), 0⟩ : V3) τ = 0 := by
    intro hu
    obtain ⟨s, hs⟩ := hdir i hil hu
    simp only [unitVec, hs, V3.dot, V3.smul]
    ring
  rw [he] at hw
  simp only [processEdge]
  exact add_nor_dot (add_nor_dot hA fun e => hw (by simp [e])) fun e => hw (by simp [e])

/-- **The normal of a flat surface** is perpendicular to it: a direction `τ` in the planes of all triangles of the
surface at a node is perpendicular to its normal. -/
theorem surface3d_perp {eps : ℝ} (he : 0 < eps) {m : Mesh} (h : m.Good) {pos : Pos} {l : List Nat}
    (hl : ∀ i ∈ l, i < m.tris.length)
    (hg : ∀ t ∈ l, SharpTri eps (corner m pos t 0) (corner m pos t 1) (corner m pos t 2) ∧
      NonDeg (corner m pos t 0) (corner m pos t 1) (corner m pos t 2)) {u : Nat} {τ : V3}
    (hdir : ∀ t ∈ l, u ∈ nodesOf m.tris t →
      V3.dot (normal (corner m pos t 0) (corner m pos t 1) (corner m pos t 2)) τ = 0) :
    V3.dot ((surface3d eps m pos l).nor u) τ = 0 := by
  obtain ⟨d, hnd, hmem, hd⟩ := visitOnce_spec (processTriangle eps m pos) l Acc.init
  refine normalize_dot ?_
  rw [hd]
  refine foldl_nor_dot (fun A t ht hA => ?_) Acc.init (by simp [Acc.init, V3.dot])
  have htl := (hmem t).1 ht
  obtain ⟨a, b, c, hn, -⟩ := triNodes_spec h (hl t htl)
  obtain ⟨hs, hdeg⟩ := hg t htl
  have hc := triCenter_spec he hs hdeg
  have hc0 : triCenter eps (corner m pos t 0) (corner m pos t 1) (corner m pos t 2) = triangleCenter eps m pos t := rfl
  have k0 : corner m pos t 0 = pos a := by simp [corner, hn]
  have k1 : corner m pos t 1 = pos b := by simp [corner, hn]
  have k2 : corner m pos t 2 = pos c := by simp [corner, hn]
  have hdir := hdir t htl
  rw [hc0, k0, k1, k2] at hc
  rw [k0, k1, k2] at hdir hdeg
  obtain ⟨s1, s2, s3, e1, e2, e3, -⟩ := side_normal hdeg hc
  simp only [processTriangle, hn, List.getD_cons_zero, List.getD_cons_succ]
  generalize triangleCenter eps m pos t = o at *
  have w01 : u ∈ [a, b, c] → V3.dot (V3.smul (V3.cross (V3.sub (pos a) (pos b)) (V3.sub (pos a) o)) (1 / 4)) τ = 0 := by
    intro hu
    have hd := hdir (by rw [hn]; exact hu)
    have e : V3.dot (V3.smul (V3.cross (V3.sub (pos a) (pos b)) (V3.sub (pos a) o)) (1 / 4)) τ = -1 / 4 * - V3.dot (normal o (pos a) (pos b)) τ := by
      simp only [normal, V3.dot, V3.smul, V3.cross, V3.sub]; ring
    rw [e, e3]
    simp only [V3.dot, V3.smul] at hd ⊢
    linear_combination (s3 / 4) * hd
  have w02 : u ∈ [a, b, c] → V3.dot (V3.smul (V3.cross (V3.sub (pos a) (pos c)) (V3.sub (pos a) o)) (1 / 4)) τ = 0 := by
    intro hu
    have hd := hdir (by rw [hn]; exact hu)
    have e : V3.dot (V3.smul (V3.cross (V3.sub (pos a) (pos c)) (V3.sub (pos a) o)) (1 / 4)) τ = -1 / 4 * V3.dot (normal o (pos c) (pos a)) τ := by
      simp only [normal, V3.dot, V3.smul, V3.cross, V3.sub]; ring
    rw [e, e2]
    simp only [V3.dot, V3.smul] at hd ⊢
    linear_combination (-s2 / 4) * hd
  have w12 : u ∈ [a, b, c] → V3.dot (V3.smul (V3.cross (V3.sub (pos b) (pos c)) (V3.sub (pos b) o)) (1 / 4)) τ = 0 := by
    intro hu
    have hd := hdir (by rw [hn]; exact hu)
    have e : V3.dot (V3.smul (V3.cross (V3.sub (pos b) (pos c)) (V3.sub (pos b) o)) (1 / 4)) τ = -1 / 4 * - V3.dot (normal o (pos b) (pos c)) τ := by
      simp only [normal, V3.dot, V3.smul, V3.cross, V3.sub]; ring
    rw [e, e1]
    simp only [V3.dot, V3.smul] at hd ⊢
    linear_combination (s1 / 4) * hd
  refine add_nor_dot (add_nor_dot (add_nor_dot (add_nor_dot (add_nor_dot (add_nor_dot hA ?_) ?_) ?_) ?_) ?_) ?_ <;> intro e
  · exact w01 (by simp [e])
  · exact w01 (by simp [e])
  · exact w02 (by simp [e])
  · exact w02 (by simp [e])
  · exact w12 (by simp [e])
  · exact w12 (by simp [e])

end Verif.Geom
