import Verif.Fields.TetSpec
import Verif.Geom.Examples

/-!
# The gradient of a node model

`src/Geometry/GradientField.cc` and `src/GeomModels/VectorGradient.cc` (command `vector_gradient`), over the real numbers.
-/

namespace Verif.Fields

open Verif.Geom Finset

/-! ### Model -/

/-- `CalcMatrices2d` (`GradientField.cc:32-81`) and `GetGradient` on a triangle (`:140-172`): the matrix has the rows
`(0, 0, 1)`, `(x1 - x0, y1 - y0, 1)`, `(x2 - x0, y2 - y0, 1)`; a singular matrix gives zero. -/
noncomputable def triGradient (m : Mesh) (pos : Pos) (nv : Nat → ℝ) (t : Nat) : V3 :=
  let p0 := pos (triNode m t 0)
  let row := fun r => (⟨(pos (triNode m t r)).x - p0.x, (pos (triNode m t r)).y - p0.y, 1⟩ : V3)
  (solve3 ⟨0, 0, 1⟩ (row 1) (row 2) (nv (triNode m t 0)) (nv (triNode m t 1)) (nv (triNode m t 2))).getD ⟨0, 0, 0⟩

/-- `CalcMatrices3d` (`GradientField.cc:84-137`) and `GetGradient` on a tetrahedron (`:175-208`). The third column is taken
from the node model `y` (`:93`, `uz`). -/
noncomputable def tetGradient (m : Mesh) (pos : Pos) (nv : Nat → ℝ) (t : Nat) : V3 :=
  let x := fun k => (pos (tetNode m t k)).x
  let y := fun k => (pos (tetNode m t k)).y
  let z := fun k => (pos (tetNode m t k)).y
  let row := fun r => (⟨x r - x 0, y r - y 0, z r - z 0⟩ : V3)
  let b := fun r => nv (tetNode m t r) - nv (tetNode m t 0)
  (solve3 (row 1) (row 2) (row 3) (b 1) (b 2) (b 3)).getD ⟨0, 0, 0⟩

/-- `zlist` (`VectorGradient.cc:146-160`, `:217-231`): `1`, and in the mode `avoidzero` it is `0` for the elements of a node
where the model is zero. -/
noncomputable def zlist (avoid : Bool) (n : Nat) (tab : List (List Nat)) (nv : Nat → ℝ) : Nat → Nat := open Classical in
  if avoid then
    (List.range n).foldl (fun z i => if nv i = 0 then (tab.getD i []).foldl (fun z t => Function.update z t 0) z else z) fun _ => 1
  else fun _ => 1

/-- The average at one node (`VectorGradient.cc:162-185`, `:233-257`). -/
noncomputable def nodeAverage (z : Nat → Nat) (g : Nat → V3) (l : List Nat) : V3 :=
  let r := l.foldl (fun (s : V3 × Nat) t => if z t ≠ 0 then (V3.add s.1 (g t), s.2 + 1) else s) (⟨0, 0, 0⟩, 0)
  if r.2 ≠ 0 then V3.smul r.1 (1 / (r.2 : ℝ)) else ⟨0, 0, 0⟩

/-- `calc2d` (`VectorGradient.cc:124-191`): the values of `model_gradx` and `model_grady` on node `v`. -/
noncomputable def gradient2d (avoid : Bool) (m : Mesh) (pos : Pos) (nv : Nat → ℝ) (v : Nat) : V3 :=
  nodeAverage (zlist avoid m.n (tables m).nodeTri nv) (fun t => ⟨(triGradient m pos nv t).x, (triGradient m pos nv t).y, 0⟩)
    ((tables m).nodeTri.getD v [])

/-- `calc3d` (`VectorGradient.cc:194-264`): the values of `model_gradx`, `model_grady` and `model_gradz` on node `v`. -/
noncomputable def gradient3d (avoid : Bool) (m : Mesh) (pos : Pos) (nv : Nat → ℝ) (v : Nat) : V3 :=
  nodeAverage (zlist avoid m.n (tables m).nodeTet nv) (tetGradient m pos nv) ((tables m).nodeTet.getD v [])

/-- The slope on an edge and whether the edge is left out (`VectorGradient.cc:77-96`). -/
noncomputable def edgeSlope (m : Mesh) (pos : Pos) (nv : Nat → ℝ) (i : Nat) : ℝ :=
  (unitVec m pos i).x * edgeInverseLength m pos i * (nv (edgeNode m i 1) - nv (edgeNode m i 0))

noncomputable def edgeKept (avoid : Bool) (m : Mesh) (nv : Nat → ℝ) (i : Nat) : Bool := open Classical in
  !(avoid && (decide (nv (edgeNode m i 0) = 0) || decide (nv (edgeNode m i 1) = 0)))

/-- One turn of the loop over the edges of a node (`VectorGradient.cc:105-117`). The division by the count is inside the loop.
The state is `val`, `count` and `vx[i]`. -/
noncomputable def step1 (kept : Nat → Bool) (g : Nat → ℝ) (s : ℝ × Nat × ℝ) (i : Nat) : ℝ × Nat × ℝ :=
  let val := if kept i then s.1 + g i else s.1
  let count := if kept i then s.2.1 + 1 else s.2.1
  if count ≠ 0 then (val / count, count, val / count) else (val, count, s.2.2)

/-- `calc1d` (`VectorGradient.cc:64-121`): the value of `model_gradx` on node `v`. -/
noncomputable def gradient1d (avoid : Bool) (m : Mesh) (pos : Pos) (nv : Nat → ℝ) (v : Nat) : ℝ :=
  (((tables m).nodeEdge.getD v []).foldl (step1 (edgeKept avoid m nv) (edgeSlope m pos nv)) (0, 0, 0)).2.2

/-! ### Specification -/

/-- The elements that count for node `v`: those that contain it, and in the mode `avoidzero` have no node where the model
is zero. -/
noncomputable def counted (avoid : Bool) (els : List Elem) (nv : Nat → ℝ) (v : Nat) : Finset Nat := open Classical in
  (range els.length).filter fun t => v ∈ nodesOf els t ∧ (avoid = true → ∀ w ∈ nodesOf els t, nv w ≠ 0)

/-! ### Triangles -/

/-- **The gradient on a triangle** with an area: the one vector whose projections give the differences of the values. -/
theorem triGradient_spec {m : Mesh} {pos : Pos} {t : Nat} (hn : PlaneTri m pos t) (nv : Nat → ℝ) (v : V3) (hz : v.z = 0) :
    (∀ k < 3, ∀ l < 3, V3.dot v (V3.sub (corner m pos t k) (corner m pos t l)) = nv (triNode m t k) - nv (triNode m t l)) ↔
    (triGradient m pos nv t).x = v.x ∧ (triGradient m pos nv t).y = v.y := by
  unfold PlaneTri at hn
  rw [corner_eq, corner_eq, corner_eq] at hn
  simp only [corner_eq]
  have hdet : det3 ⟨0, 0, 1⟩ ⟨(pos (triNode m t 1)).x - (pos (triNode m t 0)).x, (pos (triNode m t 1)).y - (pos (triNode m t 0)).y, 1⟩
      ⟨(pos (triNode m t 2)).x - (pos (triNode m t 0)).x, (pos (triNode m t 2)).y - (pos (triNode m t 0)).y, 1⟩ ≠ 0 := by
    intro e
    refine hn ?_
    simp only [det3, normal, V3.dot, V3.cross, V3.sub] at e ⊢
    linear_combination e
  obtain ⟨x, hx, e0, e1, e2⟩ := solve3_spec hdet (nv (triNode m t 0)) (nv (triNode m t 1)) (nv (triNode m t 2))
  have hg : triGradient m pos nv t = x := by rw [triGradient, hx]; rfl
  rw [hg]
  simp only [V3.dot, V3.sub] at e0 e1 e2 ⊢
  simp only [normal, V3.cross, V3.sub] at hn
  constructor
  · intro h
    have h1 := h 1 (by omega) 0 (by omega)
    have h2 := h 2 (by omega) 0 (by omega)
    rw [hz] at h1 h2
    have hD := hn
    constructor <;> refine mul_left_cancel₀ hD ?_
    · linear_combination ((pos (triNode m t 2)).y - (pos (triNode m t 0)).y) * (e1 - e0 - h1) -
        ((pos (triNode m t 1)).y - (pos (triNode m t 0)).y) * (e2 - e0 - h2)
    · linear_combination ((pos (triNode m t 1)).x - (pos (triNode m t 0)).x) * (e2 - e0 - h2) -
        ((pos (triNode m t 2)).x - (pos (triNode m t 0)).x) * (e1 - e0 - h1)
  · rintro ⟨h1, h2⟩ k hk l hl
    rw [hz, ← h1, ← h2]
    have hk3 : ∀ k < 3, x.x * (pos (triNode m t k)).x + x.y * (pos (triNode m t k)).y =
        nv (triNode m t k) - x.z + x.x * (pos (triNode m t 0)).x + x.y * (pos (triNode m t 0)).y := by
      intro k hk
      interval_cases k
      · linear_combination e0
      · linear_combination e1
      · linear_combination e2
    linear_combination hk3 k hk - hk3 l hl

/-- A triangle without an area gives zero. -/
theorem triGradient_flat {m : Mesh} {pos : Pos} {t : Nat} (hn : ¬PlaneTri m pos t) (nv : Nat → ℝ) :
    triGradient m pos nv t = ⟨0, 0, 0⟩ := by
  unfold PlaneTri at hn
  rw [corner_eq, corner_eq, corner_eq, not_not] at hn
  rw [triGradient, solve3, if_pos]
  · rfl
  · simp only [det3, normal, V3.dot, V3.cross, V3.sub] at hn ⊢
    linear_combination hn

/-! ### The average -/

theorem update_fold (z : Nat → Nat) (l : List Nat) (t : Nat) :
    (l.foldl (fun z t => Function.update z t 0) z) t = if t ∈ l then 0 else z t := by
  induction l generalizing z with
  | nil => simp
  | cons a l ih =>
    rw [List.foldl_cons, ih]
    by_cases h1 : t ∈ l
    · simp [h1]
    · by_cases h2 : t = a
      · subst h2; simp [h1]
      · simp [h1, h2]

theorem zlist_fold (tab : List (List Nat)) (nv : Nat → ℝ) (L : List Nat) (z : Nat → Nat) (t : Nat) : open Classical in
    (L.foldl (fun z i => if nv i = 0 then (tab.getD i []).foldl (fun z t => Function.update z t 0) z else z) z) t ≠ 0 ↔
      z t ≠ 0 ∧ ∀ i ∈ L, t ∈ tab.getD i [] → nv i ≠ 0 := by
  induction L generalizing z with
  | nil => simp
  | cons a L ih =>
    rw [List.foldl_cons, ih]
    by_cases ha : nv a = 0
    · rw [if_pos ha, update_fold]
      by_cases ht : t ∈ tab.getD a []
      · rw [if_pos ht]
        exact ⟨fun h => absurd rfl h.1, fun h => absurd ha (h.2 a List.mem_cons_self ht)⟩
      · rw [if_neg ht]
        refine and_congr_right fun _ => ⟨fun h i hi hti => ?_, fun h i hi => h i (List.mem_cons_of_mem _ hi)⟩
        rcases List.mem_cons.1 hi with rfl | hi
        · exact absurd hti ht
        · exact h i hi hti
    · rw [if_neg ha]
      refine and_congr_right fun _ => ⟨fun h i hi hti => ?_, fun h i hi => h i (List.mem_cons_of_mem _ hi)⟩
      rcases List.mem_cons.1 hi with rfl | hi
      · exact ha
      · exact h i hi hti

theorem zlist_spec {n k : Nat} {els : List Elem} (hels : ∀ e ∈ els, IsElem n k e) (avoid : Bool) (nv : Nat → ℝ) {t : Nat} (ht : t < els.length) :
    zlist avoid n (nodeTo n els) nv t ≠ 0 ↔ (avoid = true → ∀ w ∈ nodesOf els t, nv w ≠ 0) := by
  cases avoid
  · simp [zlist]
  · simp only [zlist, if_true, forall_const]
    rw [zlist_fold]
    have hE := hels _ (List.mem_of_getElem? (nodesOf_get ht))
    constructor
    · rintro ⟨-, h⟩ w hw
      have hwn := hE.2.2 w hw
      exact h w (List.mem_range.2 hwn) (((nodeTo_spec (Mesh.Good.nodup hels) hwn).2 t).2 ⟨_, nodesOf_get ht, hw⟩)
    · intro h
      refine ⟨by simp, fun i hi hti => ?_⟩
      obtain ⟨e, he, hie⟩ := ((nodeTo_spec (Mesh.Good.nodup hels) (List.mem_range.1 hi)).2 t).1 hti
      rw [nodesOf_get ht] at he
      obtain rfl := Option.some.inj he
      exact h i hie

theorem nodeAverage_fold (z : Nat → Nat) (g : Nat → V3) (l : List Nat) (s : V3 × Nat) :
    let r := l.foldl (fun (s : V3 × Nat) t => if z t ≠ 0 then (V3.add s.1 (g t), s.2 + 1) else s) s
    r.2 = s.2 + (l.filter fun t => z t ≠ 0).length ∧
    r.1.x = s.1.x + ((l.filter fun t => z t ≠ 0).map fun t => (g t).x).sum ∧
    r.1.y = s.1.y + ((l.filter fun t => z t ≠ 0).map fun t => (g t).y).sum ∧
    r.1.z = s.1.z + ((l.filter fun t => z t ≠ 0).map fun t => (g t).z).sum := by
  induction l generalizing s with
  | nil => simp
  | cons a l ih =>
    intro r
    by_cases h : z a ≠ 0
    · have hf : (a :: l).filter (fun t => z t ≠ 0) = a :: l.filter fun t => z t ≠ 0 := List.filter_cons_of_pos (by simpa using h)
      have hr : r = l.foldl (fun (s : V3 × Nat) t => if z t ≠ 0 then (V3.add s.1 (g t), s.2 + 1) else s) (V3.add s.1 (g a), s.2 + 1) := by
        simp only [r, List.foldl_cons, if_pos h]
      obtain ⟨h1, h2, h3, h4⟩ := ih (V3.add s.1 (g a), s.2 + 1)
      rw [hf, hr, h1, h2, h3, h4]
      simp only [List.length_cons, List.map_cons, List.sum_cons, V3.add]
      refine ⟨by omega, ?_, ?_, ?_⟩ <;> ring
    · have hf : (a :: l).filter (fun t => z t ≠ 0) = l.filter fun t => z t ≠ 0 := List.filter_cons_of_neg (by simpa using h)
      have hr : r = l.foldl (fun (s : V3 × Nat) t => if z t ≠ 0 then (V3.add s.1 (g t), s.2 + 1) else s) s := by
        simp only [r, List.foldl_cons, if_neg h]
      rw [hf, hr]
      exact ih s

/-- **The value on a node is the average** of the gradients on the elements that count; without any it is zero. -/
theorem nodeAverage_spec {n k : Nat} {els : List Elem} (hels : ∀ e ∈ els, IsElem n k e) (avoid : Bool) (nv : Nat → ℝ) (g : Nat → V3)
    {v : Nat} (hv : v < n) :
    let r := nodeAverage (zlist avoid n (nodeTo n els) nv) g ((nodeTo n els).getD v [])
    let S := counted avoid els nv v
    r.x * S.card = ∑ t ∈ S, (g t).x ∧ r.y * S.card = ∑ t ∈ S, (g t).y ∧ r.z * S.card = ∑ t ∈ S, (g t).z ∧
    (S = ∅ → r = ⟨0, 0, 0⟩) := by
  intro r S
  obtain ⟨hp, hm⟩ := nodeTo_spec (Mesh.Good.nodup hels) hv
  set l := (nodeTo n els).getD v [] with hl
  set z := zlist avoid n (nodeTo n els) nv with hz
  obtain ⟨h1, h2, h3, h4⟩ := nodeAverage_fold z g l (⟨0, 0, 0⟩, 0)
  set L := l.filter fun t => z t ≠ 0 with hL
  have hnd : L.Nodup := (hp.imp fun h => ne_of_lt h).filter _
  have hS : S = L.toFinset := by
    ext t
    simp only [S, counted, mem_filter, mem_range, List.mem_toFinset, hL, List.mem_filter, decide_eq_true_eq]
    rw [hm, exists_get]
    constructor
    · rintro ⟨a, b, c⟩
      exact ⟨⟨a, b⟩, (zlist_spec hels avoid nv a).2 c⟩
    · rintro ⟨⟨a, b⟩, c⟩
      exact ⟨a, b, (zlist_spec hels avoid nv a).1 c⟩
  have hsum : ∀ f : Nat → ℝ, ∑ t ∈ S, f t = (L.map f).sum := fun f => by rw [hS, List.sum_toFinset f hnd]
  have hcard : S.card = L.length := by rw [hS, List.toFinset_card_of_nodup hnd]
  simp only [zero_add] at h1 h2 h3 h4
  rw [hsum, hsum, hsum, hcard]
  by_cases h0 : L.length = 0
  · have hr : r = ⟨0, 0, 0⟩ := by
      simp only [r, nodeAverage]
      rw [if_neg]
      rw [not_not]
      exact h1.trans h0
    rw [List.length_eq_zero_iff] at h0
    simp [hr, h0]
  · have hr : r = V3.smul (l.foldl (fun (s : V3 × Nat) t => if z t ≠ 0 then (V3.add s.1 (g t), s.2 + 1) else s) (⟨0, 0, 0⟩, 0)).1
        (1 / (L.length : ℝ)) := by
      simp only [r, nodeAverage]
      rw [if_pos (by rw [h1]; exact h0), h1]
    have hne : (L.length : ℝ) ≠ 0 := by exact_mod_cast h0
    refine ⟨?_, ?_, ?_, fun he => ?_⟩
    · rw [hr, ← h2]; simp only [V3.smul]; field_simp
    · rw [hr, ← h3]; simp only [V3.smul]; field_simp
    · rw [hr, ← h4]; simp only [V3.smul]; field_simp
    · exact absurd (by rw [← hcard, he]; rfl) h0

/-! ### Two dimensions -/

/-- **`vector_gradient` in two dimensions**: the average over the triangles of the node; in the mode `avoidzero` only over the
triangles where the model is not zero on any node; zero when there is no such triangle. -/
theorem gradient2d_spec {m : Mesh} (h : m.Good) (avoid : Bool) (pos : Pos) (nv : Nat → ℝ) {v : Nat} (hv : v < m.n) :
    (gradient2d avoid m pos nv v).x * (counted avoid m.tris nv v).card = ∑ t ∈ counted avoid m.tris nv v, (triGradient m pos nv t).x ∧
    (gradient2d avoid m pos nv v).y * (counted avoid m.tris nv v).card = ∑ t ∈ counted avoid m.tris nv v, (triGradient m pos nv t).y ∧
    (counted avoid m.tris nv v = ∅ → (gradient2d avoid m pos nv v).x = 0 ∧ (gradient2d avoid m pos nv v).y = 0) := by
  obtain ⟨h1, h2, -, h4⟩ := nodeAverage_spec h.tris avoid nv (fun t => ⟨(triGradient m pos nv t).x, (triGradient m pos nv t).y, 0⟩) hv
  refine ⟨h1, h2, fun he => ?_⟩
  have := h4 he
  have h5 : gradient2d avoid m pos nv v = ⟨0, 0, 0⟩ := this
  rw [h5]
  exact ⟨rfl, rfl⟩

/-- **The gradient of a linear function is exact**: when the model is `a x + b y + c` on the nodes of the triangles that count for
the node, and these have an area, and there is one, the values are `a` and `b`. -/
theorem gradient2d_linear {m : Mesh} (h : m.Good) (avoid : Bool) (pos : Pos) (nv : Nat → ℝ) {v : Nat} (hv : v < m.n)
    (hne : (counted avoid m.tris nv v).Nonempty) (hp : ∀ t ∈ counted avoid m.tris nv v, PlaneTri m pos t) (a b c : ℝ)
    (hlin : ∀ t ∈ counted avoid m.tris nv v, ∀ w ∈ nodesOf m.tris t, nv w = a * (pos w).x + b * (pos w).y + c) :
    (gradient2d avoid m pos nv v).x = a ∧ (gradient2d avoid m pos nv v).y = b := by
  have hg : ∀ t ∈ counted avoid m.tris nv v, (triGradient m pos nv t).x = a ∧ (triGradient m pos nv t).y = b := by
    intro t ht
    refine (triGradient_spec (hp t ht) nv ⟨a, b, 0⟩ rfl).1 fun k hk l hl => ?_
    have htl : t < m.tris.length := by
      simp only [counted, mem_filter, mem_range] at ht
      exact ht.1
    have hE := h.tris _ (List.mem_of_getElem? (nodesOf_get htl))
    have hmem : ∀ k < 3, triNode m t k ∈ nodesOf m.tris t := by
      intro k hk
      rw [triNode, getD_get (by rw [hE.1]; exact hk)]
      exact List.getElem_mem _
    rw [hlin t ht _ (hmem k hk), hlin t ht _ (hmem l hl), corner_eq, corner_eq]
    simp only [V3.dot, V3.sub]
    ring
  obtain ⟨h1, h2, -⟩ := gradient2d_spec h avoid pos nv hv
  have hc : ((counted avoid m.tris nv v).card : ℝ) ≠ 0 := by exact_mod_cast (Finset.card_pos.2 hne).ne'
  rw [sum_congr rfl fun t ht => (hg t ht).1, sum_const, nsmul_eq_mul, mul_comm] at h1
  rw [sum_congr rfl fun t ht => (hg t ht).2, sum_const, nsmul_eq_mul, mul_comm] at h2
  exact ⟨mul_left_cancel₀ hc h1, mul_left_cancel₀ hc h2⟩

/-! ### Three dimensions -/

/-- **In three dimensions the values are always zero**: the matrix has two equal columns, so there is no solution, for every mesh,
every model and every node. The property `gradient2d_linear` has no counterpart here. -/
theorem gradient3d_zero {m : Mesh} (h : m.Good) (avoid : Bool) (pos : Pos) (nv : Nat → ℝ) {v : Nat} (hv : v < m.n) :
    gradient3d avoid m pos nv v = ⟨0, 0, 0⟩ := by
  have h0 : ∀ t, tetGradient m pos nv t = ⟨0, 0, 0⟩ := by
    intro t
    rw [tetGradient, solve3, if_pos]
    · rfl
    · simp only [det3, V3.dot, V3.cross]
      ring
  obtain ⟨h1, h2, h3, h4⟩ := nodeAverage_spec h.tets avoid nv (tetGradient m pos nv) hv
  simp only [h0, sum_const_zero, mul_eq_zero, Nat.cast_eq_zero, card_eq_zero] at h1 h2 h3
  by_cases he : counted avoid m.tets nv v = ∅
  · exact h4 he
  · ext
    · exact h1.resolve_right he
    · exact h2.resolve_right he
    · exact h3.resolve_right he

/-! ### One dimension -/

/-- A region on a line: all nodes differ only in `x`. -/
def OnLine (pos : Pos) : Prop := ∀ v w : Nat, (pos v).y = (pos w).y ∧ (pos v).z = (pos w).z

/-- The slope on an edge of a region on a line is the difference of the values over the difference of the positions. -/
theorem edgeSlope_spec {m : Mesh} {pos : Pos} (hl : OnLine pos) (nv : Nat → ℝ) {i : Nat} (h : 0 < edgeLength m pos i) :
    edgeSlope m pos nv i * ((pos (edgeNode m i 1)).x - (pos (edgeNode m i 0)).x) = nv (edgeNode m i 1) - nv (edgeNode m i 0) := by
  obtain ⟨h1, h2⟩ := unitVec_spec h
  have h3 := edgeInverseLength_spec h
  obtain ⟨hy, hz⟩ := hl (edgeNode m i 1) (edgeNode m i 0)
  have hx := congrArg V3.x h1
  have hyy := congrArg V3.y h1
  have hzz := congrArg V3.z h1
  simp only [V3.smul, V3.sub] at hx hyy hzz
  rw [hy, sub_self] at hyy
  rw [hz, sub_self] at hzz
  have e1 : (unitVec m pos i).y = 0 := by simpa [h.ne'] using hyy
  have e2 : (unitVec m pos i).z = 0 := by simpa [h.ne'] using hzz
  have hu : (unitVec m pos i).x * (unitVec m pos i).x = 1 := by
    simp only [V3.dot, e1, e2] at h2
    linarith
  rw [edgeSlope, ← hx]
  linear_combination (nv (edgeNode m i 1) - nv (edgeNode m i 0)) * ((unitVec m pos i).x * (unitVec m pos i).x * h3 + hu)

/-- The loop for at most two edges: the average. -/
theorem step1_spec (kept : Nat → Bool) (g : Nat → ℝ) {l : List Nat} (hl : l.length ≤ 2) :
    let r := (l.foldl (step1 kept g) (0, 0, 0)).2.2
    r * (l.filter kept).length = ((l.filter kept).map g).sum ∧ (l.filter kept = [] → r = 0) := by
  match l, hl with
  | [], _ => simp
  | [a], _ => cases ha : kept a <;> simp [step1, ha]
  | [a, b], _ =>
    cases ha : kept a <;> cases hb : kept b <;> simp [step1, ha, hb]

theorem edgeKept_iff {m : Mesh} (h : m.Good) (avoid : Bool) (nv : Nat → ℝ) {i : Nat} (hi : i < m.edges.length) :
    edgeKept avoid m nv i = true ↔ (avoid = true → ∀ w ∈ nodesOf m.edges i, nv w ≠ 0) := by
  have hE := h.edges _ (List.mem_of_getElem? (nodesOf_get hi))
  unfold edgeKept edgeNode
  generalize nodesOf m.edges i = e at *
  match e, hE.1 with
  | [a, b], _ => cases avoid <;> simp [not_or]

/-- **`vector_gradient` in one dimension**, for a node with at most two edges: the average of the slopes of its edges; in the mode
`avoidzero` only of the edges where the model is not zero on an end; zero when there is no such edge. -/
theorem gradient1d_spec_partial {m : Mesh} (h : m.Good) (avoid : Bool) (pos : Pos) (nv : Nat → ℝ) {v : Nat} (hv : v < m.n)
    (h2 : (counted false m.edges nv v).card ≤ 2) :
    gradient1d avoid m pos nv v * (counted avoid m.edges nv v).card = ∑ i ∈ counted avoid m.edges nv v, edgeSlope m pos nv i ∧
    (counted avoid m.edges nv v = ∅ → gradient1d avoid m pos nv v = 0) := by
  obtain ⟨hp, hm⟩ := node_edges h hv
  set l := (tables m).nodeEdge.getD v [] with hl
  have hnd : l.Nodup := hp.imp fun h => ne_of_lt h
  have h0 : counted false m.edges nv v = l.toFinset := by
    ext t
    simp only [counted, mem_filter, mem_range, List.mem_toFinset]
    rw [hm, exists_get]
    simp
  rw [h0, List.toFinset_card_of_nodup hnd] at h2
  set L := l.filter (edgeKept avoid m nv) with hL
  have hndL : L.Nodup := hnd.filter _
  have hS : counted avoid m.edges nv v = L.toFinset := by
    ext t
    simp only [counted, mem_filter, mem_range, List.mem_toFinset, hL, List.mem_filter]
    rw [hm, exists_get]
    constructor
    · rintro ⟨a, b, c⟩
      exact ⟨⟨a, b⟩, (edgeKept_iff h avoid nv a).2 c⟩
    · rintro ⟨⟨a, b⟩, c⟩
      exact ⟨a, b, (edgeKept_iff h avoid nv a).1 c⟩
  obtain ⟨r1, r2⟩ := step1_spec (edgeKept avoid m nv) (edgeSlope m pos nv) h2
  rw [hS, List.toFinset_card_of_nodup hndL, List.sum_toFinset _ hndL]
  refine ⟨r1, fun he => r2 ?_⟩
  rwa [List.toFinset_eq_empty_iff] at he

/-- **Exact for linear functions** on a node with one or two edges. -/
theorem gradient1d_linear_partial {m : Mesh} (h : m.Good) (avoid : Bool) {pos : Pos} (hl : OnLine pos) (nv : Nat → ℝ) {v : Nat} (hv : v < m.n)
    (h2 : (counted false m.edges nv v).card ≤ 2) (hne : (counted avoid m.edges nv v).Nonempty)
    (hlen : ∀ i ∈ counted avoid m.edges nv v, 0 < edgeLength m pos i) (a c : ℝ)
    (hlin : ∀ i ∈ counted avoid m.edges nv v, ∀ w ∈ nodesOf m.edges i, nv w = a * (pos w).x + c) :
    gradient1d avoid m pos nv v = a := by
  obtain ⟨h1, -⟩ := gradient1d_spec_partial h avoid pos nv hv h2
  have hg : ∀ i ∈ counted avoid m.edges nv v, edgeSlope m pos nv i = a := by
    intro i hi
    have hil : i < m.edges.length := by
      simp only [counted, mem_filter, mem_range] at hi
      exact hi.1
    have hs := edgeSlope_spec hl nv (hlen i hi)
    have hE := h.edges _ (List.mem_of_getElem? (nodesOf_get hil))
    have hmem : ∀ k < 2, edgeNode m i k ∈ nodesOf m.edges i := by
      intro k hk
      rw [edgeNode, getD_get (by rw [hE.1]; exact hk)]
      exact List.getElem_mem _
    rw [hlin i hi _ (hmem 0 (by omega)), hlin i hi _ (hmem 1 (by omega))] at hs
    have hx : (pos (edgeNode m i 1)).x - (pos (edgeNode m i 0)).x ≠ 0 := by
      intro e
      obtain ⟨hy, hz⟩ := hl (edgeNode m i 1) (edgeNode m i 0)
      have := (hlen i hi).ne'
      refine this ?_
      have e' := sub_eq_zero.1 e
      simp only [edgeLength, V3.mag, V3.dot, V3.sub, e', hy, hz, sub_self]
      norm_num
    refine mul_right_cancel₀ hx ?_
    rw [hs]
    ring
  have hc : ((counted avoid m.edges nv v).card : ℝ) ≠ 0 := by exact_mod_cast (Finset.card_pos.2 hne).ne'
  rw [sum_congr rfl hg, sum_const, nsmul_eq_mul, mul_comm] at h1
  exact mul_left_cancel₀ hc h1

/-! ### Examples and counterexamples -/

/-- The square of two triangles and a linear model: the hypotheses of `gradient2d_linear` hold in both modes. -/
theorem gradient2d_example (avoid : Bool) :
    (gradient2d avoid sq sqPos (fun w => 2 * (sqPos w).x + 3 * (sqPos w).y + 5) 1).x = 2 ∧
    (gradient2d avoid sq sqPos (fun w => 2 * (sqPos w).x + 3 * (sqPos w).y + 5) 1).y = 3 := by
  refine gradient2d_linear sq_good avoid sqPos _ (by decide) ?_ ?_ 2 3 5 fun t ht w hw => rfl
  · refine ⟨0, ?_⟩
    simp only [counted, mem_filter, mem_range]
    refine ⟨by decide, by decide, fun _ w hw => ?_⟩
    have : w = 0 ∨ w = 1 ∨ w = 2 := by simpa [nodesOf, Geom.sq] using hw
    rcases this with rfl | rfl | rfl <;> norm_num [sqPos]
  · intro t ht
    simp only [counted, mem_filter, mem_range] at ht
    have : t < 2 := ht.1
    interval_cases t <;> norm_num [PlaneTri, normal, V3.cross, V3.sub, corner, nodesOf, Geom.sq, sqPos]

/-- A line of three edges at one node. -/
def star : Mesh where
  n := 4
  dim := 1
  edges := [[0, 1], [0, 2], [0, 3]]

noncomputable def starPos : Pos := fun v => ⟨v, 0, 0⟩

theorem star_good : star.Good where
  edges := by decide +kernel
  tris := by decide +kernel
  tets := by decide +kernel
  nodupEdges := by decide +kernel
  nodupTris := by decide +kernel

theorem star_slope {i : Nat} (hi : i < 3) : edgeSlope star starPos (fun w => (starPos w).x) i = 1 := by
  have h0 : edgeNode star i 0 = 0 := by interval_cases i <;> rfl
  have h1 : edgeNode star i 1 = i + 1 := by interval_cases i <;> rfl
  have hL : edgeLength star starPos i = i + 1 := by
    rw [edgeLength, h0, h1]
    simp only [starPos, V3.mag, V3.dot, V3.sub]
    push_cast
    rw [show (0 - ((i : ℝ) + 1)) * (0 - ((i : ℝ) + 1)) + (0 - 0) * (0 - 0) + (0 - 0) * (0 - 0) = ((i : ℝ) + 1) * ((i : ℝ) + 1) by ring]
    exact Real.sqrt_mul_self (by positivity)
  have hs := edgeSlope_spec (m := star) (pos := starPos) (fun v w => ⟨rfl, rfl⟩) (fun w => (starPos w).x) (i := i) (by rw [hL]; positivity)
  rw [h0, h1] at hs
  simp only [starPos] at hs
  push_cast at hs
  have : (i : ℝ) + 1 - 0 ≠ 0 := by rw [sub_zero]; positivity
  exact mul_right_cancel₀ this (hs.trans (one_mul _).symm)

/-- **With three edges at a node the value is wrong**: the model is `x`, so its slope is `1` everywhere, but the value is `2/3`. -/
theorem gradient1d_three_wrong : gradient1d false star starPos (fun w => (starPos w).x) 0 = 2 / 3 := by
  have hl : (tables star).nodeEdge.getD 0 [] = [0, 1, 2] := by
    obtain ⟨h1, h2⟩ := node_edges star_good (v := 0) (by decide)
    refine List.Perm.eq_of_pairwise (le := (· < ·)) (fun a b _ _ h1 h2 => by omega) h1 (by decide) ?_
    rw [List.perm_ext_iff_of_nodup (h1.imp fun h => ne_of_lt h) (by decide)]
    intro i
    rw [h2, exists_get]
    constructor
    · rintro ⟨hi, -⟩
      have : i < 3 := hi
      interval_cases i <;> simp
    · intro hi
      have : i = 0 ∨ i = 1 ∨ i = 2 := by simpa using hi
      rcases this with rfl | rfl | rfl <;> decide
  rw [gradient1d, hl]
  simp only [List.foldl_cons, List.foldl_nil, step1, edgeKept, Bool.false_and, Bool.not_false, if_true,
    star_slope (i := 0) (by omega), star_slope (i := 1) (by omega), star_slope (i := 2) (by omega)]
  norm_num

/-- In three dimensions, on a good tetrahedron with a linear model: the right gradient is `(1, 0, 0)`, the values are zero. -/
theorem gradient3d_wrong : te.Good ∧ GoodTet te tePos 0 ∧ gradient3d false te tePos (fun w => (tePos w).x) 0 = ⟨0, 0, 0⟩ := by
  refine ⟨te_good, ?_, gradient3d_zero te_good _ _ _ (by decide)⟩
  norm_num [GoodTet, det4, corner4, nodesOf, te, tePos, V3.dot, V3.cross, V3.sub]

end Verif.Fields
