import Verif.Fields.Tri

/-!
# Fields on triangles: what is proved
-/

namespace Verif.Fields

open Verif.Geom

/-! ### Specification -/

/-- The triangle has an area in the plane. -/
def PlaneTri (m : Mesh) (pos : Pos) (t : Nat) : Prop := (normal (corner m pos t 0) (corner m pos t 1) (corner m pos t 2)).z ≠ 0

/-- The node of edge `i` of triangle `t` that belongs to `@en0` (first node of the edge), `@en1` (second node) and `@en2` (the
node of the triangle across the edge). -/
def localNode (m : Mesh) (t i nd : Nat) : Nat :=
  if nd = 0 then edgeNode m (triangleEdge m t i) 0 else if nd = 1 then edgeNode m (triangleEdge m t i) 1 else triNode m t i

/-! ### Regular triangles -/

theorem det2_unit {p q r s : V3} {L L' : ℝ} (hL : L ≠ 0) (hL' : L' ≠ 0) :
    det2 ⟨(q.x - p.x) / L, (q.y - p.y) / L, (q.z - p.z) / L⟩ ⟨(s.x - r.x) / L', (s.y - r.y) / L', (s.z - r.z) / L'⟩ =
      ((q.x - p.x) * (s.y - r.y) - (q.y - p.y) * (s.x - r.x)) / (L * L') := by
  simp only [det2]
  field_simp

theorem mag_ne_zero {p q : V3} (h : p.x ≠ q.x ∨ p.y ≠ q.y) : V3.mag (V3.sub q p) ≠ 0 := by
  have : 0 < V3.dot (V3.sub q p) (V3.sub q p) := by
    refine V3.dot_self_pos fun e => ?_
    have e1 := congrArg V3.x e
    have e2 := congrArg V3.y e
    simp only [V3.sub] at e1 e2
    rcases h with h | h
    · exact h (by linarith)
    · exact h (by linarith)
  exact (mag_pos_iff.2 this).ne'

theorem corner_eq (m : Mesh) (pos : Pos) (t k : Nat) : corner m pos t k = pos (triNode m t k) := rfl

theorem regular_of_plane {m : Mesh} {pos : Pos} {t a b c : Nat} (hT : TriOf m t a b c) (hn : PlaneTri m pos t) :
    Regular m pos t := by
  obtain ⟨hk, ⟨a0, a1⟩, ⟨b0, b1⟩, ⟨c0, c1⟩, -⟩ := hT
  unfold PlaneTri at hn
  rw [corner_eq, corner_eq, corner_eq, hk, hk, hk] at hn
  simp only [List.getD_cons_zero, List.getD_cons_succ, normal, V3.cross, V3.sub] at hn
  have ne1 : (pos b).x ≠ (pos c).x ∨ (pos b).y ≠ (pos c).y := by
    by_contra h; push Not at h; exact hn (by rw [h.1, h.2]; ring)
  have ne2 : (pos a).x ≠ (pos c).x ∨ (pos a).y ≠ (pos c).y := by
    by_contra h; push Not at h; exact hn (by rw [h.1, h.2]; ring)
  have ne3 : (pos a).x ≠ (pos b).x ∨ (pos a).y ≠ (pos b).y := by
    by_contra h; push Not at h; exact hn (by rw [h.1, h.2]; ring)
  have m1 := mag_ne_zero ne1
  have m2 := mag_ne_zero ne2
  have m3 := mag_ne_zero ne3
  refine ⟨?_, ?_, ?_⟩ <;> simp only [triUnit, unitVec, a0, a1, b0, b1, c0, c1]
  · have := det2_unit (p := pos b) (q := pos c) (r := pos a) (s := pos c) m1 m2
    simp only [V3.sub] at this ⊢
    rw [this]
    refine div_ne_zero (fun e => hn ?_) (mul_ne_zero m1 m2)
    linear_combination -e
  · have := det2_unit (p := pos b) (q := pos c) (r := pos a) (s := pos b) m1 m3
    simp only [V3.sub] at this ⊢
    rw [this]
    refine div_ne_zero (fun e => hn ?_) (mul_ne_zero m1 m3)
    linear_combination -e
  · have := det2_unit (p := pos a) (q := pos c) (r := pos a) (s := pos b) m2 m3
    simp only [V3.sub] at this ⊢
    rw [this]
    refine div_ne_zero (fun e => hn ?_) (mul_ne_zero m2 m3)
    linear_combination -e

theorem mag_eq_zero {p : V3} (h : V3.mag p = 0) : p = ⟨0, 0, 0⟩ := by
  refine V3.dot_self_eq_zero ?_
  rw [← V3.mag_sq, h, zero_mul]

/-- **The weights of a triangle can be used**: the check `weight != 0.0` (`TriangleElementField.cc:285`) never fails with
`ElementEdgeCouple` on a triangle that has an area. -/
theorem goodWeights_couple (eps : ℝ) {m : Mesh} {pos : Pos} {t a b c : Nat} (hT : TriOf m t a b c) (hn : PlaneTri m pos t) :
    GoodWeights (elementEdgeCouple eps m pos t) := by
  obtain ⟨hk, ⟨a0, a1⟩, ⟨b0, b1⟩, ⟨c0, c1⟩, -⟩ := hT
  unfold PlaneTri at hn
  rw [corner_eq, corner_eq, corner_eq, hk, hk, hk] at hn
  simp only [List.getD_cons_zero, List.getD_cons_succ, normal, V3.cross, V3.sub] at hn
  have key : ∀ i j, elementEdgeCouple eps m pos t i + elementEdgeCouple eps m pos t j = 0 →
      edgeCenter m pos (triangleEdge m t i) = edgeCenter m pos (triangleEdge m t j) := by
    intro i j h
    unfold elementEdgeCouple at h
    have h1 := V3.mag_nonneg (V3.sub (edgeCenter m pos (triangleEdge m t i)) (triangleCenter eps m pos t))
    have h2 := V3.mag_nonneg (V3.sub (edgeCenter m pos (triangleEdge m t j)) (triangleCenter eps m pos t))
    have e1 := mag_eq_zero (show V3.mag (V3.sub (edgeCenter m pos (triangleEdge m t i)) (triangleCenter eps m pos t)) = 0 by linarith)
    have e2 := mag_eq_zero (show V3.mag (V3.sub (edgeCenter m pos (triangleEdge m t j)) (triangleCenter eps m pos t)) = 0 by linarith)
    simp only [V3.sub, V3.mk.injEq] at e1 e2
    obtain ⟨x1, y1, z1⟩ := e1
    obtain ⟨x2, y2, z2⟩ := e2
    ext <;> linarith
  refine ⟨fun h => ?_, fun h => ?_, fun h => ?_⟩
  · have := key _ _ h
    simp only [edgeCenter, V3.smul, V3.add, b0, b1, c0, c1, V3.mk.injEq] at this
    obtain ⟨hx, hy, -⟩ := this
    exact hn (by rw [show (pos c).x = (pos b).x by linarith, show (pos c).y = (pos b).y by linarith]; ring)
  · have := key _ _ h
    simp only [edgeCenter, V3.smul, V3.add, a0, a1, c0, c1, V3.mk.injEq] at this
    obtain ⟨hx, hy, -⟩ := this
    exact hn (by rw [show (pos c).x = (pos a).x by linarith, show (pos c).y = (pos a).y by linarith]; ring)
  · have := key _ _ h
    simp only [edgeCenter, V3.smul, V3.add, a0, a1, b0, b1, V3.mk.injEq] at this
    obtain ⟨hx, hy, -⟩ := this
    exact hn (by rw [show (pos b).x = (pos a).x by linarith, show (pos b).y = (pos a).y by linarith]; ring)

/-! ### Values -/

theorem endVec_proj {m : Mesh} {pos : Pos} {t : Nat} (hr : Regular m pos t) (ed : Nat → ℝ) {i : Nat} (hi : i < 3) {k : Nat} (hk : k < 2) :
    (endVec m pos t ed i k).z = 0 ∧ dot2 (triUnit m pos t i) (endVec m pos t ed i k) = ed i := by
  have h1 := sol2_spec hr.d01 (ed 0) (ed 1)
  have h2 := sol2_spec hr.d02 (ed 0) (ed 2)
  have h3 := sol2_spec hr.d12 (ed 1) (ed 2)
  interval_cases i <;> interval_cases k <;> simp only [endVec, pairVec, if_true, if_false, one_ne_zero, OfNat.ofNat_ne_zero, OfNat.ofNat_ne_one] <;>
    first | exact ⟨h1.1, h1.2.1⟩ | exact ⟨h1.1, h1.2.2⟩ | exact ⟨h2.1, h2.2.1⟩ | exact ⟨h2.1, h2.2.2⟩ | exact ⟨h3.1, h3.2.1⟩ | exact ⟨h3.1, h3.2.2⟩

theorem endVec_const {m : Mesh} {pos : Pos} {t : Nat} (hr : Regular m pos t) {ed : Nat → ℝ} {E : V3}
    (hE : ∀ i < 3, ed i = dot2 (triUnit m pos t i) E) (i k : Nat) : endVec m pos t ed i k = ⟨E.x, E.y, 0⟩ := by
  have h1 := sol2_unique (w := ⟨E.x, E.y, 0⟩) hr.d01 rfl (hE 0 (by omega)).symm (hE 1 (by omega)).symm
  have h2 := sol2_unique (w := ⟨E.x, E.y, 0⟩) hr.d02 rfl (hE 0 (by omega)).symm (hE 2 (by omega)).symm
  have h3 := sol2_unique (w := ⟨E.x, E.y, 0⟩) hr.d12 rfl (hE 1 (by omega)).symm (hE 2 (by omega)).symm
  unfold endVec pairVec
  rw [h1, h2, h3]
  split_ifs <;> rfl

theorem mean_self {x : V3} {wx wy : ℝ} (h : wx + wy ≠ 0) : mean x x wx wy = x := by
  unfold mean V3.smul V3.add
  ext <;> simp only <;> field_simp

theorem mean_dot2 {u x y : V3} {wx wy c : ℝ} (h : wx + wy ≠ 0) (hx : x.z = 0 ∧ dot2 u x = c) (hy : y.z = 0 ∧ dot2 u y = c) :
    (mean x y wx wy).z = 0 ∧ dot2 u (mean x y wx wy) = c := by
  obtain ⟨x0, x1⟩ := hx
  obtain ⟨y0, y1⟩ := hy
  unfold mean V3.smul V3.add dot2 at *
  refine ⟨by simp [x0, y0], ?_⟩
  simp only
  have : (u.x * ((x.x * wx + y.x * wy) * (1 / (wx + wy))) + u.y * ((x.y * wx + y.y * wy) * (1 / (wx + wy)))) =
      ((u.x * x.x + u.y * x.y) * wx + (u.x * y.x + u.y * y.y) * wy) / (wx + wy) := by ring
  rw [this, x1, y1, ← mul_add, mul_div_assoc, div_self h, mul_one]

/-- **Values on every edge**: on a triangle with an area `element_from_edge_model` gives one vector for each edge; it has the
given value in the direction of its edge. -/
theorem elementField_spec {m : Mesh} (h : m.Good) (hc : m.Complete) {pos : Pos} {t : Nat} (ht : t < m.tris.length)
    (hn : PlaneTri m pos t) {couple : Nat → ℝ} (hw : GoodWeights couple) (ed : Nat → ℝ) (s : Pairs) :
    ∃ r, elementField m pos t couple ed s = some r ∧ r.length = 3 ∧
      ∀ i < 3, ∃ w, r[i]? = some w ∧ w.z = 0 ∧ dot2 (triUnit m pos t i) w = ed i := by
  obtain ⟨a, b, c, hT⟩ := triOf h hc ht
  have hr := regular_of_plane hT hn
  have key : ∀ i < 3, (fieldVec m pos t couple ed i).z = 0 ∧ dot2 (triUnit m pos t i) (fieldVec m pos t couple ed i) = ed i :=
    fun i hi => mean_dot2 (hw.ne i) (endVec_proj hr ed hi (k := 0) (by omega)) (endVec_proj hr ed hi (k := 1) (by omega))
  refine ⟨_, elementField_eq hT hr hw ed s, rfl, fun i hi => ⟨fieldVec m pos t couple ed i, ?_, key i hi⟩⟩
  interval_cases i <;> rfl

/-- **A constant field is found exactly** on every edge of every triangle with an area. -/
theorem elementField_constant {m : Mesh} (h : m.Good) (hc : m.Complete) {pos : Pos} {t : Nat} (ht : t < m.tris.length)
    (hn : PlaneTri m pos t) {couple : Nat → ℝ} (hw : GoodWeights couple) {ed : Nat → ℝ} (s : Pairs) (E : V3)
    (hE : ∀ i < 3, ed i = dot2 (triUnit m pos t i) E) :
    elementField m pos t couple ed s = some (List.replicate 3 ⟨E.x, E.y, 0⟩) := by
  obtain ⟨a, b, c, hT⟩ := triOf h hc ht
  have hr := regular_of_plane hT hn
  rw [elementField_eq hT hr hw ed s]
  have key : ∀ i, fieldVec m pos t couple ed i = ⟨E.x, E.y, 0⟩ := fun i => by
    unfold fieldVec
    rw [endVec_const hr hE, endVec_const hr hE, mean_self (hw.ne i)]
  rw [key, key, key]
  rfl

/-- **Pairs**: the vector at each end of an edge has the given values in the direction of both edges of the triangle at that
node, and a constant field is found exactly. -/
theorem elementPairs_spec {m : Mesh} (h : m.Good) (hc : m.Complete) {pos : Pos} {t : Nat} (ht : t < m.tris.length)
    (hn : PlaneTri m pos t) (couple ed : Nat → ℝ) (s : Pairs) :
    ∃ r0 r1, elementPairs m pos t couple ed s = some (r0, r1) ∧ r0.length = 3 ∧ r1.length = 3 ∧
      ∀ i < 3, ∀ k < 2, ∃ w, (if k = 0 then r0 else r1)[i]? = some w ∧ w.z = 0 ∧
        ∀ j < 3, (∃ k' < 2, edgeNode m (triangleEdge m t j) k' = edgeNode m (triangleEdge m t i) k) →
          dot2 (triUnit m pos t j) w = ed j := by
  obtain ⟨a, b, c, hT⟩ := triOf h hc ht
  have hr := regular_of_plane hT hn
  refine ⟨_, _, elementPairs_eq hT hr couple ed s, rfl, rfl, fun i hi k hk => ⟨endVec m pos t ed i k, ?_, (endVec_proj hr ed hi hk).1, ?_⟩⟩
  · interval_cases i <;> interval_cases k <;> rfl
  · have h1 := sol2_spec hr.d01 (ed 0) (ed 1)
    have h2 := sol2_spec hr.d02 (ed 0) (ed 2)
    have h3 := sol2_spec hr.d12 (ed 1) (ed 2)
    obtain ⟨-, ⟨a0, a1⟩, ⟨b0, b1⟩, ⟨c0, c1⟩, hab, hac, hbc⟩ := hT
    rintro j hj ⟨k', hk', he⟩
    interval_cases i <;> interval_cases k <;> interval_cases j <;> simp only [endVec, pairVec, if_true, if_false, one_ne_zero, OfNat.ofNat_ne_zero, OfNat.ofNat_ne_one] <;>
      first | exact h1.2.1 | exact h1.2.2 | exact h2.2.1 | exact h2.2.2 | exact h3.2.1 | exact h3.2.2 |
        (exfalso; interval_cases k' <;> simp only [a0, a1, b0, b1, c0, c1] at he <;> omega)

theorem elementPairs_constant {m : Mesh} (h : m.Good) (hc : m.Complete) {pos : Pos} {t : Nat} (ht : t < m.tris.length)
    (hn : PlaneTri m pos t) (couple : Nat → ℝ) {ed : Nat → ℝ} (s : Pairs) (E : V3)
    (hE : ∀ i < 3, ed i = dot2 (triUnit m pos t i) E) :
    elementPairs m pos t couple ed s = some (List.replicate 3 ⟨E.x, E.y, 0⟩, List.replicate 3 ⟨E.x, E.y, 0⟩) := by
  obtain ⟨a, b, c, hT⟩ := triOf h hc ht
  have hr := regular_of_plane hT hn
  rw [elementPairs_eq hT hr couple ed s]
  simp only [endVec_const hr hE]
  rfl

theorem edgeLength_pos_of_plane {m : Mesh} {pos : Pos} {t a b c : Nat} (hT : TriOf m t a b c) (hn : PlaneTri m pos t) {i : Nat} (hi : i < 3) :
    0 < edgeLength m pos (triangleEdge m t i) := by
  obtain ⟨hk, ⟨a0, a1⟩, ⟨b0, b1⟩, ⟨c0, c1⟩, -⟩ := hT
  unfold PlaneTri at hn
  rw [corner_eq, corner_eq, corner_eq, hk, hk, hk] at hn
  simp only [List.getD_cons_zero, List.getD_cons_succ, normal, V3.cross, V3.sub] at hn
  have ne1 : (pos c).x ≠ (pos b).x ∨ (pos c).y ≠ (pos b).y := by
    by_contra h; push Not at h; exact hn (by rw [h.1, h.2]; ring)
  have ne2 : (pos c).x ≠ (pos a).x ∨ (pos c).y ≠ (pos a).y := by
    by_contra h; push Not at h; exact hn (by rw [h.1, h.2]; ring)
  have ne3 : (pos b).x ≠ (pos a).x ∨ (pos b).y ≠ (pos a).y := by
    by_contra h; push Not at h; exact hn (by rw [h.1, h.2]; ring)
  refine lt_of_le_of_ne (V3.mag_nonneg _) (Ne.symm ?_)
  interval_cases i <;> simp only [edgeLength, a0, a1, b0, b1, c0, c1]
  · exact mag_ne_zero ne1
  · exact mag_ne_zero ne2
  · exact mag_ne_zero ne3

/-- **From the nodes to the triangles**: for node values that are a linear function of the position, the vectors that
`element_from_edge_model` makes of the gradient model are the gradient of the function, on every edge of every triangle, and
no check fails. -/
theorem elementField_gradient {m : Mesh} (h : m.Good) (hc : m.Complete) {pos : Pos} {t : Nat} (ht : t < m.tris.length)
    (hn : PlaneTri m pos t) (eps : ℝ) (s : Pairs) (gx gy c0 : ℝ) :
    elementField m pos t (elementEdgeCouple eps m pos t)
      (edgeData m t (averageModel .gradient m pos fun n => gx * (pos n).x + gy * (pos n).y + c0)) s =
      some (List.replicate 3 ⟨gx, gy, 0⟩) := by
  obtain ⟨a, b, c, hT⟩ := triOf h hc ht
  refine elementField_constant h hc ht hn (goodWeights_couple eps hT hn) s ⟨gx, gy, 0⟩ fun i hi => ?_
  have := gradient_linear (edgeLength_pos_of_plane hT hn hi) ⟨gx, gy, 0⟩ c0
  simp only [V3.dot, zero_mul, add_zero] at this
  simp only [edgeData, this, dot2, triUnit]
  ring

/-- **Nothing is left of another triangle**: the values do not depend on what the `thread_local` variables held. -/
theorem elementField_scratch {m : Mesh} (h : m.Good) (hc : m.Complete) {pos : Pos} {t : Nat} (ht : t < m.tris.length)
    (hn : PlaneTri m pos t) {couple : Nat → ℝ} (hw : GoodWeights couple) (ed : Nat → ℝ) (s s' : Pairs) :
    elementField m pos t couple ed s = elementField m pos t couple ed s' := by
  obtain ⟨a, b, c, hT⟩ := triOf h hc ht
  have hr := regular_of_plane hT hn
  rw [elementField_eq hT hr hw ed s, elementField_eq hT hr hw ed s']

/-- `element_from_node_model`: the values on the two nodes of the edge and on the node across, which are the three nodes of
the triangle. -/
theorem elementFromNode_spec {m : Mesh} (h : m.Good) (hc : m.Complete) {t : Nat} (ht : t < m.tris.length) (nv : Nat → ℝ)
    {j : Nat} (hj : j < 3) :
    elementFromNode m nv t j = (nv (localNode m t j 0), nv (localNode m t j 1), nv (localNode m t j 2)) ∧
    (nodesOf m.tris t).Perm [localNode m t j 0, localNode m t j 1, localNode m t j 2] := by
  refine ⟨rfl, ?_⟩
  have h0 := triangleEdge_spec h hc ht hj
  have hE := h.tris _ (List.mem_of_getElem? (nodesOf_get ht))
  obtain ⟨a, b, c, he⟩ : ∃ a b c, nodesOf m.tris t = [a, b, c] := by
    match nodesOf m.tris t, hE.1 with
    | [a, b, c], _ => exact ⟨a, b, c, rfl⟩
  rw [he] at h0 ⊢
  have hab : ([a, b, c] : List Nat).Perm [b, c, a] := (List.perm_append_comm (l₁ := [a]) (l₂ := [b, c]))
  have hac : ([b, c] : List Nat).Perm [c, b] := List.Perm.swap c b []
  interval_cases j <;> simp [localNode, edgeNode, triNode, h0, he] <;> assumption

/-! ### Derivatives -/

/-- The derivative of the value on edge `j` of the triangle by the variable on node `v`. -/
def dvals (m : Mesh) (t : Nat) (ev0 ev1 : Nat → ℝ) (v j : Nat) : ℝ := nodeValue m (triangleEdge m t j) v ev0 ev1

theorem derivativePairVectors_eq {m : Mesh} {pos : Pos} {t : Nat} (hr : Regular m pos t) (ev0 ev1 : Nat → ℝ) (ni : Nat) :
    derivativePairVectors m pos t ev0 ev1 ni =
      some [pairVec m pos t (dvals m t ev0 ev1 (triNode m t ni)) 0 1, pairVec m pos t (dvals m t ev0 ev1 (triNode m t ni)) 0 2,
        pairVec m pos t (dvals m t ev0 ev1 (triNode m t ni)) 1 2] :=
  edgePairVectors_eq hr (dvals m t ev0 ev1 (triNode m t ni))

theorem dfieldPairs_eq {m : Mesh} {pos : Pos} {t a b c : Nat} (hT : TriOf m t a b c) (hr : Regular m pos t)
    (couple ev0 ev1 : Nat → ℝ) (s : DPairs) :
    ∃ p, dfieldPairs m pos t couple ev0 ev1 s = some p ∧ ∀ nd < 3, ∀ i < 3, ∀ k < 2,
      (p nd).vec i k = endVec m pos t (dvals m t ev0 ev1 (localNode m t i nd)) i k ∧ (p nd).weight i k = endWeight couple i k := by
  obtain ⟨hn, ⟨a0, a1⟩, ⟨b0, b1⟩, ⟨c0, c1⟩, ab, ac, bc⟩ := hT
  have e01 : endOf m (triangleEdge m t 0) c = some 1 := by simp [endOf, a0, a1, bc]
  have e02 : endOf m (triangleEdge m t 0) b = some 0 := by simp [endOf, a0]
  have e11 : endOf m (triangleEdge m t 1) c = some 1 := by simp [endOf, b0, b1, ac]
  have e12 : endOf m (triangleEdge m t 1) a = some 0 := by simp [endOf, b0]
  have e21 : endOf m (triangleEdge m t 2) b = some 1 := by simp [endOf, c0, c1, ab]
  have e22 : endOf m (triangleEdge m t 2) a = some 0 := by simp [endOf, c0]
  have d0a : derIndex m (triangleEdge m t 0) a = 2 := by simp [derIndex, a0, a1, ab.symm, ac.symm]
  have d0b : derIndex m (triangleEdge m t 0) b = 0 := by simp [derIndex, a0]
  have d0c : derIndex m (triangleEdge m t 0) c = 1 := by simp [derIndex, a0, a1, bc]
  have d1a : derIndex m (triangleEdge m t 1) a = 0 := by simp [derIndex, b0]
  have d1b : derIndex m (triangleEdge m t 1) b = 2 := by simp [derIndex, b0, b1, ab, bc.symm]
  have d1c : derIndex m (triangleEdge m t 1) c = 1 := by simp [derIndex, b0, b1, ac]
  have d2a : derIndex m (triangleEdge m t 2) a = 0 := by simp [derIndex, c0]
  have d2b : derIndex m (triangleEdge m t 2) b = 1 := by simp [derIndex, c0, c1, ab]
  have d2c : derIndex m (triangleEdge m t 2) c = 2 := by simp [derIndex, c0, c1, ac, bc]
  simp only [dfieldPairs, List.mapM_cons, List.mapM_nil, derivativePairVectors_eq hr, List.foldlM, dpairStep, row0, row1, nodeShared, hn,
    Option.bind_eq_bind, Option.bind_some, List.getD_cons_zero, List.getD_cons_succ, e01, e02, e11, e12, e21, e22,
    d0a, d0b, d0c, d1a, d1b, d1c, d2a, d2b, d2c, Option.pure_def, Option.some.injEq, exists_eq_left']
  intro nd hnd i hi k hk
  have l00 : localNode m t 0 0 = b := by simp [localNode, a0]
  have l01 : localNode m t 0 1 = c := by simp [localNode, a1]
  have l02 : localNode m t 0 2 = a := by simp [localNode, hn]
  have l10 : localNode m t 1 0 = a := by simp [localNode, b0]
  have l11 : localNode m t 1 1 = c := by simp [localNode, b1]
  have l12 : localNode m t 1 2 = b := by simp [localNode, hn]
  have l20 : localNode m t 2 0 = a := by simp [localNode, c0]
  have l21 : localNode m t 2 1 = b := by simp [localNode, c1]
  have l22 : localNode m t 2 2 = c := by simp [localNode, hn]
  interval_cases nd <;> interval_cases i <;> interval_cases k <;>
    simp [set2, DPairs.setVec, endVec, endWeight, l00, l01, l02, l10, l11, l12, l20, l21, l22]

theorem elementFieldD_eq {m : Mesh} {pos : Pos} {t a b c : Nat} (hT : TriOf m t a b c) (hr : Regular m pos t)
    {couple : Nat → ℝ} (hw : GoodWeights couple) (ev0 ev1 : Nat → ℝ) (s : DPairs) :
    elementFieldD m pos t couple ev0 ev1 s = some ([0, 1, 2].map fun nd => [0, 1, 2].map fun i =>
      fieldVec m pos t couple (dvals m t ev0 ev1 (localNode m t i nd)) i) := by
  obtain ⟨p, hp, h⟩ := dfieldPairs_eq hT hr couple ev0 ev1 s
  have hk : ∀ nd < 3, ∀ i < 3, weighted (p nd) i = some (fieldVec m pos t couple (dvals m t ev0 ev1 (localNode m t i nd)) i) := by
    intro nd hnd i hi
    rw [weighted_eq (by rw [(h nd hnd i hi 0 (by omega)).2, (h nd hnd i hi 1 (by omega)).2]; exact hw.ne i)]
    rw [(h nd hnd i hi 0 (by omega)).1, (h nd hnd i hi 0 (by omega)).2, (h nd hnd i hi 1 (by omega)).1, (h nd hnd i hi 1 (by omega)).2]
    rfl
  simp [elementFieldD, hp, hk 0, hk 1, hk 2]

theorem elementPairsD_eq {m : Mesh} {pos : Pos} {t a b c : Nat} (hT : TriOf m t a b c) (hr : Regular m pos t)
    (couple ev0 ev1 : Nat → ℝ) (s : DPairs) :
    elementPairsD m pos t couple ev0 ev1 s = some
      ([0, 1, 2].map fun nd => [0, 1, 2].map fun i => endVec m pos t (dvals m t ev0 ev1 (localNode m t i nd)) i 0,
       [0, 1, 2].map fun nd => [0, 1, 2].map fun i => endVec m pos t (dvals m t ev0 ev1 (localNode m t i nd)) i 1) := by
  obtain ⟨p, hp, h⟩ := dfieldPairs_eq hT hr couple ev0 ev1 s
  have hk : ∀ nd < 3, ∀ i < 3, ∀ k < 2, (p nd).vec i k = endVec m pos t (dvals m t ev0 ev1 (localNode m t i nd)) i k :=
    fun nd hnd i hi k hk => (h nd hnd i hi k hk).1
  simp [elementPairsD, hp, hk]

/-- A component of a vector. -/
def comp (ax : Bool) (w : V3) : ℝ := if ax then w.x else w.y

/-- How an edge model depends on a variable of the nodes: on edge `e` the value is `F e` of the values on the two nodes. -/
def edgeModel (m : Mesh) (F : Nat → ℝ → ℝ → ℝ) (u : Nat → ℝ) (e : Nat) : ℝ := F e (u (edgeNode m e 0)) (u (edgeNode m e 1))

/-- `ev0` and `ev1` (the models `@n0` and `@n1`) are the derivatives of the edge model by the variable on the first and second node
of every edge. -/
def EdgeDerivs (m : Mesh) (F : Nat → ℝ → ℝ → ℝ) (u ev0 ev1 : Nat → ℝ) : Prop :=
  ∀ e, HasDerivAt (fun s => F e s (u (edgeNode m e 1))) (ev0 e) (u (edgeNode m e 0)) ∧
    HasDerivAt (fun s => F e (u (edgeNode m e 0)) s) (ev1 e) (u (edgeNode m e 1))

theorem edgeModel_hasDerivAt {m : Mesh} {F : Nat → ℝ → ℝ → ℝ} {u ev0 ev1 : Nat → ℝ} (hd : EdgeDerivs m F u ev0 ev1) {e : Nat}
    (hne : edgeNode m e 0 ≠ edgeNode m e 1) (v : Nat) :
    HasDerivAt (fun s => edgeModel m F (Function.update u v s) e) (nodeValue m e v ev0 ev1) (u v) := by
  unfold nodeValue
  split
  · next hv =>
    subst hv
    refine HasDerivAt.congr_of_eventuallyEq (hd e).1 (Filter.Eventually.of_forall fun s => ?_)
    simp only [edgeModel]
    rw [Function.update_self, Function.update_of_ne hne.symm]
  · next hv0 =>
    split
    · next hv =>
      subst hv
      refine HasDerivAt.congr_of_eventuallyEq (hd e).2 (Filter.Eventually.of_forall fun s => ?_)
      simp only [edgeModel]
      rw [Function.update_self, Function.update_of_ne hne]
    · next hv1 =>
      refine HasDerivAt.congr_of_eventuallyEq (hasDerivAt_const _ (edgeModel m F u e)) (Filter.Eventually.of_forall fun s => ?_)
      simp only [edgeModel]
      rw [Function.update_of_ne hv0, Function.update_of_ne hv1]

theorem sol2_hasDerivAt (u v : V3) {f g : ℝ → ℝ} {f' g' s : ℝ} (hf : HasDerivAt f f' s) (hg : HasDerivAt g g' s) (ax : Bool) :
    HasDerivAt (fun s => comp ax (sol2 u v (f s) (g s))) (comp ax (sol2 u v f' g')) s := by
  cases ax
  · simpa [comp, sol2] using ((hg.const_mul u.x).sub (hf.const_mul v.x)).div_const (det2 u v)
  · simpa [comp, sol2] using ((hf.mul_const v.y).sub (hg.mul_const u.y)).div_const (det2 u v)

theorem mean_hasDerivAt {x y : ℝ → V3} {x' y' : V3} (wx wy : ℝ) {s : ℝ} (ax : Bool)
    (hx : HasDerivAt (fun s => comp ax (x s)) (comp ax x') s) (hy : HasDerivAt (fun s => comp ax (y s)) (comp ax y') s) :
    HasDerivAt (fun s => comp ax (mean (x s) (y s) wx wy)) (comp ax (mean x' y' wx wy)) s := by
  cases ax
  · simpa [comp, mean, V3.smul, V3.add] using ((hx.mul_const wx).add (hy.mul_const wy)).mul_const (1 / (wx + wy))
  · simpa [comp, mean, V3.smul, V3.add] using ((hx.mul_const wx).add (hy.mul_const wy)).mul_const (1 / (wx + wy))

theorem endVec_hasDerivAt (m : Mesh) (pos : Pos) (t : Nat) {ed : ℝ → Nat → ℝ} {ed' : Nat → ℝ} {s : ℝ}
    (h : ∀ j < 3, HasDerivAt (fun s => ed s j) (ed' j) s) (ax : Bool) (i k : Nat) :
    HasDerivAt (fun s => comp ax (endVec m pos t (ed s) i k)) (comp ax (endVec m pos t ed' i k)) s := by
  have h01 := sol2_hasDerivAt (triUnit m pos t 0) (triUnit m pos t 1) (h 0 (by omega)) (h 1 (by omega)) ax
  have h02 := sol2_hasDerivAt (triUnit m pos t 0) (triUnit m pos t 2) (h 0 (by omega)) (h 2 (by omega)) ax
  have h12 := sol2_hasDerivAt (triUnit m pos t 1) (triUnit m pos t 2) (h 1 (by omega)) (h 2 (by omega)) ax
  unfold endVec pairVec
  split_ifs <;> assumption

theorem fieldVec_hasDerivAt (m : Mesh) (pos : Pos) (t : Nat) (couple : Nat → ℝ) {ed : ℝ → Nat → ℝ} {ed' : Nat → ℝ} {s : ℝ}
    (h : ∀ j < 3, HasDerivAt (fun s => ed s j) (ed' j) s) (ax : Bool) (i : Nat) :
    HasDerivAt (fun s => comp ax (fieldVec m pos t couple (ed s) i)) (comp ax (fieldVec m pos t couple ed' i)) s :=
  mean_hasDerivAt _ _ ax (endVec_hasDerivAt m pos t h ax i 0) (endVec_hasDerivAt m pos t h ax i 1)

theorem triEdges_ne {m : Mesh} {t a b c : Nat} (hT : TriOf m t a b c) {j : Nat} (hj : j < 3) :
    edgeNode m (triangleEdge m t j) 0 ≠ edgeNode m (triangleEdge m t j) 1 := by
  obtain ⟨-, ⟨a0, a1⟩, ⟨b0, b1⟩, ⟨c0, c1⟩, hab, hac, hbc⟩ := hT
  interval_cases j <;> simp only [a0, a1, b0, b1, c0, c1] <;> assumption

/-- The vector on edge `i` of the triangle, for a variable with the values `u` (an arbitrary value when a check fails). -/
noncomputable def fieldAt (m : Mesh) (pos : Pos) (t : Nat) (couple : Nat → ℝ) (s : Pairs) (F : Nat → ℝ → ℝ → ℝ) (i : Nat) (u : Nat → ℝ) : V3 :=
  ((elementField m pos t couple (edgeData m t (edgeModel m F u)) s).getD []).getD i ⟨0, 0, 0⟩

/-- The vector at end `k` of edge `i` of the triangle. -/
noncomputable def pairAt (m : Mesh) (pos : Pos) (t : Nat) (couple : Nat → ℝ) (s : Pairs) (F : Nat → ℝ → ℝ → ℝ) (i k : Nat) (u : Nat → ℝ) : V3 :=
  let r := (elementPairs m pos t couple (edgeData m t (edgeModel m F u)) s).getD ([], [])
  (if k = 0 then r.1 else r.2).getD i ⟨0, 0, 0⟩

/-- **Derivatives of the element field**: for every edge model, on every triangle with an area, the models `@en0`, `@en1` and
`@en2` of `element_from_edge_model` with a derivative exist and are the derivatives of the vectors by the variable on the
first node of the edge, on the second node, and on the node of the triangle across the edge. -/
theorem elementFieldD_spec {m : Mesh} (h : m.Good) (hc : m.Complete) {pos : Pos} {t : Nat} (ht : t < m.tris.length)
    (hn : PlaneTri m pos t) {couple : Nat → ℝ} (hw : GoodWeights couple) {F : Nat → ℝ → ℝ → ℝ} {u ev0 ev1 : Nat → ℝ}
    (hd : EdgeDerivs m F u ev0 ev1) (s : Pairs) (s' : DPairs) :
    ∃ D, elementFieldD m pos t couple ev0 ev1 s' = some D ∧ ∀ nd < 3, ∀ i < 3, ∃ row w, D[nd]? = some row ∧ row[i]? = some w ∧
      w.z = 0 ∧ ∀ ax, HasDerivAt (fun x => comp ax (fieldAt m pos t couple s F i (Function.update u (localNode m t i nd) x))) (comp ax w)
        (u (localNode m t i nd)) := by
  obtain ⟨a, b, c, hT⟩ := triOf h hc ht
  have hr := regular_of_plane hT hn
  refine ⟨_, elementFieldD_eq hT hr hw ev0 ev1 s', fun nd hnd i hi => ?_⟩
  refine ⟨[0, 1, 2].map fun i => fieldVec m pos t couple (dvals m t ev0 ev1 (localNode m t i nd)) i,
    fieldVec m pos t couple (dvals m t ev0 ev1 (localNode m t i nd)) i, ?_, ?_, ?_, fun ax => ?_⟩
  · interval_cases nd <;> rfl
  · interval_cases i <;> rfl
  · exact (mean_dot2 (hw.ne i) (endVec_proj hr _ hi (k := 0) (by omega)) (endVec_proj hr _ hi (k := 1) (by omega))).1
  · have key := fieldVec_hasDerivAt m pos t couple
      (ed := fun x => edgeData m t (edgeModel m F (Function.update u (localNode m t i nd) x)))
      (ed' := dvals m t ev0 ev1 (localNode m t i nd)) (s := u (localNode m t i nd))
      (fun j hj => edgeModel_hasDerivAt hd (triEdges_ne hT hj) _) ax i
    refine HasDerivAt.congr_of_eventuallyEq key (Filter.Eventually.of_forall fun x => ?_)
    simp only [fieldAt, elementField_eq hT hr hw, Option.getD_some]
    interval_cases i <;> rfl

/-- **Derivatives of the pairs.** -/
theorem elementPairsD_spec {m : Mesh} (h : m.Good) (hc : m.Complete) {pos : Pos} {t : Nat} (ht : t < m.tris.length)
    (hn : PlaneTri m pos t) (couple : Nat → ℝ) {F : Nat → ℝ → ℝ → ℝ} {u ev0 ev1 : Nat → ℝ}
    (hd : EdgeDerivs m F u ev0 ev1) (s : Pairs) (s' : DPairs) :
    ∃ D0 D1, elementPairsD m pos t couple ev0 ev1 s' = some (D0, D1) ∧ ∀ k < 2, ∀ nd < 3, ∀ i < 3, ∃ row w,
      (if k = 0 then D0 else D1)[nd]? = some row ∧ row[i]? = some w ∧ w.z = 0 ∧
      ∀ ax, HasDerivAt (fun x => comp ax (pairAt m pos t couple s F i k (Function.update u (localNode m t i nd) x))) (comp ax w)
        (u (localNode m t i nd)) := by
  obtain ⟨a, b, c, hT⟩ := triOf h hc ht
  have hr := regular_of_plane hT hn
  refine ⟨_, _, elementPairsD_eq hT hr couple ev0 ev1 s', fun k hk nd hnd i hi => ?_⟩
  refine ⟨[0, 1, 2].map fun i => endVec m pos t (dvals m t ev0 ev1 (localNode m t i nd)) i k,
    endVec m pos t (dvals m t ev0 ev1 (localNode m t i nd)) i k, ?_, ?_, (endVec_proj hr _ hi hk).1, fun ax => ?_⟩
  · interval_cases k <;> interval_cases nd <;> rfl
  · interval_cases i <;> rfl
  · have key := endVec_hasDerivAt m pos t
      (ed := fun x => edgeData m t (edgeModel m F (Function.update u (localNode m t i nd) x)))
      (ed' := dvals m t ev0 ev1 (localNode m t i nd)) (s := u (localNode m t i nd))
      (fun j hj => edgeModel_hasDerivAt hd (triEdges_ne hT hj) _) ax i k
    refine HasDerivAt.congr_of_eventuallyEq key (Filter.Eventually.of_forall fun x => ?_)
    simp only [pairAt, elementPairs_eq hT hr, Option.getD_some]
    interval_cases k <;> interval_cases i <;> rfl

end Verif.Fields
