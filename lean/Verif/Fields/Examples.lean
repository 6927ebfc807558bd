import Verif.Fields.Gradient

/-!
# The weights on a triangle; meshes and models that meet the hypotheses of the theorems on fields
-/

namespace Verif.Fields

open Verif.Geom

/-- **The weights on a triangle**: the vector on an edge is the average of the vectors at its two ends, the vector at an end weighted with
the value of `ElementEdgeCouple` of the other edge at that end. -/
theorem elementField_weights {m : Mesh} (h : m.Good) (hc : m.Complete) {pos : Pos} {t : Nat} (ht : t < m.tris.length)
    (hn : PlaneTri m pos t) {couple : Nat → ℝ} (hw : GoodWeights couple) (ed : Nat → ℝ) (s s' : Pairs) :
    ∃ r r0 r1, elementField m pos t couple ed s = some r ∧ elementPairs m pos t couple ed s' = some (r0, r1) ∧
      ∀ i < 3, ∀ j0 < 3, ∀ j1 < 3, j0 ≠ i → j1 ≠ i →
        (∃ k < 2, edgeNode m (triangleEdge m t j0) k = edgeNode m (triangleEdge m t i) 0) →
        (∃ k < 2, edgeNode m (triangleEdge m t j1) k = edgeNode m (triangleEdge m t i) 1) →
        ∃ w x y, r[i]? = some w ∧ r0[i]? = some x ∧ r1[i]? = some y ∧
          V3.smul w (couple j0 + couple j1) = V3.add (V3.smul x (couple j0)) (V3.smul y (couple j1)) := by
  obtain ⟨a, b, c, hT⟩ := triOf h hc ht
  have hr := regular_of_plane hT hn
  refine ⟨_, _, _, elementField_eq hT hr hw ed s, elementPairs_eq hT hr couple ed s', fun i hi j0 h0 j1 h1 n0 n1 he0 he1 => ?_⟩
  refine ⟨fieldVec m pos t couple ed i, endVec m pos t ed i 0, endVec m pos t ed i 1, ?_, ?_, ?_, ?_⟩
  · interval_cases i <;> rfl
  · interval_cases i <;> rfl
  · interval_cases i <;> rfl
  · have hw0 : endWeight couple i 0 = couple j0 ∧ endWeight couple i 1 = couple j1 := by
      obtain ⟨hk, ⟨a0, a1⟩, ⟨b0, b1⟩, ⟨c0, c1⟩, ab, ac, bc⟩ := hT
      obtain ⟨k0, hk0, e0⟩ := he0
      obtain ⟨k1, hk1, e1⟩ := he1
      constructor
      · interval_cases i <;> interval_cases j0 <;> interval_cases k0 <;>
          simp_all [endWeight]
      · interval_cases i <;> interval_cases j1 <;> interval_cases k1 <;>
          simp_all [endWeight]
    have hne := hw.ne i
    rw [fieldVec, mean, hw0.1, hw0.2]
    rw [hw0.1, hw0.2] at hne
    simp only [V3.smul, V3.add]
    ext <;> simp only <;> field_simp

/-- A model of the edges that is not linear: the product of the values on the two nodes, and its derivatives. -/
theorem product_derivs (m : Mesh) (u : Nat → ℝ) :
    EdgeDerivs m (fun _ x y => x * y) u (fun e => u (edgeNode m e 1)) (fun e => u (edgeNode m e 0)) := by
  intro e
  constructor
  · simpa using (hasDerivAt_id (u (edgeNode m e 0))).mul_const (u (edgeNode m e 1))
  · simpa using (hasDerivAt_id (u (edgeNode m e 1))).const_mul (u (edgeNode m e 0))

theorem sq_plane {t : Nat} (ht : t < Geom.sq.tris.length) : PlaneTri Geom.sq sqPos t := by
  have : t < 2 := ht
  interval_cases t <;> norm_num [PlaneTri, normal, V3.cross, V3.sub, corner, nodesOf, Geom.sq, sqPos]

theorem te_goodTet : GoodTet te tePos 0 := gradient3d_wrong.2.1

/-- The square of two triangles, the product model: the hypotheses of `elementFieldD_spec` hold. -/
example (u : Nat → ℝ) {t : Nat} (ht : t < Geom.sq.tris.length) (s : Pairs) (s' : DPairs) :=
  elementFieldD_spec sq_good sq_complete ht (sq_plane ht)
    (goodWeights_couple (1 / 100) (triOf sq_good sq_complete ht).choose_spec.choose_spec.choose_spec (sq_plane ht))
    (product_derivs Geom.sq u) s s'

/-- The tetrahedron, the product model: the hypotheses of `elementFieldD3_spec` and `elementPairsD3_spec` hold. -/
example (u : Nat → ℝ) (s : Nat → Nat → V3) (s' : Nat → Nat → Nat → V3) :=
  And.intro (elementFieldD3_spec te_good te_complete (by decide) te_goodTet (product_derivs te u) s s')
    (elementPairsD3_spec te_good te_complete (by decide) te_goodTet (product_derivs te u) s s')

/-- The field on the tetrahedron for the potential `x + 2 y + 3 z`. -/
example (s : Nat → Nat → V3) :
    elementField3 te tePos 0 (edgeData3 te 0 (averageModel .gradient te tePos fun n => V3.dot ⟨1, 2, 3⟩ (tePos n) + 4)) s =
      some (List.replicate 6 ⟨1, 2, 3⟩) :=
  elementField3_gradient te_good te_complete (by decide) te_goodTet s ⟨1, 2, 3⟩ 4

end Verif.Fields
