import Verif.Vec.Main
/-!
# The square of two triangles and the tetrahedron
-/
namespace Verif.Vec

open Verif.Geom Verif.Fields

/-- The values of an element model that are the components of `(2, 3)` along the edges. -/
noncomputable def slanted (i : Nat) : ℝ := dot2 (triUnit Geom.sq sqPos (i / 3) (i % 3)) ⟨2, 3, 0⟩

theorem slanted_at {t j : Nat} (hj : j < 3) : slanted (3 * t + j) = dot2 (triUnit Geom.sq sqPos t j) ⟨2, 3, 0⟩ := by
  have h1 : (3 * t + j) / 3 = t := by omega
  have h2 : (3 * t + j) % 3 = j := by omega
  rw [slanted, h1, h2]

theorem sq_weights {t : Nat} (ht : t < Geom.sq.tris.length) : GoodWeights (elementEdgeCouple (1 / 100) Geom.sq sqPos t) :=
  goodWeights_couple (1 / 100) (triOf sq_good sq_complete ht).choose_spec.choose_spec.choose_spec (sq_plane ht)

/-- The vector is found on both triangles. -/
theorem sq_vector (s : Nat → Pairs) :
    ∃ X Y, vector2 Geom.sq sqPos (elementEdgeCouple (1 / 100) Geom.sq sqPos) slanted s = some (X, Y) ∧
      ∀ t < 2, ∀ j < 3, X[3 * t + j]? = some 2 ∧ Y[3 * t + j]? = some 3 := by
  obtain ⟨X, Y, e, h⟩ := triangle_constant sq_good sq_complete (fun t ht => sq_plane ht)
    (couple := elementEdgeCouple (1 / 100) Geom.sq sqPos) (fun t ht => sq_weights ht) slanted s
  exact ⟨X, Y, e, fun t ht j hj => h t ht ⟨2, 3, 0⟩ (fun j hj => slanted_at hj) j hj⟩

/-- The tetrahedron meets the hypotheses. -/
theorem te_all : ∀ t < te.tets.length, GoodTet te tePos t := by
  intro t ht
  have : t < 1 := ht
  interval_cases t
  exact te_goodTet

theorem te_vector (s : Nat → Nat → Nat → V3) :
    ∃ X Y Z, vector3 te tePos (fun i => V3.dot (tetUnit te tePos 0 i) ⟨1, 2, 3⟩) s = some (X, Y, Z) ∧
      ∀ j < 6, X[j]? = some 1 ∧ Y[j]? = some 2 ∧ Z[j]? = some 3 := by
  obtain ⟨X, Y, Z, e, h⟩ := tetrahedron_constant te_good te_complete te_all
    (fun i => V3.dot (tetUnit te tePos 0 i) ⟨1, 2, 3⟩) s
  refine ⟨X, Y, Z, e, fun j hj => ?_⟩
  have := h 0 (by decide) ⟨1, 2, 3⟩ (fun j _ => by simp) j hj
  simpa using this

example : command 2 (· == "E") (fun _ => false) "E" = some ["E_x", "E_y"] := rfl
example : command 1 (fun _ => true) (fun _ => true) "E" = none := rfl

end Verif.Vec
