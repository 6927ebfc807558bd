import Verif.Cyl.Surface
import Verif.Geom.Examples

/-!
# Examples
-/

namespace Verif.Cyl
open Verif.Geom Finset

/-- **Three times too large**: a triangle whose tip is further from the axis than its flat side. -/
theorem wrong_triangle : triVolume [pt 0 2, pt 1 0, pt 1 1] = 3 * Real.pi ∧ revolve (pt 0 2) (pt 1 0) (pt 1 1) = Real.pi := by
  constructor
  · rw [triVolume_sorted]
    · norm_num [sortedVolume, flat]
    · exact Prod.Lex.left _ _ (by norm_num)
    · exact Prod.Lex.right _ (by norm_num)
  · norm_num [revolve, cross]; ring

/-! ### A square -/

theorem sq_fine : Fine (1 / 100) Geom.sq sqPos := by
  refine ⟨sq_tris, fun t ht => ⟨sq_nonObtuse t ht, ?_⟩⟩
  have ht : t < 2 := ht
  have : t = 0 ∨ t = 1 := by omega
  rcases this with rfl | rfl <;> exact ⟨rfl, rfl, rfl⟩

theorem sq_center : triangleCenter (1 / 100) Geom.sq sqPos 0 = ⟨1 / 2, 1 / 2, 0⟩ := by
  have : triangleCenter (1 / 100) Geom.sq sqPos 0 = triCenter (1 / 100) ⟨0, 0, 0⟩ ⟨1, 0, 0⟩ ⟨0, 1, 0⟩ := rfl
  rw [this]
  norm_num [triCenter, triCenter2d, V3.sub]

/-- **A full cylinder** of radius and height one: its volume is `π`, the volumes of the nodes add up to more. -/
theorem sq_exceeds : ∑ t ∈ range Geom.sq.tris.length, swept Geom.sq sqPos .x 0 t = Real.pi ∧
    Real.pi < ∑ v ∈ range Geom.sq.n, nodeVolume (1 / 100) Geom.sq sqPos .x 0 v := by
  have hp : ∑ t ∈ range Geom.sq.tris.length, swept Geom.sq sqPos .x 0 t = Real.pi := by
    have hr : range Geom.sq.tris.length = {0, 1} := by decide
    rw [hr, sum_pair (by decide)]
    have e0 : swept Geom.sq sqPos .x 0 0 = revolve (place .x 0 ⟨0, 0, 0⟩) (place .x 0 ⟨1, 0, 0⟩) (place .x 0 ⟨0, 1, 0⟩) := rfl
    have e1 : swept Geom.sq sqPos .x 0 1 = revolve (place .x 0 ⟨1, 0, 0⟩) (place .x 0 ⟨0, 1, 0⟩) (place .x 0 ⟨1, 1, 0⟩) := rfl
    rw [e0, e1]
    norm_num [revolve, cross, place, height, radius]
    ring
  refine ⟨hp, ?_⟩
  obtain ⟨h1, h2⟩ := node_volumes_partial (eps := 1 / 100) (by norm_num) sq_good sq_complete sq_fine .x 0
  rw [hp] at h1 h2
  refine lt_of_le_of_ne h1 fun e => ?_
  have := h2.1 e.symm 0 (by decide) _ (by simp only [List.mem_cons]; exact .inr (.inr (.inr (.inr (.inl rfl)))))
  rw [sq_center] at this
  have c0 : at_ Geom.sq sqPos .x 0 0 0 = pt 0 0 := by
    have : at_ Geom.sq sqPos .x 0 0 0 = place .x 0 ⟨0, 0, 0⟩ := rfl
    rw [this]; norm_num [place, height, radius]
  have c1 : at_ Geom.sq sqPos .x 0 0 1 = pt 0 1 := by
    have : at_ Geom.sq sqPos .x 0 0 1 = place .x 0 ⟨1, 0, 0⟩ := rfl
    rw [this]; norm_num [place, height, radius]
  rw [c0, c1] at this
  have co : place .x 0 ⟨1 / 2, 1 / 2, 0⟩ = pt (1 / 2) (1 / 2) := by norm_num [place, height, radius]
  rw [co] at this
  rcases this with h | h
  · norm_num [cross, mid] at h
  · have := h (pt 0 0) (mid (pt 0 0) (pt 0 1)) (pt (1 / 2) (1 / 2)) (List.Perm.cons _ (List.Perm.swap _ _ _)) (by norm_num [mid])
      (by norm_num [mid])
    norm_num [mid] at this

/-- **`CylindricalEdgeNodeVolume@n0`** has four values for five edges. -/
theorem sq_edge_node_volume : (edgeNodeVolumes (1 / 100) Geom.sq sqPos .x 0).1 = [0, 0, 0, 0] ∧ Geom.sq.edges.length = 5 := ⟨rfl, rfl⟩

/-- The outer wall of the cylinder is the edge from node 1 to node 3; it is listed twice, by two contacts. -/
example : ∑ v ∈ range Geom.sq.n, surfaceArea Geom.sq sqPos .x 0 [3, 3] v = 2 * Real.pi := by
  have e0 : edgeNode Geom.sq 3 0 = 1 := rfl
  have e1 : edgeNode Geom.sq 3 1 = 3 := rfl
  have p1 : sqPos 1 = ⟨1, 0, 0⟩ := rfl
  have p3 : sqPos 3 = ⟨1, 1, 0⟩ := rfl
  have hs : EdgeSide Geom.sq sqPos .x 0 3 := by
    rw [EdgeSide, e0, e1, p1, p3]; left; norm_num [radius]
  rw [surface_total sq_good (l := [3, 3]) (by decide) (by simpa using hs)]
  have hr : range Geom.sq.edges.length = {0, 1, 2, 3, 4} := by decide
  rw [hr]
  simp only [List.mem_cons, List.not_mem_nil, or_false, or_self]
  rw [sum_ite_eq' _ 3 (fun i => sweep (radius .x 0 (sqPos (edgeNode Geom.sq i 0))) (radius .x 0 (sqPos (edgeNode Geom.sq i 1)))
    (edgeLength Geom.sq sqPos i)), if_pos (by decide), sweep_eq hs, edgeLength, e0, e1, p1, p3]
  norm_num [radius, V3.mag, V3.dot, V3.sub]
  ring

/-- The edge from node 1 to node 2 has no face, because the two centers are on it. -/
example : edgeCouple (1 / 100) Geom.sq sqPos .x 0 2 = 0 := by
  have hc1 : triangleCenter (1 / 100) Geom.sq sqPos 1 = ⟨1 / 2, 1 / 2, 0⟩ := by
    have : triangleCenter (1 / 100) Geom.sq sqPos 1 = triCenter (1 / 100) ⟨1, 0, 0⟩ ⟨0, 1, 0⟩ ⟨1, 1, 0⟩ := rfl
    rw [this]
    norm_num [triCenter, triCenter2d, V3.sub]
  have hm : edgeCenter Geom.sq sqPos 2 = ⟨1 / 2, 1 / 2, 0⟩ := by
    have : edgeCenter Geom.sq sqPos 2 = V3.smul (V3.add ⟨1, 0, 0⟩ ⟨0, 1, 0⟩) (1 / 2) := rfl
    rw [this]; norm_num [V3.smul, V3.add]
  have hs : ∀ t < Geom.sq.tris.length, OneSide (radius .x 0 (triangleCenter (1 / 100) Geom.sq sqPos t)) (radius .x 0 (edgeCenter Geom.sq sqPos 2)) := by
    intro t ht
    have ht : t < 2 := ht
    have : t = 0 ∨ t = 1 := by omega
    rcases this with rfl | rfl
    · rw [sq_center, hm]; left; norm_num [radius]
    · rw [hc1, hm]; left; norm_num [radius]
  rw [edge_couple sq_good sq_complete (by decide) hs]
  refine sum_eq_zero fun t ht => ?_
  have ht : t < 2 := mem_range.1 ht
  have : t = 0 ∨ t = 1 := by omega
  rcases this with rfl | rfl
  · split_ifs
    · rw [face, sq_center, hm]; norm_num [V3.sub, V3.mag, V3.dot, sweep]
    · rfl
  · split_ifs
    · rw [face, hc1, hm]; norm_num [V3.sub, V3.mag, V3.dot, sweep]
    · rfl

/-! ### A triangle that points outward -/

def out : Mesh where
  n := 3
  dim := 2
  edges := [[0, 1], [0, 2], [1, 2]]
  tris := [[0, 1, 2]]

/-- Two nodes at radius one, the third further away from the axis. -/
noncomputable def outPos : Pos
  | 0 => ⟨1, -1, 0⟩
  | 1 => ⟨1, 1, 0⟩
  | _ => ⟨2, 0, 0⟩

theorem out_center : triangleCenter (1 / 100) out outPos 0 = ⟨1, 0, 0⟩ := by
  have : triangleCenter (1 / 100) out outPos 0 = triCenter (1 / 100) ⟨1, -1, 0⟩ ⟨1, 1, 0⟩ ⟨2, 0, 0⟩ := rfl
  rw [this]
  norm_num [triCenter, triCenter2d, V3.sub]

theorem out_fine : Fine (1 / 100) out outPos := by
  have e0 : corner out outPos 0 0 = ⟨1, -1, 0⟩ := rfl
  have e1 : corner out outPos 0 1 = ⟨1, 1, 0⟩ := rfl
  have e2 : corner out outPos 0 2 = ⟨2, 0, 0⟩ := rfl
  refine ⟨fun t ht => ?_, fun t ht => ?_⟩
  · have ht : t < 1 := ht
    obtain rfl : t = 0 := by omega
    rw [e0, e1, e2]
    refine ⟨?_, ?_⟩
    · constructor <;> norm_num [Sharp]
    · intro h
      have := congrArg V3.z h
      norm_num [normal, V3.cross, V3.sub] at this
  · have ht : t < 1 := ht
    obtain rfl : t = 0 := by omega
    refine ⟨?_, rfl, rfl, rfl⟩
    rw [NonObtuseTri, e0, e1, e2]
    norm_num [NonObtuse, V3.dot, V3.sub]

/-- **Exact**: here the volumes of the nodes add up to the volume of the solid. -/
theorem out_exact : ∑ v ∈ range out.n, nodeVolume (1 / 100) out outPos .x 0 v = 8 / 3 * Real.pi := by
  have hg : out.Good := ⟨by decide +kernel, by decide +kernel, by decide +kernel, by decide +kernel, by decide +kernel⟩
  have hc : out.Complete := ⟨by decide +kernel, by decide +kernel⟩
  have c0 : at_ out outPos .x 0 0 0 = pt (-1) 1 := by
    have : at_ out outPos .x 0 0 0 = place .x 0 ⟨1, -1, 0⟩ := rfl
    rw [this]; norm_num [place, height, radius]
  have c1 : at_ out outPos .x 0 0 1 = pt 1 1 := by
    have : at_ out outPos .x 0 0 1 = place .x 0 ⟨1, 1, 0⟩ := rfl
    rw [this]; norm_num [place, height, radius]
  have c2 : at_ out outPos .x 0 0 2 = pt 0 2 := by
    have : at_ out outPos .x 0 0 2 = place .x 0 ⟨2, 0, 0⟩ := rfl
    rw [this]; norm_num [place, height, radius]
  have co : place .x 0 ⟨1, 0, 0⟩ = pt 0 1 := by norm_num [place, height, radius]
  rw [(node_volumes_partial (eps := 1 / 100) (by norm_num) hg hc out_fine .x 0).2.2]
  · have hr : range out.tris.length = {0} := by decide
    rw [hr, sum_singleton, swept, c0, c1, c2]
    norm_num [revolve, cross]
    ring
  · intro t ht
    have ht : t < 1 := ht
    obtain rfl : t = 0 := by omega
    rw [out_center, co, c0, c1, c2]
    intro q hq
    simp only [List.mem_cons, List.not_mem_nil, or_false] at hq
    rcases hq with rfl | rfl | rfl | rfl | rfl | rfl
    · right
      intro p q s hp h1 h2
      rcases perm_three hp with ⟨rfl, rfl, rfl⟩ | ⟨rfl, rfl, rfl⟩ | ⟨rfl, rfl, rfl⟩ | ⟨rfl, rfl, rfl⟩ | ⟨rfl, rfl, rfl⟩ | ⟨rfl, rfl, rfl⟩ <;>
        (revert h1 h2; norm_num [mid, across])
    · right
      intro p q s hp h1 h2
      rcases perm_three hp with ⟨rfl, rfl, rfl⟩ | ⟨rfl, rfl, rfl⟩ | ⟨rfl, rfl, rfl⟩ | ⟨rfl, rfl, rfl⟩ | ⟨rfl, rfl, rfl⟩ | ⟨rfl, rfl, rfl⟩ <;>
        (revert h1 h2; norm_num [mid, across])
    · right
      intro p q s hp h1 h2
      rcases perm_three hp with ⟨rfl, rfl, rfl⟩ | ⟨rfl, rfl, rfl⟩ | ⟨rfl, rfl, rfl⟩ | ⟨rfl, rfl, rfl⟩ | ⟨rfl, rfl, rfl⟩ | ⟨rfl, rfl, rfl⟩ <;>
        (revert h1 h2; norm_num [mid, across])
    · right
      intro p q s hp h1 h2
      rcases perm_three hp with ⟨rfl, rfl, rfl⟩ | ⟨rfl, rfl, rfl⟩ | ⟨rfl, rfl, rfl⟩ | ⟨rfl, rfl, rfl⟩ | ⟨rfl, rfl, rfl⟩ | ⟨rfl, rfl, rfl⟩ <;>
        (revert h1 h2; norm_num [mid, across])
    · left; norm_num [cross, mid]
    · left; norm_num [cross, mid]

end Verif.Cyl
