import Verif.Geom.Volume3
import Verif.Geom.Surface
import Verif.Geom.Nearest

/-!
# Meshes that meet the hypotheses of the theorems on volumes and surfaces
-/

namespace Verif.Geom

open Finset

/-! ### A square of two triangles -/

def sq : Mesh where
  n := 4
  dim := 2
  edges := [[0, 1], [0, 2], [1, 2], [1, 3], [2, 3]]
  tris := [[0, 1, 2], [1, 2, 3]]

noncomputable def sqPos : Pos
  | 0 => ⟨0, 0, 0⟩
  | 1 => ⟨1, 0, 0⟩
  | 2 => ⟨0, 1, 0⟩
  | _ => ⟨1, 1, 0⟩

theorem sq_good : sq.Good where
  edges := by decide +kernel
  tris := by decide +kernel
  tets := by decide +kernel
  nodupEdges := by decide +kernel
  nodupTris := by decide +kernel

theorem sq_complete : sq.Complete where
  tris := by decide +kernel
  tets := by decide +kernel

theorem sharp01 {eps a b : ℝ} (he : eps ≤ 1) (h : a = b ∨ a = b + 1 ∨ b = a + 1) : Sharp eps a b := by
  rcases h with h | h | h
  · exact Or.inl h
  · right; rw [h]; simpa using he
  · right; rw [h]; simpa using he

theorem sq_tris : GoodTris (1 / 100) sq sqPos := by
  intro t ht
  have ht : t < 2 := ht
  have : t = 0 ∨ t = 1 := by omega
  rcases this with rfl | rfl
  · have e0 : corner sq sqPos 0 0 = ⟨0, 0, 0⟩ := rfl
    have e1 : corner sq sqPos 0 1 = ⟨1, 0, 0⟩ := rfl
    have e2 : corner sq sqPos 0 2 = ⟨0, 1, 0⟩ := rfl
    rw [e0, e1, e2]
    refine ⟨?_, ?_⟩
    · constructor <;> exact sharp01 (by norm_num) (by norm_num)
    · intro h
      have := congrArg V3.z h
      norm_num [normal, V3.cross, V3.sub] at this
  · have e0 : corner sq sqPos 1 0 = ⟨1, 0, 0⟩ := rfl
    have e1 : corner sq sqPos 1 1 = ⟨0, 1, 0⟩ := rfl
    have e2 : corner sq sqPos 1 2 = ⟨1, 1, 0⟩ := rfl
    rw [e0, e1, e2]
    refine ⟨?_, ?_⟩
    · constructor <;> exact sharp01 (by norm_num) (by norm_num)
    · intro h
      have := congrArg V3.z h
      norm_num [normal, V3.cross, V3.sub] at this

theorem sq_nonObtuse : ∀ t < sq.tris.length, NonObtuseTri sq sqPos t := by
  intro t ht
  have ht : t < 2 := ht
  have : t = 0 ∨ t = 1 := by omega
  rcases this with rfl | rfl
  · have e0 : corner sq sqPos 0 0 = ⟨0, 0, 0⟩ := rfl
    have e1 : corner sq sqPos 0 1 = ⟨1, 0, 0⟩ := rfl
    have e2 : corner sq sqPos 0 2 = ⟨0, 1, 0⟩ := rfl
    rw [NonObtuseTri, e0, e1, e2]
    norm_num [NonObtuse, V3.dot, V3.sub]
  · have e0 : corner sq sqPos 1 0 = ⟨1, 0, 0⟩ := rfl
    have e1 : corner sq sqPos 1 1 = ⟨0, 1, 0⟩ := rfl
    have e2 : corner sq sqPos 1 2 = ⟨1, 1, 0⟩ := rfl
    rw [NonObtuseTri, e0, e1, e2]
    norm_num [NonObtuse, V3.dot, V3.sub]

/-- The volumes of the square add up to its area. -/
example : ∑ v ∈ range 4, nodeVolume (1 / 100) sq sqPos v = 1 := by
  have := (nodeVolume_sum_2d (eps := 1 / 100) (by norm_num) sq_good sq_complete rfl sq_tris).2 sq_nonObtuse
  refine this.trans ?_
  have hr : range sq.tris.length = {0, 1} := by decide
  rw [hr, sum_pair (by decide)]
  have e0 : triArea sq sqPos 0 = area ⟨0, 0, 0⟩ ⟨1, 0, 0⟩ ⟨0, 1, 0⟩ := rfl
  have e1 : triArea sq sqPos 1 = area ⟨1, 0, 0⟩ ⟨0, 1, 0⟩ ⟨1, 1, 0⟩ := rfl
  rw [e0, e1]
  norm_num [area, normal, V3.cross, V3.sub, V3.mag]

/-! ### An obtuse triangle: the volumes are too large -/

def ob : Mesh where
  n := 3
  dim := 2
  edges := [[0, 1], [0, 2], [1, 2]]
  tris := [[0, 1, 2]]

noncomputable def obPos : Pos
  | 0 => ⟨0, 0, 0⟩
  | 1 => ⟨4, 0, 0⟩
  | _ => ⟨2, 1, 0⟩

/-- **The volumes of a region can exceed its area**: this region is accepted, and the volumes of its nodes add up
to more than its area. -/
theorem ob_exceeds : ob.Good ∧ ob.Complete ∧ GoodTris (1 / 100) ob obPos ∧
    ∑ t ∈ range ob.tris.length, triArea ob obPos t < ∑ v ∈ range ob.n, nodeVolume (1 / 100) ob obPos v := by
  have hg : ob.Good := ⟨by decide +kernel, by decide +kernel, by decide +kernel, by decide +kernel, by decide +kernel⟩
  have hc : ob.Complete := ⟨by decide +kernel, by decide +kernel⟩
  have e0 : corner ob obPos 0 0 = ⟨0, 0, 0⟩ := rfl
  have e1 : corner ob obPos 0 1 = ⟨4, 0, 0⟩ := rfl
  have e2 : corner ob obPos 0 2 = ⟨2, 1, 0⟩ := rfl
  have ht : GoodTris (1 / 100) ob obPos := by
    intro t ht
    have ht : t < 1 := ht
    obtain rfl : t = 0 := by omega
    rw [e0, e1, e2]
    refine ⟨?_, ?_⟩
    · constructor <;> norm_num [Sharp]
    · intro h
      have := congrArg V3.z h
      norm_num [normal, V3.cross, V3.sub] at this
  refine ⟨hg, hc, ht, lt_of_le_of_ne (nodeVolume_sum_2d_le (by norm_num) hg hc rfl ht) fun h => ?_⟩
  have := ((nodeVolume_sum_2d (eps := 1 / 100) (by norm_num) hg hc rfl ht).1 h.symm 0 (by decide)).2.2
  rw [e0, e1, e2] at this
  norm_num [NonObtuse, V3.dot, V3.sub] at this

/-! ### A tetrahedron -/

def te : Mesh where
  n := 4
  dim := 3
  edges := [[0, 1], [0, 2], [0, 3], [1, 2], [1, 3], [2, 3]]
  tris := [[1, 2, 3], [0, 1, 2], [0, 1, 3], [0, 2, 3]]
  tets := [[0, 1, 2, 3]]

noncomputable def tePos : Pos
  | 0 => ⟨0, 0, 0⟩
  | 1 => ⟨1, 0, 0⟩
  | 2 => ⟨1, 1, 0⟩
  | _ => ⟨1, 1, 1⟩

theorem te_good : te.Good where
  edges := by decide +kernel
  tris := by decide +kernel
  tets := by decide +kernel
  nodupEdges := by decide +kernel
  nodupTris := by decide +kernel

theorem te_complete : te.Complete where
  tris := by decide +kernel
  tets := by decide +kernel

theorem te_tets : GoodTets (1 / 100) te tePos := by
  intro t ht
  have ht : t < 1 := ht
  obtain rfl : t = 0 := by omega
  have e0 : corner4 te tePos 0 0 = ⟨0, 0, 0⟩ := rfl
  have e1 : corner4 te tePos 0 1 = ⟨1, 0, 0⟩ := rfl
  have e2 : corner4 te tePos 0 2 = ⟨1, 1, 0⟩ := rfl
  have e3 : corner4 te tePos 0 3 = ⟨1, 1, 1⟩ := rfl
  rw [e0, e1, e2, e3]
  constructor
  · norm_num [det4, V3.dot, V3.cross, V3.sub]
  all_goals constructor <;> norm_num [Sharp]

theorem te_ok : ∀ t < te.tets.length, TetOK (corner4 te tePos t 0) (corner4 te tePos t 1) (corner4 te tePos t 2)
    (corner4 te tePos t 3) (tetrahedronCenter te tePos t) := by
  intro t ht
  have ht : t < 1 := ht
  obtain rfl : t = 0 := by omega
  have e0 : corner4 te tePos 0 0 = ⟨0, 0, 0⟩ := rfl
  have e1 : corner4 te tePos 0 1 = ⟨1, 0, 0⟩ := rfl
  have e2 : corner4 te tePos 0 2 = ⟨1, 1, 0⟩ := rfl
  have e3 : corner4 te tePos 0 3 = ⟨1, 1, 1⟩ := rfl
  have hd : det4 (⟨0, 0, 0⟩ : V3) ⟨1, 0, 0⟩ ⟨1, 1, 0⟩ ⟨1, 1, 1⟩ ≠ 0 := by norm_num [det4, V3.dot, V3.cross, V3.sub]
  have ec' : tetrahedronCenter te tePos 0 = tetCenter ⟨0, 0, 0⟩ ⟨1, 0, 0⟩ ⟨1, 1, 0⟩ ⟨1, 1, 1⟩ := rfl
  have ec : tetrahedronCenter te tePos 0 = ⟨1 / 2, 1 / 2, 1 / 2⟩ := by
    rw [ec']
    symm
    refine tetCenter_unique hd ?_ ?_ ?_ <;> norm_num [dist2]
  rw [e0, e1, e2, e3, ec]
  norm_num [TetOK, FaceOK, SameSide, NonObtuse3, NonObtuse, det4, V3.dot, V3.cross, V3.sub]

/-- The volumes of the tetrahedron add up to its volume. -/
example : ∑ v ∈ range 4, nodeVolume3 (1 / 100) te tePos v = 1 / 6 := by
  have := (nodeVolume_sum_3d (eps := 1 / 100) (by norm_num) te_good te_complete te_tets).2 te_ok
  refine this.trans ?_
  have hr : range te.tets.length = {0} := by decide
  rw [hr, sum_singleton]
  have e0 : tetVolume te tePos 0 = volume ⟨0, 0, 0⟩ ⟨1, 0, 0⟩ ⟨1, 1, 0⟩ ⟨1, 1, 1⟩ := rfl
  rw [e0]
  norm_num [volume, det4, V3.dot, V3.cross, V3.sub]

/-! ### Surfaces -/

/-- The surface of the lower and the right edge of the square; the lower edge is twice in the list. -/
example : ∑ u ∈ range 4, (surface2d sq sqPos [0, 3, 0]).area u = 2 := by
  have := surface2d_total sq_good sqPos (l := [0, 3, 0]) (by decide)
  refine this.trans ?_
  have hr : range sq.edges.length = {0, 1, 2, 3, 4} := by decide
  rw [hr]
  have l0 : edgeLength sq sqPos 0 = 1 := by
    have : edgeLength sq sqPos 0 = V3.mag (V3.sub ⟨0, 0, 0⟩ ⟨1, 0, 0⟩) := rfl
    rw [this]; norm_num [V3.mag, V3.sub]
  have l3 : edgeLength sq sqPos 3 = 1 := by
    have : edgeLength sq sqPos 3 = V3.mag (V3.sub ⟨1, 0, 0⟩ ⟨1, 1, 0⟩) := rfl
    rw [this]; norm_num [V3.mag, V3.sub]
  simp [l0, l3]
  norm_num

end Verif.Geom
