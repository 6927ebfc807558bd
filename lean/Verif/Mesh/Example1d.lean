import Verif.Mesh.Device

/-!
# C32: a mesh
-/

namespace Verif.Mesh
open Classical

/-- Three lines, two regions. -/
noncomputable def exLines : List Line := [⟨0, 1, 1, "left"⟩, ⟨1, 1, 1, "mid"⟩, ⟨3, 1, 1, "right"⟩]
def exRegions : List RegionDef := [⟨"oxide", "Oxide", "right", "mid"⟩, ⟨"bulk", "Silicon", "left", "mid"⟩]
def exContacts : List ContactDef := [⟨"top", "metal", "left"⟩, ⟨"bot", "metal", "right"⟩]
def exInterfaces : List InterfaceDef := [⟨"junction", "mid"⟩]

/-- The order that sorts these two regions. -/
def exOrder (l : List RegionIx) : List RegionIx := l.reverse

/-- The hypotheses of `finalize_spec` and of `place_complete` hold. -/
example : (∀ l, (exOrder l).Perm l) ∧ Placeable exLines := by
  refine ⟨fun l => List.reverse_perm l, by simp [exLines], ?_, ?_, ?_⟩
  · intro c hc
    simp only [exLines, List.mem_cons, List.not_mem_nil, or_false] at hc
    rcases hc with rfl | rfl | rfl <;> norm_num
  · simp [exLines]
  · simp [exLines]

theorem ex_sorted : sortLines exLines = exLines := by
  unfold sortLines
  refine List.mergeSort_of_pairwise ?_
  simp only [exLines, List.pairwise_cons]
  norm_num

theorem ex_points1 (k : Nat) : getPoints (k + 3) 0 1 1 1 = some [0, 1] := by
  unfold getPoints
  rw [if_pos (by rw [sub_self, abs_zero, zero_div]; exact tol_pos), equidistance, equiLoop, if_pos (by norm_num)]
  dsimp only
  have : (0 : ℝ) + 1 > 1 - tol := by unfold tol; norm_num
  rw [if_pos this, equiLoop, if_neg (by norm_num)]
  rfl

theorem ex_points2 (k : Nat) : getPoints (k + 3) 1 3 1 1 = some [1, 2, 3] := by
  unfold getPoints
  rw [if_pos (by rw [sub_self, abs_zero, zero_div]; exact tol_pos), equidistance, equiLoop, if_pos (by norm_num)]
  dsimp only
  have h1 : ¬ (1 : ℝ) + 1 > 3 - tol := by unfold tol; norm_num
  have h2 : (1 : ℝ) + 1 + 1 > 3 - tol := by unfold tol; norm_num
  rw [if_neg h1, equiLoop, if_pos (by norm_num)]
  dsimp only
  rw [if_pos h2, equiLoop, if_neg (by norm_num)]
  simp only [Option.map_some]
  norm_num

/-- The mesh is accepted. -/
theorem ex_finalize (k : Nat) : ∃ M, finalize (k + 3) exOrder exLines exRegions exContacts exInterfaces = .ok M ∧
    M.layout.locations = [0, 1, 2, 3] ∧ M.regions = [⟨"bulk", "Silicon", 0, 1⟩, ⟨"oxide", "Oxide", 1, 3⟩] := by
  have hp : place (k + 3) exLines = .ok ⟨[0, 1, 2, 3], [("right", 3), ("mid", 1), ("left", 0)]⟩ := by
    unfold place placeOn
    rw [ex_sorted]
    simp only [exLines]
    have e1 : addTag ⟨[] ++ [(0 : ℝ)], []⟩ "left" 0 = .ok ⟨[0], [("left", 0)]⟩ := by
      simp [addTag, Layout.find]
    rw [e1]
    dsimp only
    rw [placeLoop, if_neg (by norm_num)]
    dsimp only
    rw [ex_points1]
    dsimp only
    have e2 : addTag ⟨[(0 : ℝ)] ++ [0, 1].tail, [("left", 0)]⟩ "mid" (([(0 : ℝ)] ++ [0, 1].tail).length - 1) =
        .ok ⟨[0, 1], [("mid", 1), ("left", 0)]⟩ := by
      simp [addTag, Layout.find, List.lookup]
    rw [e2]
    dsimp only
    rw [placeLoop, if_neg (by norm_num)]
    dsimp only
    rw [ex_points2]
    dsimp only
    have e3 : addTag ⟨[(0 : ℝ), 1] ++ [1, 2, 3].tail, [("mid", 1), ("left", 0)]⟩ "right"
        (([(0 : ℝ), 1] ++ [1, 2, 3].tail).length - 1) = .ok ⟨[0, 1, 2, 3], [("right", 3), ("mid", 1), ("left", 0)]⟩ := by
      simp [addTag, Layout.find, List.lookup]
    rw [e3]
    rfl
  refine ⟨⟨⟨[0, 1, 2, 3], [("right", 3), ("mid", 1), ("left", 0)]⟩,
    [⟨"bulk", "Silicon", 0, 1⟩, ⟨"oxide", "Oxide", 1, 3⟩], exContacts, [(1, ⟨"junction", "mid"⟩)]⟩, ?_, rfl, rfl⟩
  unfold finalize
  rw [if_neg (by simp [exLines]), hp]
  dsimp only
  have s1 : sortAllTags ⟨[(0 : ℝ), 1, 2, 3], [("right", 3), ("mid", 1), ("left", 0)]⟩ exRegions =
      some [⟨"oxide", "Oxide", 1, 3⟩, ⟨"bulk", "Silicon", 0, 1⟩] := by
    simp [sortAllTags, sortTags, exRegions, Layout.find, List.lookup]
  have s2 : checkContacts ⟨[(0 : ℝ), 1, 2, 3], [("right", 3), ("mid", 1), ("left", 0)]⟩ exContacts = .ok (0, 3) := by
    simp [checkContacts, exContacts, Layout.find, List.lookup]
  have s3 : checkInterfaces ⟨[(0 : ℝ), 1, 2, 3], [("right", 3), ("mid", 1), ("left", 0)]⟩ exInterfaces [] [] =
      some [(1, ⟨"junction", "mid"⟩)] := by
    simp [checkInterfaces, exInterfaces, Layout.find, List.lookup]
  rw [s1]
  dsimp only
  rw [s2]
  dsimp only
  rw [s3]
  simp [exOrder, checkRegions, List.lookup]
  intro x hx hx'
  match x, hx with
  | 0, _ => simp
  | 1, _ => simp
  | 2, _ => simp at hx'
  | 3, _ => simp at hx'

end Verif.Mesh
