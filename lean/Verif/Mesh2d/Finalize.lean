import Verif.Mesh2d.Main

/-!
# C66: `finalize_mesh`
-/

namespace Verif.Mesh2d
open Classical Verif.MeshIO
open Verif.Mesh (Res)

variable {m : Mesh2} {xs ys : List ℝ} {L : Loader ℝ}

theorem tri_nonempty {n : Text} {r : MReg ℝ} (h : MeshOK2 m xs ys L) (hr : L.regions.get n = some r) :
    ∃ a b c, mkElem [a, b, c] ∈ r.tris := by
  obtain ⟨t, ht⟩ := List.exists_mem_of_ne_nil _ (h.region_tri n r hr)
  obtain ⟨_, _, _, a, b, c, _, _, _, _, he⟩ := (h.region n r hr).tri_only t ht
  exact ⟨a, b, c, by rw [← he]; exact ht⟩

theorem edge_nonempty {n : Text} {r : MReg ℝ} (h : MeshOK2 m xs ys L) (hr : L.regions.get n = some r) : r.edges ≠ [] := by
  obtain ⟨a, b, c, ht⟩ := tri_nonempty h hr
  have := ((h.region n r hr).edges (mkElem [a, b])).2
    ⟨by rw [(mkElem_perm _).length_eq]; rfl, _, ht, (side_iff.1 (.inl rfl)).2⟩
  intro h0
  rw [h0] at this; simp at this

theorem node_nonempty {n : Text} {r : MReg ℝ} (h : MeshOK2 m xs ys L) (hr : L.regions.get n = some r) : r.nodes ≠ [] := by
  obtain ⟨a, b, c, ht⟩ := tri_nonempty h hr
  have := ((h.region n r hr).nodes a).2 ⟨_, ht, by rw [(mkElem_perm _).mem_iff]; simp⟩
  intro h0
  rw [h0] at this; simp at this

theorem isEmpty_false {β : Type} {l : List β} (h : l ≠ []) : l.isEmpty = false := by
  cases l with
  | nil => exact absurd rfl h
  | cons _ _ => rfl

/-- Nothing has to be derived from the triangles. -/
theorem decompose_id {n : Text} {r : MReg ℝ} (h : MeshOK2 m xs ys L) (hr : L.regions.get n = some r) : r.decompose = r := by
  have h1 := isEmpty_false (edge_nonempty h hr)
  have h2 := isEmpty_false (node_nonempty h hr)
  have h3 := (h.region n r hr).rest.1
  unfold MReg.decompose
  dsimp only
  rw [h3, h1, h2]
  cases r
  dsimp only at h3
  subst h3
  simp

theorem dim_two {n : Text} {r : MReg ℝ} (h : MeshOK2 m xs ys L) (hr : L.regions.get n = some r) : r.dim = 2 := by
  unfold MReg.dim
  rw [(h.region n r hr).rest.1, isEmpty_false (h.region_tri n r hr)]
  rfl

theorem nodes_le {n : Text} {r : MReg ℝ} (h : MeshOK2 m xs ys L) (hr : L.regions.get n = some r) :
    r.nodes.length ≤ L.coords.length := by
  have hs : r.nodes ⊆ List.range L.coords.length := fun i hi => List.mem_range.2 ((h.region n r hr).nodes_coord i hi)
  have := (List.subperm_of_subset (h.region n r hr).nodes_nodup hs).length_le
  rwa [List.length_range] at this

theorem elems_lt {n : Text} {r : MReg ℝ} (h : MeshOK2 m xs ys L) (hr : L.regions.get n = some r) :
    (∀ e ∈ r.edges, ∀ k ∈ e, k < r.nodes.length) ∧ ∀ t ∈ r.tris, ∀ k ∈ t, k < r.nodes.length := by
  have R := h.region n r hr
  constructor
  · intro e he k hk
    obtain ⟨_, t, ht, hs⟩ := (R.edges e).1 he
    exact (R.nodes k).2 ⟨t, ht, hs.subset hk⟩
  · intro t ht k hk
    exact (R.nodes k).2 ⟨t, ht, hk⟩

theorem check_true {n : Text} {r : MReg ℝ} (h : MeshOK2 m xs ys L) (hr : L.regions.get n = some r) :
    r.check L.coords.length 2 = true := by
  have R := h.region n r hr
  obtain ⟨e1, e2⟩ := elems_lt h hr
  unfold MReg.check
  rw [dim_two h hr, isEmpty_false (edge_nonempty h hr), isEmpty_false (node_nonempty h hr)]
  simp only [Bool.and_eq_true, decide_eq_true_eq, Bool.not_false, List.all_eq_true, and_true, true_and]
  exact ⟨⟨⟨nodes_le h hr, R.nodes_coord⟩, e1⟩, e2⟩

theorem dim0_two (h : MeshOK2 m xs ys L) (hne : L.regions ≠ []) : L.dim0 = 2 := by
  unfold Loader.dim0
  split
  · rename_i h0; exact absurd h0 hne
  · rename_i n r _ e
    have hr : L.regions.get n = some r := SMap.get_of_mem (e := (n, r)) h.regions_sorted (by rw [e]; simp)
    rw [(h.region n r hr).rest.1, isEmpty_false (h.region_tri n r hr)]
    rfl

/-- The checks of the loader refuse a mesh only if it has no region. -/
theorem loader_finalize (h : MeshOK2 m xs ys L) (hc : L.coords ≠ []) :
    L.finalize = (!L.regions.isEmpty, L) := by
  have hid : (L.regions.map fun e => (e.1, e.2.decompose)) = L.regions := by
    conv_rhs => rw [← List.map_id L.regions]
    apply List.map_congr_left
    rintro ⟨n, r⟩ he
    rw [decompose_id h (SMap.get_of_mem (e := (n, r)) h.regions_sorted he)]
    rfl
  unfold Loader.finalize
  dsimp only
  rw [hid, isEmpty_false hc]
  by_cases hne : L.regions = []
  · rw [hne]; simp
    rw [← hne]
  · rw [dim0_two h hne, isEmpty_false hne]
    have : L.regions.all (fun e => e.2.check L.coords.length 2) = true := by
      rw [List.all_eq_true]
      rintro ⟨n, r⟩ he
      exact check_true h (SMap.get_of_mem (e := (n, r)) h.regions_sorted he)
    rw [this]
    rfl

theorem regions_empty_iff (h : MeshOK2 m xs ys L) : L.regions = [] ↔ ∀ n p q r, ¬ TriOf m xs ys n p q r := by
  constructor
  · intro h0 n p q r ht
    obtain ⟨r, _, _, _, hr, _⟩ := h.tri_made n p q r ht
    rw [h0] at hr
    simp [SMap.get] at hr
  · intro h0
    by_contra hne
    obtain ⟨⟨n, r⟩, he⟩ := List.exists_mem_of_ne_nil _ hne
    have hr := SMap.get_of_mem (e := (n, r)) h.regions_sorted he
    obtain ⟨t, ht⟩ := List.exists_mem_of_ne_nil _ (h.region_tri n r hr)
    obtain ⟨p, q, s, _, _, _, htri, _⟩ := (h.region n r hr).tri_only t ht
    exact h0 n p q s htri

theorem coords_ne (h : MeshOK2 m xs ys L) (hx : 2 ≤ xs.length) (hy : 2 ≤ ys.length) : L.coords ≠ [] := by
  match xs, ys, hx, hy with
  | x :: _, y :: _, _, _ =>
    intro h0
    have := (h.coords (x, y, 0)).2 ⟨by simp, by simp, rfl⟩
    rw [h0] at this; simp at this

/-- Two lines at different positions. -/
def Spread (lines : List Line) : Prop := ∃ a ∈ lines, ∃ b ∈ lines, a.pos ≠ b.pos

/-- **C66** What a finalized mesh is. -/
theorem finalize_spec {fuel : Nat} {sort : List Line → List Line} (hs : IsSort sort) (hx : Positive m.xlines)
    (hy : Positive m.ylines) (hm : Described m) {name : Text} (h : finalize fuel sort name m = .ok L) :
    ∃ xs ys, GridOK m.xlines xs ∧ GridOK m.ylines ys ∧ MeshOK2 m xs ys L ∧ L.name = name ∧ L.regions ≠ [] := by
  unfold finalize at h
  dsimp only at h
  split_ifs at h with h2
  push Not at h2
  split at h
  · rename_i xs ys ex ey
    have gx := locations_spec hs hx h2.1 ex
    have gy := locations_spec hs hy h2.2 ey
    obtain ⟨hb, hn⟩ := build_spec hm gx.increasing gy.increasing name
    rw [loader_finalize hb (coords_ne hb gx.two gy.two)] at h
    split_ifs at h with h3
    cases h
    exact ⟨xs, ys, gx, gy, hb, hn, by simpa using h3⟩
  all_goals cases h

/-- **C66** How `finalize_mesh` ends: never with an assertion, and without a mesh exactly if the lines of a direction are
all at one position or no half cell of the grid is inside a region. -/
theorem finalize_total {sort : List Line → List Line} (hs : IsSort sort) (hx : Positive m.xlines)
    (hy : Positive m.ylines) (hm : Described m) (name : Text) :
    ((¬ Spread m.xlines ∨ ¬ Spread m.ylines) ∧ ∀ fuel, finalize fuel sort name m = .error) ∨
    ∃ N xs ys, GridOK m.xlines xs ∧ GridOK m.ylines ys ∧
      (((∀ n p q r, ¬ TriOf m xs ys n p q r) ∧ ∀ fuel, N ≤ fuel → finalize fuel sort name m = .error) ∨
       ((∃ n p q r, TriOf m xs ys n p q r) ∧ ∃ L, ∀ fuel, N ≤ fuel → finalize fuel sort name m = .ok L)) := by
  by_cases hsp : Spread m.xlines ∧ Spread m.ylines
  · right
    have x2 := (unique_two hs m.xlines).2 hsp.1
    have y2 := (unique_two hs m.ylines).2 hsp.2
    obtain ⟨N1, xs, ex⟩ := locations_terminate hs hx x2
    obtain ⟨N2, ys, ey⟩ := locations_terminate hs hy y2
    have gx := locations_spec hs hx x2 (ex N1 le_rfl)
    have gy := locations_spec hs hy y2 (ey N2 le_rfl)
    obtain ⟨hb, hn⟩ := build_spec hm gx.increasing gy.increasing name
    have hf : ∀ fuel, max N1 N2 ≤ fuel → finalize fuel sort name m =
        if (!(build name m xs ys).regions.isEmpty) = true then .ok (build name m xs ys) else .error := by
      intro fuel hfu
      unfold finalize
      dsimp only
      rw [if_neg (by omega), ex fuel (le_trans (le_max_left _ _) hfu), ey fuel (le_trans (le_max_right _ _) hfu)]
      dsimp only
      rw [loader_finalize hb (coords_ne hb gx.two gy.two)]
    refine ⟨max N1 N2, xs, ys, gx, gy, ?_⟩
    by_cases he : (build name m xs ys).regions = []
    · left
      refine ⟨(regions_empty_iff hb).1 he, fun fuel hfu => ?_⟩
      rw [hf fuel hfu, he]; rfl
    · right
      refine ⟨?_, _, fun fuel hfu => by rw [hf fuel hfu, isEmpty_false he]; rfl⟩
      by_contra hc
      push Not at hc
      exact he ((regions_empty_iff hb).2 hc)
  · left
    refine ⟨not_and_or.1 hsp, fun fuel => ?_⟩
    unfold finalize
    dsimp only
    rw [if_pos]
    rcases not_and_or.1 hsp with h | h
    · left
      by_contra hc
      exact h ((unique_two hs _).1 (by omega))
    · right
      by_contra hc
      exact h ((unique_two hs _).1 (by omega))

end Verif.Mesh2d
