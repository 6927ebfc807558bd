import Verif.Mesh2d.Commands

/-!
# C66: a mesh of two regions that meet at `x = 1`, with an interface there
-/

namespace Verif.Mesh2d.Example
open Classical Verif.MeshIO Verif.Mesh2d
open Verif.Mesh (Res)

def ta : Text := ['a']
def tb : Text := ['b']
def ti : Text := ['i']
def si : Text := ['S', 'i']

/-- Spacing 0.4 makes cells between the lines. The third line of `y` is at the position of the second. -/
noncomputable def cmds : List Cmd :=
  [.line .x 0 (4 / 10) 0, .line .x 2 1 1, .line .x 1 (1 / 2) (3 / 10), .line .y 1 1 0, .line .y 0 1 1, .line .y 1 2 2,
   .region ta si 0 1 0 1 0, .region tb si 2 1 0 1 0, .iface ti ta tb 1 1 0 1 (1 / 10)]

theorem next_right {xs : List ℝ} (h : xs.Pairwise (· < ·)) {x y : ℝ} (hx : x ∈ xs) (hy : y ∈ xs) (hxy : x < y) :
    ∃ v, Next xs x v ∧ v ≤ y := by
  obtain ⟨i, hi⟩ := List.mem_iff_getElem?.1 hx
  obtain ⟨j, hj⟩ := List.mem_iff_getElem?.1 hy
  obtain ⟨i1, i2⟩ := List.getElem?_eq_some_iff.1 hi
  obtain ⟨j1, j2⟩ := List.getElem?_eq_some_iff.1 hj
  rw [List.pairwise_iff_getElem] at h
  have hij : i < j := by
    by_contra hc
    rcases Nat.lt_or_ge j i with hk | hk
    · have := h j i j1 i1 hk; rw [i2, j2] at this; linarith
    · have : i = j := by omega
      subst this; rw [i2] at j2; linarith
  refine ⟨xs[i + 1], ⟨i, hi, List.getElem?_eq_getElem (by omega)⟩, ?_⟩
  rcases Nat.lt_or_ge (i + 1) j with hk | hk
  · have := h (i + 1) j (by omega) j1 hk
    rw [j2] at this; exact this.le
  · have : j = i + 1 := by omega
    subst this
    exact j2.le

theorem next_left {xs : List ℝ} (h : xs.Pairwise (· < ·)) {x y : ℝ} (hx : x ∈ xs) (hy : y ∈ xs) (hxy : x < y) :
    ∃ u, Next xs u y ∧ x ≤ u := by
  obtain ⟨i, hi⟩ := List.mem_iff_getElem?.1 hx
  obtain ⟨j, hj⟩ := List.mem_iff_getElem?.1 hy
  obtain ⟨i1, i2⟩ := List.getElem?_eq_some_iff.1 hi
  obtain ⟨j1, j2⟩ := List.getElem?_eq_some_iff.1 hj
  rw [List.pairwise_iff_getElem] at h
  have hij : i < j := by
    by_contra hc
    rcases Nat.lt_or_ge j i with hk | hk
    · have := h j i j1 i1 hk; rw [i2, j2] at this; linarith
    · have : i = j := by omega
      subst this; rw [i2] at j2; linarith
  obtain ⟨k, rfl⟩ : ∃ k, j = k + 1 := ⟨j - 1, by omega⟩
  refine ⟨xs[k], ⟨k, List.getElem?_eq_getElem (by omega), hj⟩, ?_⟩
  rcases Nat.lt_or_ge i k with hk | hk
  · have := h i k i1 (by omega) hk
    rw [i2] at this; exact this.le
  · have : i = k := by omega
    subst this
    exact i2.ge

noncomputable def m0 : Mesh2 := script {} cmds

theorem script_x {m : Mesh2} {pos ps ns : ℝ} (cs : List Cmd) (hp : 0 < ps) : script m (.line .x pos ps ns :: cs) =
    script { m with xlines := m.xlines ++ [⟨pos, ps, if ns ≤ 0 then ps else ns⟩] } cs := by
  have : step m (.line .x pos ps ns) = some { m with xlines := m.xlines ++ [⟨pos, ps, if ns ≤ 0 then ps else ns⟩] } := by
    unfold step; dsimp only; rw [if_neg (not_le.2 hp)]
  rw [script, this]; rfl

theorem script_y {m : Mesh2} {pos ps ns : ℝ} (cs : List Cmd) (hp : 0 < ps) : script m (.line .y pos ps ns :: cs) =
    script { m with ylines := m.ylines ++ [⟨pos, ps, if ns ≤ 0 then ps else ns⟩] } cs := by
  have : step m (.line .y pos ps ns) = some { m with ylines := m.ylines ++ [⟨pos, ps, if ns ≤ 0 then ps else ns⟩] } := by
    unfold step; dsimp only; rw [if_neg (not_le.2 hp)]
  rw [script, this]; rfl

theorem script_region {m : Mesh2} {n mat : Text} {xl xh yl yh b : ℝ} (cs : List Cmd) (h0 : n ≠ []) (h1 : mat ≠ [])
    (hn : n ∉ m.regions.map Prod.fst) : script m (.region n mat xl xh yl yh b :: cs) =
      script { m with regions := m.regions ++ [(n, ⟨mat, [mkBox xl xh yl yh b]⟩)] } cs := by
  rw [script, step_region_new h0 h1 hn]; rfl

theorem script_iface {m : Mesh2} {n r0 r1 : Text} {xl xh yl yh b : ℝ} (cs : List Cmd) (h0 : n ≠ []) (h1 : r0 ≠ [])
    (h2 : r1 ≠ []) (hr : r0 ≠ r1) (hn : n ∉ m.ifaces.map Prod.fst) : script m (.iface n r0 r1 xl xh yl yh b :: cs) =
      script { m with ifaces := m.ifaces ++ [(n, ⟨r0, r1, [mkBox xl xh yl yh b]⟩)] } cs := by
  rw [script, step_iface_new h0 h1 h2 hr hn]; rfl

theorem m0_rest : m0.regions = [(ta, ⟨si, [mkBox 0 1 0 1 0]⟩), (tb, ⟨si, [mkBox 2 1 0 1 0]⟩)] ∧ m0.contacts = [] ∧
    m0.ifaces = [(ti, ⟨ta, tb, [mkBox 1 1 0 1 (1 / 10)]⟩)] := by
  unfold m0 cmds
  rw [script_x _ (by norm_num), script_x _ (by norm_num), script_x _ (by norm_num), script_y _ (by norm_num),
    script_y _ (by norm_num), script_y _ (by norm_num)]
  rw [script_region _ (by decide) (by decide) (by simp)]
  rw [script_region _ (by decide) (by decide) (by simp [ta, tb])]
  rw [script_iface _ (by decide) (by decide) (by decide) (by decide) (by simp)]
  exact ⟨rfl, rfl, rfl⟩

theorem m0_regions : m0.regions = [(ta, ⟨si, [mkBox 0 1 0 1 0]⟩), (tb, ⟨si, [mkBox 2 1 0 1 0]⟩)] := m0_rest.1

theorem m0_contacts : m0.contacts = [] := m0_rest.2.1

theorem m0_ifaces : m0.ifaces = [(ti, ⟨ta, tb, [mkBox 1 1 0 1 (1 / 10)]⟩)] := m0_rest.2.2

theorem in_x {xs : List ℝ} (h : GridOK m0.xlines xs) : (0 : ℝ) ∈ xs ∧ (1 : ℝ) ∈ xs ∧ (2 : ℝ) ∈ xs := by
  have S := script_says cmds
  refine ⟨h.lines_in ⟨0, 4 / 10, 4 / 10⟩ ((S.xlines _).2 ⟨.line .x 0 (4 / 10) 0, by simp [cmds], .one (by norm_num) (by norm_num)⟩),
    h.lines_in ⟨1, 1 / 2, 3 / 10⟩ ((S.xlines _).2 ⟨.line .x 1 (1 / 2) (3 / 10), by simp [cmds], .both (by norm_num) (by norm_num)⟩),
    h.lines_in ⟨2, 1, 1⟩ ((S.xlines _).2 ⟨.line .x 2 1 1, by simp [cmds], .both (by norm_num) (by norm_num)⟩)⟩

theorem in_y {ys : List ℝ} (h : GridOK m0.ylines ys) : (0 : ℝ) ∈ ys ∧ (1 : ℝ) ∈ ys := by
  have S := script_says cmds
  refine ⟨h.lines_in ⟨0, 1, 1⟩ ((S.ylines _).2 ⟨.line .y 0 1 1, by simp [cmds], .both (by norm_num) (by norm_num)⟩),
    h.lines_in ⟨1, 1, 1⟩ ((S.ylines _).2 ⟨.line .y 1 1 0, by simp [cmds], .one (by norm_num) (by norm_num)⟩)⟩

theorem own_a {x y : ℝ} (h0 : 0 < x) (h1 : x < 1) (h2 : 0 < y) (h3 : y < 1) : ∃ d, Owns m0.regions ta d x y := by
  rw [m0_regions]
  refine ⟨_, [], _, rfl, ⟨_, by simp; rfl, ?_⟩, ?_⟩
  · rw [inside_mkBox]; norm_num; exact ⟨h0, h1, h2, h3⟩
  · intro e he
    simp only [List.mem_singleton] at he
    subst he
    rintro ⟨b, hb, hi⟩
    simp only [List.mem_singleton] at hb
    subst hb
    rw [inside_mkBox] at hi
    norm_num at hi
    linarith [hi.1]

theorem own_b {x y : ℝ} (h0 : 1 < x) (h1 : x < 2) (h2 : 0 < y) (h3 : y < 1) : ∃ d, Owns m0.regions tb d x y := by
  rw [m0_regions]
  refine ⟨_, [(ta, ⟨si, [mkBox 0 1 0 1 0]⟩)], [], rfl, ⟨_, by simp; rfl, ?_⟩, by simp⟩
  rw [inside_mkBox]; norm_num; exact ⟨h0, h1, h2, h3⟩

/-- The half cells of both regions at the point `(1, 0)`. -/
theorem tris {xs ys : List ℝ} (hx : GridOK m0.xlines xs) (hy : GridOK m0.ylines ys) :
    (∃ u d, TriOf m0 xs ys ta (u, 0) (u, d) (1, 0)) ∧ ∃ v d, TriOf m0 xs ys tb (1, 0) (1, d) (v, 0) := by
  obtain ⟨x0, x1, x2⟩ := in_x hx
  obtain ⟨y0, y1⟩ := in_y hy
  obtain ⟨u, hu, hu0⟩ := next_left hx.increasing x0 x1 (by norm_num)
  obtain ⟨v, hv, hv0⟩ := next_right hx.increasing x1 x2 (by norm_num)
  obtain ⟨d, hd, hd0⟩ := next_right hy.increasing y0 y1 (by norm_num)
  have hu1 := hu.lt hx.increasing
  have hv1 := hv.lt hx.increasing
  have hd1 := hd.lt hy.increasing
  refine ⟨⟨u, d, .low hu hd, own_a ?_ ?_ ?_ ?_⟩, ⟨v, d, .low hv hd, own_b ?_ ?_ ?_ ?_⟩⟩ <;> dsimp only <;> linarith

/-- The mesh is made; both regions have triangles; and the interface has a pair of nodes at `(1, 0)`. -/
theorem example_mesh {sort : List Line → List Line} (hs : IsSort sort) :
    ∃ N L, (∀ fuel, N ≤ fuel → finalize fuel sort ['m'] (script {} cmds) = .ok L) ∧
      (∃ r, L.regions.get ta = some r) ∧ (∃ r, L.regions.get tb = some r) ∧
      ∃ o k0 k1, L.ifaces.get ti = some o ∧ (k0, k1) ∈ o.pairs ∧ NodeAt L ta k0 (1, 0) ∧ NodeAt L tb k1 (1, 0) := by
  have S := script_says cmds
  rcases finalize_total hs S.positive.1 S.positive.2 S.described ['m'] with ⟨h, _⟩ | ⟨N, xs, ys, hx, hy, h⟩
  · exfalso
    rcases h with h | h
    · exact h ⟨⟨0, 4 / 10, 4 / 10⟩, (S.xlines _).2 ⟨.line .x 0 (4 / 10) 0, by simp [cmds], .one (by norm_num) (by norm_num)⟩,
        ⟨2, 1, 1⟩, (S.xlines _).2 ⟨.line .x 2 1 1, by simp [cmds], .both (by norm_num) (by norm_num)⟩, by norm_num⟩
    · exact h ⟨⟨0, 1, 1⟩, (S.ylines _).2 ⟨.line .y 0 1 1, by simp [cmds], .both (by norm_num) (by norm_num)⟩,
        ⟨1, 1, 1⟩, (S.ylines _).2 ⟨.line .y 1 1 0, by simp [cmds], .one (by norm_num) (by norm_num)⟩, by norm_num⟩
  · rcases h with ⟨h, _⟩ | ⟨_, L, hL⟩
    · obtain ⟨⟨u, d, ht⟩, _⟩ := tris (xs := xs) (ys := ys) hx hy
      exact absurd ht (h _ _ _ _)
    · obtain ⟨xs, ys, hx, hy, hM, _⟩ := finalize_spec hs S.positive.1 S.positive.2 S.described (hL N le_rfl)
      obtain ⟨⟨u, d, ht⟩, ⟨v, d', ht'⟩⟩ := tris (xs := xs) (ys := ys) hx hy
      obtain ⟨ra, _, _, ka, ha, _, _, _, na⟩ := hM.tri_made _ _ _ _ ht
      obtain ⟨rb, kb, _, _, hb, _, nb, _, _⟩ := hM.tri_made _ _ _ _ ht'
      refine ⟨N, L, hL, ⟨ra, ha⟩, ⟨rb, hb⟩, ?_⟩
      have hif : (script {} cmds).ifaces = _ := m0_ifaces
      obtain ⟨o, k0, k1, ho, hk, n0, n1⟩ := hM.ifc_made ti (1, 0) ⟨ta, tb, by decide, ⟨ka, na⟩, ⟨kb, nb⟩⟩ (by
        rintro n' ⟨pre, post, c, he, _⟩
        have hc : (script {} cmds).contacts = [] := m0_contacts
        rw [hc] at he
        simp at he) (by
        rw [hif]
        refine ⟨[], [], _, rfl, ⟨_, by simp; rfl, ?_⟩, ⟨ka, na⟩, ⟨kb, nb⟩, by simp⟩
        rw [inside_mkBox]; norm_num)
      obtain ⟨c, hc, e0, e1⟩ := (hM.iface ti o ho).regions
      rw [hif] at hc
      simp only [List.mem_singleton, Prod.mk.injEq, true_and] at hc
      subst hc
      dsimp only at e0 e1
      rw [e0] at n0
      rw [e1] at n1
      exact ⟨o, k0, k1, ho, hk, n0, n1⟩

end Verif.Mesh2d.Example
