import Verif.Mesh2d.Lines
import Verif.MeshIO.Steps
import Mathlib.Tactic.Ring
import Mathlib.Tactic.FieldSimp
import Mathlib.Tactic.Linarith

/-!
# C66: the grid: its points, its triangles, and that the triangles tile the rectangle
-/

namespace Verif.Mesh2d
open Classical Verif.MeshIO

/-! ### Specification -/

/-- Two neighbouring positions. -/
def Next (xs : List ℝ) (a b : ℝ) : Prop := ∃ i : Nat, xs[i]? = some a ∧ xs[i + 1]? = some b

/-- The halves of the cells of a grid: a cell `a,b` × `c,d` is cut from `(a,d)` to `(b,c)`. -/
inductive HalfCell (xs ys : List ℝ) : ℝ × ℝ → ℝ × ℝ → ℝ × ℝ → Prop
  | low {a b c d : ℝ} : Next xs a b → Next ys c d → HalfCell xs ys (a, c) (a, d) (b, c)
  | high {a b c d : ℝ} : Next xs a b → Next ys c d → HalfCell xs ys (a, d) (b, c) (b, d)

/-- A point of a triangle. -/
def InTri (p q r z : ℝ × ℝ) : Prop := ∃ u v w : ℝ, 0 ≤ u ∧ 0 ≤ v ∧ 0 ≤ w ∧ u + v + w = 1 ∧
  z.1 = u * p.1 + v * q.1 + w * r.1 ∧ z.2 = u * p.2 + v * q.2 + w * r.2

/-- A point inside a triangle. -/
def InsideTri (p q r z : ℝ × ℝ) : Prop := ∃ u v w : ℝ, 0 < u ∧ 0 < v ∧ 0 < w ∧ u + v + w = 1 ∧
  z.1 = u * p.1 + v * q.1 + w * r.1 ∧ z.2 = u * p.2 + v * q.2 + w * r.2

/-! ### Tiling -/

theorem Next.lt {xs : List ℝ} (h : xs.Pairwise (· < ·)) {a b : ℝ} (hn : Next xs a b) : a < b := by
  obtain ⟨i, h1, h2⟩ := hn
  obtain ⟨k1, rfl⟩ := List.getElem?_eq_some_iff.1 h1
  obtain ⟨k2, rfl⟩ := List.getElem?_eq_some_iff.1 h2
  exact List.pairwise_iff_getElem.1 h _ _ _ _ (by omega)

theorem Next.unique {xs : List ℝ} (h : xs.Pairwise (· < ·)) {a b a' b' x : ℝ} (h1 : Next xs a b) (h2 : Next xs a' b')
    (g1 : a < x) (g2 : x < b) (g3 : a' < x) (g4 : x < b') : a = a' ∧ b = b' := by
  obtain ⟨i, i1, i2⟩ := h1
  obtain ⟨j, j1, j2⟩ := h2
  obtain ⟨k1, rfl⟩ := List.getElem?_eq_some_iff.1 i1
  obtain ⟨k2, rfl⟩ := List.getElem?_eq_some_iff.1 i2
  obtain ⟨k3, rfl⟩ := List.getElem?_eq_some_iff.1 j1
  obtain ⟨k4, rfl⟩ := List.getElem?_eq_some_iff.1 j2
  have mono : ∀ (m n : Nat) (hm : m < xs.length) (hn : n < xs.length), m ≤ n → xs[m] ≤ xs[n] := by
    intro m n hm hn hmn
    rcases Nat.lt_or_eq_of_le hmn with hlt | rfl
    · exact (List.pairwise_iff_getElem.1 h _ _ hm hn hlt).le
    · exact le_refl _
  have hij : i = j := by
    rcases Nat.lt_trichotomy i j with hlt | he | hlt
    · have := mono (i + 1) j k2 k3 (by omega); linarith
    · exact he
    · have := mono (j + 1) i k4 k1 (by omega); linarith
  subst hij
  exact ⟨rfl, rfl⟩

theorem next_cover : ∀ {xs : List ℝ} {x u v : ℝ}, 2 ≤ xs.length → xs.head? = some u → xs.getLast? = some v →
    u ≤ x → x ≤ v → ∃ a b, Next xs a b ∧ a ≤ x ∧ x ≤ b := by
  intro xs
  induction xs with
  | nil => intro x u v h; simp at h
  | cons a l ih =>
    intro x u v h hu hv h1 h2
    simp only [List.head?_cons, Option.some.injEq] at hu
    subst hu
    cases l with
    | nil => simp at h
    | cons b l =>
      by_cases hx : x ≤ b
      · exact ⟨a, b, ⟨0, rfl, rfl⟩, h1, hx⟩
      · rw [not_le] at hx
        cases l with
        | nil =>
          simp only [List.getLast?_cons_cons, List.getLast?_singleton, Option.some.injEq] at hv
          linarith
        | cons c l =>
          rw [List.getLast?_cons_cons] at hv
          obtain ⟨a', b', ⟨i, i1, i2⟩, g⟩ := ih (x := x) (u := b) (v := v) (by simp) rfl hv hx.le h2
          exact ⟨a', b', ⟨i + 1, i1, i2⟩, g⟩

/-- **C66** Every point of the rectangle of the mesh is in one of the triangles. -/
theorem tiles_cover {xs ys : List ℝ} (hx : xs.Pairwise (· < ·)) (hy : ys.Pairwise (· < ·)) (lx : 2 ≤ xs.length)
    (ly : 2 ≤ ys.length) {x0 x1 y0 y1 : ℝ} (ex0 : xs.head? = some x0) (ex1 : xs.getLast? = some x1)
    (ey0 : ys.head? = some y0) (ey1 : ys.getLast? = some y1) {z : ℝ × ℝ} (h1 : x0 ≤ z.1) (h2 : z.1 ≤ x1) (h3 : y0 ≤ z.2)
    (h4 : z.2 ≤ y1) : ∃ p q r, HalfCell xs ys p q r ∧ InTri p q r z := by
  obtain ⟨a, b, hab, g1, g2⟩ := next_cover lx ex0 ex1 h1 h2
  obtain ⟨c, d, hcd, g3, g4⟩ := next_cover ly ey0 ey1 h3 h4
  have l1 := hab.lt hx
  have l2 := hcd.lt hy
  have p1 : 0 < b - a := by linarith
  have p2 : 0 < d - c := by linarith
  obtain ⟨s, hs⟩ : ∃ s, s = (z.1 - a) / (b - a) := ⟨_, rfl⟩
  obtain ⟨t, ht⟩ : ∃ t, t = (z.2 - c) / (d - c) := ⟨_, rfl⟩
  have es : s * (b - a) = z.1 - a := by rw [hs]; field_simp
  have et : t * (d - c) = z.2 - c := by rw [ht]; field_simp
  have s0 : 0 ≤ s := by rw [hs]; exact div_nonneg (by linarith) p1.le
  have t0 : 0 ≤ t := by rw [ht]; exact div_nonneg (by linarith) p2.le
  have s1 : s ≤ 1 := by rw [hs, div_le_one p1]; linarith
  have t1 : t ≤ 1 := by rw [ht, div_le_one p2]; linarith
  by_cases hst : s + t ≤ 1
  · refine ⟨_, _, _, .low hab hcd, 1 - s - t, t, s, by linarith, t0, s0, by ring, ?_, ?_⟩
    · dsimp only; linear_combination -es
    · dsimp only; linear_combination -et
  · rw [not_le] at hst
    refine ⟨_, _, _, .high hab hcd, 1 - s, 1 - t, s + t - 1, by linarith, by linarith, by linarith, by ring, ?_, ?_⟩
    · dsimp only; linear_combination -es
    · dsimp only; linear_combination -et

theorem halfCell_inside {xs ys : List ℝ} (hx : xs.Pairwise (· < ·)) (hy : ys.Pairwise (· < ·)) {p q r z : ℝ × ℝ}
    (h : HalfCell xs ys p q r) (hz : InsideTri p q r z) :
    ∃ a b c d, Next xs a b ∧ Next ys c d ∧ a < z.1 ∧ z.1 < b ∧ c < z.2 ∧ z.2 < d ∧
      ((p = (a, c) ∧ q = (a, d) ∧ r = (b, c) ∧ (z.1 - a) * (d - c) + (z.2 - c) * (b - a) < (b - a) * (d - c)) ∨
       (p = (a, d) ∧ q = (b, c) ∧ r = (b, d) ∧ (b - a) * (d - c) < (z.1 - a) * (d - c) + (z.2 - c) * (b - a))) := by
  obtain ⟨u, v, w, hu, hv, hw, hs, e1, e2⟩ := hz
  cases h with
  | @low a b c d hab hcd =>
    have l1 := hab.lt hx
    have l2 := hcd.lt hy
    dsimp only at e1 e2
    have hu' : u = 1 - v - w := by linarith
    subst hu'
    have f1 : z.1 - a = w * (b - a) := by rw [e1]; ring
    have f2 : z.2 - c = v * (d - c) := by rw [e2]; ring
    have g1 : 0 < w * (b - a) := mul_pos hw (by linarith)
    have g2 : 0 < v * (d - c) := mul_pos hv (by linarith)
    have g3 : 0 < (1 - w) * (b - a) := mul_pos (by linarith) (by linarith)
    have g4 : 0 < (1 - v) * (d - c) := mul_pos (by linarith) (by linarith)
    refine ⟨a, b, c, d, hab, hcd, by linarith, by linarith, by linarith, by linarith, .inl ⟨rfl, rfl, rfl, ?_⟩⟩
    rw [f1, f2]
    have : 0 < (1 - v - w) * ((b - a) * (d - c)) := mul_pos hu (mul_pos (by linarith) (by linarith))
    linarith
  | @high a b c d hab hcd =>
    have l1 := hab.lt hx
    have l2 := hcd.lt hy
    dsimp only at e1 e2
    have hw' : w = 1 - u - v := by linarith
    subst hw'
    have f1 : z.1 - a = (1 - u) * (b - a) := by rw [e1]; ring
    have f2 : z.2 - c = (1 - v) * (d - c) := by rw [e2]; ring
    have g1 : 0 < u * (b - a) := mul_pos hu (by linarith)
    have g2 : 0 < v * (d - c) := mul_pos hv (by linarith)
    have g3 : 0 < (1 - u) * (b - a) := mul_pos (by linarith) (by linarith)
    have g4 : 0 < (1 - v) * (d - c) := mul_pos (by linarith) (by linarith)
    refine ⟨a, b, c, d, hab, hcd, by linarith, by linarith, by linarith, by linarith, .inr ⟨rfl, rfl, rfl, ?_⟩⟩
    rw [f1, f2]
    have : 0 < (1 - u - v) * ((b - a) * (d - c)) := mul_pos hw (mul_pos (by linarith) (by linarith))
    linarith

/-- **C66** No point is inside two triangles. -/
theorem tiles_disjoint {xs ys : List ℝ} (hx : xs.Pairwise (· < ·)) (hy : ys.Pairwise (· < ·)) {p q r p' q' r' z : ℝ × ℝ}
    (h : HalfCell xs ys p q r) (h' : HalfCell xs ys p' q' r') (hz : InsideTri p q r z) (hz' : InsideTri p' q' r' z) :
    p = p' ∧ q = q' ∧ r = r' := by
  obtain ⟨a, b, c, d, n1, n2, g1, g2, g3, g4, hc⟩ := halfCell_inside hx hy h hz
  obtain ⟨a', b', c', d', m1, m2, k1, k2, k3, k4, hc'⟩ := halfCell_inside hx hy h' hz'
  obtain ⟨rfl, rfl⟩ := n1.unique hx m1 g1 g2 k1 k2
  obtain ⟨rfl, rfl⟩ := n2.unique hy m2 g3 g4 k3 k4
  rcases hc with ⟨rfl, rfl, rfl, i⟩ | ⟨rfl, rfl, rfl, i⟩ <;> rcases hc' with ⟨rfl, rfl, rfl, j⟩ | ⟨rfl, rfl, rfl, j⟩
  · exact ⟨rfl, rfl, rfl⟩
  · linarith
  · linarith
  · exact ⟨rfl, rfl, rfl⟩

/-! ### Indices -/

theorem gridCoords_length (xs ys : List ℝ) : (gridCoords xs ys).length = xs.length * ys.length := by
  induction xs with
  | nil => simp [gridCoords]
  | cons x xs ih =>
    unfold gridCoords at *
    rw [List.flatMap_cons, List.length_append, ih]
    simp only [List.length_map, List.length_cons]
    ring

theorem gridCoords_get (xs ys : List ℝ) : ∀ (i j : Nat) (x y : ℝ), xs[i]? = some x → ys[j]? = some y →
    (gridCoords xs ys)[i * ys.length + j]? = some (x, y, 0) := by
  induction xs with
  | nil => intro i j x y h; simp at h
  | cons a xs ih =>
    intro i j x y hx hy
    obtain ⟨hj, hy'⟩ := List.getElem?_eq_some_iff.1 hy
    unfold gridCoords
    rw [List.flatMap_cons]
    cases i with
    | zero =>
      simp only [List.getElem?_cons_zero, Option.some.injEq] at hx
      subst hx
      rw [List.getElem?_append_left (by simpa using hj), List.getElem?_map, Nat.zero_mul, Nat.zero_add, hy]
      rfl
    | succ i =>
      rw [List.getElem?_append_right (by rw [List.length_map]; nlinarith)]
      have := ih i j x y (by simpa using hx) hy
      unfold gridCoords at this
      rw [← this, List.length_map]
      congr 1
      rw [Nat.succ_mul]
      omega

theorem mem_gridCoords {xs ys : List ℝ} {p : ℝ × ℝ × ℝ} :
    p ∈ gridCoords xs ys ↔ p.1 ∈ xs ∧ p.2.1 ∈ ys ∧ p.2.2 = 0 := by
  obtain ⟨x, y, z⟩ := p
  simp only [gridCoords, List.mem_flatMap, List.mem_map, Prod.mk.injEq]
  constructor
  · rintro ⟨a, ha, b, hb, rfl, rfl, rfl⟩
    exact ⟨ha, hb, rfl⟩
  · rintro ⟨ha, hb, rfl⟩
    exact ⟨x, ha, y, hb, rfl, rfl, rfl⟩

/-- Every index of a coordinate is that of a crossing of two lines. -/
theorem gridCoords_index {xs ys : List ℝ} {k : Nat} {p : ℝ × ℝ × ℝ} (h : (gridCoords xs ys)[k]? = some p) :
    ∃ i j x y, k = i * ys.length + j ∧ xs[i]? = some x ∧ ys[j]? = some y ∧ p = (x, y, 0) := by
  obtain ⟨hk, _⟩ := List.getElem?_eq_some_iff.1 h
  rw [gridCoords_length] at hk
  have hpos : 0 < ys.length := by
    rcases Nat.eq_zero_or_pos ys.length with h0 | h0
    · rw [h0] at hk; simp at hk
    · exact h0
  have hi : k / ys.length < xs.length := Nat.div_lt_of_lt_mul (by rw [Nat.mul_comm]; exact hk)
  have hj : k % ys.length < ys.length := Nat.mod_lt _ hpos
  have e : k = k / ys.length * ys.length + k % ys.length := by rw [Nat.mul_comm]; exact (Nat.div_add_mod _ _).symm
  have g := gridCoords_get xs ys _ _ _ _ (List.getElem?_eq_getElem hi) (List.getElem?_eq_getElem hj)
  rw [← e, h] at g
  simp only [Option.some.injEq] at g
  exact ⟨_, _, _, _, e, List.getElem?_eq_getElem hi, List.getElem?_eq_getElem hj, g⟩

theorem get_inj {xs : List ℝ} (h : xs.Pairwise (· < ·)) {i j : Nat} {x : ℝ} (h1 : xs[i]? = some x) (h2 : xs[j]? = some x) :
    i = j := by
  have hn : xs.Nodup := h.imp fun hh => ne_of_lt hh
  obtain ⟨k1, e1⟩ := List.getElem?_eq_some_iff.1 h1
  obtain ⟨k2, e2⟩ := List.getElem?_eq_some_iff.1 h2
  exact (List.Nodup.getElem_inj_iff hn).1 (e1.trans e2.symm)

theorem gridCoords_inj {xs ys : List ℝ} (hx : xs.Pairwise (· < ·)) (hy : ys.Pairwise (· < ·)) {k l : Nat} {p : ℝ × ℝ × ℝ}
    (h1 : (gridCoords xs ys)[k]? = some p) (h2 : (gridCoords xs ys)[l]? = some p) : k = l := by
  obtain ⟨i, j, x, y, rfl, e1, e2, rfl⟩ := gridCoords_index h1
  obtain ⟨i', j', x', y', rfl, f1, f2, e⟩ := gridCoords_index h2
  simp only [Prod.mk.injEq, and_true] at e
  obtain ⟨rfl, rfl⟩ := e
  rw [get_inj hx e1 f1, get_inj hy e2 f2]

theorem mkElem_low {numy i j : Nat} (h : j + 1 < numy) :
    mkElem [i * numy + j, (i + 1) * numy + j, i * numy + (j + 1)] =
      [i * numy + j, i * numy + (j + 1), (i + 1) * numy + j] := by
  have e : (i + 1) * numy = i * numy + numy := Nat.succ_mul i numy
  rw [e]
  generalize i * numy = k
  unfold mkElem
  apply List.Perm.eq_of_pairwise (le := (· ≤ ·))
  · intro a b _ _ h1 h2; exact Nat.le_antisymm h1 h2
  · have := List.pairwise_mergeSort (le := fun a b : Nat => decide (a ≤ b))
      (fun a b c h1 h2 => by simp only [decide_eq_true_eq] at *; exact le_trans h1 h2)
      (fun a b => by simp only [Bool.or_eq_true, decide_eq_true_eq]; exact le_total _ _) [k + j, k + numy + j, k + (j + 1)]
    exact this.imp fun h => by simpa using h
  · simp only [List.pairwise_cons, List.mem_cons, List.not_mem_nil, or_false, forall_eq_or_imp, forall_eq,
      IsEmpty.forall_iff, implies_true, List.Pairwise.nil, and_true]
    omega
  · refine (List.mergeSort_perm _ _).trans ?_
    exact .cons _ (.swap _ _ _)

theorem mkElem_high {numy i j : Nat} (h : j + 1 < numy) :
    mkElem [(i + 1) * numy + j, (i + 1) * numy + (j + 1), i * numy + (j + 1)] =
      [i * numy + (j + 1), (i + 1) * numy + j, (i + 1) * numy + (j + 1)] := by
  have e : (i + 1) * numy = i * numy + numy := Nat.succ_mul i numy
  rw [e]
  generalize i * numy = k
  unfold mkElem
  apply List.Perm.eq_of_pairwise (le := (· ≤ ·))
  · intro a b _ _ h1 h2; exact Nat.le_antisymm h1 h2
  · have := List.pairwise_mergeSort (le := fun a b : Nat => decide (a ≤ b))
      (fun a b c h1 h2 => by simp only [decide_eq_true_eq] at *; exact le_trans h1 h2)
      (fun a b => by simp only [Bool.or_eq_true, decide_eq_true_eq]; exact le_total _ _)
      [k + numy + j, k + numy + (j + 1), k + (j + 1)]
    exact this.imp fun h => by simpa using h
  · simp only [List.pairwise_cons, List.mem_cons, List.not_mem_nil, or_false, forall_eq_or_imp, forall_eq,
      IsEmpty.forall_iff, implies_true, List.Pairwise.nil, and_true]
    omega
  · refine (List.mergeSort_perm _ _).trans ?_
    exact ((List.Perm.swap _ _ _).cons _).trans (.swap _ _ _)

theorem mem_gridTris {numx numy : Nat} {t : List Nat} : t ∈ gridTris numx numy ↔ ∃ i j, i + 1 < numx ∧ j + 1 < numy ∧
    (t = [i * numy + j, i * numy + (j + 1), (i + 1) * numy + j] ∨
     t = [i * numy + (j + 1), (i + 1) * numy + j, (i + 1) * numy + (j + 1)]) := by
  simp only [gridTris, List.mem_flatMap, List.mem_range, cellTris]
  constructor
  · rintro ⟨i, hi, j, hj, h⟩
    rw [mkElem_low (by omega), mkElem_high (by omega)] at h
    exact ⟨i, j, by omega, by omega, by simpa using h⟩
  · rintro ⟨i, j, hi, hj, h⟩
    refine ⟨i, by omega, j, by omega, ?_⟩
    rw [mkElem_low (by omega), mkElem_high (by omega)]
    simpa using h

/-- The triangles of the grid are the halves of its cells. -/
theorem gridTris_halfCell {xs ys : List ℝ} {p q r : ℝ × ℝ} : HalfCell xs ys p q r ↔
    ∃ i0 i1 i2, [i0, i1, i2] ∈ gridTris xs.length ys.length ∧ (gridCoords xs ys)[i0]? = some (p.1, p.2, 0) ∧
      (gridCoords xs ys)[i1]? = some (q.1, q.2, 0) ∧ (gridCoords xs ys)[i2]? = some (r.1, r.2, 0) := by
  constructor
  · intro h
    cases h with
    | @low a b c d hab hcd =>
      obtain ⟨i, i1, i2⟩ := hab
      obtain ⟨j, j1, j2⟩ := hcd
      obtain ⟨ki, _⟩ := List.getElem?_eq_some_iff.1 i2
      obtain ⟨kj, _⟩ := List.getElem?_eq_some_iff.1 j2
      exact ⟨_, _, _, mem_gridTris.2 ⟨i, j, ki, kj, .inl rfl⟩, gridCoords_get _ _ _ _ _ _ i1 j1,
        gridCoords_get _ _ _ _ _ _ i1 j2, gridCoords_get _ _ _ _ _ _ i2 j1⟩
    | @high a b c d hab hcd =>
      obtain ⟨i, i1, i2⟩ := hab
      obtain ⟨j, j1, j2⟩ := hcd
      obtain ⟨ki, _⟩ := List.getElem?_eq_some_iff.1 i2
      obtain ⟨kj, _⟩ := List.getElem?_eq_some_iff.1 j2
      exact ⟨_, _, _, mem_gridTris.2 ⟨i, j, ki, kj, .inr rfl⟩, gridCoords_get _ _ _ _ _ _ i1 j2,
        gridCoords_get _ _ _ _ _ _ i2 j1, gridCoords_get _ _ _ _ _ _ i2 j2⟩
  · rintro ⟨i0, i1, i2, ht, h0, h1, h2⟩
    obtain ⟨p1, p2⟩ := p
    obtain ⟨q1, q2⟩ := q
    obtain ⟨r1, r2⟩ := r
    dsimp only at h0 h1 h2
    obtain ⟨i, j, hi, hj, h⟩ := mem_gridTris.1 ht
    have gx : ∀ k, k < xs.length → xs[k]? = some (xs.getD k 0) := fun k hk => by
      rw [List.getD_eq_getElem?_getD, List.getElem?_eq_getElem hk]; rfl
    have gy : ∀ k, k < ys.length → ys[k]? = some (ys.getD k 0) := fun k hk => by
      rw [List.getD_eq_getElem?_getD, List.getElem?_eq_getElem hk]; rfl
    have nx : Next xs (xs.getD i 0) (xs.getD (i + 1) 0) := ⟨i, gx _ (by omega), gx _ (by omega)⟩
    have ny : Next ys (ys.getD j 0) (ys.getD (j + 1) 0) := ⟨j, gy _ (by omega), gy _ (by omega)⟩
    have c00 := gridCoords_get xs ys i j _ _ (gx i (by omega)) (gy j (by omega))
    have c01 := gridCoords_get xs ys i (j + 1) _ _ (gx i (by omega)) (gy (j + 1) (by omega))
    have c10 := gridCoords_get xs ys (i + 1) j _ _ (gx (i + 1) (by omega)) (gy j (by omega))
    have c11 := gridCoords_get xs ys (i + 1) (j + 1) _ _ (gx (i + 1) (by omega)) (gy (j + 1) (by omega))
    rcases h with h | h <;> simp only [List.cons.injEq, and_true] at h <;> obtain ⟨rfl, rfl, rfl⟩ := h
    · rw [c00] at h0; rw [c01] at h1; rw [c10] at h2
      simp only [Option.some.injEq, Prod.mk.injEq, and_true] at h0 h1 h2
      obtain ⟨rfl, rfl⟩ := h0
      obtain ⟨rfl, rfl⟩ := h1
      obtain ⟨rfl, rfl⟩ := h2
      exact .low nx ny
    · rw [c01] at h0; rw [c10] at h1; rw [c11] at h2
      simp only [Option.some.injEq, Prod.mk.injEq, and_true] at h0 h1 h2
      obtain ⟨rfl, rfl⟩ := h0
      obtain ⟨rfl, rfl⟩ := h1
      obtain ⟨rfl, rfl⟩ := h2
      exact .high nx ny

/-- Every triangle has three corners, in increasing order, that are coordinates. -/
theorem gridTris_shape {numx numy : Nat} {t : List Nat} (h : t ∈ gridTris numx numy) :
    ∃ i0 i1 i2, t = [i0, i1, i2] ∧ i0 < i1 ∧ i1 < i2 ∧ i2 < numx * numy := by
  obtain ⟨i, j, hi, hj, h⟩ := mem_gridTris.1 h
  have e : (i + 1) * numy = i * numy + numy := Nat.succ_mul i numy
  have e2 : (i + 2) * numy ≤ numx * numy := Nat.mul_le_mul_right _ (by omega)
  have e3 : (i + 2) * numy = i * numy + numy + numy := by ring
  rw [e] at h
  rcases h with rfl | rfl
  · exact ⟨_, _, _, rfl, by omega, by omega, by omega⟩
  · exact ⟨_, _, _, rfl, by omega, by omega, by omega⟩

end Verif.Mesh2d
