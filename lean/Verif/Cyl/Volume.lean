import Verif.Cyl.Spec

/-!
# Volumes of swept triangles
-/

namespace Verif.Cyl
open Verif.Geom Finset

@[simp] theorem pt_z (z r : ℝ) : (pt z r).z = z := rfl
@[simp] theorem pt_r (z r : ℝ) : (pt z r).r = r := rfl

/-! ### Triangles with a flat side -/

/-- By how much the formula for a triangle with a flat side is too large. -/
noncomputable def excess (r0 z0 r1 z1 r2 : ℝ) : ℝ :=
  Real.pi * |z1 - z0| * |r2 - r1| * (|r1 + r2 - 2 * r0| - (r1 + r2 - 2 * r0)) / 3

theorem excess_nonneg (r0 z0 r1 z1 r2 : ℝ) : 0 ≤ excess r0 z0 r1 z1 r2 := by
  unfold excess
  have h1 := le_abs_self (r1 + r2 - 2 * r0)
  have h2 := Real.pi_pos
  have : 0 ≤ |r1 + r2 - 2 * r0| - (r1 + r2 - 2 * r0) := by linarith
  positivity

theorem excess_zero {r0 z0 r1 z1 r2 : ℝ} : excess r0 z0 r1 z1 r2 = 0 ↔ z1 = z0 ∨ r2 = r1 ∨ 2 * r0 ≤ r1 + r2 := by
  unfold excess
  have h2 := Real.pi_pos.ne'
  rw [div_eq_zero_iff, mul_eq_zero, mul_eq_zero, mul_eq_zero, abs_eq_zero, abs_eq_zero, sub_eq_zero, sub_eq_zero, sub_eq_zero,
    abs_eq_self]
  simp only [h2, false_or]
  constructor
  · rintro (((h | h) | h) | h)
    · exact .inl h
    · exact .inr (.inl h)
    · exact .inr (.inr (by linarith))
    · norm_num at h
  · rintro (h | h | h)
    · exact .inl (.inl (.inl h))
    · exact .inl (.inl (.inr h))
    · exact .inl (.inr (by linarith))

/-- **The formula for a triangle with a flat side** gives its volume and the excess. -/
theorem flat_eq {a b c : Pt} (hbc : b.z = c.z) :
    flat a.r a.z b.r b.z c.r = revolve a b c + excess a.r a.z b.r b.z c.r := by
  have h1 : (c.r - a.r) ^ 2 - (b.r - a.r) ^ 2 = (c.r - b.r) * (b.r + c.r - 2 * a.r) := by ring
  have h2 : cross a b c = (b.z - a.z) * (c.r - b.r) := by simp only [cross, ← hbc]; ring
  simp only [flat, excess, revolve, h1, h2, abs_mul]
  ring

/-! ### Any triangle -/

theorem triVolume_perm {l l' : List Pt} (h : l.Perm l') : triVolume l = triVolume l' := by
  have : l.insertionSort (· ≤ ·) = l'.insertionSort (· ≤ ·) :=
    List.Perm.eq_of_pairwise (fun a b _ _ h1 h2 => le_antisymm h1 h2) (List.pairwise_insertionSort _ _) (List.pairwise_insertionSort _ _)
      ((List.perm_insertionSort _ _).trans (h.trans (List.perm_insertionSort _ _).symm))
  rw [triVolume, triVolume, this]

theorem triVolume_sorted {a b c : Pt} (h1 : a ≤ b) (h2 : b ≤ c) : triVolume [a, b, c] = sortedVolume a b c := by
  have : [a, b, c].insertionSort (· ≤ ·) = [a, b, c] := by
    apply List.Pairwise.insertionSort_eq
    simp [h1, h2, h1.trans h2]
  rw [triVolume, this]

theorem le_z {a b : Pt} (h : a ≤ b) : a.z ≤ b.z := by
  rcases (Prod.Lex.le_iff (x := a) (y := b)).1 h with h | h
  · exact h.le
  · exact h.1.le

theorem le_r {a b : Pt} (h : a ≤ b) (hz : a.z = b.z) : a.r ≤ b.r := by
  rcases (Prod.Lex.le_iff (x := a) (y := b)).1 h with h | h
  · exact absurd hz (ne_of_lt h)
  · exact h.2

/-- A property of three points that does not depend on their order may be proved for sorted points. -/
theorem sorted_cases {Q : Pt → Pt → Pt → Prop} (h1 : ∀ a b c, Q a b c → Q b a c) (h2 : ∀ a b c, Q a b c → Q a c b)
    (h : ∀ a b c, a ≤ b → b ≤ c → Q a b c) (a b c : Pt) : Q a b c := by
  rcases le_total a b with ab | ab <;> rcases le_total b c with bc | bc <;> rcases le_total a c with ac | ac
  · exact h a b c ab bc
  · exact h a b c ab bc
  · exact h2 _ _ _ (h a c b ac bc)
  · exact h2 _ _ _ (h1 _ _ _ (h c a b ac ab))
  · exact h1 _ _ _ (h b a c ab ac)
  · exact h1 _ _ _ (h2 _ _ _ (h b c a bc ac))
  · exact h1 _ _ _ (h2 _ _ _ (h1 _ _ _ (h c b a bc ab)))
  · exact h1 _ _ _ (h2 _ _ _ (h1 _ _ _ (h c b a bc ab)))

/-- The point at the height of `b` on the line from `a` to `c`. -/
noncomputable def across (a b c : Pt) : Pt := pt b.z ((b.z - a.z) * (c.r - a.r) / (c.z - a.z) + a.r)

theorem sorted_split {a b c : Pt} (h1 : a.z < b.z) (h2 : b.z < c.z) :
    sortedVolume a b c = revolve a b c + (excess a.r a.z b.r b.z (across a b c).r + excess c.r c.z b.r b.z (across a b c).r) := by
  have hz : c.z - a.z ≠ 0 := by linarith
  have hc := revolve_cut (a := a) (b := b) (c := c) (x := across a b c) (t := (b.z - a.z) / (c.z - a.z))
    (div_nonneg (by linarith) (by linarith)) (by rw [div_le_one (by linarith)]; linarith)
    (by simp only [across, pt_z]; field_simp; ring) (by simp only [across, pt_r]; ring)
  have hv : sortedVolume a b c = flat a.r a.z b.r b.z (across a b c).r + flat c.r c.z b.r b.z (across a b c).r := by
    rw [sortedVolume, if_neg (ne_of_lt h1), if_neg (ne_of_lt h2)]; rfl
  rw [hv, hc, flat_eq (a := a) (b := b) (c := across a b c) rfl, flat_eq (a := c) (b := b) (c := across a b c) rfl]
  ring

/-- **The computed volume is never too small.** -/
theorem triVolume_ge (a b c : Pt) : revolve a b c ≤ triVolume [a, b, c] := by
  refine sorted_cases (Q := fun a b c => revolve a b c ≤ triVolume [a, b, c]) ?_ ?_ ?_ a b c
  · intro a b c h; rw [revolve_swap, triVolume_perm (List.Perm.swap a b [c])]; exact h
  · intro a b c h; rw [revolve_swap', triVolume_perm (List.Perm.cons a (List.Perm.swap b c []))]; exact h
  · intro a b c hab hbc
    rw [triVolume_sorted hab hbc]
    rcases (le_z hab).eq_or_lt with h1 | h1
    · rw [sortedVolume, if_pos h1, flat_eq (a := c) (b := a) (c := b) h1, ← revolve_rot a b c, ← revolve_rot b c a]
      linarith [excess_nonneg c.r c.z a.r a.z b.r]
    · rcases (le_z hbc).eq_or_lt with h2 | h2
      · rw [sortedVolume, if_neg (ne_of_lt h1), if_pos h2, flat_eq h2]
        linarith [excess_nonneg a.r a.z b.r b.z c.r]
      · rw [sorted_split h1 h2]
        linarith [excess_nonneg a.r a.z b.r b.z (across a b c).r, excess_nonneg c.r c.z b.r b.z (across a b c).r]

/-- A triangle points away from the axis: the corner at the middle height and the point across at the same height are, in the mean, at
least as far from the axis as the highest and the lowest corner. -/
def Outward (a b c : Pt) : Prop := ∀ p q s : Pt, [p, q, s].Perm [a, b, c] → p.z ≤ q.z → q.z ≤ s.z →
  if p.z = q.z then 2 * s.r ≤ p.r + q.r
  else if q.z = s.z then 2 * p.r ≤ q.r + s.r
  else 2 * p.r ≤ q.r + (across p q s).r ∧ 2 * s.r ≤ q.r + (across p q s).r

theorem Outward.perm {a b c a' b' c' : Pt} (h : Outward a b c) (hp : [a', b', c'].Perm [a, b, c]) : Outward a' b' c' :=
  fun p q s h1 h2 h3 => h p q s (h1.trans hp) h2 h3

theorem cross_split {a b c : Pt} (h1 : a.z ≠ c.z) : cross a b c = (a.z - c.z) * (b.r - (across a b c).r) := by
  have : c.z - a.z ≠ 0 := fun h => h1 (by linarith)
  simp only [cross, across, pt_r]
  field_simp
  ring

theorem perm_two {α : Type} {q s b c : α} (h : [q, s].Perm [b, c]) : (q = b ∧ s = c) ∨ (q = c ∧ s = b) := by
  have hq : q ∈ [b, c] := h.mem_iff.1 (by simp)
  simp only [List.mem_cons, List.not_mem_nil, or_false] at hq
  rcases hq with rfl | rfl
  · exact .inl ⟨rfl, by simpa using (List.perm_cons q).1 h⟩
  · have := (List.perm_cons q).1 (h.trans (List.Perm.swap q b []))
    exact .inr ⟨rfl, by simpa using this⟩

theorem perm_three {α : Type} {p q s a b c : α} (h : [p, q, s].Perm [a, b, c]) :
    (p = a ∧ q = b ∧ s = c) ∨ (p = a ∧ q = c ∧ s = b) ∨ (p = b ∧ q = a ∧ s = c) ∨ (p = b ∧ q = c ∧ s = a) ∨
      (p = c ∧ q = a ∧ s = b) ∨ (p = c ∧ q = b ∧ s = a) := by
  have hp : p ∈ [a, b, c] := h.mem_iff.1 (by simp)
  simp only [List.mem_cons, List.not_mem_nil, or_false] at hp
  rcases hp with rfl | rfl | rfl
  · rcases perm_two ((List.perm_cons p).1 h) with ⟨rfl, rfl⟩ | ⟨rfl, rfl⟩
    · exact .inl ⟨rfl, rfl, rfl⟩
    · exact .inr (.inl ⟨rfl, rfl, rfl⟩)
  · rcases perm_two ((List.perm_cons p).1 (h.trans (List.Perm.swap p a [c]))) with ⟨rfl, rfl⟩ | ⟨rfl, rfl⟩
    · exact .inr (.inr (.inl ⟨rfl, rfl, rfl⟩))
    · exact .inr (.inr (.inr (.inl ⟨rfl, rfl, rfl⟩)))
  · rcases perm_two ((List.perm_cons p).1 (h.trans ((List.Perm.cons a (List.Perm.swap p b [])).trans (List.Perm.swap p a [b])))) with
      ⟨rfl, rfl⟩ | ⟨rfl, rfl⟩
    · exact .inr (.inr (.inr (.inr (.inl ⟨rfl, rfl, rfl⟩))))
    · exact .inr (.inr (.inr (.inr (.inr ⟨rfl, rfl, rfl⟩))))

/-- **When the computed volume is right**: a triangle that is not degenerate has its volume exactly when it points away from the axis. -/
theorem triVolume_exact (a b c : Pt) (hd : cross a b c ≠ 0) : triVolume [a, b, c] = revolve a b c ↔ Outward a b c := by
  revert hd
  refine sorted_cases (Q := fun a b c => cross a b c ≠ 0 → (triVolume [a, b, c] = revolve a b c ↔ Outward a b c)) ?_ ?_ ?_ a b c
  · intro a b c h hd
    have hd' : cross a b c ≠ 0 := by
      have : cross b a c = - cross a b c := by simp only [cross]; ring
      rw [this] at hd; simpa using hd
    rw [revolve_swap, triVolume_perm (List.Perm.swap a b [c]), h hd']
    exact ⟨fun h => h.perm (List.Perm.swap a b [c]), fun h => h.perm (List.Perm.swap b a [c])⟩
  · intro a b c h hd
    have hd' : cross a b c ≠ 0 := by
      have : cross a c b = - cross a b c := by simp only [cross]; ring
      rw [this] at hd; simpa using hd
    rw [revolve_swap', triVolume_perm (List.Perm.cons a (List.Perm.swap b c [])), h hd']
    exact ⟨fun h => h.perm (List.Perm.cons a (List.Perm.swap b c [])), fun h => h.perm (List.Perm.cons a (List.Perm.swap c b []))⟩
  · intro a b c hab hbc hd
    rw [triVolume_sorted hab hbc]
    -- the permutations of the corners that are sorted by height
    have key : ∀ p q s : Pt, [p, q, s].Perm [a, b, c] →
        (p = a ∧ q = b ∧ s = c) ∨ (p = a ∧ q = c ∧ s = b) ∨ (p = b ∧ q = a ∧ s = c) ∨ (p = b ∧ q = c ∧ s = a) ∨
        (p = c ∧ q = a ∧ s = b) ∨ (p = c ∧ q = b ∧ s = a) := by
      exact fun p q s hp => perm_three hp
    rcases (le_z hab).eq_or_lt with h1 | h1
    · -- the lower side is flat
      have hr : a.r ≠ b.r := fun h => hd (by simp only [cross, h1, h]; ring)
      have hz : c.z ≠ b.z := fun h => hd (by simp only [cross, h1, h]; ring)
      have hbc' : b.z < c.z := lt_of_le_of_ne (le_z hbc) (Ne.symm hz)
      rw [sortedVolume, if_pos h1, flat_eq (a := c) (b := a) (c := b) h1, ← revolve_rot a b c, ← revolve_rot b c a, add_eq_left, excess_zero]
      have : (a.z = c.z ∨ b.r = a.r ∨ 2 * c.r ≤ a.r + b.r) ↔ 2 * c.r ≤ a.r + b.r := by
        constructor
        · rintro (h | h | h)
          · exact absurd (h1.symm.trans h).symm hz
          · exact absurd h.symm hr
          · exact h
        · exact fun h => .inr (.inr h)
      rw [this]
      constructor
      · intro h p q s hp hpq hqs
        rcases key p q s hp with ⟨rfl, rfl, rfl⟩ | ⟨rfl, rfl, rfl⟩ | ⟨rfl, rfl, rfl⟩ | ⟨rfl, rfl, rfl⟩ | ⟨rfl, rfl, rfl⟩ | ⟨rfl, rfl, rfl⟩
        · rw [if_pos h1]; exact h
        · linarith
        · rw [if_pos h1.symm]; linarith
        · linarith
        · linarith
        · linarith
      · intro h
        have := h a b c (List.Perm.refl _) h1.le hbc'.le
        rwa [if_pos h1] at this
    · rcases (le_z hbc).eq_or_lt with h2 | h2
      · have hr : b.r ≠ c.r := fun h => hd (by simp only [cross, h2, h]; ring)
        rw [sortedVolume, if_neg (ne_of_lt h1), if_pos h2, flat_eq h2, add_eq_left, excess_zero]
        have : (b.z = a.z ∨ c.r = b.r ∨ 2 * a.r ≤ b.r + c.r) ↔ 2 * a.r ≤ b.r + c.r := by
          constructor
          · rintro (h | h | h)
            · linarith
            · exact absurd h.symm hr
            · exact h
          · exact fun h => .inr (.inr h)
        rw [this]
        constructor
        · intro h p q s hp hpq hqs
          rcases key p q s hp with ⟨rfl, rfl, rfl⟩ | ⟨rfl, rfl, rfl⟩ | ⟨rfl, rfl, rfl⟩ | ⟨rfl, rfl, rfl⟩ | ⟨rfl, rfl, rfl⟩ | ⟨rfl, rfl, rfl⟩
          · rw [if_neg (ne_of_lt h1), if_pos h2]; exact h
          · rw [if_neg (by intro e; linarith), if_pos h2.symm]; linarith
          · linarith
          · linarith
          · linarith
          · linarith
        · intro h
          have := h a b c (List.Perm.refl _) h1.le h2.le
          rwa [if_neg (ne_of_lt h1), if_pos h2] at this
      · have hr : (across a b c).r ≠ b.r := by
          intro h
          apply hd
          rw [cross_split (by intro e; linarith), h]; ring
        rw [sorted_split h1 h2, add_eq_left, add_eq_zero_iff_of_nonneg (excess_nonneg _ _ _ _ _) (excess_nonneg _ _ _ _ _), excess_zero,
          excess_zero]
        constructor
        · rintro ⟨h3, h4⟩ p q s hp hpq hqs
          have h3' : 2 * a.r ≤ b.r + (across a b c).r := by
            rcases h3 with h | h | h
            · linarith
            · exact absurd h hr
            · exact h
          have h4' : 2 * c.r ≤ b.r + (across a b c).r := by
            rcases h4 with h | h | h
            · linarith
            · exact absurd h hr
            · exact h
          rcases key p q s hp with ⟨rfl, rfl, rfl⟩ | ⟨rfl, rfl, rfl⟩ | ⟨rfl, rfl, rfl⟩ | ⟨rfl, rfl, rfl⟩ | ⟨rfl, rfl, rfl⟩ | ⟨rfl, rfl, rfl⟩
          · rw [if_neg (ne_of_lt h1), if_neg (ne_of_lt h2)]; exact ⟨h3', h4'⟩
          · linarith
          · linarith
          · linarith
          · linarith
          · linarith
        · intro h
          have := h a b c (List.Perm.refl _) h1.le h2.le
          rw [if_neg (ne_of_lt h1), if_neg (ne_of_lt h2)] at this
          exact ⟨.inr (.inr this.1), .inr (.inr this.2)⟩

end Verif.Cyl
