import Verif.Mesh2d.Model
import Verif.Mesh.Points

/-!
# C66: the positions of the grid lines of a two-dimensional mesh
-/

namespace Verif.Mesh2d
open Classical Verif.MeshIO
open Verif.Mesh (getPoints Res GapOK points_spec points_terminate)

/-! ### Specification -/

/-- No line lies strictly between `a` and `b`. -/
def Neighbours (lines : List Line) (a b : Line) : Prop :=
  a ∈ lines ∧ b ∈ lines ∧ a.pos < b.pos ∧ ∀ c ∈ lines, ¬ (a.pos < c.pos ∧ c.pos < b.pos)

/-- What the positions of the grid in one direction must be. -/
structure GridOK (lines : List Line) (xs : List ℝ) : Prop where
  /-- positions increase strictly -/
  increasing : xs.Pairwise (· < ·)
  /-- every line is a position -/
  lines_in : ∀ c ∈ lines, c.pos ∈ xs
  /-- the grid begins and ends at a line -/
  ends : ∃ a b, a ∈ lines ∧ b ∈ lines ∧ xs.head? = some a.pos ∧ xs.getLast? = some b.pos
  /-- there is at least one cell -/
  two : 2 ≤ xs.length
  /-- every cell lies between two neighbouring lines and obeys their spacings -/
  spacing : ∀ i u v, xs[i]? = some u → xs[i + 1]? = some v →
    ∃ a b, Neighbours lines a b ∧ GapOK a.pos b.pos a.ps b.ns u v

/-- Spacings as `add_2d_mesh_line` makes them. -/
def Positive (lines : List Line) : Prop := ∀ c ∈ lines, 0 < c.ps ∧ 0 < c.ns

/-- What `std::sort` with a comparison of the positions promises. -/
structure IsSort (sort : List Line → List Line) : Prop where
  perm : ∀ l, (sort l).Perm l
  sorted : ∀ l, (sort l).Pairwise fun a b => a.pos ≤ b.pos

/-- A sort exists. -/
theorem isSort_mergeSort : IsSort fun l => l.mergeSort fun a b => decide (a.pos ≤ b.pos) where
  perm := fun l => List.mergeSort_perm _ _
  sorted := fun l => by
    have := List.pairwise_mergeSort (le := fun a b : Line => decide (a.pos ≤ b.pos))
      (fun a b c h1 h2 => by simp only [decide_eq_true_eq] at *; exact le_trans h1 h2)
      (fun a b => by simp only [Bool.or_eq_true, decide_eq_true_eq]; exact le_total _ _) l
    exact this.imp fun h => by simpa using h

/-! ### Lines of equal position -/

theorem dropEqual_spec : ∀ (ls : List Line) (p : Line), (p :: ls).Pairwise (fun a b => a.pos ≤ b.pos) →
    (dropEqual p ls).Sublist ls ∧ (∀ c ∈ dropEqual p ls, p.pos < c.pos) ∧
    (dropEqual p ls).Pairwise (fun a b => a.pos < b.pos) ∧
    (∀ c ∈ ls, c.pos = p.pos ∨ ∃ d ∈ dropEqual p ls, d.pos = c.pos) := by
  intro ls
  induction ls with
  | nil => intro p _; simp [dropEqual]
  | cons l ls ih =>
    intro p h
    rw [List.pairwise_cons] at h
    obtain ⟨h1, h2, h3, h4⟩ := ih l h.2
    have hpl := h.1 l (by simp)
    rw [dropEqual]
    split
    · rename_i he
      refine ⟨h1.cons _, ?_, h3, ?_⟩
      · rw [← he]; exact h2
      · intro c hc
        rcases List.mem_cons.1 hc with rfl | hc
        · exact .inl he
        · rw [← he]; exact h4 c hc
    · rename_i hne
      have hlt : p.pos < l.pos := lt_of_le_of_ne hpl (Ne.symm hne)
      refine ⟨h1.cons_cons _, ?_, ?_, ?_⟩
      · intro c hc
        rcases List.mem_cons.1 hc with rfl | hc
        · exact hlt
        · exact lt_trans hlt (h2 c hc)
      · rw [List.pairwise_cons]; exact ⟨h2, h3⟩
      · intro c hc
        rcases List.mem_cons.1 hc with rfl | hc
        · exact .inr ⟨c, by simp, rfl⟩
        · rcases h4 c hc with h | ⟨d, hd, he⟩
          · exact .inr ⟨l, by simp, h.symm⟩
          · exact .inr ⟨d, by simp [hd], he⟩

theorem unique_spec {sort : List Line → List Line} (hs : IsSort sort) (lines : List Line) :
    (∀ c ∈ unique (sort lines), c ∈ lines) ∧ (unique (sort lines)).Pairwise (fun a b => a.pos < b.pos) ∧
    (∀ c ∈ lines, ∃ d ∈ unique (sort lines), d.pos = c.pos) := by
  have hp := hs.perm lines
  have hso := hs.sorted lines
  cases e : sort lines with
  | nil =>
    rw [e] at hp
    have : lines = [] := List.eq_nil_of_length_eq_zero (by simpa using hp.length_eq.symm)
    subst this
    simp [unique]
  | cons a as =>
    rw [e] at hp hso
    obtain ⟨h1, h2, h3, h4⟩ := dropEqual_spec as a hso
    rw [unique]
    refine ⟨?_, ?_, ?_⟩
    · intro c hc
      rcases List.mem_cons.1 hc with rfl | hc
      · exact hp.mem_iff.1 (by simp)
      · exact hp.mem_iff.1 (List.mem_cons_of_mem _ (h1.mem hc))
    · rw [List.pairwise_cons]; exact ⟨h2, h3⟩
    · intro c hc
      rcases List.mem_cons.1 (hp.mem_iff.2 hc) with rfl | hc
      · exact ⟨c, by simp, rfl⟩
      · rcases h4 c hc with h | ⟨d, hd, he⟩
        · exact ⟨a, by simp, h.symm⟩
        · exact ⟨d, by simp [hd], he⟩

/-! ### Positions -/

/-- Two neighbouring positions, relative to the lines. -/
def Q (all : List Line) (u v : ℝ) : Prop := ∃ a b, [a, b] <:+: all ∧ GapOK a.pos b.pos a.ps b.ns u v

theorem Q.mono {all all' : List Line} (h : all <:+: all') {u v : ℝ} (hq : Q all u v) : Q all' u v := by
  obtain ⟨a, b, h1, h2⟩ := hq
  exact ⟨a, b, h1.trans h, h2⟩

theorem locLoop_spec {fuel : Nat} : ∀ (bs : List Line) (a : Line) (l : List ℝ), Positive (a :: bs) →
    locLoop fuel a bs = .ok l →
    List.IsChain (Q (a :: bs)) (a.pos :: l) ∧
    (a.pos :: l).getLast? = ((a :: bs).getLast?).map Line.pos ∧ (∀ c ∈ bs, c.pos ∈ l) := by
  intro bs
  induction bs with
  | nil =>
    intro a l _ h
    simp only [locLoop, Res.ok.injEq] at h
    subst h
    exact ⟨List.isChain_singleton _, rfl, by simp⟩
  | cons b bs ih =>
    intro a l hpos h
    rw [locLoop] at h
    split at h
    · simp at h
    · rename_i hlt
      rw [not_not] at hlt
      split at h
      · simp at h
      · rename_i pts hp
        obtain ⟨rest, rfl, hch, hlast⟩ := points_spec hlt (hpos a (by simp)).1 (hpos b (by simp)).2 hp
        split at h
        · rename_i l' hl'
          simp only [List.tail_cons, Res.ok.injEq] at h
          subst h
          obtain ⟨i1, i2, i3⟩ := ih b l' (fun c hc => hpos c (List.mem_cons_of_mem _ hc)) hl'
          have hrest : rest ≠ [] := by
            rintro rfl
            simp only [List.getLast_singleton] at hlast
            linarith
          have hl1 : (a.pos :: rest).getLast? = some b.pos := by
            rw [List.getLast?_eq_some_getLast (by simp), hlast]
          have hl2 : rest.getLast? = some b.pos := by
            rw [List.getLast?_eq_some_getLast hrest]
            rw [List.getLast_cons hrest] at hlast
            rw [hlast]
          refine ⟨?_, ?_, ?_⟩
          · rw [← List.cons_append, List.isChain_append]
            refine ⟨hch.imp fun u v hg => ⟨a, b, ⟨[], bs, by simp⟩, hg⟩, ?_, ?_⟩
            · exact (List.IsChain.of_cons i1).imp fun u v hq => hq.mono ⟨[a], [], by simp⟩
            · intro x hx y hy
              rw [hl1] at hx
              simp only [Option.mem_def, Option.some.injEq] at hx
              subst hx
              cases l' with
              | nil => simp at hy
              | cons y' l' =>
                simp only [List.head?_cons, Option.mem_def, Option.some.injEq] at hy
                subst hy
                exact (List.isChain_cons_cons.1 i1).1.mono ⟨[a], [], by simp⟩
          · rw [← List.cons_append, List.getLast?_append, hl1]
            rw [List.getLast?_cons] at i2
            rw [List.getLast?_cons_cons, ← i2]
            cases l'.getLast? <;> rfl
          · intro c hc
            rw [List.mem_append]
            rcases List.mem_cons.1 hc with rfl | hc
            · exact .inl (List.mem_of_getLast? hl2)
            · exact .inr (i3 c hc)
        · rename_i hr
          exact absurd h (by intro hh; exact hr _ hh)

/-- **C66** The positions in one direction. -/
theorem locations_spec {fuel : Nat} {sort : List Line → List Line} (hs : IsSort sort) {lines : List Line}
    (hpos : Positive lines) {xs : List ℝ} (h2 : 2 ≤ (unique (sort lines)).length)
    (h : locations fuel (unique (sort lines)) = .ok xs) : GridOK lines xs := by
  obtain ⟨u1, u2, u3⟩ := unique_spec hs lines
  cases e : unique (sort lines) with
  | nil => rw [e] at h; simp [locations] at h
  | cons a as =>
    rw [e] at h u1 u2 u3 h2
    rw [locations] at h
    split at h
    · rename_i l hl
      simp only [Res.ok.injEq] at h
      subst h
      obtain ⟨i1, i2, i3⟩ := locLoop_spec as a l (fun c hc => hpos c (u1 c hc)) hl
      have hmem : ∀ c ∈ a :: as, c.pos ∈ a.pos :: l := by
        intro c hc
        rcases List.mem_cons.1 hc with rfl | hc
        · simp
        · exact List.mem_cons_of_mem _ (i3 c hc)
      refine ⟨?_, ?_, ?_, ?_, ?_⟩
      · have : List.IsChain (· < ·) (a.pos :: l) := i1.imp fun u v ⟨_, _, _, hg⟩ => hg.lt
        exact List.isChain_iff_pairwise.1 this
      · intro c hc
        obtain ⟨d, hd, he⟩ := u3 c hc
        rw [← he]; exact hmem d hd
      · have hz : (a :: as).getLast? = some ((a :: as).getLast (by simp)) := List.getLast?_eq_some_getLast (by simp)
        refine ⟨a, (a :: as).getLast (by simp), u1 _ (by simp), u1 _ (List.getLast_mem _), rfl, ?_⟩
        rw [i2, hz]; rfl
      · cases as with
        | nil => simp at h2
        | cons b bs =>
          have := i3 b (by simp)
          have := List.length_pos_of_mem this
          simp only [List.length_cons]; omega
      · intro i u v hu hv
        obtain ⟨hk, hu'⟩ := List.getElem?_eq_some_iff.1 hu
        obtain ⟨hk2, hv'⟩ := List.getElem?_eq_some_iff.1 hv
        have := List.isChain_iff_getElem.1 i1 i hk2
        rw [hu', hv'] at this
        obtain ⟨c, d, ⟨p, q, hpq⟩, hg⟩ := this
        refine ⟨c, d, ⟨u1 c ?_, u1 d ?_, ?_, ?_⟩, hg⟩
        · rw [← hpq]; simp
        · rw [← hpq]; simp
        · exact lt_of_le_of_lt hg.low (lt_of_lt_of_le hg.lt hg.high)
        · intro e' he'
          obtain ⟨e, he, hee⟩ := u3 e' he'
          rw [← hee]
          rw [← hpq] at he u2
          rw [List.append_assoc, List.pairwise_append] at u2
          obtain ⟨_, hw2, hw3⟩ := u2
          simp only [List.append_assoc, List.mem_append, List.mem_cons, List.not_mem_nil, or_false] at he
          rintro ⟨g1, g2⟩
          simp only [List.cons_append, List.nil_append, List.pairwise_cons] at hw2
          rcases he with he | (he | he) | he
          · have := hw3 e he c (by simp); linarith
          · subst he; linarith
          · subst he; linarith
          · have := hw2.2.1 e he; linarith
    · rename_i hr
      exact absurd h (by intro hh; exact hr _ hh)

theorem locLoop_terminates : ∀ (bs : List Line) (a : Line), Positive (a :: bs) →
    (a :: bs).Pairwise (fun a b => a.pos < b.pos) → ∃ n l, ∀ fuel, n ≤ fuel → locLoop fuel a bs = .ok l := by
  intro bs
  induction bs with
  | nil => intro a _ _; exact ⟨0, [], fun _ _ => rfl⟩
  | cons b bs ih =>
    intro a hpos hw
    rw [List.pairwise_cons] at hw
    obtain ⟨n1, l, h1⟩ := ih b (fun c hc => hpos c (List.mem_cons_of_mem _ hc)) hw.2
    have hlt := hw.1 b (by simp)
    obtain ⟨n2, pts, h2⟩ := points_terminate hlt (hpos a (by simp)).1 (hpos b (by simp)).2
    refine ⟨max n1 n2, pts.tail ++ l, fun fuel hf => ?_⟩
    rw [locLoop, if_neg (not_not.2 hlt), h2 fuel (le_trans (le_max_right _ _) hf)]
    dsimp only
    rw [h1 fuel (le_trans (le_max_left _ _) hf)]

/-- **C66** The positions are always found, and no assertion stops the command. -/
theorem locations_terminate {sort : List Line → List Line} (hs : IsSort sort) {lines : List Line}
    (hpos : Positive lines) (h2 : 2 ≤ (unique (sort lines)).length) :
    ∃ n xs, ∀ fuel, n ≤ fuel → locations fuel (unique (sort lines)) = .ok xs := by
  obtain ⟨u1, u2, u3⟩ := unique_spec hs lines
  cases e : unique (sort lines) with
  | nil => rw [e] at h2; simp at h2
  | cons a as =>
    rw [e] at u1 u2
    obtain ⟨n, l, h⟩ := locLoop_terminates as a (fun c hc => hpos c (u1 c hc)) u2
    exact ⟨n, a.pos :: l, fun fuel hf => by rw [locations, h fuel hf]⟩

/-- Enough lines means two lines at different positions. -/
theorem unique_two {sort : List Line → List Line} (hs : IsSort sort) (lines : List Line) :
    2 ≤ (unique (sort lines)).length ↔ ∃ a ∈ lines, ∃ b ∈ lines, a.pos ≠ b.pos := by
  obtain ⟨u1, u2, u3⟩ := unique_spec hs lines
  constructor
  · intro h
    match e : unique (sort lines), h with
    | a :: b :: l, _ =>
      rw [e] at u1 u2
      rw [List.pairwise_cons] at u2
      exact ⟨a, u1 _ (by simp), b, u1 _ (by simp), ne_of_lt (u2.1 b (by simp))⟩
  · rintro ⟨a, ha, b, hb, hne⟩
    obtain ⟨c, hc, e1⟩ := u3 a ha
    obtain ⟨d, hd, e2⟩ := u3 b hb
    match e : unique (sort lines) with
    | [] => rw [e] at hc; simp at hc
    | [x] =>
      rw [e] at hc hd
      simp only [List.mem_singleton] at hc hd
      subst hc; subst hd
      exact absurd (e1.symm.trans e2) hne
    | _ :: _ :: _ => simp

end Verif.Mesh2d
