import Verif.Mesh.Layout

/-!
# C32: good lines are accepted, and a second try is not
-/

namespace Verif.Mesh
open Classical

/-- Lines that can be placed: different positions, different tags. -/
structure Placeable (lines : List Line) : Prop where
  some : lines ≠ []
  positive : Positive lines
  positions : lines.Pairwise fun c d => c.pos ≠ d.pos
  tags : lines.Pairwise fun c d => c.tag = d.tag → c.tag = ""

theorem placeLoop_complete : ∀ (bs : List Line) (a : Line) (l : Layout), Positive (a :: bs) →
    (a :: bs).Pairwise (fun c d => c.pos < d.pos) → bs.Pairwise (fun c d => c.tag = d.tag → c.tag = "") →
    (∀ t k, l.find t = some k → t ≠ "" ∧ ∀ b ∈ bs, b.tag ≠ t) → (∀ p ∈ l.tags, p.2 < l.locations.length) →
    ∃ n l', ∀ fuel, n ≤ fuel → placeLoop fuel a bs l = .ok l' := by
  intro bs
  induction bs with
  | nil => intro a l _ _ _ _ _; exact ⟨0, l, fun fuel _ => by rw [placeLoop]⟩
  | cons b bs ih =>
    intro a l hpos hsort htag hfind hbound
    have hlt : a.pos < b.pos := (List.pairwise_cons.1 hsort).1 b (by simp)
    obtain ⟨n, pts, hp⟩ := points_terminate hlt (hpos a (by simp)).1 (hpos b (by simp)).2
    obtain ⟨rest, hre, hch, hlast⟩ := points_spec hlt (hpos a (by simp)).1 (hpos b (by simp)).2 (hp n (le_refl _))
    have hrest : rest ≠ [] := by
      rintro rfl
      simp only [List.getLast_singleton] at hlast
      linarith
    have hrl : 0 < rest.length := List.length_pos_iff.2 hrest
    obtain ⟨l2, hl2, h1, h2⟩ : ∃ l2, addTag { l with locations := l.locations ++ rest } b.tag
        ((l.locations ++ rest).length - 1) = .ok l2 ∧ (∀ t k, l2.find t = some k → t ≠ "" ∧ ∀ b ∈ bs, b.tag ≠ t) ∧
        (∀ p ∈ l2.tags, p.2 < l2.locations.length) := by
      unfold addTag
      by_cases ht : b.tag = ""
      · rw [if_pos ht]
        refine ⟨_, rfl, fun t k hk => ?_, fun p hp => ?_⟩
        · obtain ⟨g1, g2⟩ := hfind t k hk
          exact ⟨g1, fun c hc => g2 c (by simp [hc])⟩
        · have := hbound p hp
          simp only [List.length_append]; omega
      · rw [if_neg ht, if_neg]
        · refine ⟨_, rfl, fun t k hk => ?_, fun p hp => ?_⟩
          · unfold Layout.find at hk
            dsimp only at hk
            rw [List.lookup_cons] at hk
            by_cases hs : t = b.tag
            · subst hs
              exact ⟨ht, fun c hc he => ht ((List.pairwise_cons.1 htag).1 c hc he.symm)⟩
            · have : (t == b.tag) = false := by simpa using hs
              rw [this] at hk
              obtain ⟨g1, g2⟩ := hfind t k hk
              exact ⟨g1, fun c hc => g2 c (by simp [hc])⟩
          · dsimp only at hp ⊢
            rcases List.mem_cons.1 hp with rfl | hp
            · simp only [List.length_append]; omega
            · have := hbound p hp
              simp only [List.length_append]; omega
        · rintro (hc | ⟨p, hp, hc⟩)
          · obtain ⟨k, hk⟩ := Option.isSome_iff_exists.1 hc
            exact (hfind b.tag k hk).2 b (by simp) rfl
          · have := hbound p hp
            simp only [List.length_append] at hc
            omega
    obtain ⟨m, l', hm⟩ := ih b l2 (fun c hc => hpos c (List.mem_cons_of_mem _ hc)) (List.pairwise_cons.1 hsort).2
      (List.pairwise_cons.1 htag).2 h1 h2
    refine ⟨max n m, l', fun fuel hf => ?_⟩
    rw [placeLoop, if_neg (not_not.2 hlt), hp fuel (le_trans (le_max_left _ _) hf)]
    dsimp only
    rw [hre, List.tail_cons, hl2]
    exact hm fuel (le_trans (le_max_right _ _) hf)

/-- **C32** Lines with different positions and different tags are placed, and the computation ends. -/
theorem place_complete {lines : List Line} (h : Placeable lines) :
    ∃ n l, ∀ fuel, n ≤ fuel → place fuel lines = .ok l := by
  have hperm : (sortLines lines).Perm lines := List.mergeSort_perm _ _
  have hle : (sortLines lines).Pairwise (fun c d => c.pos ≤ d.pos) := by
    have := List.pairwise_mergeSort (le := fun a b : Line => decide (a.pos ≤ b.pos))
      (by intro a b c; simpa using fun h1 h2 => le_trans h1 h2) (by intro a b; simpa using le_total a.pos b.pos) lines
    exact this.imp (by simp)
  have hne : (sortLines lines).Pairwise (fun c d => c.pos ≠ d.pos) :=
    (hperm.pairwise_iff (fun h => Ne.symm h)).2 h.positions
  have hlt : (sortLines lines).Pairwise (fun c d => c.pos < d.pos) :=
    (hle.and hne).imp fun ⟨a, b⟩ => lt_of_le_of_ne a b
  have htag : (sortLines lines).Pairwise (fun c d => c.tag = d.tag → c.tag = "") :=
    (hperm.pairwise_iff (fun {x y} h e => by rw [e]; exact h e.symm)).2 h.tags
  unfold place placeOn
  match hs : sortLines lines with
  | [] =>
    rw [hs] at hperm
    exact absurd hperm.symm.eq_nil h.some
  | a :: as =>
    rw [hs] at hlt htag hperm
    have hpos : Positive (a :: as) := fun c hc => h.positive c (hperm.mem_iff.1 hc)
    obtain ⟨l2, hl2, h1, h2⟩ : ∃ l2, addTag ⟨[a.pos], []⟩ a.tag 0 = .ok l2 ∧
        (∀ t k, l2.find t = some k → t ≠ "" ∧ ∀ b ∈ as, b.tag ≠ t) ∧ (∀ p ∈ l2.tags, p.2 < l2.locations.length) := by
      unfold addTag
      by_cases ht : a.tag = ""
      · rw [if_pos ht]
        exact ⟨_, rfl, fun t k hk => by simp [Layout.find] at hk, by simp⟩
      · rw [if_neg ht, if_neg (by simp [Layout.find])]
        refine ⟨_, rfl, fun t k hk => ?_, by simp⟩
        unfold Layout.find at hk
        dsimp only at hk
        rw [List.lookup_cons] at hk
        by_cases hs : t = a.tag
        · subst hs
          exact ⟨ht, fun c hc he => ht ((List.pairwise_cons.1 htag).1 c hc he.symm)⟩
        · have : (t == a.tag) = false := by simpa using hs
          rw [this] at hk
          simp at hk
    obtain ⟨n, l', hn⟩ := placeLoop_complete as a l2 hpos hlt (List.pairwise_cons.1 htag).2 h1 h2
    refine ⟨n, l', fun fuel hf => ?_⟩
    dsimp only [List.nil_append]
    rw [hl2]
    exact hn fuel hf

/-! ### A second try -/

theorem placeLoop_mono {fuel : Nat} : ∀ (bs : List Line) (a : Line) (l : Layout) (t : String),
    (l.find t).isSome → (∃ b ∈ bs, b.tag = t) → t ≠ "" → ∀ l', placeLoop fuel a bs l ≠ .ok l' := by
  intro bs
  induction bs with
  | nil => intro a l t _ h; simp at h
  | cons b bs ih =>
    intro a l t hf ⟨c, hc, hct⟩ ht l' h
    rw [placeLoop] at h
    split at h
    · simp at h
    · split at h
      · simp at h
      · split at h
        · rename_i l2 hl2
          obtain ⟨e1, e2⟩ := addTag_ok hl2
          by_cases hbt : b.tag = t
          · rcases e2 with ⟨h0, rfl⟩ | ⟨_, hn, _⟩
            · exact ht (hbt ▸ h0)
            · rw [hbt] at hn
              change l.find t = none at hn
              rw [hn] at hf
              simp at hf
          · refine ih b l2 t ?_ ⟨c, ?_, hct⟩ ht l' h
            · rcases e2 with ⟨h0, rfl⟩ | ⟨_, hn, e2⟩
              · exact hf
              · rw [e2, if_neg (Ne.symm hbt)]; exact hf
            · rcases List.mem_cons.1 hc with rfl | hc
              · exact absurd hct hbt
              · exact hc
        · rename_i hr
          exact hr _ h

/-- **Disagreement (F41)** Once positions and tags have been computed by a `finalize_mesh` that then fails (say for a
missing interface), no later `finalize_mesh` of the same mesh can succeed, whatever is added to it: the tags of the first
try are still there. -/
theorem second_finalize_fails {fuel : Nat} {l0 : Layout} {lines : List Line} {c : Line} (hc : c ∈ lines) (ht : c.tag ≠ "")
    (hf : (l0.find c.tag).isSome) (l' : Layout) : placeOn fuel l0 lines ≠ .ok l' := by
  unfold placeOn
  split
  · simp
  · rename_i a as hs
    have hc' : c ∈ a :: as := by rw [← hs]; exact mem_sortLines.2 hc
    split
    · rename_i l1 hl1
      obtain ⟨e1, e2⟩ := addTag_ok hl1
      by_cases hat : a.tag = c.tag
      · rcases e2 with ⟨h0, rfl⟩ | ⟨_, hn, _⟩
        · exact absurd (hat ▸ h0) ht
        · rw [hat] at hn
          change l0.find c.tag = none at hn
          rw [hn] at hf
          simp at hf
      · refine placeLoop_mono as a l1 c.tag ?_ ⟨c, ?_, rfl⟩ ht l'
        · rcases e2 with ⟨h0, rfl⟩ | ⟨_, hn, e2⟩
          · exact hf
          · rw [e2, if_neg (Ne.symm hat)]; exact hf
        · rcases List.mem_cons.1 hc' with rfl | hc'
          · exact absurd rfl hat
          · exact hc'
    · rename_i hr
      exact fun hh => hr _ hh

end Verif.Mesh
