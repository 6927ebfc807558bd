import Verif.Mesh.Points
import Mathlib.Data.List.Sort

/-!
# C32: the positions of a one-dimensional mesh
-/

namespace Verif.Mesh
open Classical

/-! ### Specification -/

/-- No line lies strictly between `a` and `b`. -/
def Neighbours (lines : List Line) (a b : Line) : Prop :=
  a ∈ lines ∧ b ∈ lines ∧ a.pos < b.pos ∧ ∀ c ∈ lines, ¬ (a.pos < c.pos ∧ c.pos < b.pos)

/-- What the positions and tags of a mesh with these lines must be. -/
structure LayoutOK (lines : List Line) (l : Layout) : Prop where
  /-- positions increase strictly -/
  increasing : l.locations.Pairwise (· < ·)
  /-- every line is a position -/
  lines_in : ∀ c ∈ lines, c.pos ∈ l.locations
  /-- the mesh begins and ends at a line -/
  ends : ∃ a b, a ∈ lines ∧ b ∈ lines ∧ l.locations.head? = some a.pos ∧ l.locations.getLast? = some b.pos
  /-- every element lies between two neighbouring lines and obeys their spacings -/
  spacing : ∀ i u v, l.locations[i]? = some u → l.locations[i + 1]? = some v →
    ∃ a b, Neighbours lines a b ∧ GapOK a.pos b.pos a.ps b.ns u v
  /-- the tag of a line is found, at the position of the line -/
  tag_found : ∀ c ∈ lines, c.tag ≠ "" → ∃ k, l.find c.tag = some k ∧ l.locations[k]? = some c.pos
  /-- nothing else is found -/
  tag_line : ∀ t k, l.find t = some k → t ≠ "" ∧ ∃ c ∈ lines, c.tag = t ∧ l.locations[k]? = some c.pos

/-- Spacings as `add_1d_mesh_line` makes them. -/
def Positive (lines : List Line) : Prop := ∀ c ∈ lines, 0 < c.ps ∧ 0 < c.ns

theorem mkLine_positive {pos ps ns : ℝ} {tag : String} {c : Line} (h : mkLine pos ps ns tag = some c) :
    c.pos = pos ∧ c.ps = ps ∧ c.tag = tag ∧ 0 < c.ps ∧ 0 < c.ns ∧ (0 < ns → c.ns = ns) := by
  unfold mkLine at h
  split at h
  · simp at h
  · rename_i hps
    rw [not_le] at hps
    simp only [Option.some.injEq] at h
    subst h
    refine ⟨rfl, rfl, rfl, hps, ?_, ?_⟩
    · dsimp only
      split
      · exact hps
      · rename_i h; exact not_le.1 h
    · intro hn; dsimp only; rw [if_neg (not_le.2 hn)]

/-! ### The loop -/

/-- Two neighbouring positions, relative to the sorted lines. -/
def Q (all : List Line) (u v : ℝ) : Prop := ∃ a b, [a, b] <:+: all ∧ GapOK a.pos b.pos a.ps b.ns u v

/-- The invariant after the lines `done`, the last of which is `a`. -/
structure Inv (all done : List Line) (a : Line) (l : Layout) : Prop where
  chain : l.locations.IsChain (Q all)
  last : l.locations.getLast? = some a.pos
  head : l.locations.head? = done.head?.map Line.pos
  mem : ∀ c ∈ done, c.pos ∈ l.locations
  incr : done.IsChain (fun c d => c.pos < d.pos)
  fwd : ∀ c ∈ done, c.tag ≠ "" → ∃ k, l.find c.tag = some k ∧ l.locations[k]? = some c.pos
  bwd : ∀ t k, l.find t = some k → t ≠ "" ∧ ∃ c ∈ done, c.tag = t ∧ l.locations[k]? = some c.pos

theorem addTag_ok {l l' : Layout} {t : String} {pos : Nat} (h : addTag l t pos = .ok l') :
    l'.locations = l.locations ∧
      ((t = "" ∧ l' = l) ∨ (t ≠ "" ∧ l.find t = none ∧ ∀ s, l'.find s = if s = t then some pos else l.find s)) := by
  unfold addTag at h
  split at h
  · rename_i h0
    cases h
    exact ⟨rfl, .inl ⟨h0, rfl⟩⟩
  · rename_i h0
    split at h
    · simp at h
    · rename_i h1
      cases h
      refine ⟨rfl, .inr ⟨h0, ?_, fun s => ?_⟩⟩
      · by_contra hc
        exact h1 (.inl (Option.isSome_iff_ne_none.2 hc))
      · unfold Layout.find
        dsimp only
        rw [List.lookup_cons]
        by_cases hs : s = t
        · subst hs; simp
        · rw [if_neg hs]
          have : (s == t) = false := by simpa using hs
          rw [this]

theorem getElem?_last {l : List ℝ} {x : ℝ} (h : l.getLast? = some x) : l[l.length - 1]? = some x := by
  rw [List.getLast?_eq_getElem?] at h; exact h

theorem getElem?_append_of_some {l m : List ℝ} {k : Nat} {x : ℝ} (h : l[k]? = some x) : (l ++ m)[k]? = some x := by
  rw [List.getElem?_append_left]
  · exact h
  · obtain ⟨hk, _⟩ := List.getElem?_eq_some_iff.1 h; exact hk

theorem placeLoop_spec {fuel : Nat} {all : List Line} (hpos : Positive all) : ∀ (bs pre : List Line) (a : Line) (l l' : Layout),
    pre ++ a :: bs = all → Inv all (pre ++ [a]) a l → placeLoop fuel a bs l = .ok l' →
    ∃ z, all.getLast? = some z ∧ Inv all all z l' := by
  intro bs
  induction bs with
  | nil =>
    intro pre a l l' hall hi h
    simp only [placeLoop, Res.ok.injEq] at h
    subst h
    subst hall
    exact ⟨a, by simp, hi⟩
  | cons b bs ih =>
    intro pre a l l' hall hi h
    rw [placeLoop] at h
    split at h
    · simp at h
    · rename_i hlt
      rw [not_not] at hlt
      split at h
      · simp at h
      · rename_i pts hp
        have ha : a ∈ all := by rw [← hall]; simp
        have hb : b ∈ all := by rw [← hall]; simp
        have hinf : [a, b] <:+: all := ⟨pre, bs, by rw [← hall]; simp⟩
        obtain ⟨rest, rfl, hch, hlast⟩ := points_spec hlt (hpos a ha).1 (hpos b hb).2 hp
        simp only [List.tail_cons] at h
        have hrest : rest ≠ [] := by
          rintro rfl
          simp only [List.getLast_singleton] at hlast
          linarith
        rw [List.getLast_cons hrest] at hlast
        have hlast2 : (l.locations ++ rest).getLast? = some b.pos := by
          rw [List.getLast?_append, List.getLast?_eq_some_getLast hrest, hlast]; rfl
        split at h
        · rename_i l2 hl2
          obtain ⟨e1, e2⟩ := addTag_ok hl2
          dsimp only at e1
          refine ih (pre ++ [a]) b l2 l' (by rw [← hall]; simp) ?_ h
          refine ⟨?_, ?_, ?_, ?_, ?_, ?_, ?_⟩
          · rw [e1]
            rw [List.isChain_append]
            refine ⟨hi.chain, ?_, ?_⟩
            · exact (List.IsChain.of_cons hch).imp fun u v hg => ⟨a, b, hinf, hg⟩
            · intro x hx y hy
              rw [hi.last] at hx
              simp only [Option.mem_def, Option.some.injEq] at hx
              subst hx
              obtain ⟨y0, rest', rfl⟩ := List.exists_cons_of_ne_nil hrest
              simp only [List.head?_cons, Option.mem_def, Option.some.injEq] at hy
              subst hy
              exact ⟨a, b, hinf, (List.isChain_cons_cons.1 hch).1⟩
          · rw [e1]; exact hlast2
          · rw [e1, List.head?_append, hi.head]
            cases pre <;> simp
          · intro c hc
            rw [e1, List.mem_append]
            rcases List.mem_append.1 hc with hc | hc
            · exact .inl (hi.mem c hc)
            · simp only [List.mem_singleton] at hc
              subst hc
              right
              rw [← hlast]; exact List.getLast_mem _
          · rw [List.isChain_append]
            refine ⟨hi.incr, List.isChain_singleton _, ?_⟩
            intro x hx y hy
            simp at hx hy
            subst hx; subst hy
            exact hlt
          · intro c hc ht
            rw [e1]
            rcases List.mem_append.1 hc with hc | hc
            · obtain ⟨k, hk1, hk2⟩ := hi.fwd c hc ht
              refine ⟨k, ?_, getElem?_append_of_some hk2⟩
              rcases e2 with ⟨_, rfl⟩ | ⟨_, hn, e2⟩
              · exact hk1
              · rw [e2, if_neg]
                · exact hk1
                · intro he
                  rw [← he] at hn
                  change l.find c.tag = none at hn
                  rw [hn] at hk1
                  simp at hk1
            · simp only [List.mem_singleton] at hc
              subst hc
              rcases e2 with ⟨h0, rfl⟩ | ⟨_, hn, e2⟩
              · exact absurd h0 ht
              · exact ⟨_, by rw [e2, if_pos rfl], getElem?_last hlast2⟩
          · intro t k hk
            rw [e1]
            rcases e2 with ⟨_, rfl⟩ | ⟨hb0, hn, e2⟩
            · obtain ⟨h1, c, hc, h2, h3⟩ := hi.bwd t k hk
              exact ⟨h1, c, List.mem_append_left _ hc, h2, getElem?_append_of_some h3⟩
            · rw [e2] at hk
              by_cases ht : t = b.tag
              · rw [if_pos ht] at hk
                cases hk
                exact ⟨by rw [ht]; exact hb0, b, by simp, ht.symm, getElem?_last hlast2⟩
              · rw [if_neg ht] at hk
                obtain ⟨h1, c, hc, h2, h3⟩ := hi.bwd t k hk
                exact ⟨h1, c, List.mem_append_left _ hc, h2, getElem?_append_of_some h3⟩
        · rename_i hr
          exact absurd h (by intro hh; exact hr _ hh)

theorem mem_sortLines {lines : List Line} {c : Line} : c ∈ sortLines lines ↔ c ∈ lines := by
  unfold sortLines
  exact (List.mergeSort_perm _ _).mem_iff

/-- **C32** Every mesh that is placed has the positions and tags it must have. -/
theorem place_spec {fuel : Nat} {lines : List Line} (hpos : Positive lines) {l : Layout} (h : place fuel lines = .ok l) :
    LayoutOK lines l := by
  unfold place placeOn at h
  split at h
  · simp at h
  · rename_i a as hs
    split at h
    · rename_i l1 hl1
      obtain ⟨e1, e2⟩ := addTag_ok hl1
      have hpos' : Positive (a :: as) := fun c hc => hpos c (mem_sortLines.1 (by rw [hs]; exact hc))
      have e1' : l1.locations = [a.pos] := e1
      have hi : Inv (a :: as) ([] ++ [a]) a l1 := by
        refine ⟨by rw [e1']; exact List.isChain_singleton _, by rw [e1']; rfl, by rw [e1']; rfl, ?_, List.isChain_singleton _, ?_, ?_⟩
        · intro c hc
          simp at hc
          subst hc
          rw [e1']; simp
        · intro c hc ht
          simp at hc
          subst hc
          rcases e2 with ⟨h0, rfl⟩ | ⟨_, hn, e2⟩
          · exact absurd h0 ht
          · exact ⟨0, by rw [e2, if_pos rfl], by rw [e1']; rfl⟩
        · intro t k hk
          rcases e2 with ⟨h0, rfl⟩ | ⟨hb0, hn, e2⟩
          · simp [Layout.find] at hk
          · rw [e2] at hk
            by_cases ht : t = a.tag
            · rw [if_pos ht] at hk
              cases hk
              exact ⟨by rw [ht]; exact hb0, a, by simp, ht.symm, by rw [e1']; rfl⟩
            · rw [if_neg ht] at hk
              simp [Layout.find] at hk
      obtain ⟨z, hz, hi2⟩ := placeLoop_spec hpos' as [] a l1 l rfl hi h
      have hm : ∀ c, c ∈ lines ↔ c ∈ a :: as := fun c => by rw [← hs, mem_sortLines]
      refine ⟨?_, ?_, ?_, ?_, ?_, ?_⟩
      · have : l.locations.IsChain (· < ·) := hi2.chain.imp fun u v ⟨_, _, _, hg⟩ => hg.lt
        exact List.isChain_iff_pairwise.1 this
      · exact fun c hc => hi2.mem c ((hm c).1 hc)
      · refine ⟨a, z, (hm a).2 (by simp), (hm z).2 (List.mem_of_getLast? hz), hi2.head, hi2.last⟩
      · intro i u v hu hv
        obtain ⟨hk, hu'⟩ := List.getElem?_eq_some_iff.1 hu
        obtain ⟨hk2, hv'⟩ := List.getElem?_eq_some_iff.1 hv
        have := List.isChain_iff_getElem.1 hi2.chain i hk2
        rw [hu', hv'] at this
        obtain ⟨c, d, ⟨p, q, hpq⟩, hg⟩ := this
        refine ⟨c, d, ⟨(hm c).2 ?_, (hm d).2 ?_, ?_, ?_⟩, hg⟩
        · rw [← hpq]; simp
        · rw [← hpq]; simp
        · exact lt_of_le_of_lt hg.low (lt_of_lt_of_le hg.lt hg.high)
        · have hpw : (a :: as).Pairwise (fun c d => c.pos < d.pos) := by
            have : IsTrans Line (fun c d : Line => c.pos < d.pos) := ⟨fun _ _ _ h1 h2 => lt_trans h1 h2⟩
            exact List.isChain_iff_pairwise.1 hi2.incr
          intro e he
          have he' := (hm e).1 he
          rw [← hpq] at he' hpw
          rw [List.append_assoc, List.pairwise_append] at hpw
          obtain ⟨_, hw2, hw3⟩ := hpw
          simp only [List.append_assoc, List.mem_append, List.mem_cons, List.not_mem_nil, or_false] at he'
          rintro ⟨g1, g2⟩
          simp only [List.cons_append, List.nil_append, List.pairwise_cons] at hw2
          rcases he' with he' | (he' | he') | he'
          · have := hw3 e he' c (by simp); linarith
          · subst he'; linarith
          · subst he'; linarith
          · have := hw2.2.1 e he'; linarith
      · exact fun c hc => hi2.fwd c ((hm c).1 hc)
      · intro t k hk
        obtain ⟨h1, c, hc, h2⟩ := hi2.bwd t k hk
        exact ⟨h1, c, (hm c).2 hc, h2⟩
    · rename_i hr
      exact absurd h (by intro hh; exact hr _ hh)

end Verif.Mesh
