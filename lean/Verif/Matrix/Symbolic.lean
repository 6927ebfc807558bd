import Verif.Matrix.Props
/- The converse of C36 (the status "same symbolic" is reported when the same positions are filled again), and the product for
complex matrices (C24). -/
namespace Verif.Matrix
open Spec

variable {R : Type} [AddZeroClass R] [DecidableEq R]

/-- the call puts a non-zero value at row `r`, column `c` -/
def Fills (r c : Nat) : Op R → Prop
  | .add _ r' c' v => r' = r ∧ c' = c ∧ v ≠ 0
  | .addComplex r' c' a b => r' = r ∧ c' = c ∧ (a ≠ 0 ∨ b ≠ 0)
  | _ => False

/-- the position is in the pattern, in the orientation of the storage -/
def Pat (s : Mat R) (r c : Nat) : Prop := if s.crm then HasPat s c r else HasPat s r c

theorem add_Pat {s s' : Mat R} {im : Bool} {r c : Nat} {v : R} (hcrm : s'.crm = s.crm) (h : add s im r c v = some s') :
    (v ≠ 0 → Pat s' r c) ∧ ∀ r' c', Pat s r' c' → Pat s' r' c' := by
  unfold add at h
  unfold Pat
  rw [hcrm]
  by_cases hc : s.crm = true
  · simp only [if_pos hc] at h ⊢
    obtain ⟨p1, p2⟩ := addImpl_pat h
    exact ⟨p1, fun r' c' => p2 _ _⟩
  · simp only [if_neg hc] at h ⊢
    obtain ⟨p1, p2⟩ := addImpl_pat h
    exact ⟨p1, fun r' c' => p2 _ _⟩

theorem step_Pat (s : Mat R) (hs : Inv s) (hroom : Room s) (o : Op R) (hin : InRange s.n s.cpx o) (hnc : ¬ IsClear o) {s' : Mat R}
    (h : step s o = some s') : (∀ r c, Pat s r c → Pat s' r c) ∧ (∀ r c, Fills r c o → Pat s' r c) := by
  cases o with
  | add im r c v =>
    obtain ⟨t, e, _, _, sm, _⟩ := add_spec s hs hroom im v hin.1 hin.2.1 hin.2.2
    have : t = s' := by rw [step, e] at h; simpa using h
    subst this
    obtain ⟨p1, p2⟩ := add_Pat sm.crm h
    refine ⟨p2, ?_⟩
    rintro r' c' ⟨rfl, rfl, hv⟩
    exact p1 hv
  | addComplex r c a b =>
    simp only [step, addComplex] at h
    split at h
    · simp at h
    · rename_i s1 h1
      have q1 : (a ≠ 0 → Pat s1 r c) ∧ (∀ r c, Pat s r c → Pat s1 r c) ∧ Same s s1 ∧ Inv s1 ∧ Room s1 := by
        split at h1
        · rename_i ha
          simp only [Option.some.injEq] at h1
          subst h1
          exact ⟨fun h => absurd ha h, fun _ _ h => h, .refl _, hs, hroom⟩
        · obtain ⟨t, e, i1, r1, sm, _⟩ := add_spec s hs hroom false a hin.1 hin.2.1 (by simp)
          have : t = s1 := by rw [e] at h1; simpa using h1
          subst this
          obtain ⟨p1, p2⟩ := add_Pat sm.crm h1
          exact ⟨p1, p2, sm, i1, r1⟩
      have q2 : (b ≠ 0 → Pat s' r c) ∧ ∀ r c, Pat s1 r c → Pat s' r c := by
        split at h
        · rename_i hb
          simp only [Option.some.injEq] at h
          subst h
          exact ⟨fun h => absurd hb h, fun _ _ h => h⟩
        · obtain ⟨t, e, _, _, sm, _⟩ := add_spec s1 q1.2.2.2.1 q1.2.2.2.2 true b (by rw [q1.2.2.1.n]; exact hin.1)
            (by rw [q1.2.2.1.n]; exact hin.2.1) (fun _ => by rw [q1.2.2.1.cpx]; exact hin.2.2)
          have : t = s' := by rw [e] at h; simpa using h
          subst this
          exact add_Pat sm.crm h
      refine ⟨fun r c hl => q2.2 r c (q1.2.1 r c hl), ?_⟩
      rintro r' c' ⟨rfl, rfl, hv⟩
      rcases hv with hv | hv
      · exact q2.2 _ _ (q1.1 hv)
      · exact q2.1 hv
  | finalize =>
    obtain ⟨t, e, _, _, sm, _, _, k⟩ := finalize_spec s hs hroom
    simp only [step] at h
    rw [e] at h
    simp only [Option.some.injEq] at h
    subst h
    refine ⟨?_, fun r c hl => absurd hl id⟩
    intro r c hp
    unfold Pat at hp ⊢
    rw [sm.crm]
    by_cases hc : s.crm = true
    · rw [if_pos hc] at hp ⊢; exact k _ _ hp
    · rw [if_neg hc] at hp ⊢; exact k _ _ hp
  | clear => exact absurd trivial hnc

theorem run_Pat (s : Mat R) (hs : Inv s) (hroom : Room s) (ops : List (Op R)) (hin : ∀ o ∈ ops, InRange s.n s.cpx o)
    (hnc : ∀ o ∈ ops, ¬ IsClear o) {s' : Mat R} (h : run s ops = some s') :
    (∀ r c, Pat s r c → Pat s' r c) ∧ ∀ o ∈ ops, ∀ r c, Fills r c o → Pat s' r c := by
  induction ops generalizing s with
  | nil => simp only [run, Option.some.injEq] at h; subst h; exact ⟨fun _ _ h => h, fun o ho => by simp at ho⟩
  | cons o ops ih =>
    obtain ⟨t, e, it, rt, st, _⟩ := run_spec s hs hroom [o] (fun o' ho' => hin o' (by simp at ho'; simp [ho'])) (by
      intro pre post t h
      cases pre with
      | nil => simp at h; exact absurd (h.1 ▸ trivial) (hnc o List.mem_cons_self)
      | cons a pre => simp at h)
    have e' : step s o = some t := by
      simp only [run] at e
      cases hst : step s o with
      | none => rw [hst] at e; simp at e
      | some u => rw [hst] at e; simpa using e
    simp only [run, e'] at h
    obtain ⟨p1, p2⟩ := step_Pat s hs hroom o (hin o List.mem_cons_self) (hnc o List.mem_cons_self) e'
    obtain ⟨q1, q2⟩ := ih t it rt (fun o' h' => by rw [st.n, st.cpx]; exact hin o' (List.mem_cons_of_mem _ h'))
      (fun o' h' => hnc o' (List.mem_cons_of_mem _ h')) h
    refine ⟨fun r c hp => q1 _ _ (p1 _ _ hp), ?_⟩
    intro o' ho' r c hf
    rcases List.mem_cons.1 ho' with rfl | h'
    · exact q1 _ _ (p2 _ _ hf)
    · exact q2 o' h' r c hf

/-- an insertion inside the pattern of a compressed matrix leaves it compressed, with the same pattern -/
theorem addImpl_inside {s s' : Mat R} {im : Bool} {r c : Nat} {v : R} (hc : s.compressed = true) (hp : v ≠ 0 → HasPat s r c)
    (h : addImpl s im r c v = some s') : s'.compressed = true ∧ s'.sym = s.sym ∧ s'.crm = s.crm := by
  unfold addImpl at h
  split at h
  · simp only [Option.some.injEq] at h; subst h; exact ⟨hc, rfl, rfl⟩
  · rename_i hv
    obtain ⟨m, hm, hr⟩ := hp hv
    rw [hm] at h
    dsimp only at h
    split at h
    · split at h
      · simp at h
      · simp only [Option.some.injEq] at h; subst h; exact ⟨hc, rfl, rfl⟩
    · rename_i hn
      simp [FMap.has, hn] at hr

theorem add_inside {s s' : Mat R} {im : Bool} {r c : Nat} {v : R} (hc : s.compressed = true) (hp : v ≠ 0 → Pat s r c)
    (h : add s im r c v = some s') : s'.compressed = true ∧ s'.sym = s.sym ∧ s'.crm = s.crm := by
  unfold add at h
  unfold Pat at hp
  by_cases hcr : s.crm = true
  · simp only [if_pos hcr] at h hp; exact addImpl_inside hc hp h
  · simp only [if_neg hcr] at h hp; exact addImpl_inside hc hp h

theorem Pat_congr {s s' : Mat R} (h1 : s'.sym = s.sym) (h2 : s'.crm = s.crm) (r c : Nat) : Pat s' r c ↔ Pat s r c := by
  unfold Pat HasPat; rw [h1, h2]

theorem run_inside {s s' : Mat R} {ops : List (Op R)} (hc : s.compressed = true) (hadd : ∀ o ∈ ops, IsAdd o)
    (hp : ∀ o ∈ ops, ∀ r c, Fills r c o → Pat s r c) (h : run s ops = some s') : s'.compressed = true := by
  induction ops generalizing s with
  | nil => simp only [run, Option.some.injEq] at h; subst h; exact hc
  | cons o ops ih =>
    simp only [run] at h
    split at h
    · simp at h
    · rename_i t ht
      have key : t.compressed = true ∧ t.sym = s.sym ∧ t.crm = s.crm := by
        have hf := hp o List.mem_cons_self
        cases o with
        | add im r c v => exact add_inside hc (fun hv => hf r c ⟨rfl, rfl, hv⟩) ht
        | addComplex r c a b =>
          simp only [step, addComplex] at ht
          split at ht
          · simp at ht
          · rename_i s1 h1
            have q1 : s1.compressed = true ∧ s1.sym = s.sym ∧ s1.crm = s.crm := by
              split at h1
              · simp only [Option.some.injEq] at h1; subst h1; exact ⟨hc, rfl, rfl⟩
              · exact add_inside hc (fun hv => hf r c ⟨rfl, rfl, .inl hv⟩) h1
            split at ht
            · simp only [Option.some.injEq] at ht; subst ht; exact q1
            · obtain ⟨a1, a2, a3⟩ := add_inside q1.1
                (fun hv => (Pat_congr q1.2.1 q1.2.2 r c).2 (hf r c ⟨rfl, rfl, .inr hv⟩)) ht
              exact ⟨a1, a2.trans q1.2.1, a3.trans q1.2.2⟩
        | finalize => exact absurd (hadd _ List.mem_cons_self) id
        | clear => exact absurd (hadd _ List.mem_cons_self) id
      exact ih key.1 (fun o' h' => hadd o' (List.mem_cons_of_mem _ h'))
        (fun o' h' r c hf => (Pat_congr key.2.1 key.2.2 r c).2 (hp o' (List.mem_cons_of_mem _ h') r c hf)) h

/-- **C36**, the other direction: a matrix is assembled and finalized, cleared, and assembled again with insertions that put
non-zero values only at positions that were filled before. Then the second finalization reports the status "same symbolic", so
the solver does not repeat the symbolic factorization. -/
theorem same_positions_same_symbolic (n : Nat) (cpx crm : Bool) (first again : List (Op R))
    (hin : ∀ o ∈ first, InRange n cpx o) (hnc : ∀ o ∈ first, ¬ IsClear o) (hadd : ∀ o ∈ again, IsAdd o)
    (hpos : ∀ o ∈ again, ∀ r c, Fills r c o → ∃ o' ∈ first, Fills r c o') {s : Mat R}
    (h : run (new n cpx crm : Mat R) (first ++ [.finalize, .clear] ++ again ++ [.finalize]) = some s) : s.sameSym = true := by
  obtain ⟨hi, hr, h0⟩ := new_inv (R := R) n cpx crm
  obtain ⟨t, e1, i1, r1, sm1, _⟩ := run_spec _ hi hr first hin (by
    intro pre post u h
    exact absurd trivial (hnc .clear (by rw [h]; simp)))
  obtain ⟨u, e2, i2, r2, sm2, c2, _, k2⟩ := finalize_spec t i1 r1
  obtain ⟨_, p1⟩ := run_Pat _ hi hr first hin hnc e1
  have hp : ∀ o ∈ again, ∀ r c, Fills r c o → Pat (clear u) r c := by
    intro o ho r c hf
    obtain ⟨o', ho', hf'⟩ := hpos o ho r c hf
    have := p1 o' ho' r c hf'
    have hu : Pat u r c := by
      unfold Pat at this ⊢
      rw [sm2.crm]
      by_cases hcr : t.crm = true
      · rw [if_pos hcr] at this ⊢; exact k2 _ _ this
      · rw [if_neg hcr] at this ⊢; exact k2 _ _ this
    exact hu
  rw [run_append, run_append, run_append, e1] at h
  simp only [Option.bind_some, run, step, e2] at h
  cases hrun : run (clear u) again with
  | none => rw [hrun] at h; simp at h
  | some w =>
    rw [hrun] at h
    simp only [Option.bind_some] at h
    have hc : w.compressed = true := run_inside (s := clear u) c2 hadd hp hrun
    unfold finalize at h
    rw [if_pos hc] at h
    simp only [Option.some.injEq] at h
    rw [← h]

/-- the hypotheses are met by a complex matrix in row storage that is filled twice -/
example : ∃ s, run (new 2 true true : Mat Int)
    ([.addComplex 0 0 1 0, .addComplex 1 1 0 3, .add false 1 0 2] ++ [.finalize, .clear] ++ [.addComplex 1 1 5 6, .add true 1 0 9] ++
      [.finalize]) = some s ∧ s.sameSym = true := by
  refine ⟨_, rfl, ?_⟩; decide

/-- **C24** for complex matrices: `GetComplex` and `Multiply` after any assembly give the product of the assembled complex matrix
with the vector; `mk re im` builds a complex number. -/
theorem multiply_assembled_complex {R T : Type} [AddZeroClass R] [DecidableEq R] [CommSemiring T] (mk : R → R → T) (hmk : mk 0 0 = 0)
    (n : Nat) (crm : Bool) (ops : List (Op R)) (hin : ∀ o ∈ ops, InRange n true o) (hnc : ∀ o ∈ ops, ¬ IsClear o) (x : List T)
    (hx : x.length = n) :
    ∃ s y, run (new n true crm : Mat R) (ops ++ [.finalize]) = some s ∧ multiply s (getComplex mk s) x = some y ∧ y.length = n ∧
      ∀ r, r < n → (y[r]?).getD 0 =
        ∑ c ∈ Finset.range n, mk (value false r c 0 ops) (value true r c 0 ops) * (x[c]?).getD 0 := by
  obtain ⟨s, e, hc, hrep⟩ := assembled_sum n true crm ops hin hnc
  have hsame : s.n = n ∧ s.crm = crm := by
    obtain ⟨hi, hr, h0⟩ := new_inv (R := R) n true crm
    obtain ⟨t, e1, i1, r1, sm1, k1⟩ := run_spec _ hi hr (ops ++ [.finalize]) (by
      intro o ho
      rcases List.mem_append.1 ho with h | h
      · exact hin o h
      · simp only [List.mem_singleton] at h; subst h; trivial) (by
      intro pre post u h
      have hm : (Op.clear : Op R) ∈ ops ++ [.finalize] := by rw [h]; simp
      rcases List.mem_append.1 hm with h' | h'
      · exact absurd trivial (hnc _ h')
      · simp at h')
    rw [e] at e1
    simp only [Option.some.injEq] at e1
    subst e1
    exact ⟨sm1.n, sm1.crm⟩
  have hrep0 := represents_complex mk hmk (hrep false (by simp)) (hrep true (by simp))
  have hb : (fun l k => mk (byLine crm (fun r c => value false r c 0 ops) l k) (byLine crm (fun r c => value true r c 0 ops) l k)) =
      byLine crm (fun r c => mk (value false r c 0 ops) (value true r c 0 ops)) := by
    funext l k
    unfold byLine
    cases crm <;> rfl
  rw [hb] at hrep0
  obtain ⟨y, e2, l2, q2⟩ := multiply_correct s (getComplex mk s) (fun r c => mk (value false r c 0 ops) (value true r c 0 ops)) hc
    (by rw [hsame.1, hsame.2]; exact hrep0) x (by rw [hsame.1]; exact hx)
  rw [hsame.1] at l2 q2
  exact ⟨s, y, e, e2, l2, q2⟩

/-- the product of diag(2 + 3i, 0) with (1, 1): the number `a + bi` is the pair of its coefficients in `Int[√-1]`, here `a + 10 b` -/
example : ∃ s y, run (new 2 true true : Mat Int) ([.addComplex 0 0 2 3] ++ [.finalize]) = some s ∧
    multiply s (getComplex (fun a b => a + 10 * b) s) [1, 1] = some y ∧ y = [32, 0] := by
  refine ⟨_, _, rfl, rfl, ?_⟩; decide

end Verif.Matrix
