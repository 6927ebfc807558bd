import Verif.Matrix.Steps
import Mathlib.Algebra.BigOperators.Ring.Finset
import Mathlib.Algebra.BigOperators.Intervals
import Mathlib.Order.Interval.Finset.Nat
namespace Verif.Matrix
open Verif Spec

variable {R : Type} [AddZeroClass R] [DecidableEq R]

theorem run_append (s : Mat R) (a b : List (Op R)) : run s (a ++ b) = (run s a).bind (fun t => run t b) := by
  induction a generalizing s with
  | nil => rfl
  | cons o a ih =>
    simp only [List.cons_append, run]
    cases step s o with
    | none => rfl
    | some t => exact ih t

/-- every clearing happens when the matrix is compressed and stores at least as many entries as it has rows -/
def ClearsOk (s : Mat R) (ops : List (Op R)) : Prop :=
  ∀ pre post t, ops = pre ++ .clear :: post → run s pre = some t → t.compressed = true ∧ t.n ≤ t.ai.length

theorem run_spec (s : Mat R) (hs : Inv s) (hroom : Room s) (ops : List (Op R)) (hin : ∀ o ∈ ops, InRange s.n s.cpx o)
    (hcl : ClearsOk s ops) :
    ∃ s', run s ops = some s' ∧ Inv s' ∧ Room s' ∧ Same s s' ∧
      ∀ q, (q = true → s.cpx = true) → ∀ r c, entry s' q r c = value q r c (entry s q r c) ops := by
  induction ops generalizing s with
  | nil => exact ⟨s, rfl, hs, hroom, .refl _, fun _ _ _ _ => rfl⟩
  | cons o ops ih =>
    have ho := hin o List.mem_cons_self
    have h1 : ∃ t, step s o = some t ∧ Inv t ∧ Room t ∧ Same s t ∧
        ∀ q, (q = true → s.cpx = true) → ∀ r c, value q r c (entry t q r c) ops = value q r c (entry s q r c) (o :: ops) := by
      cases o with
      | add im r c v =>
        obtain ⟨t, e, i, rm, sm, k⟩ := add_spec s hs hroom im v ho.1 ho.2.1 ho.2.2
        exact ⟨t, e, i, rm, sm, fun q hq r' c' => by rw [k q hq]; rfl⟩
      | addComplex r c a b =>
        obtain ⟨t, e, i, rm, sm, k⟩ := addComplex_spec s hs hroom a b ho.1 ho.2.1 ho.2.2
        exact ⟨t, e, i, rm, sm, fun q hq r' c' => by rw [k q]; rfl⟩
      | finalize =>
        obtain ⟨t, e, i, rm, sm, _, k, _⟩ := finalize_spec s hs hroom
        exact ⟨t, e, i, rm, sm, fun q hq r' c' => by rw [k q hq]; rfl⟩
      | clear =>
        obtain ⟨hc, hn⟩ := hcl [] ops s rfl rfl
        have hC : COk s := by
          rcases hs.st with h | h
          · exact h
          · exact absurd (h.unc ▸ hc) (by simp)
        obtain ⟨c1, sm, _, _, _, _, re, ol, k⟩ := clear_spec s hC hs.real
        refine ⟨clear s, rfl, ⟨.inl c1, re⟩, ?_, sm, fun q hq r c => by rw [k q hq]; rfl⟩
        intro im him
        rw [ol im (by rw [← sm.cpx]; exact him), sm.n]
        exact hn
    obtain ⟨t, e, i, rm, sm, k⟩ := h1
    obtain ⟨s', e2, i2, rm2, sm2, k2⟩ := ih t i rm (fun o' h' => by rw [sm.n, sm.cpx]; exact hin o' (List.mem_cons_of_mem _ h')) (by
      intro pre post u hp hu
      refine hcl (o :: pre) post u (by rw [hp]; rfl) ?_
      simp only [run, e]
      exact hu)
    refine ⟨s', by simp only [run, e]; exact e2, i2, rm2, sm.trans sm2, ?_⟩
    intro q hq r c
    rw [k2 q (by rw [sm.cpx]; exact hq), k q hq]

/-- the matrix the user assembled, by line and index of the storage order -/
def byLine (crm : Bool) (A : Nat → Nat → R) : Nat → Nat → R := fun l k => if crm then A l k else A k l

theorem represents_entry (s : Mat R) (hs : COk s) (im : Bool) (him : im = true → s.cpx = true) :
    Represents s.n s.ap s.ai (s.x im) (byLine s.crm (entry s im)) := by
  have h := represents s hs im him
  have : byLine s.crm (entry s im) = fun l k => cell s im k l := by
    funext l k
    unfold byLine entry
    by_cases hc : s.crm = true
    · rw [if_pos hc, if_pos hc]
    · rw [if_neg hc, if_neg hc]
  rw [this]
  exact h

/-- **C23 (and C22)**: any history of insertions, finalizations and clearings, if clearing is done as the code requires (see
`ClearsOk`), followed by a finalization: nothing outside the arrays is accessed and the compressed arrays represent the matrix of
the specification: the sums of the insertions since the last clearing. -/
theorem assemble_history (n : Nat) (cpx crm : Bool) (ops : List (Op R)) (hin : ∀ o ∈ ops, InRange n cpx o)
    (hcl : ClearsOk (new n cpx crm : Mat R) ops) :
    ∃ s, run (new n cpx crm : Mat R) (ops ++ [.finalize]) = some s ∧ s.compressed = true ∧
      ∀ im, (im = true → cpx = true) →
        Represents n s.ap s.ai (s.x im) (byLine crm (fun r c => value im r c 0 ops)) := by
  obtain ⟨hi, hr, h0⟩ := new_inv (R := R) n cpx crm
  obtain ⟨t, e1, i1, r1, sm1, k1⟩ := run_spec _ hi hr ops hin hcl
  obtain ⟨s, e2, i2, r2, sm2, c2, k2, _⟩ := finalize_spec t i1 r1
  refine ⟨s, ?_, c2, ?_⟩
  · rw [run_append, e1]
    simp only [Option.bind_some, run, step, e2]
  · intro im him
    have hC : COk s := by
      rcases i2.st with h | h
      · exact h
      · exact absurd (h.unc ▸ c2) (by simp)
    have sm := sm1.trans sm2
    have hn : s.n = n := sm.n
    have hx : s.cpx = cpx := sm.cpx
    have hm : s.crm = crm := sm.crm
    have := represents_entry s hC im (by rw [hx]; exact him)
    rw [hn, hm] at this
    have heq : entry s im = fun r c => value im r c 0 ops := by
      funext r c
      rw [k2 im (by rw [sm1.cpx]; exact him), k1 im him, h0]
    rw [heq] at this
    exact this

/-- **C22**: any sequence of insertions and finalizations, in any order, then a finalization. -/
theorem assembled_sum (n : Nat) (cpx crm : Bool) (ops : List (Op R)) (hin : ∀ o ∈ ops, InRange n cpx o) (hnc : ∀ o ∈ ops, ¬ IsClear o) :
    ∃ s, run (new n cpx crm : Mat R) (ops ++ [.finalize]) = some s ∧ s.compressed = true ∧
      ∀ im, (im = true → cpx = true) →
        Represents n s.ap s.ai (s.x im) (byLine crm (fun r c => value im r c 0 ops)) := by
  refine assemble_history n cpx crm ops hin ?_
  intro pre post t h
  exact absurd trivial (hnc .clear (by rw [h]; simp))

/-- the hypotheses of `assembled_sum` are met by an insertion after compression outside of the pattern, in a complex matrix -/
example : ∃ s, run (new 3 true false : Mat Int)
    ([.add false 0 0 2, .finalize, .add true 2 1 5, .add false 0 0 3, .addComplex 2 1 0 1] ++ [.finalize]) = some s ∧
    s.ap = [0, 1, 2, 2] ∧ s.ai = [0, 2] ∧ s.x false = [5, 0] ∧ s.x true = [0, 6] := by
  refine ⟨_, rfl, ?_⟩
  decide

example : ∀ o ∈ ([.add false 0 0 2, .finalize, .add true 2 1 5, .add false 0 0 3, .addComplex 2 1 0 1] : List (Op Int)),
    InRange 3 true o ∧ ¬ IsClear o := by
  intro o ho
  simp only [List.mem_cons, List.not_mem_nil, or_false] at ho
  rcases ho with rfl | rfl | rfl | rfl | rfl <;> simp [InRange, IsClear]

/-! ### rounds of assembly -/

def IsAdd : Op R → Prop
  | .add _ _ _ _ => True
  | .addComplex _ _ _ _ => True
  | _ => False

/-- the call contributes a non-zero value to line `l` (column `l` when columns are compressed, row `l` otherwise) -/
def Touches (crm : Bool) (l : Nat) : Op R → Prop
  | .add _ r c v => (if crm then r else c) = l ∧ v ≠ 0
  | .addComplex r c a b => (if crm then r else c) = l ∧ (a ≠ 0 ∨ b ≠ 0)
  | _ => False

/-- line `l` of the pattern is not empty -/
def LinePat (s : Mat R) (l : Nat) : Prop := ∃ k, HasPat s k l

theorem add_pat {s s' : Mat R} {im : Bool} {r c : Nat} {v : R} (h : add s im r c v = some s') :
    (v ≠ 0 → LinePat s' (if s.crm then r else c)) ∧ ∀ l, LinePat s l → LinePat s' l := by
  unfold add at h
  split at h
  · rename_i hc
    obtain ⟨p1, p2⟩ := addImpl_pat h
    exact ⟨fun hv => ⟨c, by rw [if_pos hc]; exact p1 hv⟩, fun l ⟨k, hk⟩ => ⟨k, p2 _ _ hk⟩⟩
  · rename_i hc
    obtain ⟨p1, p2⟩ := addImpl_pat h
    exact ⟨fun hv => ⟨r, by rw [if_neg hc]; exact p1 hv⟩, fun l ⟨k, hk⟩ => ⟨k, p2 _ _ hk⟩⟩

theorem step_pat (s : Mat R) (hs : Inv s) (hroom : Room s) (o : Op R) (hin : InRange s.n s.cpx o) (hnc : ¬ IsClear o) {s' : Mat R}
    (h : step s o = some s') : (∀ l, LinePat s l → LinePat s' l) ∧ (∀ l, Touches s.crm l o → LinePat s' l) := by
  cases o with
  | add im r c v =>
    obtain ⟨p1, p2⟩ := add_pat h
    refine ⟨p2, ?_⟩
    rintro l ⟨rfl, hv⟩
    exact p1 hv
  | addComplex r c a b =>
    simp only [step, addComplex] at h
    split at h
    · simp at h
    · rename_i s1 h1
      have q1 : (a ≠ 0 → LinePat s1 (if s.crm then r else c)) ∧ (∀ l, LinePat s l → LinePat s1 l) ∧ s1.crm = s.crm := by
        split at h1
        · rename_i ha
          simp only [Option.some.injEq] at h1
          subst h1
          exact ⟨fun h => absurd ha h, fun _ h => h, rfl⟩
        · obtain ⟨p1, p2⟩ := add_pat h1
          obtain ⟨t, e, _, _, sm, _⟩ := add_spec s hs hroom false a hin.1 hin.2.1 (by simp)
          rw [e] at h1
          simp only [Option.some.injEq] at h1
          subst h1
          exact ⟨p1, p2, sm.crm⟩
      have q2 : (b ≠ 0 → LinePat s' (if s.crm then r else c)) ∧ ∀ l, LinePat s1 l → LinePat s' l := by
        split at h
        · rename_i hb
          simp only [Option.some.injEq] at h
          subst h
          exact ⟨fun h => absurd hb h, fun _ h => h⟩
        · obtain ⟨p1, p2⟩ := add_pat h
          rw [q1.2.2] at p1
          exact ⟨p1, p2⟩
      refine ⟨fun l hl => q2.2 l (q1.2.1 l hl), ?_⟩
      rintro l ⟨rfl, hv⟩
      rcases hv with hv | hv
      · exact q2.2 _ (q1.1 hv)
      · exact q2.1 hv
  | finalize =>
    obtain ⟨t, e, _, _, _, _, _, k⟩ := finalize_spec s hs hroom
    simp only [step] at h
    rw [e] at h
    simp only [Option.some.injEq] at h
    subst h
    exact ⟨fun l ⟨k', hk⟩ => ⟨k', k _ _ hk⟩, fun l hl => absurd hl id⟩
  | clear => exact absurd trivial hnc

theorem flatten_length_ge (rows : List (List Nat)) (h : ∀ l ∈ rows, l ≠ []) : rows.length ≤ rows.flatten.length := by
  induction rows with
  | nil => simp
  | cons a ls ih =>
    have h1 := ih (fun l hl => h l (List.mem_cons_of_mem _ hl))
    have h2 : 0 < a.length := List.length_pos_iff.2 (h a List.mem_cons_self)
    rw [List.flatten_cons, List.length_append, List.length_cons]
    omega

/-- a compressed matrix whose every line has an entry stores at least `n` entries -/
theorem nnz_ge (s : Mat R) (hs : COk s) (h : ∀ l, l < s.n → LinePat s l) : s.n ≤ s.ai.length := by
  obtain ⟨rows, hl⟩ := hs.lay
  have : ∀ l : Nat, l < rows.length → rows[l]? ≠ some [] := by
    intro l hlt
    obtain ⟨k, hk⟩ := h l (by rw [← hl.len]; exact hlt)
    rw [hs.sym.hasPat_iff hl] at hk
    have gen : ∀ (rows : List (List Nat)) (c0 : Nat) (l : Nat), (k, c0 + l) ∈ entries c0 rows → rows[l]? ≠ some [] := by
      intro rows
      induction rows with
      | nil => intro c0 l h; simp [entries] at h
      | cons a ls ih =>
        intro c0 l h
        simp only [entries, List.mem_append, List.mem_map, Prod.mk.injEq] at h
        cases l with
        | zero =>
          rcases h with ⟨x, hx, _⟩ | h
          · simp only [List.getElem?_cons_zero, ne_eq, Option.some.injEq]
            rintro rfl
            simp at hx
          · have := mem_entries h
            simp at this
        | succ l =>
          rcases h with ⟨x, hx, h2, h3⟩ | h
          · omega
          · have := ih (c0 + 1) l (by rw [show c0 + 1 + l = c0 + (l + 1) by omega]; exact h)
            simpa using this
    exact gen rows 0 l (by rw [Nat.zero_add]; exact hk)
  rw [hl.ai, ← hl.len]
  refine flatten_length_ge rows ?_
  intro l hl'
  obtain ⟨i, hi⟩ := List.mem_iff_getElem?.1 hl'
  rintro rfl
  exact this i (List.getElem?_eq_some_iff.1 hi).1 hi

/-- the calls made for assembling the rounds `rounds` one after the other, finalizing and clearing after each -/
def roundOps : List (List (Op R)) → List (Op R)
  | [] => []
  | a :: as => a ++ [.finalize, .clear] ++ roundOps as

theorem run_adds (s : Mat R) (hs : Inv s) (hroom : Room s) (ops : List (Op R)) (hin : ∀ o ∈ ops, InRange s.n s.cpx o)
    (hadd : ∀ o ∈ ops, ¬ IsClear o) :
    ∃ s', run s ops = some s' ∧ Inv s' ∧ Room s' ∧ Same s s' ∧ (∀ l, LinePat s l → LinePat s' l) ∧
      (∀ l, (∃ o ∈ ops, Touches s.crm l o) → LinePat s' l) := by
  induction ops generalizing s with
  | nil => exact ⟨s, rfl, hs, hroom, .refl _, fun _ h => h, fun l ⟨o, ho, _⟩ => by simp at ho⟩
  | cons o ops ih =>
    obtain ⟨t, e, it, rt, st, _⟩ := run_spec s hs hroom [o] (fun o' ho' => hin o' (by simp at ho'; simp [ho'])) (by
      intro pre post t h
      cases pre with
      | nil => simp at h; exact absurd (h.1 ▸ trivial) (hadd o List.mem_cons_self)
      | cons a pre => simp at h)
    have e' : step s o = some t := by
      simp only [run] at e
      cases hst : step s o with
      | none => rw [hst] at e; simp at e
      | some u => rw [hst] at e; simpa using e
    obtain ⟨p1, p2⟩ := step_pat s hs hroom o (hin o List.mem_cons_self) (hadd o List.mem_cons_self) e'
    obtain ⟨s', e2, i2, r2, sm2, q1, q2⟩ := ih t it rt (fun o' h' => by rw [st.n, st.cpx]; exact hin o' (List.mem_cons_of_mem _ h'))
      (fun o' h' => hadd o' (List.mem_cons_of_mem _ h'))
    refine ⟨s', by simp only [run, e']; exact e2, i2, r2, st.trans sm2, fun l hl => q1 l (p1 l hl), ?_⟩
    rintro l ⟨o', ho', ht⟩
    rcases List.mem_cons.1 ho' with rfl | h'
    · exact q1 l (p2 l ht)
    · exact q2 l ⟨o', h', by rw [st.crm]; exact ht⟩

theorem rounds_ok (s : Mat R) (hs : Inv s) (hroom : Room s) (rounds : List (List (Op R)))
    (hin : ∀ a ∈ rounds, ∀ o ∈ a, InRange s.n s.cpx o ∧ IsAdd o)
    (hfull : ∀ l, l < s.n → LinePat s l ∨ ∀ a as, rounds = a :: as → ∃ o ∈ a, Touches s.crm l o) :
    ∃ s', run s (roundOps rounds) = some s' ∧ Inv s' ∧ Room s' ∧ Same s s' ∧
      (rounds ≠ [] → ∀ q, (q = true → s.cpx = true) → ∀ r c, entry s' q r c = 0) := by
  induction rounds generalizing s with
  | nil => exact ⟨s, rfl, hs, hroom, .refl _, fun h => absurd rfl h⟩
  | cons a as ih =>
    have hnc : ∀ o ∈ a, ¬ IsClear o := by
      intro o ho h
      have := (hin a List.mem_cons_self o ho).2
      cases o <;> simp [IsClear, IsAdd] at h this
    obtain ⟨s1, e1, i1, r1, sm1, p1, q1⟩ := run_adds s hs hroom a (fun o ho => (hin a List.mem_cons_self o ho).1) hnc
    obtain ⟨s2, e2, i2, r2, sm2, c2, _, k2⟩ := finalize_spec s1 i1 r1
    have hC : COk s2 := by
      rcases i2.st with h | h
      · exact h
      · exact absurd (h.unc ▸ c2) (by simp)
    have sm := sm1.trans sm2
    have hall : ∀ l, l < s2.n → LinePat s2 l := by
      intro l hl
      rw [sm.n] at hl
      have h1 : LinePat s1 l := by
        rcases hfull l hl with h | h
        · exact p1 l h
        · exact q1 l (h a as rfl)
      obtain ⟨k, hk⟩ := h1
      exact ⟨k, k2 _ _ hk⟩
    have hn := nnz_ge s2 hC hall
    obtain ⟨c3, sm3, _, _, _, hsym, re3, ol3, z3⟩ := clear_spec s2 hC i2.real
    have hroom3 : Room (clear s2) := by
      intro im him
      rw [ol3 im (by rw [← sm3.cpx]; exact him), sm3.n]
      exact hn
    have smAll := sm.trans sm3
    obtain ⟨s', e', i', r', sm', z'⟩ := ih (clear s2) ⟨.inl c3, re3⟩ hroom3
      (fun b hb o ho => by rw [smAll.n, smAll.cpx]; exact hin b (List.mem_cons_of_mem _ hb) o ho)
      (fun l hl => .inl (by
        obtain ⟨k, m, hm, hh⟩ := hall l (by rw [← sm3.n]; exact hl)
        exact ⟨k, m, by rw [hsym]; exact hm, hh⟩))
    refine ⟨s', ?_, i', r', smAll.trans sm', ?_⟩
    · simp only [roundOps]
      rw [run_append, run_append, e1]
      simp only [Option.bind_some, run, step, e2]
      exact e'
    · intro _ q hq r c
      by_cases has : as = []
      · subst has
        simp only [roundOps, run, Option.some.injEq] at e'
        subst e'
        exact z3 q (by rw [sm.cpx]; exact hq) r c
      · exact z' has q (by rw [smAll.cpx]; exact hq) r c

/-- **C23**: a matrix is assembled, finalized, used and cleared any number of times, and then assembled again with the insertions
`last`. If the first assembly puts a non-zero value in every line, then no access is outside the arrays and the result is the
matrix that `last` gives when inserted into a new matrix. -/
theorem reassemble (n : Nat) (cpx crm : Bool) (first : List (Op R)) (rounds : List (List (Op R))) (last : List (Op R))
    (hin : ∀ a ∈ first :: rounds, ∀ o ∈ a, InRange n cpx o ∧ IsAdd o) (hlast : ∀ o ∈ last, InRange n cpx o ∧ IsAdd o)
    (hfull : ∀ l, l < n → ∃ o ∈ first, Touches crm l o) :
    ∃ s, run (new n cpx crm : Mat R) (roundOps (first :: rounds) ++ last ++ [.finalize]) = some s ∧ s.compressed = true ∧
      ∀ im, (im = true → cpx = true) →
        Represents n s.ap s.ai (s.x im) (byLine crm (fun r c => value im r c 0 last)) := by
  obtain ⟨hi, hr, h0⟩ := new_inv (R := R) n cpx crm
  obtain ⟨t, e1, i1, r1, sm1, z1⟩ := rounds_ok _ hi hr (first :: rounds) hin (fun l hl => .inr (fun a as h => by
    simp only [List.cons.injEq] at h
    obtain ⟨o, ho, ht⟩ := hfull l hl
    exact ⟨o, h.1 ▸ ho, ht⟩))
  have hncl : ∀ o ∈ last, ¬ IsClear o := by
    intro o ho h
    have := (hlast o ho).2
    cases o <;> simp [IsClear, IsAdd] at h this
  obtain ⟨u, e2, i2, r2, sm2, k2⟩ := run_spec t i1 r1 last (fun o ho => by rw [sm1.n, sm1.cpx]; exact (hlast o ho).1) (by
    intro pre post v h
    exact absurd trivial (hncl .clear (by rw [h]; simp)))
  obtain ⟨s, e3, i3, r3, sm3, c3, k3, _⟩ := finalize_spec u i2 r2
  refine ⟨s, ?_, c3, ?_⟩
  · rw [run_append, run_append, e1]
    simp only [Option.bind_some, e2, run, step, e3]
  · intro im him
    have hC : COk s := by
      rcases i3.st with h | h
      · exact h
      · exact absurd (h.unc ▸ c3) (by simp)
    have sm := (sm1.trans sm2).trans sm3
    have hn : s.n = n := sm.n
    have hx : s.cpx = cpx := sm.cpx
    have hm : s.crm = crm := sm.crm
    have := represents_entry s hC im (by rw [hx]; exact him)
    rw [hn, hm] at this
    have heq : entry s im = fun r c => value im r c 0 last := by
      funext r c
      rw [k3 im (by rw [(sm1.trans sm2).cpx]; exact him), k2 im (by rw [sm1.cpx]; exact him), z1 (by simp) im him]
    rw [heq] at this
    exact this

/-- two rounds and a last one with an entry outside of the first pattern -/
example : ∃ s, run (new 2 false true : Mat Int)
    (roundOps [[.add false 0 0 1, .add false 1 1 1], [.add false 1 0 7]] ++ [.add false 0 1 4] ++ [.finalize]) = some s ∧
    s.ap = [0, 2, 4] ∧ s.ai = [0, 1, 0, 1] ∧ s.x false = [0, 4, 0, 0] := by
  refine ⟨_, rfl, ?_⟩
  decide

/-! ### clearing a matrix with fewer entries than rows -/

theorem addU_frame {s s' : Mat R} {im : Bool} {r c : Nat} {v : R} (h : addU s im r c v = some s') :
    s'.compressed = s.compressed ∧ s'.ap = s.ap ∧ s'.ai = s.ai ∧ s'.sameSym = s.sameSym ∧ ∀ q, (s'.oob q).length = (s.oob q).length := by
  unfold addU at h
  split at h
  · simp only [Option.some.injEq] at h; subst h; exact ⟨rfl, rfl, rfl, rfl, fun _ => rfl⟩
  · split at h
    · simp at h
    · rename_i s1 h1
      unfold addSymbolic at h1
      split at h1
      · simp at h1
      · simp only [Option.some.injEq] at h1
        subst h1
        dsimp only at h
        split at h
        · simp at h
        · simp only [Option.some.injEq] at h
          subst h
          refine ⟨rfl, rfl, rfl, rfl, ?_⟩
          intro q
          dsimp only
          unfold upd
          split
          · rename_i hq; subst hq; simp
          · rfl

theorem decompressLine_frame {im : Bool} {ai : List Nat} {xs : List R} {i k j : Nat} {s s' : Mat R}
    (h : decompressLine im ai xs i j k s = some s') :
    s'.compressed = s.compressed ∧ s'.sameSym = s.sameSym ∧ ∀ q, (s'.oob q).length = (s.oob q).length := by
  induction k generalizing j s with
  | zero => simp only [decompressLine, Option.some.injEq] at h; subst h; exact ⟨rfl, rfl, fun _ => rfl⟩
  | succ k ih =>
    simp only [decompressLine] at h
    split at h
    · split at h
      · simp at h
      · rename_i s1 h1
        have a := ih h
        have b := addU_frame h1
        exact ⟨a.1.trans b.1, a.2.1.trans b.2.2.2.1, fun q => (a.2.2 q).trans (b.2.2.2.2 q)⟩
    · simp at h

theorem decompressLoop_frame {ai : List Nat} {x : Bool → List R} {ap : List Nat} {i : Nat} {s s' : Mat R}
    (h : decompressLoop ai x ap i s = some s') :
    s'.compressed = s.compressed ∧ s'.sameSym = s.sameSym ∧ ∀ q, (s'.oob q).length = (s.oob q).length := by
  induction ap generalizing i s with
  | nil => simp [decompressLoop] at h
  | cons b ap ih =>
    cases ap with
    | nil => simp only [decompressLoop, Option.some.injEq] at h; subst h; exact ⟨rfl, rfl, fun _ => rfl⟩
    | cons e rest =>
      simp only [decompressLoop] at h
      split at h
      · simp at h
      · rename_i s1 h1
        split at h
        · simp at h
        · rename_i s2 h2
          have a := ih h
          have b := decompressLine_frame h1
          have c : s2.compressed = s1.compressed ∧ s2.sameSym = s1.sameSym ∧ ∀ q, (s2.oob q).length = (s1.oob q).length := by
            split at h2
            · exact decompressLine_frame h2
            · simp only [Option.some.injEq] at h2
              subst h2
              exact ⟨rfl, rfl, fun _ => rfl⟩
          exact ⟨a.1.trans (c.1.trans b.1), a.2.1.trans (c.2.1.trans b.2.1), fun q => (a.2.2 q).trans ((c.2.2 q).trans (b.2.2 q))⟩

theorem decompress_frame {s s' : Mat R} (h : decompress s = some s') :
    s'.compressed = false ∧ s'.sameSym = s.sameSym ∧ ∀ q, (s'.oob q).length = (s.oob q).length := by
  unfold decompress at h
  split at h
  · rename_i hc
    simp only [Option.some.injEq] at h; subst h; exact ⟨hc, rfl, fun _ => rfl⟩
  · split at h
    · simp at h
    · rename_i s1 h1
      simp only [Option.some.injEq] at h
      subst h
      have := decompressLoop_frame h1
      exact ⟨this.1, this.2.1, this.2.2⟩

/-- **C23, refuted part**: after a finalized matrix with `nnz` stored entries is cleared, inserting a non-zero value at a place
outside the pattern whose row (column for row storage) is at least `nnz` accesses memory outside of the out-of-band table. -/
theorem clear_small_out_of_bounds (s : Mat R) (hs : Inv s) (hc : s.compressed = true) (im : Bool) (him : im = true → s.cpx = true)
    (r c : Nat) (v : R) (hv : v ≠ 0) (hcn : c < s.n) (hpat : ¬ HasPat s r c) (hr : s.ai.length ≤ r) :
    addImpl (clear s) im r c v = none := by
  have hC : COk s := by
    rcases hs.st with h | h
    · exact h
    · exact absurd (h.unc ▸ hc) (by simp)
  obtain ⟨c3, sm3, cc, _, _, hsym, re3, ol3, z3⟩ := clear_spec s hC hs.real
  unfold addImpl
  rw [if_neg hv, if_pos cc]
  have hlt : c < (clear s).sym.length := by rw [c3.sym.len, sm3.n]; exact hcn
  have hg := List.getElem?_eq_getElem hlt
  rw [hg]
  dsimp only
  have hnone : FMap.get (clear s).sym[c] r = none := by
    cases hgr : FMap.get (clear s).sym[c] r with
    | none => rfl
    | some p =>
      refine absurd ⟨(clear s).sym[c], ?_, by simp [FMap.has, hgr]⟩ hpat
      rw [← hsym]
      exact hg
  rw [hnone]
  dsimp only
  split
  · rfl
  · rename_i t ht
    have hol := (decompress_frame ht).2.2 im
    unfold addU
    rw [if_neg hv]
    cases ha : addSymbolic t r c with
    | none => rfl
    | some t1 =>
      dsimp only
      have : t1.oob = t.oob := by
        unfold addSymbolic at ha
        split at ha
        · simp at ha
        · simp only [Option.some.injEq] at ha
          subst ha
          rfl
      rw [this, List.getElem?_eq_none (by rw [hol, ol3 im him]; exact hr)]

/-- The shortest such history, with the calls that `get_matrix_and_rhs` makes when the static part has fewer entries than the
dynamic part: one static entry, then a dynamic one in another row. -/
theorem clear_counterexample :
    run (new 2 false false : Mat Int) [.add false 0 0 1, .finalize, .clear, .add false 1 1 1] = none := by decide

/-- with the size of the matrix instead of the number of entries, the same history is fine -/
example : (run (new 2 false false : Mat Int) [.add false 0 0 1, .add false 1 0 1, .finalize, .clear, .add false 1 1 1]).isSome = true := by
  decide

/-- **C23, clearing before finalizing**: a matrix which is not compressed loses all its tables when cleared; the next insertion of
a non-zero value accesses memory outside of them. -/
theorem clear_unfinalized_out_of_bounds (n : Nat) (cpx crm : Bool) (r c : Nat) (v : R) (hv : v ≠ 0) :
    run (new n cpx crm : Mat R) [.clear, .add false r c v] = none := by
  have key : ∀ r c, addImpl (clear (new n cpx crm : Mat R)) false r c v = none := by
    intro r c
    unfold addImpl
    rw [if_neg hv, if_neg (by simp [clear, new])]
    unfold addU
    rw [if_neg hv]
    cases ha : addSymbolic (clear (new n cpx crm : Mat R)) r c with
    | none => rfl
    | some t1 =>
      have : t1.oob false = [] := by
        unfold addSymbolic at ha
        split at ha
        · simp at ha
        · simp only [Option.some.injEq] at ha
          subst ha
          simp [clear, new]
      simp only [this]
      simp
  simp only [run, step, add]
  split
  · rfl
  · rename_i s hs
    split at hs
    · rw [key] at hs; simp at hs
    · rw [key] at hs; simp at hs

/-! ### when the solver is told that the pattern is the same (C36) -/

theorem addImpl_frame {s s' : Mat R} {im : Bool} {r c : Nat} {v : R} (h : addImpl s im r c v = some s') :
    s'.sameSym = s.sameSym ∧ (s'.compressed = true → s.compressed = true ∧ s'.ap = s.ap ∧ s'.ai = s.ai) := by
  unfold addImpl at h
  split at h
  · simp only [Option.some.injEq] at h; subst h; exact ⟨rfl, fun h => ⟨h, rfl, rfl⟩⟩
  · split at h
    · rename_i hc
      split at h
      · simp at h
      · split at h
        · split at h
          · simp at h
          · simp only [Option.some.injEq] at h
            subst h
            exact ⟨rfl, fun _ => ⟨hc, rfl, rfl⟩⟩
        · split at h
          · simp at h
          · rename_i s1 h1
            have a := addU_frame h
            have b := decompress_frame h1
            refine ⟨a.2.2.2.1.trans b.2.1, fun h => ?_⟩
            rw [a.1, b.1] at h
            simp at h
    · rename_i hc
      have a := addU_frame h
      refine ⟨a.2.2.2.1, fun h => absurd (a.1 ▸ h) hc⟩

theorem add_frame {s s' : Mat R} {im : Bool} {r c : Nat} {v : R} (h : add s im r c v = some s') :
    s'.sameSym = s.sameSym ∧ (s'.compressed = true → s.compressed = true ∧ s'.ap = s.ap ∧ s'.ai = s.ai) := by
  unfold add at h
  split at h <;> exact addImpl_frame h

def IsFinalize : Op R → Prop
  | .finalize => True
  | _ => False

theorem run_frame {s s' : Mat R} {ops : List (Op R)} (hnf : ∀ o ∈ ops, ¬ IsFinalize o) (h : run s ops = some s') :
    s'.compressed = true → s.compressed = true ∧ s'.ap = s.ap ∧ s'.ai = s.ai := by
  induction ops generalizing s with
  | nil => simp only [run, Option.some.injEq] at h; subst h; exact fun h => ⟨h, rfl, rfl⟩
  | cons o ops ih =>
    simp only [run] at h
    split at h
    · simp at h
    · rename_i t ht
      intro hc
      obtain ⟨b1, b2, b3⟩ := ih (fun o' h' => hnf o' (List.mem_cons_of_mem _ h')) h hc
      have a : t.compressed = true → s.compressed = true ∧ t.ap = s.ap ∧ t.ai = s.ai := by
        cases o with
        | add im r c v => exact (add_frame ht).2
        | addComplex r c x y =>
          simp only [step, addComplex] at ht
          split at ht
          · simp at ht
          · rename_i u hu
            have p1 : u.compressed = true → s.compressed = true ∧ u.ap = s.ap ∧ u.ai = s.ai := by
              split at hu
              · simp only [Option.some.injEq] at hu; subst hu; exact fun h => ⟨h, rfl, rfl⟩
              · exact (add_frame hu).2
            have p2 : t.compressed = true → u.compressed = true ∧ t.ap = u.ap ∧ t.ai = u.ai := by
              split at ht
              · simp only [Option.some.injEq] at ht; subst ht; exact fun h => ⟨h, rfl, rfl⟩
              · exact (add_frame ht).2
            intro hc
            obtain ⟨x1, x2, x3⟩ := p2 hc
            obtain ⟨y1, y2, y3⟩ := p1 x1
            exact ⟨y1, x2.trans y2, x3.trans y3⟩
        | finalize => exact absurd trivial (hnf _ List.mem_cons_self)
        | clear =>
          simp only [step, Option.some.injEq] at ht
          subst ht
          exact fun h => ⟨h, rfl, rfl⟩
      obtain ⟨a1, a2, a3⟩ := a b1
      exact ⟨a1, b2.trans a2, b3.trans a3⟩

theorem reAdd_sameSym {im : Bool} {i : Nat} {ms : List (FMap Nat R)} {s s' : Mat R} (h : reAdd im i ms s = some s') :
    s'.sameSym = s.sameSym := by
  have row : ∀ (m : FMap Nat R) (i : Nat) (s s' : Mat R), reAddRow im i m s = some s' → s'.sameSym = s.sameSym := by
    intro m
    induction m with
    | nil => intro i s s' h; simp only [reAddRow, Option.some.injEq] at h; rw [h]
    | cons e m ih =>
      intro i s s' h
      obtain ⟨c, v⟩ := e
      simp only [reAddRow] at h
      split at h
      · simp at h
      · rename_i t ht
        exact (ih _ _ _ h).trans (addImpl_frame ht).1
  induction ms generalizing i s with
  | nil => simp only [reAdd, Option.some.injEq] at h; rw [h]
  | cons m ms ih =>
    simp only [reAdd] at h
    split at h
    · simp at h
    · rename_i t ht
      exact (ih h).trans (row _ _ _ _ ht)

/-- **C36**: if, after a finalization, any insertions and clearings are made and the matrix is finalized again with the status
"same symbolic", then pointers and indices are the same arrays as before, so a symbolic factorization may be used again. -/
theorem same_symbolic_same_pattern {s0 s1 t s2 : Mat R} {ops : List (Op R)} (_h1 : finalize s0 = some s1)
    (hnf : ∀ o ∈ ops, ¬ IsFinalize o) (h2 : run s1 ops = some t) (h3 : finalize t = some s2) (hsame : s2.sameSym = true) :
    s2.ap = s1.ap ∧ s2.ai = s1.ai := by
  unfold finalize at h3
  by_cases hc : t.compressed = true
  · rw [if_pos hc] at h3
    simp only [Option.some.injEq] at h3
    subst h3
    obtain ⟨_, a, b⟩ := run_frame hnf h2 hc
    exact ⟨a, b⟩
  · exfalso
    rw [if_neg hc] at h3
    split at h3
    · simp at h3
    · rename_i u hu
      have e1 : u.sameSym = false := by rw [reAdd_sameSym hu]; rfl
      dsimp only at h3
      split at h3
      · split at h3
        · simp at h3
        · rename_i w hw
          simp only [Option.some.injEq] at h3
          subst h3
          have e2 : w.sameSym = false := by rw [reAdd_sameSym hw]; exact e1
          have : (clearOob w true w.n).sameSym = w.sameSym := rfl
          rw [this, e2] at hsame
          simp at hsame
      · simp only [Option.some.injEq] at h3
        subst h3
        have : (clearOob u false u.n).sameSym = u.sameSym := rfl
        rw [this, e1] at hsame
        simp at hsame

/-- the status "same symbolic" does occur, and so does the other one -/
example : ∃ s1 s2 s3, finalize (new 1 false false : Mat Int) = some s1 ∧
    run s1 [.add false 0 0 3, .finalize] = some s2 ∧ s2.sameSym = false ∧
    run s2 [.clear, .add false 0 0 3, .finalize] = some s3 ∧ s3.sameSym = true := by
  refine ⟨_, _, _, rfl, rfl, ?_, rfl, ?_⟩ <;> decide

/-! ### products (C24) -/

section Product
variable {T : Type} [CommSemiring T]

theorem sum_line {n : Nat} {ap ai : List Nat} {vals : List T} {A : Nat → Nat → T} (_h : Represents n ap ai vals A) {l b e : Nat}
    (h1 : ∀ j, b ≤ j → j < e → ∃ k, k < n ∧ ai[j]? = some k ∧ vals[j]? = some (A l k))
    (h2 : ∀ j j' k k', b ≤ j → j < j' → j' < e → ai[j]? = some k → ai[j']? = some k' → k < k')
    (h3 : ∀ k, k < n → (∀ j, b ≤ j → j < e → ai[j]? ≠ some k) → A l k = 0) (k : Nat) (hk : k < n) :
    ∑ j ∈ Finset.Ico b e, (if ai[j]? = some k then (vals[j]?).getD 0 else 0) = A l k := by
  by_cases hex : ∃ j, b ≤ j ∧ j < e ∧ ai[j]? = some k
  · obtain ⟨j, hb, he, hj⟩ := hex
    rw [Finset.sum_eq_single j]
    · rw [if_pos hj]
      obtain ⟨k', _, hk', hv⟩ := h1 j hb he
      rw [hj] at hk'
      simp only [Option.some.injEq] at hk'
      subst hk'
      rw [hv]; rfl
    · intro j' hj' hne
      rw [if_neg]
      intro hj2
      rw [Finset.mem_Ico] at hj'
      rcases Nat.lt_or_gt_of_ne hne with hlt | hlt
      · exact absurd (h2 j' j k k hj'.1 hlt he hj2 hj) (Nat.lt_irrefl _)
      · exact absurd (h2 j j' k k hb hlt hj'.2 hj hj2) (Nat.lt_irrefl _)
    · intro hn
      exact absurd (Finset.mem_Ico.2 ⟨hb, he⟩) hn
  · rw [h3 k hk (fun j hb he hj => hex ⟨j, hb, he, hj⟩)]
    refine Finset.sum_eq_zero ?_
    intro j hj
    rw [Finset.mem_Ico] at hj
    rw [if_neg (fun h => hex ⟨j, hj.1, hj.2, h⟩)]

theorem colLine_spec {ai : List Nat} {vals : List T} {scale : T} (k j n : Nat) (y : List T) (hy : y.length = n)
    (h : ∀ i, j ≤ i → i < j + k → ∃ r v, ai[i]? = some r ∧ r < n ∧ vals[i]? = some v) :
    ∃ y', colLine ai vals scale j k y = some y' ∧ y'.length = n ∧
      ∀ r, r < n → (y'[r]?).getD 0 = (y[r]?).getD 0 + scale * ∑ i ∈ Finset.Ico j (j + k), (if ai[i]? = some r then (vals[i]?).getD 0 else 0) := by
  induction k generalizing j y with
  | zero => exact ⟨y, rfl, hy, fun r _ => by simp⟩
  | succ k ih =>
    obtain ⟨r0, v, hr, hrn, hv⟩ := h j (Nat.le_refl _) (by omega)
    simp only [colLine, hr, hv]
    have hlt : r0 < y.length := by omega
    rw [List.getElem?_eq_getElem hlt]
    dsimp only
    obtain ⟨y', e, l, q⟩ := ih (j + 1) (y.set r0 (y[r0] + scale * v)) (by simpa using hy) (fun i h1 h2 => h i (by omega) (by omega))
    refine ⟨y', e, l, ?_⟩
    intro r hrn'
    rw [q r hrn', show j + (k + 1) = j + 1 + k by omega, Finset.sum_eq_sum_Ico_succ_bot (show j < j + 1 + k by omega)]
    rw [List.getElem?_set, hr, hv]
    by_cases hrr : r0 = r
    · subst hrr
      rw [if_pos rfl, if_pos hlt, List.getElem?_eq_getElem hlt, if_pos rfl]
      simp only [Option.getD_some, mul_add, add_assoc]
    · rw [if_neg hrr, if_neg (by simpa using hrr), zero_add]

theorem drop_two {A : Type} {l : List A} {c : Nat} {b e : A} (h1 : l[c]? = some b) (h2 : l[c + 1]? = some e) :
    l.drop c = b :: e :: l.drop (c + 2) := by
  obtain ⟨a1, a2⟩ := List.getElem?_eq_some_iff.1 h1
  obtain ⟨b1, b2⟩ := List.getElem?_eq_some_iff.1 h2
  rw [List.drop_eq_getElem_cons a1, List.drop_eq_getElem_cons b1, a2, b2]

theorem colScaleMultiply_spec {n : Nat} {ap ai : List Nat} {vals : List T} {A : Nat → Nat → T} (h : Represents n ap ai vals A) (x : List T)
    (hx : x.length = n) :
    ∃ y, colScaleMultiply ap ai vals x = some y ∧ y.length = n ∧
      ∀ r, r < n → (y[r]?).getD 0 = ∑ c ∈ Finset.range n, A c r * (x[c]?).getD 0 := by
  have main : ∀ m c, m + c = n → ∀ y : List T, y.length = n →
      ∃ y', colLoop ai vals x (ap.drop c) c y = some y' ∧ y'.length = n ∧
        ∀ r, r < n → (y'[r]?).getD 0 = (y[r]?).getD 0 + ∑ c ∈ Finset.Ico c n, A c r * (x[c]?).getD 0 := by
    intro m
    induction m with
    | zero =>
      intro c hc y hy
      have hcn : c = n := by omega
      subst hcn
      have hl : c < ap.length := by rw [h.apLen]; omega
      rw [List.drop_eq_getElem_cons hl, List.drop_eq_nil_of_le (by rw [h.apLen])]
      exact ⟨y, rfl, hy, fun r _ => by simp⟩
    | succ m ih =>
      intro c hc y hy
      obtain ⟨b, e, g1, g2, g3, g4, g5, g6⟩ := h.line c (by omega)
      rw [drop_two g1 g2]
      simp only [colLoop]
      have hcx : c < x.length := by omega
      rw [List.getElem?_eq_getElem hcx]
      dsimp only
      obtain ⟨y1, e1, l1, q1⟩ := colLine_spec (scale := x[c]) (ai := ai) (vals := vals) (e - b) b n y hy (by
        intro i h1 h2
        obtain ⟨k, hk, ha, hv⟩ := g4 i h1 (by omega)
        exact ⟨k, _, ha, hk, hv⟩)
      rw [e1]
      dsimp only
      have hd : e :: ap.drop (c + 2) = ap.drop (c + 1) := by
        obtain ⟨b1, b2⟩ := List.getElem?_eq_some_iff.1 g2
        rw [List.drop_eq_getElem_cons b1, b2]
      rw [hd]
      obtain ⟨y2, e2, l2, q2⟩ := ih (c + 1) (by omega) y1 l1
      refine ⟨y2, e2, l2, ?_⟩
      intro r hr
      rw [q2 r hr, q1 r hr, show b + (e - b) = e by omega, sum_line h g4 g5 g6 r hr, Finset.sum_eq_sum_Ico_succ_bot (show c < n by omega),
        add_assoc, List.getElem?_eq_getElem hcx]
      simp only [Option.getD_some]
      rw [mul_comm (x[c])]
  obtain ⟨y, e, l, q⟩ := main n 0 (by omega) (List.replicate x.length 0) (by simp [hx])
  refine ⟨y, e, l, ?_⟩
  intro r hr
  rw [q r hr, List.getElem?_replicate]
  rw [Finset.range_eq_Ico]
  split <;> simp

theorem rowLine_spec {ai : List Nat} {vals x : List T} (k j n : Nat) (out : T) (hx : x.length = n)
    (h : ∀ i, j ≤ i → i < j + k → ∃ r v, ai[i]? = some r ∧ r < n ∧ vals[i]? = some v) :
    rowLine ai vals x j k out = some (out + ∑ i ∈ Finset.Ico j (j + k), (vals[i]?).getD 0 * (x[(ai[i]?).getD 0]?).getD 0) := by
  induction k generalizing j out with
  | zero => simp [rowLine]
  | succ k ih =>
    obtain ⟨r0, v, hr, hrn, hv⟩ := h j (Nat.le_refl _) (by omega)
    simp only [rowLine, hr, hv]
    have hlt : r0 < x.length := by omega
    rw [List.getElem?_eq_getElem hlt]
    dsimp only
    rw [ih (j + 1) _ (fun i h1 h2 => h i (by omega) (by omega)), show j + (k + 1) = j + 1 + k by omega,
      Finset.sum_eq_sum_Ico_succ_bot (show j < j + 1 + k by omega), hr, hv]
    simp only [Option.getD_some, List.getElem?_eq_getElem hlt, add_assoc]

theorem rowScaleMultiply_spec {n : Nat} {ap ai : List Nat} {vals : List T} {A : Nat → Nat → T} (h : Represents n ap ai vals A) (x : List T)
    (hx : x.length = n) :
    ∃ y, rowScaleMultiply ap ai vals x = some y ∧ y.length = n ∧
      ∀ r, r < n → (y[r]?).getD 0 = ∑ c ∈ Finset.range n, A r c * (x[c]?).getD 0 := by
  have main : ∀ m c, m + c = n → ∀ y : List T, y.length = n → (∀ r, c ≤ r → r < n → (y[r]?).getD 0 = 0) →
      ∃ y', rowLoop ai vals x (ap.drop c) c y = some y' ∧ y'.length = n ∧
        (∀ r, r < c → y'[r]? = y[r]?) ∧
        ∀ r, c ≤ r → r < n → (y'[r]?).getD 0 = ∑ c ∈ Finset.range n, A r c * (x[c]?).getD 0 := by
    intro m
    induction m with
    | zero =>
      intro c hc y hy _
      have hcn : c = n := by omega
      subst hcn
      have hl : c < ap.length := by rw [h.apLen]; omega
      rw [List.drop_eq_getElem_cons hl, List.drop_eq_nil_of_le (by rw [h.apLen])]
      exact ⟨y, rfl, hy, fun _ _ => rfl, fun r h1 h2 => by omega⟩
    | succ m ih =>
      intro c hc y hy hz
      obtain ⟨b, e, g1, g2, g3, g4, g5, g6⟩ := h.line c (by omega)
      rw [drop_two g1 g2]
      simp only [rowLoop]
      have hcy : c < y.length := by omega
      rw [List.getElem?_eq_getElem hcy]
      dsimp only
      have hz0 : y[c] = 0 := by
        have := hz c (Nat.le_refl _) (by omega)
        rw [List.getElem?_eq_getElem hcy] at this
        exact this
      rw [rowLine_spec (e - b) b n y[c] hx (by
        intro i h1 h2
        obtain ⟨k, hk, ha, hv⟩ := g4 i h1 (by omega)
        exact ⟨k, _, ha, hk, hv⟩)]
      dsimp only
      have hsum : y[c] + ∑ i ∈ Finset.Ico b (b + (e - b)), (vals[i]?).getD 0 * (x[(ai[i]?).getD 0]?).getD 0 =
          ∑ k ∈ Finset.range n, A c k * (x[k]?).getD 0 := by
        rw [hz0, zero_add, show b + (e - b) = e by omega]
        have : ∀ k ∈ Finset.range n, A c k * (x[k]?).getD 0 =
            ∑ j ∈ Finset.Ico b e, (if ai[j]? = some k then (vals[j]?).getD 0 else 0) * (x[k]?).getD 0 := by
          intro k hk
          rw [← Finset.sum_mul, sum_line h g4 g5 g6 k (Finset.mem_range.1 hk)]
        rw [Finset.sum_congr rfl this, Finset.sum_comm]
        refine Finset.sum_congr rfl ?_
        intro j hj
        rw [Finset.mem_Ico] at hj
        obtain ⟨k, hk, ha, hv⟩ := g4 j hj.1 hj.2
        rw [Finset.sum_eq_single k]
        · rw [ha, if_pos rfl]; rfl
        · intro k' _ hne
          rw [ha, if_neg (by simpa using hne.symm), zero_mul]
        · intro hn
          exact absurd (Finset.mem_range.2 hk) hn
      rw [hsum]
      have hd : e :: ap.drop (c + 2) = ap.drop (c + 1) := by
        obtain ⟨b1, b2⟩ := List.getElem?_eq_some_iff.1 g2
        rw [List.drop_eq_getElem_cons b1, b2]
      rw [hd]
      obtain ⟨y2, e2, l2, p2, q2⟩ := ih (c + 1) (by omega) (y.set c (∑ k ∈ Finset.range n, A c k * (x[k]?).getD 0)) (by simpa using hy) (by
        intro r h1 h2
        rw [List.getElem?_set, if_neg (by omega)]
        exact hz r (by omega) h2)
      refine ⟨y2, e2, l2, ?_, ?_⟩
      · intro r hr
        rw [p2 r (by omega), List.getElem?_set, if_neg (by omega)]
      · intro r h1 h2
        by_cases hr : r = c
        · subst hr
          rw [p2 r (by omega), List.getElem?_set, if_pos rfl, if_pos hcy]
          rfl
        · exact q2 r (by omega) h2
  obtain ⟨y, e, l, _, q⟩ := main n 0 (by omega) (List.replicate x.length 0) (by simp [hx]) (by
    intro r _ _
    rw [List.getElem?_replicate]
    split <;> rfl)
  exact ⟨y, e, l, fun r hr => q r (Nat.zero_le _) hr⟩

/-- **C24, `Multiply`**: for a finalized matrix whose arrays represent `A` (as `assembled_sum` shows of every assembled matrix),
`Multiply` returns the vector `A x`, for both storage orders. -/
theorem multiply_correct (s : Mat R) (vals : List T) (A : Nat → Nat → T) (hc : s.compressed = true)
    (h : Represents s.n s.ap s.ai vals (byLine s.crm A)) (x : List T) (hx : x.length = s.n) :
    ∃ y, multiply s vals x = some y ∧ y.length = s.n ∧
      ∀ r, r < s.n → (y[r]?).getD 0 = ∑ c ∈ Finset.range s.n, A r c * (x[c]?).getD 0 := by
  unfold multiply
  rw [if_pos hc]
  by_cases hcr : s.crm = true
  · rw [if_pos hcr]
    unfold getRows getCols
    rw [if_pos hcr, if_pos hcr]
    have := rowScaleMultiply_spec h x hx
    simpa only [byLine, hcr, if_true] using this
  · rw [if_neg hcr]
    unfold getRows getCols
    rw [if_neg hcr, if_neg hcr]
    have := colScaleMultiply_spec h x hx
    simpa only [byLine, if_neg hcr] using this

/-- the values returned by `GetComplex` represent the complex matrix; `mk` is the construction of a complex number -/
theorem represents_complex {n : Nat} {ap ai : List Nat} {xs zs : List R} {A B : Nat → Nat → R} (mk : R → R → T) (hmk : mk 0 0 = 0)
    (h1 : Represents n ap ai xs A) (h2 : Represents n ap ai zs B) :
    Represents n ap ai (List.zipWith mk xs zs) (fun l k => mk (A l k) (B l k)) := by
  refine ⟨h1.apLen, h1.first, h1.last, by simp [h1.xsLen, h2.xsLen], ?_⟩
  intro l hl
  obtain ⟨b, e, g1, g2, g3, g4, g5, g6⟩ := h1.line l hl
  obtain ⟨b', e', g1', g2', g3', g4', g5', g6'⟩ := h2.line l hl
  rw [g1] at g1'
  rw [g2] at g2'
  simp only [Option.some.injEq] at g1' g2'
  subst g1' g2'
  refine ⟨b, e, g1, g2, g3, ?_, g5, ?_⟩
  · intro j hb he
    obtain ⟨k, hk, ha, hv⟩ := g4 j hb he
    obtain ⟨k', hk', ha', hv'⟩ := g4' j hb he
    rw [ha] at ha'
    simp only [Option.some.injEq] at ha'
    subst ha'
    refine ⟨k, hk, ha, ?_⟩
    rw [List.getElem?_zipWith, hv, hv']
  · intro k hk hno
    rw [g6 k hk hno, g6' k hk hno, hmk]

end Product

/-- the whole of C24 for `Multiply` on a real matrix, from the calls that assemble it -/
theorem multiply_assembled {R : Type} [CommSemiring R] [DecidableEq R] (n : Nat) (crm : Bool) (ops : List (Op R))
    (hin : ∀ o ∈ ops, InRange n false o) (hnc : ∀ o ∈ ops, ¬ IsClear o) (x : List R) (hx : x.length = n) :
    ∃ s y, run (new n false crm : Mat R) (ops ++ [.finalize]) = some s ∧ multiply s (s.x false) x = some y ∧ y.length = n ∧
      ∀ r, r < n → (y[r]?).getD 0 = ∑ c ∈ Finset.range n, value false r c 0 ops * (x[c]?).getD 0 := by
  obtain ⟨s, e, hc, hrep⟩ := assembled_sum n false crm ops hin hnc
  have hsame : s.n = n ∧ s.crm = crm := by
    obtain ⟨hi, hr, h0⟩ := new_inv (R := R) n false crm
    obtain ⟨t, e1, i1, r1, sm1, k1⟩ := run_spec _ hi hr (ops ++ [.finalize]) (by
      intro o ho
      rcases List.mem_append.1 ho with h | h
      · exact hin o h
      · simp only [List.mem_singleton] at h; subst h; trivial) (by
      intro pre post u h
      have hm : (Op.clear : Op R) ∈ ops ++ [.finalize] := by rw [h]; simp
      rcases List.mem_append.1 hm with h' | h'
      · exact absurd trivial (hnc _ h')
      · simp at h')
    rw [e] at e1
    simp only [Option.some.injEq] at e1
    subst e1
    exact ⟨sm1.n, sm1.crm⟩
  have hrep0 := hrep false (by simp)
  obtain ⟨y, e2, l2, q2⟩ := multiply_correct s (s.x false) (fun r c => value false r c 0 ops) hc (by rw [hsame.1, hsame.2]; exact hrep0) x
    (by rw [hsame.1]; exact hx)
  rw [hsame.1] at l2 q2
  exact ⟨s, y, e, e2, l2, q2⟩

/-- The product with a transpose is wrong in both storage orders: it passes the index array where the pointer array is expected.
For the 2 by 2 unit matrix and the vector (1, 1) the code returns (1, 0) for column storage. -/
theorem transpose_wrong_ccm :
    ∃ s, run (new 2 false false : Mat Int) [.add false 0 0 1, .add false 1 1 1, .finalize] = some s ∧
      transposeMultiply s (s.x false) [1, 1] = some [1, 0] := by
  refine ⟨_, rfl, ?_⟩
  decide

theorem transpose_wrong_crm :
    ∃ s, run (new 2 false true : Mat Int) [.add false 0 0 1, .add false 1 1 1, .finalize] = some s ∧
      transposeMultiply s (s.x false) [1, 1] = some [1, 0] := by
  refine ⟨_, rfl, ?_⟩
  decide

/-- the property that `TransposeMultiply` would have to have does not hold -/
theorem transpose_not_correct :
    ¬ ∀ (s : Mat Int) (A : Nat → Nat → Int), s.compressed = true → Represents s.n s.ap s.ai (s.x false) (byLine s.crm A) →
      ∀ x : List Int, x.length = s.n → ∃ y, transposeMultiply s (s.x false) x = some y ∧
        ∀ r, r < s.n → (y[r]?).getD 0 = ∑ c ∈ Finset.range s.n, A c r * (x[c]?).getD 0 := by
  intro hall
  obtain ⟨s, e, hc, hrep⟩ := assembled_sum (R := Int) 2 false false [.add false 0 0 1, .add false 1 1 1]
    (by intro o ho; simp only [List.mem_cons, List.not_mem_nil, or_false] at ho; rcases ho with rfl | rfl <;> simp [InRange])
    (by intro o ho; simp only [List.mem_cons, List.not_mem_nil, or_false] at ho; rcases ho with rfl | rfl <;> simp [IsClear])
  have hrep0 := hrep false (by simp)
  have e' := e
  simp only [Option.some.injEq, List.cons_append, List.nil_append] at e'
  obtain ⟨s', e1, e2⟩ := transpose_wrong_ccm
  rw [e'] at e1
  simp only [Option.some.injEq] at e1
  subst e1
  have hn : s.n = 2 ∧ s.crm = false := by
    have : (run (new 2 false false : Mat Int) [.add false 0 0 1, .add false 1 1 1, .finalize]).map (fun s => (s.n, s.crm)) = some (2, false) := by decide
    rw [e'] at this
    simpa using this
  obtain ⟨y, hy, hv⟩ := hall s _ hc (by rw [hn.1, hn.2]; exact hrep0) [1, 1] (by rw [hn.1]; rfl)
  rw [e2] at hy
  simp only [Option.some.injEq] at hy
  subst hy
  have := hv 1 (by rw [hn.1]; omega)
  rw [hn.1] at this
  simp [Finset.sum_range_succ, value] at this

end Verif.Matrix
