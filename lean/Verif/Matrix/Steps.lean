import Verif.Matrix.Lemmas
import Verif.Matrix.Spec
namespace Verif.Matrix
open Verif

variable {R : Type} [AddZeroClass R] [DecidableEq R]

/-- the entry is in the pattern -/
def HasPat (s : Mat R) (r c : Nat) : Prop := ∃ m : FMap Nat Nat, s.sym[c]? = some m ∧ m.has r = true

structure Inv (s : Mat R) : Prop where
  st : COk s ∨ UOk s
  real : s.cpx = false → ∀ m ∈ s.oob true, m = []

theorem SymOk.hasPat_iff {s : Mat R} {rows : List (List Nat)} (hs : SymOk s) (hl : Lay s rows) (r c : Nat) :
    HasPat s r c ↔ (r, c) ∈ entries 0 rows := by
  constructor
  · rintro ⟨m, h1, h2⟩
    obtain ⟨p, hp⟩ := Option.isSome_iff_exists.1 h2
    exact List.mem_of_getElem? ((hl.pos c m h1 r p).1 hp)
  · intro h
    obtain ⟨p, hp⟩ := List.mem_iff_getElem?.1 h
    have hlt : c < s.sym.length := by rw [hs.len]; exact (flatten_lt_of_lay hs hl _ h).2
    exact ⟨s.sym[c], List.getElem?_eq_getElem hlt, by simp [FMap.has, (hl.pos c _ (List.getElem?_eq_getElem hlt) r p).2 hp]⟩

/-! monotonicity of the pattern -/

theorem addSymbolic_pat {s s' : Mat R} {r c : Nat} (h : addSymbolic s r c = some s') :
    HasPat s' r c ∧ ∀ r' c', HasPat s r' c' → HasPat s' r' c' := by
  unfold addSymbolic at h
  cases hg : s.sym[c]? with
  | none => rw [hg] at h; simp at h
  | some m =>
    rw [hg] at h
    simp only [Option.some.injEq] at h
    subst h
    have hlt := (List.getElem?_eq_some_iff.1 hg).1
    have key : FMap.has (if m.has r then m else m.set r 0) r = true := by
      split
      · assumption
      · simp [FMap.has, FMap.get_set]
    refine ⟨⟨_, by simp [hlt], key⟩, ?_⟩
    rintro r' c' ⟨m', h1, h2⟩
    by_cases hc : c = c'
    · subst hc
      rw [hg] at h1
      simp only [Option.some.injEq] at h1
      subst h1
      refine ⟨if m.has r then m else m.set r 0, by simp [hlt], ?_⟩
      split
      · exact h2
      · simp only [FMap.has, FMap.get_set]
        split
        · rfl
        · exact h2
    · exact ⟨m', by rw [List.getElem?_set, if_neg hc]; exact h1, h2⟩

theorem addU_pat {s s' : Mat R} {im : Bool} {r c : Nat} {v : R} (h : addU s im r c v = some s') :
    (v ≠ 0 → HasPat s' r c) ∧ ∀ r' c', HasPat s r' c' → HasPat s' r' c' := by
  unfold addU at h
  split at h
  · rename_i hv
    simp only [Option.some.injEq] at h
    subst h
    exact ⟨fun h => absurd hv h, fun _ _ h => h⟩
  · cases ha : addSymbolic s r c with
    | none => rw [ha] at h; simp at h
    | some s1 =>
      rw [ha] at h
      dsimp only at h
      obtain ⟨p1, p2⟩ := addSymbolic_pat ha
      split at h
      · simp at h
      · simp only [Option.some.injEq] at h
        subst h
        exact ⟨fun _ => p1, p2⟩

theorem decompressLine_pat {im : Bool} {ai : List Nat} {xs : List R} {i : Nat} {k j : Nat} {s s' : Mat R}
    (h : decompressLine im ai xs i j k s = some s') : ∀ r' c', HasPat s r' c' → HasPat s' r' c' := by
  induction k generalizing j s with
  | zero => simp only [decompressLine, Option.some.injEq] at h; subst h; exact fun _ _ h => h
  | succ k ih =>
    simp only [decompressLine] at h
    split at h
    · split at h
      · simp at h
      · rename_i ha
        exact fun r' c' hp => ih h r' c' ((addU_pat ha).2 r' c' hp)
    · simp at h

theorem decompressLoop_pat {ai : List Nat} {x : Bool → List R} {ap : List Nat} {i : Nat} {s s' : Mat R}
    (h : decompressLoop ai x ap i s = some s') : ∀ r' c', HasPat s r' c' → HasPat s' r' c' := by
  induction ap generalizing i s with
  | nil => simp [decompressLoop] at h
  | cons b ap ih =>
    cases ap with
    | nil => simp only [decompressLoop, Option.some.injEq] at h; subst h; exact fun _ _ h => h
    | cons e rest =>
      simp only [decompressLoop] at h
      split at h
      · simp at h
      · rename_i s1 h1
        split at h
        · simp at h
        · rename_i s2 h2
          intro r' c' hp
          refine ih h r' c' ?_
          have p1 := decompressLine_pat h1 r' c' hp
          split at h2
          · exact decompressLine_pat h2 r' c' p1
          · simp only [Option.some.injEq] at h2
            subst h2
            exact p1

theorem decompress_pat {s s' : Mat R} (h : decompress s = some s') : ∀ r' c', HasPat s r' c' → HasPat s' r' c' := by
  unfold decompress at h
  split at h
  · simp only [Option.some.injEq] at h; subst h; exact fun _ _ h => h
  · split at h
    · simp at h
    · rename_i s1 h1
      simp only [Option.some.injEq] at h
      subst h
      exact fun r' c' hp => decompressLoop_pat h1 r' c' hp

theorem addImpl_pat {s s' : Mat R} {im : Bool} {r c : Nat} {v : R} (h : addImpl s im r c v = some s') :
    (v ≠ 0 → HasPat s' r c) ∧ ∀ r' c', HasPat s r' c' → HasPat s' r' c' := by
  unfold addImpl at h
  split at h
  · rename_i hv
    simp only [Option.some.injEq] at h
    subst h
    exact ⟨fun h => absurd hv h, fun _ _ h => h⟩
  · split at h
    · split at h
      · simp at h
      · rename_i m hm
        split at h
        · rename_i p hp
          split at h
          · simp at h
          · simp only [Option.some.injEq] at h
            subst h
            exact ⟨fun _ => ⟨m, hm, by simp [FMap.has, hp]⟩, fun _ _ h => h⟩
        · split at h
          · simp at h
          · rename_i s1 h1
            obtain ⟨p1, p2⟩ := addU_pat h
            exact ⟨p1, fun r' c' hp => p2 r' c' (decompress_pat h1 r' c' hp)⟩
    · exact addU_pat h

/-! one insertion -/

theorem addImpl_spec (s : Mat R) (hs : Inv s) (hroom : Room s) (im : Bool) {r c : Nat} (v : R) (hr : r < s.n) (hc : c < s.n)
    (him : im = true → s.cpx = true) :
    ∃ s', addImpl s im r c v = some s' ∧ Inv s' ∧ Room s' ∧ Same s s' ∧
      (∀ q, (q = true → s.cpx = true) →
        ∀ r' c', cell s' q r' c' = if q = im ∧ r' = r ∧ c' = c then cell s q r' c' + v else cell s q r' c') := by
  have fromU : ∀ t : Mat R, UOk t → Same s t → (t.cpx = false → ∀ m ∈ t.oob true, m = []) →
      (∀ q, (q = true → s.cpx = true) → ∀ r' c', cell t q r' c' = cell s q r' c') →
      ∃ s', addU t im r c v = some s' ∧ Inv s' ∧ Room s' ∧ Same s s' ∧
      (∀ q, (q = true → s.cpx = true) →
        ∀ r' c', cell s' q r' c' = if q = im ∧ r' = r ∧ c' = c then cell s q r' c' + v else cell s q r' c') := by
    intro t ut sm hreal hcell
    obtain ⟨s', e1, u1, sm1, ol1, c1⟩ := addU_spec t ut im v (by rw [sm.n]; exact hr) (by rw [sm.n]; exact hc)
      (by rw [sm.cpx]; exact him)
    refine ⟨s', e1, ⟨.inr u1, ?_⟩, u1.room, sm.trans sm1, ?_⟩
    · intro hcx
      have hcx' : t.cpx = false := by rw [← sm1.cpx]; exact hcx
      have himf : im = false := by
        cases im
        · rfl
        · have := him rfl
          rw [← sm.cpx, hcx'] at this
          simp at this
      subst himf
      have : s'.oob true = t.oob true := by
        unfold addU at e1
        split at e1
        · simp only [Option.some.injEq] at e1; rw [e1]
        · cases ha : addSymbolic t r c with
          | none => rw [ha] at e1; simp at e1
          | some t1 =>
            rw [ha] at e1
            dsimp only at e1
            split at e1
            · simp at e1
            · simp only [Option.some.injEq] at e1
              subst e1
              unfold addSymbolic at ha
              split at ha
              · simp at ha
              · simp only [Option.some.injEq] at ha
                subst ha
                simp [upd]
      rw [this]
      exact hreal hcx'
    · intro q hq r' c'
      rw [c1, hcell q hq]
  rcases hs.st with h | h
  · obtain ⟨rows, hl⟩ := h.lay
    by_cases hm : (r, c) ∈ entries 0 rows
    · obtain ⟨xs, e1, l1, k1⟩ := addPattern_spec s h.comp h.sym hl im v hm him
      exact ⟨_, e1, ⟨.inl ⟨h.comp, ⟨h.sym.len, h.sym.wf⟩, ⟨rows, l1⟩, h.empty⟩, hs.real⟩, hroom, ⟨rfl, rfl, rfl⟩, fun q _ => k1 q⟩
    · unfold addImpl
      by_cases hv : v = 0
      · rw [if_pos hv]
        refine ⟨s, rfl, hs, hroom, .refl _, ?_⟩
        intro q _ r' c'
        rw [hv, add_zero, ite_self]
      rw [if_neg hv, if_pos h.comp]
      have hlt : c < s.sym.length := by rw [h.sym.len]; exact hc
      have hg := List.getElem?_eq_getElem hlt
      rw [hg]
      dsimp only
      have hnone : s.sym[c].get r = none := by
        cases hgr : s.sym[c].get r with
        | none => rfl
        | some p => exact absurd (List.mem_of_getElem? ((hl.pos c _ hg r p).1 hgr)) hm
      rw [hnone]
      dsimp only
      obtain ⟨t, e1, u1, sm1, ol1, c1⟩ := decompress_spec s h hroom
      rw [e1]
      dsimp only
      refine fromU t u1 sm1 ?_ c1
      intro hcx
      have := ol1 true
      have hcx' : s.cpx = false := by rw [← sm1.cpx]; exact hcx
      intro m hm'
      -- the imaginary tables are never touched in a real matrix
      obtain ⟨r0, hr0⟩ := List.mem_iff_getElem?.1 hm'
      have hin := u1.inSym true r0 m hr0
      have : t.oob true = s.oob true := by
        have hdl : ∀ (l : Nat) (j i : Nat) (a b : Mat R), decompressLine false s.ai (s.x false) i j l a = some b → b.oob true = a.oob true ∧ b.cpx = a.cpx := by
          intro l
          induction l with
          | zero => intro j i a b h; simp only [decompressLine, Option.some.injEq] at h; subst h; exact ⟨rfl, rfl⟩
          | succ l ih =>
            intro j i a b h
            simp only [decompressLine] at h
            split at h
            · split at h
              · simp at h
              · rename_i a1 ha1
                have i1 := ih _ _ _ _ h
                have i2 : a1.oob true = a.oob true ∧ a1.cpx = a.cpx := by
                  unfold addU at ha1
                  split at ha1
                  · simp only [Option.some.injEq] at ha1; rw [ha1]; exact ⟨rfl, rfl⟩
                  · split at ha1
                    · simp at ha1
                    · rename_i a2 ha2
                      split at ha1
                      · simp at ha1
                      · simp only [Option.some.injEq] at ha1
                        subst ha1
                        unfold addSymbolic at ha2
                        split at ha2
                        · simp at ha2
                        · simp only [Option.some.injEq] at ha2
                          subst ha2
                          simp [upd]
                exact ⟨i1.1.trans i2.1, i1.2.trans i2.2⟩
            · simp at h
        have hdo : ∀ (ap : List Nat) (i : Nat) (a b : Mat R), a.cpx = false → decompressLoop s.ai s.x ap i a = some b → b.oob true = a.oob true := by
          intro ap
          induction ap with
          | nil => intro i a b _ h; simp [decompressLoop] at h
          | cons x0 ap ih =>
            intro i a b hcf h
            cases ap with
            | nil => simp only [decompressLoop, Option.some.injEq] at h; rw [h]
            | cons x1 ap =>
              simp only [decompressLoop] at h
              split at h
              · simp at h
              · rename_i a1 ha1
                have i1 := hdl _ _ _ _ _ ha1
                rw [if_neg (by rw [i1.2, hcf]; simp)] at h
                dsimp only at h
                have := ih _ _ _ (i1.2.trans hcf) h
                exact this.trans i1.1
        unfold decompress at e1
        rw [if_neg (by rw [h.comp]; simp)] at e1
        split at e1
        · simp at e1
        · rename_i t1 ht1
          simp only [Option.some.injEq] at e1
          subst e1
          exact hdo _ _ { s with compressed := false } t1 hcx' ht1
      rw [this] at hm'
      exact hs.real hcx' m hm'
  · have : addImpl s im r c v = addU s im r c v := by
      unfold addImpl
      by_cases hv : v = 0
      · rw [if_pos hv]; unfold addU; rw [if_pos hv]
      · rw [if_neg hv, if_neg (by rw [h.unc]; simp)]
    rw [this]
    exact fromU s h (.refl _) hs.real (fun _ _ _ _ => rfl)

/-- value at `(r, c)` of the matrix the user sees -/
def entry (s : Mat R) (im : Bool) (r c : Nat) : R := if s.crm then cell s im c r else cell s im r c

theorem add_spec (s : Mat R) (hs : Inv s) (hroom : Room s) (im : Bool) {r c : Nat} (v : R) (hr : r < s.n) (hc : c < s.n)
    (him : im = true → s.cpx = true) :
    ∃ s', add s im r c v = some s' ∧ Inv s' ∧ Room s' ∧ Same s s' ∧
      (∀ q, (q = true → s.cpx = true) →
        ∀ r' c', entry s' q r' c' = if im = q ∧ r = r' ∧ c = c' then entry s q r' c' + v else entry s q r' c') := by
  unfold add
  by_cases hcr : s.crm = true
  · rw [if_pos hcr]
    obtain ⟨s', e1, i1, r1, sm, k⟩ := addImpl_spec s hs hroom im v hc hr him
    refine ⟨s', e1, i1, r1, sm, ?_⟩
    intro q hq r' c'
    unfold entry
    rw [sm.crm, if_pos hcr, if_pos hcr, k q hq]
    by_cases h : im = q ∧ r = r' ∧ c = c'
    · rw [if_pos h, if_pos ⟨h.1.symm, h.2.2.symm, h.2.1.symm⟩]
    · rw [if_neg h, if_neg (fun h' => h ⟨h'.1.symm, h'.2.2.symm, h'.2.1.symm⟩)]
  · rw [if_neg hcr]
    obtain ⟨s', e1, i1, r1, sm, k⟩ := addImpl_spec s hs hroom im v hr hc him
    refine ⟨s', e1, i1, r1, sm, ?_⟩
    intro q hq r' c'
    unfold entry
    rw [sm.crm, if_neg hcr, if_neg hcr, k q hq]
    by_cases h : im = q ∧ r = r' ∧ c = c'
    · rw [if_pos h, if_pos ⟨h.1.symm, h.2.1.symm, h.2.2.symm⟩]
    · rw [if_neg h, if_neg (fun h' => h ⟨h'.1.symm, h'.2.1.symm, h'.2.2.symm⟩)]

theorem addComplex_spec (s : Mat R) (hs : Inv s) (hroom : Room s) {r c : Nat} (a b : R) (hr : r < s.n) (hc : c < s.n)
    (hcx : s.cpx = true) :
    ∃ s', addComplex s r c a b = some s' ∧ Inv s' ∧ Room s' ∧ Same s s' ∧
      (∀ q r' c', entry s' q r' c' = if r = r' ∧ c = c' then entry s q r' c' + (if q then b else a) else entry s q r' c') := by
  unfold addComplex
  have h1 : ∃ s1, (if a = 0 then some s else add s false r c a) = some s1 ∧ Inv s1 ∧ Room s1 ∧ Same s s1 ∧
      ∀ q r' c', entry s1 q r' c' = if false = q ∧ r = r' ∧ c = c' then entry s q r' c' + a else entry s q r' c' := by
    by_cases ha : a = 0
    · rw [if_pos ha]
      exact ⟨s, rfl, hs, hroom, .refl _, fun q r' c' => by rw [ha, add_zero, ite_self]⟩
    · rw [if_neg ha]
      obtain ⟨s1, e1, i1, r1, sm1, k1⟩ := add_spec s hs hroom false a hr hc (by simp)
      exact ⟨s1, e1, i1, r1, sm1, fun q => k1 q (fun _ => hcx)⟩
  obtain ⟨s1, e1, i1, r1, sm1, k1⟩ := h1
  rw [e1]
  dsimp only
  have h2 : ∃ s2, (if b = 0 then some s1 else add s1 true r c b) = some s2 ∧ Inv s2 ∧ Room s2 ∧ Same s1 s2 ∧
      ∀ q r' c', entry s2 q r' c' = if true = q ∧ r = r' ∧ c = c' then entry s1 q r' c' + b else entry s1 q r' c' := by
    by_cases hb : b = 0
    · rw [if_pos hb]
      exact ⟨s1, rfl, i1, r1, .refl _, fun q r' c' => by rw [hb, add_zero, ite_self]⟩
    · rw [if_neg hb]
      obtain ⟨s2, e2, i2, r2, sm2, k2⟩ := add_spec s1 i1 r1 true b (by rw [sm1.n]; exact hr) (by rw [sm1.n]; exact hc)
        (fun _ => by rw [sm1.cpx]; exact hcx)
      exact ⟨s2, e2, i2, r2, sm2, fun q => k2 q (fun _ => by rw [sm1.cpx]; exact hcx)⟩
  obtain ⟨s2, e2, i2, r2, sm2, k2⟩ := h2
  refine ⟨s2, e2, i2, r2, sm1.trans sm2, ?_⟩
  intro q r' c'
  rw [k2, k1]
  cases q <;> by_cases h : r = r' ∧ c = c' <;> simp [h]

theorem finalize_spec (s : Mat R) (hs : Inv s) (hroom : Room s) :
    ∃ s', finalize s = some s' ∧ Inv s' ∧ Room s' ∧ Same s s' ∧ s'.compressed = true ∧
      (∀ q, (q = true → s.cpx = true) → ∀ r c, entry s' q r c = entry s q r c) ∧
      (∀ r c, HasPat s r c → HasPat s' r c) := by
  rcases hs.st with h | h
  · unfold finalize
    rw [if_pos h.comp]
    refine ⟨_, rfl, ⟨.inl ⟨h.comp, ⟨h.sym.len, h.sym.wf⟩, ?_, h.empty⟩, hs.real⟩, hroom, ⟨rfl, rfl, rfl⟩, h.comp, fun _ _ _ _ => rfl, fun _ _ h => h⟩
    obtain ⟨rows, hl⟩ := h.lay
    exact ⟨rows, hl.len, hl.sorted, hl.ap, hl.ai, hl.pos, hl.xlen⟩
  · obtain ⟨s', e1, c1, r1, sm, _, l1, k⟩ := finalize_unc_spec s h hs.real
    refine ⟨s', e1, ⟨.inl c1, ?_⟩, r1, sm, c1.comp, ?_, ?_⟩
    · exact fun _ m hm => c1.empty true m hm
    · intro q hq r c
      unfold entry
      rw [sm.crm, k q hq, k q hq]
    · rintro r c ⟨m, h1, h2⟩
      rw [c1.sym.hasPat_iff l1]
      exact (createMatrix_spec s h.sym).2.2.2.2.2.2 r c m h1 h2

theorem clear_spec (s : Mat R) (hs : COk s) (hre : s.cpx = false → ∀ m ∈ s.oob true, m = []) :
    COk (clear s) ∧ Same s (clear s) ∧ (clear s).compressed = true ∧ (clear s).ap = s.ap ∧ (clear s).ai = s.ai ∧ (clear s).sym = s.sym ∧
      ((clear s).cpx = false → ∀ m ∈ (clear s).oob true, m = []) ∧
      (∀ im, (im = true → s.cpx = true) → ((clear s).oob im).length = s.ai.length) ∧
      (∀ q, (q = true → s.cpx = true) → ∀ r c, entry (clear s) q r c = 0) := by
  obtain ⟨rows, hl⟩ := hs.lay
  have hne : ∀ im, (im = true → s.cpx = true) → ¬ (im = true ∧ s.cpx = false) := by
    rintro im him ⟨a, b⟩
    rw [him a] at b
    simp at b
  have hx : ∀ im, (im = true → s.cpx = true) → (clear s).x im = List.replicate (s.x false).length 0 := by
    intro im him
    show (if im = true ∧ s.cpx = false then _ else _) = _
    rw [if_neg (hne im him)]
  have ho : ∀ im, (im = true → s.cpx = true) → (clear s).oob im = List.replicate (s.x false).length [] := by
    intro im him
    show (if im = true ∧ s.cpx = false then _ else _) = _
    rw [if_neg (hne im him)]
  have hx0 := hl.xlen false (by simp)
  have hlay : Lay (clear s) rows := by
    refine ⟨hl.len, hl.sorted, hl.ap, hl.ai, hl.pos, ?_⟩
    intro im him
    rw [hx im him, List.length_replicate, hx0]
    rfl
  have hre' : (clear s).cpx = false → ∀ m ∈ (clear s).oob true, m = [] := by
    intro hcx m hm
    have : (clear s).oob true = s.oob true := by
      show (if true = true ∧ s.cpx = false then _ else _) = _
      rw [if_pos ⟨rfl, hcx⟩]
    rw [this] at hm
    exact hre hcx m hm
  have hcell : ∀ q, (q = true → s.cpx = true) → ∀ r c, cell (clear s) q r c = 0 := by
    intro q hq r c
    obtain ⟨k1, k2⟩ := cell_comp (s := clear s) hs.comp ⟨hs.sym.len, hs.sym.wf⟩ hlay q r c
    by_cases hm : (r, c) ∈ entries 0 rows
    · obtain ⟨p, hp⟩ := List.mem_iff_getElem?.1 hm
      rw [k1 p hp, hx q hq, List.getElem?_replicate]
      split <;> rfl
    · exact k2 hm
  refine ⟨⟨hs.comp, ⟨hs.sym.len, hs.sym.wf⟩, ⟨rows, hlay⟩, ?_⟩, ⟨rfl, rfl, rfl⟩, hs.comp, rfl, rfl, rfl, hre', ?_, ?_⟩
  · intro im m hm
    by_cases him : im = true ∧ s.cpx = false
    · obtain ⟨rfl, b⟩ := him
      exact hre' b m hm
    · rw [ho im (by intro h; by_contra h2; exact him ⟨h, by simpa using h2⟩)] at hm
      exact List.eq_of_mem_replicate hm
  · intro im him
    rw [ho im him, List.length_replicate, hx0]
  · intro q hq r c
    unfold entry
    split <;> exact hcell q hq _ _

theorem new_inv (n : Nat) (cpx crm : Bool) : Inv (new n cpx crm : Mat R) ∧ Room (new n cpx crm : Mat R) ∧
    ∀ q r c, entry (new n cpx crm : Mat R) q r c = 0 := by
  have hrep : ∀ im (m : FMap Nat R), m ∈ (new n cpx crm : Mat R).oob im → m = [] := by
    intro im m hm
    simp only [new] at hm
    split at hm
    · simp at hm
    · exact List.eq_of_mem_replicate hm
  have hroom : Room (new n cpx crm : Mat R) := by
    intro im him
    show n ≤ (if im = true ∧ cpx = false then [] else List.replicate n []).length
    rw [if_neg]
    · simp
    · rintro ⟨a, b⟩
      have : cpx = true := him a
      rw [b] at this
      simp at this
  refine ⟨⟨.inr ⟨rfl, ⟨by simp [new], ?_⟩, hroom, ?_⟩, fun _ m hm => hrep true m hm⟩, hroom, ?_⟩
  · intro m hm
    have : m = [] := List.eq_of_mem_replicate hm
    subst this
    exact ⟨FMap.WF.nil, fun r hr => by simp [FMap.has] at hr⟩
  · intro im r m hm
    have := hrep im m (List.mem_of_getElem? hm)
    subst this
    exact ⟨FMap.WF.nil, fun c hc => by simp [FMap.has] at hc⟩
  · intro q r c
    have hcell : ∀ r c, cell (new n cpx crm : Mat R) q r c = 0 := by
      intro r c
      simp only [cell]
      rw [if_neg (by simp [new])]
      cases hg : ((new n cpx crm : Mat R).oob q)[r]? with
      | none => rfl
      | some m =>
        have := hrep q m (List.mem_of_getElem? hg)
        subst this
        rfl
    unfold entry
    split <;> exact hcell _ _

/-! the representation -/

theorem apOf_line (k c0 : Nat) (rows : List (List Nat)) (l : Nat) (hl : l < rows.length) :
    ∃ b e, (apOf k rows)[l]? = some b ∧ (apOf k rows)[l + 1]? = some e ∧ k ≤ b ∧ b ≤ e ∧ e ≤ k + rows.flatten.length ∧
      (∀ j, b ≤ j → j < e → ∃ r, rows.flatten[j - k]? = some r ∧ (entries c0 rows)[j - k]? = some (r, c0 + l)) ∧
      (∀ j r, k ≤ j → (entries c0 rows)[j - k]? = some (r, c0 + l) → b ≤ j ∧ j < e) ∧
      (∀ j j' r r', b ≤ j → j < j' → j' < e → (∀ l ∈ rows, l.Pairwise (· < ·)) → rows.flatten[j - k]? = some r → rows.flatten[j' - k]? = some r' → r < r') := by
  induction rows generalizing k c0 l with
  | nil => simp at hl
  | cons a ls ih =>
    cases l with
    | zero =>
      obtain ⟨t, ht⟩ := apOf_cons (k + a.length) ls
      refine ⟨k, k + a.length, by simp [apOf], by simp [apOf, ht], Nat.le_refl _, by omega, by rw [List.flatten_cons, List.length_append]; omega, ?_, ?_, ?_⟩
      · intro j h1 h2
        have hj : j - k < a.length := by omega
        refine ⟨a[j - k], ?_, ?_⟩
        · rw [List.flatten_cons, List.getElem?_append_left hj, List.getElem?_eq_getElem hj]
        · simp only [entries]
          rw [List.getElem?_append_left (by simpa using hj), List.getElem?_map, List.getElem?_eq_getElem hj]
          rfl
      · intro j r h1 h2
        simp only [entries] at h2
        rw [List.getElem?_append] at h2
        split at h2
        · rename_i h3
          simp only [List.length_map] at h3
          omega
        · have := mem_entries (List.mem_of_getElem? h2)
          simp at this
          omega
      · intro j j' r r' h1 h2 h3 hs hr hr'
        have e1 : j - k < a.length := by omega
        have e2 : j' - k < a.length := by omega
        rw [List.flatten_cons, List.getElem?_append_left e1, List.getElem?_eq_getElem e1, Option.some.injEq] at hr
        rw [List.flatten_cons, List.getElem?_append_left e2, List.getElem?_eq_getElem e2, Option.some.injEq] at hr'
        rw [← hr, ← hr']
        exact List.pairwise_iff_getElem.1 (hs a List.mem_cons_self) _ _ e1 e2 (by omega)
    | succ l =>
      obtain ⟨b, e, g1, g2, g3, g4, g5, g6, g7, g8⟩ := ih (k + a.length) (c0 + 1) l (by simpa using hl)
      have idx : ∀ j, b ≤ j → (a ++ ls.flatten)[j - k]? = ls.flatten[j - (k + a.length)]? := by
        intro j hj
        rw [List.getElem?_append_right (by omega), show j - k - a.length = j - (k + a.length) by omega]
      have idx2 : ∀ j, b ≤ j → (entries c0 (a :: ls))[j - k]? = (entries (c0 + 1) ls)[j - (k + a.length)]? := by
        intro j hj
        simp only [entries]
        rw [List.getElem?_append_right (by simp; omega), List.length_map, show j - k - a.length = j - (k + a.length) by omega]
      refine ⟨b, e, by simpa [apOf] using g1, by simpa [apOf] using g2, by omega, g4, by rw [List.flatten_cons, List.length_append]; omega, ?_, ?_, ?_⟩
      · intro j h1 h2
        obtain ⟨r, q1, q2⟩ := g6 j h1 h2
        refine ⟨r, by rw [List.flatten_cons, idx j h1]; exact q1, ?_⟩
        rw [idx2 j h1, q2, show c0 + 1 + l = c0 + (l + 1) by omega]
      · intro j r h1 h2
        by_cases hj : k + a.length ≤ j
        · refine g7 j r hj ?_
          simp only [entries] at h2
          rw [List.getElem?_append_right (by simp; omega), List.length_map, show j - k - a.length = j - (k + a.length) by omega] at h2
          rw [h2, show c0 + 1 + l = c0 + (l + 1) by omega]
        · simp only [entries] at h2
          rw [List.getElem?_append_left (by simp; omega), List.getElem?_map] at h2
          obtain ⟨z, hz, hz2⟩ := Option.map_eq_some_iff.1 h2
          simp only [Prod.mk.injEq] at hz2
          omega
      · intro j j' r r' h1 h2 h3 hs hr hr'
        rw [List.flatten_cons, idx j h1] at hr
        rw [List.flatten_cons, idx j' (by omega)] at hr'
        exact g8 j j' r r' h1 h2 h3 (fun l hl => hs l (List.mem_cons_of_mem _ hl)) hr hr'

theorem apOf_length (k : Nat) (rows : List (List Nat)) : (apOf k rows).length = rows.length + 1 := by
  induction rows generalizing k with
  | nil => rfl
  | cons a ls ih => simp [apOf, ih]

theorem apOf_last (k : Nat) (rows : List (List Nat)) : (apOf k rows)[rows.length]? = some (k + rows.flatten.length) := by
  induction rows generalizing k with
  | nil => rfl
  | cons a ls ih =>
    simp only [apOf, List.length_cons, List.getElem?_cons_succ, ih, List.flatten_cons, List.length_append]
    congr 1
    omega

open Spec in
theorem represents (s : Mat R) (hs : COk s) (im : Bool) (him : im = true → s.cpx = true) :
    Represents s.n s.ap s.ai (s.x im) (fun l k => cell s im k l) := by
  obtain ⟨rows, hl⟩ := hs.lay
  refine ⟨?_, ?_, ?_, hl.xlen im him, ?_⟩
  · rw [hl.ap, apOf_length, hl.len]
  · rw [hl.ap]
    obtain ⟨t, ht⟩ := apOf_cons 0 rows
    rw [ht]; rfl
  · rw [hl.ap, ← hl.len, apOf_last, hl.ai, Nat.zero_add]
  · intro l hln
    obtain ⟨b, e, g1, g2, g3, g4, g5, g6, g7, g8⟩ := apOf_line 0 0 rows l (by rw [hl.len]; exact hln)
    refine ⟨b, e, by rw [hl.ap]; exact g1, by rw [hl.ap]; exact g2, g4, ?_, ?_, ?_⟩
    · intro j h1 h2
      obtain ⟨r, q1, q2⟩ := g6 j h1 h2
      rw [Nat.sub_zero] at q1 q2
      rw [Nat.zero_add] at q2
      have hjx : j < (s.x im).length := by
        rw [hl.xlen im him, hl.ai]
        exact (List.getElem?_eq_some_iff.1 q1).1
      refine ⟨r, (flatten_lt_of_lay hs.sym hl _ (List.mem_of_getElem? q2)).1, by rw [hl.ai]; exact q1, ?_⟩
      rw [(cell_comp hs.comp hs.sym hl im r l).1 j q2, List.getElem?_eq_getElem hjx]
      rfl
    · intro j j' k k' h1 h2 h3 hk hk'
      rw [hl.ai] at hk hk'
      exact g8 j j' k k' h1 h2 h3 hl.sorted hk hk'
    · intro k hk hno
      refine (cell_comp hs.comp hs.sym hl im k l).2 ?_
      intro hm
      obtain ⟨p, hp⟩ := List.mem_iff_getElem?.1 hm
      have := g7 p k (Nat.zero_le _) (by rw [Nat.sub_zero, Nat.zero_add]; exact hp)
      refine hno p this.1 this.2 ?_
      obtain ⟨r, q1, q2⟩ := g6 p this.1 this.2
      rw [Nat.sub_zero] at q1 q2
      rw [hp] at q2
      simp only [Option.some.injEq, Prod.mk.injEq] at q2
      rw [hl.ai, q1, q2.1]

end Verif.Matrix
