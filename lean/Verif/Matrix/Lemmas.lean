import Verif.Matrix.Model
import Mathlib.Data.List.Sort
/- Layout, cells and the invariant of `CompressedMatrix`. Helper definitions for the proofs, not part of the model. -/
namespace Verif.Matrix
open Verif

variable {R : Type} [AddZeroClass R] [DecidableEq R]

/-- (row, column) of the stored positions, in storage order, when column `c0 + i` stores the rows `rows[i]` -/
def entries : Nat → List (List Nat) → List (Nat × Nat)
  | _, [] => []
  | c, l :: ls => l.map (fun r => (r, c)) ++ entries (c + 1) ls

def apOf : Nat → List (List Nat) → List Nat
  | k, [] => [k]
  | k, l :: ls => k :: apOf (k + l.length) ls

theorem mem_entries {c : Nat} {rows : List (List Nat)} {e : Nat × Nat} (h : e ∈ entries c rows) :
    c ≤ e.2 ∧ e.2 < c + rows.length := by
  induction rows generalizing c with
  | nil => simp [entries] at h
  | cons l ls ih =>
    simp only [entries, List.mem_append, List.mem_map] at h
    rcases h with ⟨a, _, rfl⟩ | h
    · simp
    · have := ih h
      simp only [List.length_cons]
      omega

theorem nodup_entries (c : Nat) (rows : List (List Nat)) (h : ∀ l ∈ rows, l.Pairwise (· < ·)) : (entries c rows).Nodup := by
  induction rows generalizing c with
  | nil => simp [entries]
  | cons l ls ih =>
    simp only [entries]
    rw [List.nodup_append]
    refine ⟨?_, ih _ (fun l hl => h l (List.mem_cons_of_mem _ hl)), ?_⟩
    · refine List.Nodup.map ?_ ?_
      · intro a b hab
        simpa using hab
      · exact (h l List.mem_cons_self).imp (fun h => Nat.ne_of_lt h)
    · intro a ha b hb hab
      subst hab
      simp only [List.mem_map] at ha
      obtain ⟨x, _, rfl⟩ := ha
      have := mem_entries hb
      simp at this
      omega

theorem length_entries (c : Nat) (rows : List (List Nat)) : (entries c rows).length = rows.flatten.length := by
  induction rows generalizing c with
  | nil => rfl
  | cons l ls ih => simp only [entries, List.length_append, List.length_map, ih, List.flatten_cons]

/-- sum, in list order, of the values recorded for `(r, c)` -/
def sumL (r c : Nat) : List ((Nat × Nat) × R) → R → R
  | [], a => a
  | (e, v) :: L, a => sumL r c L (if e = (r, c) then a + v else a)

theorem sumL_append (r c : Nat) (L L' : List ((Nat × Nat) × R)) (a : R) : sumL r c (L ++ L') a = sumL r c L' (sumL r c L a) := by
  induction L generalizing a with
  | nil => rfl
  | cons e L ih => simp only [List.cons_append, sumL, ih]

theorem sumL_not_mem (r c : Nat) (L : List ((Nat × Nat) × R)) (a : R) (h : (r, c) ∉ L.map Prod.fst) : sumL r c L a = a := by
  induction L generalizing a with
  | nil => rfl
  | cons e L ih =>
    obtain ⟨e, v⟩ := e
    simp only [List.map_cons, List.mem_cons, not_or] at h
    simp only [sumL]
    rw [if_neg (fun h' => h.1 h'.symm), ih _ h.2]

theorem sumL_zip (r c : Nat) (E : List (Nat × Nat)) (xs : List R) (hn : E.Nodup) (hl : E.length ≤ xs.length) (a : R) :
    (∀ p : Nat, E[p]? = some (r, c) → ∀ v, xs[p]? = some v → sumL r c (E.zip xs) a = a + v) ∧
    ((r, c) ∉ E → sumL r c (E.zip xs) a = a) := by
  constructor
  · induction E generalizing xs a with
    | nil => simp
    | cons e E ih =>
      cases xs with
      | nil => simp at hl
      | cons x xs =>
        intro p hp v hv
        simp only [List.zip_cons_cons, sumL]
        cases p with
        | zero =>
          simp only [List.getElem?_cons_zero, Option.some.injEq] at hp hv
          subst hp hv
          rw [if_pos rfl]
          refine sumL_not_mem _ _ _ _ ?_
          intro hm
          rw [List.nodup_cons] at hn
          obtain ⟨y, hy, hy2⟩ := List.mem_map.1 hm
          have := (List.of_mem_zip hy).1
          rw [hy2] at this
          exact hn.1 this
        | succ p =>
          simp only [List.getElem?_cons_succ] at hp hv
          rw [List.nodup_cons] at hn
          rw [if_neg]
          · exact ih xs hn.2 (by simpa using hl) _ p hp v hv
          · rintro rfl
            exact hn.1 (List.mem_of_getElem? hp)
  · intro h
    refine sumL_not_mem _ _ _ _ ?_
    intro hm
    obtain ⟨y, hy, hy2⟩ := List.mem_map.1 hm
    have := (List.of_mem_zip hy).1
    rw [hy2] at this
    exact h this

/-- the value stored for row `r`, column `c` of the compressed-column coordinates -/
def cell (s : Mat R) (im : Bool) (r c : Nat) : R :=
  if s.compressed then
    match (s.sym[c]?).bind (fun m => FMap.get m r) with
    | some p => ((s.x im)[p]?).getD 0
    | none => 0
  else (((s.oob im)[r]?).bind (fun m => FMap.get m c)).getD 0

/-- the arrays describe the pattern `rows` and `sym` holds the positions -/
structure Lay (s : Mat R) (rows : List (List Nat)) : Prop where
  len : rows.length = s.n
  sorted : ∀ l ∈ rows, l.Pairwise (· < ·)
  ap : s.ap = apOf 0 rows
  ai : s.ai = rows.flatten
  pos : ∀ (c : Nat) (m : FMap Nat Nat), s.sym[c]? = some m → ∀ r p, m.get r = some p ↔ (entries 0 rows)[p]? = some (r, c)
  xlen : ∀ im, (im = true → s.cpx = true) → (s.x im).length = s.ai.length

structure SymOk (s : Mat R) : Prop where
  len : s.sym.length = s.n
  wf : ∀ m ∈ s.sym, m.WF ∧ ∀ r, m.has r = true → r < s.n

/-- there is an out-of-band table for each row -/
def Room (s : Mat R) : Prop := ∀ im, (im = true → s.cpx = true) → s.n ≤ (s.oob im).length

/-- uncompressed states -/
structure UOk (s : Mat R) : Prop where
  unc : s.compressed = false
  sym : SymOk s
  room : Room s
  inSym : ∀ im (r : Nat) (m : FMap Nat R), (s.oob im)[r]? = some m → m.WF ∧ ∀ c : Nat, m.has c = true → ∃ ms : FMap Nat Nat, s.sym[c]? = some ms ∧ ms.has r = true

/-- compressed states -/
structure COk (s : Mat R) : Prop where
  comp : s.compressed = true
  sym : SymOk s
  lay : ∃ rows, Lay s rows
  empty : ∀ im m, m ∈ s.oob im → m = []

/-- what no operation changes -/
structure Same (s t : Mat R) : Prop where
  n : t.n = s.n
  cpx : t.cpx = s.cpx
  crm : t.crm = s.crm

theorem Same.refl (s : Mat R) : Same s s := ⟨rfl, rfl, rfl⟩
theorem Same.trans {s t u : Mat R} (h : Same s t) (h' : Same t u) : Same s u :=
  ⟨h'.n.trans h.n, h'.cpx.trans h.cpx, h'.crm.trans h.crm⟩

theorem upd_self {A : Type} (f : Bool → A) (im : Bool) (a : A) : upd f im a im = a := by simp [upd]
theorem upd_ne {A : Type} (f : Bool → A) {im q : Bool} (a : A) (h : q ≠ im) : upd f im a q = f q := by simp [upd, h]

theorem addSymbolic_spec (s : Mat R) (hs : SymOk s) {r c : Nat} (hr : r < s.n) (hc : c < s.n) :
    ∃ sy, addSymbolic s r c = some { s with sym := sy } ∧ sy.length = s.n ∧
      (∀ m : FMap Nat Nat, m ∈ sy → m.WF ∧ ∀ r, m.has r = true → r < s.n) ∧
      ∀ (c' : Nat) (m' : FMap Nat Nat), sy[c']? = some m' → ∃ m : FMap Nat Nat, s.sym[c']? = some m ∧ ∀ r', m'.has r' = (decide (r' = r ∧ c' = c) || m.has r') := by
  have hc' : c < s.sym.length := by rw [hs.len]; exact hc
  simp only [addSymbolic]
  rw [List.getElem?_eq_getElem hc']
  have hm := hs.wf s.sym[c] (List.getElem_mem hc')
  generalize hmm : s.sym[c] = m at hm
  have key : ∀ r', FMap.has (if m.has r then m else m.set r 0) r' = (decide (r' = r) || m.has r') := by
    intro r'
    split
    · rename_i h
      by_cases h2 : r' = r
      · subst h2; simp [h]
      · simp [h2]
    · simp only [FMap.has, FMap.get_set]
      by_cases h2 : r' = r
      · simp [h2]
      · simp [h2]
  have keywf : FMap.WF (if m.has r then m else m.set r 0) := by
    split
    · exact hm.1
    · exact hm.1.set _ _
  refine ⟨_, rfl, by simpa using hs.len, ?_, ?_⟩
  · intro m' hm'
    rcases List.mem_or_eq_of_mem_set hm' with h | h
    · exact hs.wf _ h
    · subst h
      refine ⟨keywf, ?_⟩
      intro r' h'
      rw [key] at h'
      simp only [Bool.or_eq_true, decide_eq_true_eq] at h'
      rcases h' with h' | h'
      · rw [h']; exact hr
      · exact hm.2 _ h'
  · intro c' m' h'
    rw [List.getElem?_set] at h'
    split at h'
    · rename_i h2
      subst h2
      try rw [if_pos hc'] at h'
      simp only [Option.some.injEq] at h'
      subst h'
      refine ⟨m, by rw [List.getElem?_eq_getElem hc', hmm], ?_⟩
      intro r'
      rw [key]
      simp
    · rename_i h2
      exact ⟨m', h', fun r' => by simp [Ne.symm h2]⟩

theorem addU_spec (s : Mat R) (hs : UOk s) (im : Bool) {r c : Nat} (v : R) (hr : r < s.n) (hc : c < s.n)
    (him : im = true → s.cpx = true) :
    ∃ s', addU s im r c v = some s' ∧ UOk s' ∧ Same s s' ∧ (∀ q, (s'.oob q).length = (s.oob q).length) ∧
      ∀ q r' c', cell s' q r' c' = if q = im ∧ r' = r ∧ c' = c then cell s q r' c' + v else cell s q r' c' := by
  unfold addU
  by_cases hv : v = 0
  · rw [if_pos hv]
    refine ⟨s, rfl, hs, .refl _, fun _ => rfl, ?_⟩
    intro q r' c'
    subst hv
    rw [add_zero, ite_self]
  rw [if_neg hv]
  obtain ⟨sy, he, hl, hw, hk⟩ := addSymbolic_spec s hs.sym hr hc
  rw [he]
  dsimp only
  have hr' : r < (s.oob im).length := Nat.lt_of_lt_of_le hr (hs.room im him)
  rw [List.getElem?_eq_getElem hr']
  dsimp only
  have hget : (s.oob im)[r]? = some (s.oob im)[r] := List.getElem?_eq_getElem hr'
  generalize hm : (s.oob im)[r] = m at *
  have olen : ∀ q, (upd s.oob im ((s.oob im).set r (m.set c ((m.get c).getD 0 + v))) q).length = (s.oob q).length := by
    intro q
    unfold upd
    split
    · rename_i h; subst h; simp
    · rfl
  refine ⟨_, rfl, ⟨hs.unc, ⟨hl, hw⟩, ?_, ?_⟩, ⟨rfl, rfl, rfl⟩, olen, ?_⟩
  · intro q hq
    rw [olen]
    exact hs.room q hq
  · intro q r' m' h'
    have hsym : ∀ c' r' : Nat, (∃ ms : FMap Nat Nat, s.sym[c']? = some ms ∧ ms.has r' = true) → ∃ ms : FMap Nat Nat, sy[c']? = some ms ∧ ms.has r' = true := by
      rintro c' r' ⟨ms, h1, h2⟩
      have hlt : c' < sy.length := by
        rw [hl, ← hs.sym.len]
        exact (List.getElem?_eq_some_iff.1 h1).1
      obtain ⟨m2, h3, h4⟩ := hk c' sy[c'] (List.getElem?_eq_getElem hlt)
      rw [h1] at h3
      simp only [Option.some.injEq] at h3
      subst h3
      exact ⟨_, List.getElem?_eq_getElem hlt, by rw [h4, h2]; simp⟩
    have old : ∀ m', (s.oob q)[r']? = some m' → m'.WF ∧ ∀ c, m'.has c = true → ∃ ms, sy[c]? = some ms ∧ ms.has r' = true := by
      intro m' h'
      have := hs.inSym q r' m' h'
      exact ⟨this.1, fun c hc => hsym _ _ (this.2 c hc)⟩
    by_cases hq : q = im
    · subst hq
      simp only [upd_self] at h'
      rw [List.getElem?_set] at h'
      split at h'
      · rename_i h2
        subst h2
        try rw [if_pos hr'] at h'
        simp only [Option.some.injEq] at h'
        subst h'
        have o := old m hget
        refine ⟨o.1.set _ _, ?_⟩
        intro c' hc'
        simp only [FMap.has, FMap.get_set] at hc'
        split at hc'
        · rename_i h3
          subst h3
          have hlt : c' < sy.length := by rw [hl]; exact hc
          obtain ⟨m2, h3, h4⟩ := hk c' sy[c'] (List.getElem?_eq_getElem hlt)
          exact ⟨_, List.getElem?_eq_getElem hlt, by rw [h4]; simp⟩
        · exact o.2 c' hc'
      · exact old _ h'
    · simp only [upd_ne _ _ hq] at h'
      exact old _ h'
  · intro q r' c'
    simp only [cell, hs.unc, Bool.false_eq_true, if_false]
    by_cases hq : q = im
    · subst hq
      simp only [upd_self, true_and]
      rw [List.getElem?_set]
      by_cases h2 : r = r'
      · subst h2
        rw [if_pos rfl, if_pos hr', hget]
        simp only [Option.bind_some, FMap.get_set, true_and]
        by_cases h3 : c' = c
        · subst h3; simp
        · simp [h3]
      · rw [if_neg h2]
        rw [if_neg (fun h => h2 h.1.symm)]
    · simp only [upd_ne _ _ hq]
      rw [if_neg (fun h => hq h.1)]

theorem getElem?_drop_cons {A : Type} {l : List A} {k : Nat} {a : A} {t : List A} (h : l.drop k = a :: t) :
    l[k]? = some a ∧ l.drop (k + 1) = t := by
  constructor
  · have := congrArg (fun z => z[0]?) h
    simpa using this
  · rw [← List.drop_drop, h]; rfl

theorem decompressLine_spec (im : Bool) (ai : List Nat) (xs : List R) (i : Nat) (l : List Nat) (j : Nat) (post : List Nat)
    (s : Mat R) (hs : UOk s) (hai : ai.drop j = l ++ post) (hx : ai.length = xs.length) (hl : ∀ r ∈ l, r < s.n) (hi : i < s.n)
    (him : im = true → s.cpx = true) :
    ∃ s', decompressLine im ai xs i j l.length s = some s' ∧ UOk s' ∧ Same s s' ∧ (∀ q, (s'.oob q).length = (s.oob q).length) ∧
      ∀ q r c, cell s' q r c = if q = im then sumL r c ((l.map (fun r => (r, i))).zip (xs.drop j)) (cell s q r c) else cell s q r c := by
  induction l generalizing j s with
  | nil =>
    refine ⟨s, rfl, hs, .refl _, fun _ => rfl, ?_⟩
    intro q r c
    simp [sumL]
  | cons a l ih =>
    obtain ⟨h1, h2⟩ := getElem?_drop_cons (by simpa using hai)
    have hj : j < xs.length := by rw [← hx]; exact (List.getElem?_eq_some_iff.1 h1).1
    have h3 : xs[j]? = some xs[j] := List.getElem?_eq_getElem hj
    simp only [List.length_cons, decompressLine]
    rw [h1, h3]
    dsimp only
    obtain ⟨s1, e1, u1, sm1, ol1, c1⟩ := addU_spec s hs im xs[j] (hl a List.mem_cons_self) hi him
    rw [e1]
    dsimp only
    obtain ⟨s2, e2, u2, sm2, ol2, c2⟩ := ih (j + 1) s1 u1 h2 (fun r hr => by rw [sm1.n]; exact hl r (List.mem_cons_of_mem _ hr))
      (by rw [sm1.n]; exact hi) (fun h => by rw [sm1.cpx]; exact him h)
    refine ⟨s2, e2, u2, sm1.trans sm2, fun q => (ol2 q).trans (ol1 q), ?_⟩
    intro q r c
    rw [c2]
    by_cases hq : q = im
    · rw [if_pos hq, if_pos hq, c1]
      rw [List.drop_eq_getElem_cons hj]
      simp only [List.map_cons, List.zip_cons_cons, sumL]
      congr 1
      by_cases h4 : (a, i) = (r, c)
      · simp only [Prod.mk.injEq] at h4
        rw [if_pos ⟨hq, h4.1.symm, h4.2.symm⟩, if_pos (by rw [h4.1, h4.2])]
      · rw [if_neg h4, if_neg]
        rintro ⟨_, rfl, rfl⟩
        exact h4 rfl
    · rw [if_neg hq, if_neg hq, c1, if_neg (fun h => hq h.1)]

theorem apOf_cons (k : Nat) (rows : List (List Nat)) : ∃ t, apOf k rows = k :: t := by
  cases rows with
  | nil => exact ⟨[], rfl⟩
  | cons l ls => exact ⟨_, rfl⟩

theorem zip_append_left {A B : Type} (l l' : List A) (x : List B) (h : l.length ≤ x.length) :
    (l ++ l').zip x = l.zip x ++ l'.zip (x.drop l.length) := by
  induction l generalizing x with
  | nil => simp
  | cons a l ih =>
    cases x with
    | nil => simp at h
    | cons b x =>
      simp only [List.cons_append, List.zip_cons_cons, List.length_cons, List.drop_succ_cons]
      rw [ih _ (by simpa using h)]

theorem decompressLoop_spec (ai : List Nat) (x : Bool → List R) (rows : List (List Nat)) (k i : Nat)
    (s : Mat R) (hs : UOk s) (hai : ai.drop k = rows.flatten) (hk : k ≤ ai.length)
    (hx : ∀ im, (im = true → s.cpx = true) → ai.length = (x im).length)
    (hl : ∀ l ∈ rows, ∀ r ∈ l, r < s.n) (hi : i + rows.length ≤ s.n) :
    ∃ s', decompressLoop ai x (apOf k rows) i s = some s' ∧ UOk s' ∧ Same s s' ∧ (∀ q, (s'.oob q).length = (s.oob q).length) ∧
      ∀ q, (q = true → s.cpx = true) → ∀ r c, cell s' q r c = sumL r c ((entries i rows).zip ((x q).drop k)) (cell s q r c) := by
  induction rows generalizing k i s with
  | nil =>
    refine ⟨s, rfl, hs, .refl _, fun _ => rfl, ?_⟩
    intro q _ r c
    simp [entries, sumL]
  | cons l ls ih =>
    obtain ⟨t, ht⟩ := apOf_cons (k + l.length) ls
    simp only [apOf]
    rw [ht]
    simp only [decompressLoop]
    simp only [List.length_cons] at hi
    have hl0 : ∀ r ∈ l, r < s.n := hl l List.mem_cons_self
    have hlen : k + l.length ≤ ai.length := by
      have := congrArg List.length hai
      simp only [List.length_drop, List.flatten_cons, List.length_append] at this
      omega
    rw [show k + l.length - k = l.length by omega]
    obtain ⟨s1, e1, u1, sm1, ol1, c1⟩ := decompressLine_spec false ai (x false) i l k ls.flatten s hs (by simpa using hai)
      (hx false (by simp)) hl0 (by omega) (by simp)
    rw [e1]
    dsimp only
    have step2 : ∃ s2, (if s1.cpx then decompressLine true ai (x true) i k l.length s1 else some s1) = some s2 ∧ UOk s2 ∧ Same s s2 ∧
        (∀ q, (s2.oob q).length = (s.oob q).length) ∧
        ∀ q, (q = true → s.cpx = true) → ∀ r c,
          cell s2 q r c = sumL r c ((l.map (fun r => (r, i))).zip ((x q).drop k)) (cell s q r c) := by
      by_cases hc : s1.cpx = true
      · rw [if_pos hc]
        obtain ⟨s2, e2, u2, sm2, ol2, c2⟩ := decompressLine_spec true ai (x true) i l k ls.flatten s1 u1 (by simpa using hai)
          (hx true (fun _ => by rw [← sm1.cpx]; exact hc)) (by rw [sm1.n]; exact hl0) (by rw [sm1.n]; omega) (fun _ => hc)
        refine ⟨s2, e2, u2, sm1.trans sm2, fun q => (ol2 q).trans (ol1 q), ?_⟩
        intro q _ r c
        rw [c2, c1]
        cases q <;> simp
      · rw [if_neg hc]
        refine ⟨s1, rfl, u1, sm1, ol1, ?_⟩
        intro q hq r c
        rw [c1]
        cases q
        · simp
        · exact absurd (by rw [sm1.cpx]; exact hq rfl) hc
    obtain ⟨s2, e2, u2, sm2, ol2, c2⟩ := step2
    rw [e2]
    dsimp only
    rw [← ht]
    obtain ⟨s3, e3, u3, sm3, ol3, c3⟩ := ih (k + l.length) (i + 1) s2 u2
      (by rw [← List.drop_drop, hai]; simp) hlen (by rw [sm2.cpx]; exact hx)
      (by rw [sm2.n]; exact fun l hl' => hl l (List.mem_cons_of_mem _ hl')) (by rw [sm2.n]; omega)
    refine ⟨s3, e3, u3, sm2.trans sm3, fun q => (ol3 q).trans (ol2 q), ?_⟩
    intro q hq r c
    rw [c3 q (by rw [sm2.cpx]; exact hq), c2 q hq]
    simp only [entries]
    rw [zip_append_left, sumL_append, List.length_map, List.drop_drop]
    rw [List.length_map, List.length_drop, ← hx q hq]
    omega

theorem flatten_lt_of_lay {s : Mat R} {rows : List (List Nat)} (hs : SymOk s) (hl : Lay s rows) :
    ∀ e ∈ entries 0 rows, e.1 < s.n ∧ e.2 < s.n := by
  intro e he
  have h2 : e.2 < s.n := by have := mem_entries he; rw [← hl.len]; omega
  refine ⟨?_, h2⟩
  obtain ⟨p, hp⟩ := List.mem_iff_getElem?.1 he
  have hlt : e.2 < s.sym.length := by rw [hs.len]; exact h2
  have := (hl.pos e.2 s.sym[e.2] (List.getElem?_eq_getElem hlt) e.1 p).2 hp
  exact (hs.wf _ (List.getElem_mem hlt)).2 e.1 (by simp [FMap.has, this])

theorem mem_entries_of {rows : List (List Nat)} (c : Nat) {l : List Nat} (hl : l ∈ rows) {r : Nat} (hr : r ∈ l) :
    ∃ c', (r, c') ∈ entries c rows := by
  induction rows generalizing c with
  | nil => simp at hl
  | cons a ls ih =>
    simp only [entries, List.mem_append, List.mem_map]
    rcases List.mem_cons.1 hl with rfl | h
    · exact ⟨c, .inl ⟨r, hr, rfl⟩⟩
    · obtain ⟨c', h'⟩ := ih (c + 1) h
      exact ⟨c', .inr h'⟩

theorem cell_comp {s : Mat R} {rows : List (List Nat)} (hc : s.compressed = true) (hs : SymOk s) (hl : Lay s rows) (im : Bool) (r c : Nat) :
    (∀ p : Nat, (entries 0 rows)[p]? = some (r, c) → cell s im r c = ((s.x im)[p]?).getD 0) ∧ ((r, c) ∉ entries 0 rows → cell s im r c = 0) := by
  constructor
  · intro p hp
    have h2 := (flatten_lt_of_lay hs hl _ (List.mem_of_getElem? hp)).2
    have hlt : c < s.sym.length := by rw [hs.len]; exact h2
    have hg := List.getElem?_eq_getElem hlt
    have := (hl.pos c _ hg r p).2 hp
    simp only [cell, hc, if_true, hg, Option.bind_some, this]
  · intro hn
    simp only [cell, hc, if_true]
    cases hg : s.sym[c]? with
    | none => simp
    | some m =>
      simp only [Option.bind_some]
      cases hr : m.get r with
      | none => simp
      | some p => exact absurd (List.mem_of_getElem? ((hl.pos c m hg r p).1 hr)) hn

theorem decompress_spec (s : Mat R) (hs : COk s) (hroom : Room s) :
    ∃ s', decompress s = some s' ∧ UOk s' ∧ Same s s' ∧ (∀ q, (s'.oob q).length = (s.oob q).length) ∧
      ∀ q, (q = true → s.cpx = true) → ∀ r c, cell s' q r c = cell s q r c := by
  obtain ⟨rows, hl⟩ := hs.lay
  unfold decompress
  rw [if_neg (by rw [hs.comp]; simp)]
  have u0 : UOk { s with compressed := false } := by
    refine ⟨rfl, ⟨hs.sym.len, hs.sym.wf⟩, hroom, ?_⟩
    intro im r m h
    have := hs.empty im m (List.mem_of_getElem? h)
    subst this
    exact ⟨FMap.WF.nil, fun c hc => by simp [FMap.has] at hc⟩
  have hbd : ∀ l ∈ rows, ∀ r ∈ l, r < s.n := by
    intro l hl' r hr
    obtain ⟨c', h'⟩ := mem_entries_of 0 hl' hr
    exact (flatten_lt_of_lay hs.sym hl _ h').1
  obtain ⟨s1, e1, u1, sm1, ol1, c1⟩ := decompressLoop_spec s.ai s.x rows 0 0 { s with compressed := false } u0
    (by simpa using hl.ai) (Nat.zero_le _) (fun im h => (hl.xlen im h).symm) hbd (by simp [hl.len])
  rw [← hl.ap] at e1
  rw [e1]
  refine ⟨_, rfl, ⟨u1.unc, ⟨u1.sym.len, u1.sym.wf⟩, u1.room, u1.inSym⟩, ⟨sm1.n, sm1.cpx, sm1.crm⟩, ol1, ?_⟩
  intro q hq r c
  have h0 : cell { s with compressed := false } q r c = 0 := by
    simp only [cell, Bool.false_eq_true, if_false]
    cases hg : (s.oob q)[r]? with
    | none => simp
    | some m =>
      have := hs.empty q m (List.mem_of_getElem? hg)
      subst this
      simp
  have hcell : cell { s1 with ai := [], x := fun _ => [] } q r c = cell s1 q r c := by
    simp only [cell, u1.unc, Bool.false_eq_true, if_false]
  rw [hcell, c1 q hq, h0, List.drop_zero]
  have hlen : (entries 0 rows).length ≤ (s.x q).length := by
    rw [hl.xlen q hq, hl.ai, length_entries]
  obtain ⟨z1, z2⟩ := sumL_zip r c (entries 0 rows) (s.x q) (nodup_entries 0 rows hl.sorted) hlen 0
  obtain ⟨k1, k2⟩ := cell_comp hs.comp hs.sym hl q r c
  by_cases hm : (r, c) ∈ entries 0 rows
  · obtain ⟨p, hp⟩ := List.mem_iff_getElem?.1 hm
    have hp' : p < (s.x q).length := Nat.lt_of_lt_of_le (List.getElem?_eq_some_iff.1 hp).1 hlen
    have hv := List.getElem?_eq_getElem hp'
    rw [z1 p hp _ hv, k1 p hp, hv, zero_add]; rfl
  · rw [z2 hm, k2 hm]

/-- adding inside the pattern of a compressed matrix -/
theorem addPattern_spec (s : Mat R) {rows : List (List Nat)} (hc : s.compressed = true) (hs : SymOk s) (hl : Lay s rows) (im : Bool)
    {r c : Nat} (v : R) (hm : (r, c) ∈ entries 0 rows) (him : im = true → s.cpx = true) :
    ∃ xs, addImpl s im r c v = some { s with x := xs } ∧ Lay { s with x := xs } rows ∧
      ∀ q r' c', cell { s with x := xs } q r' c' = if q = im ∧ r' = r ∧ c' = c then cell s q r' c' + v else cell s q r' c' := by
  unfold addImpl
  by_cases hv : v = 0
  · rw [if_pos hv]
    refine ⟨s.x, rfl, hl, ?_⟩
    intro q r' c'
    subst hv
    rw [add_zero, ite_self]
  rw [if_neg hv, if_pos hc]
  obtain ⟨p, hp⟩ := List.mem_iff_getElem?.1 hm
  have hlt : c < s.sym.length := by rw [hs.len]; exact (flatten_lt_of_lay hs hl _ hm).2
  have hg := List.getElem?_eq_getElem hlt
  rw [hg]
  dsimp only
  rw [(hl.pos c _ hg r p).2 hp]
  dsimp only
  have hp' : p < (s.x im).length := by
    rw [hl.xlen im him, hl.ai, ← length_entries 0]
    exact (List.getElem?_eq_some_iff.1 hp).1
  rw [List.getElem?_eq_getElem hp']
  dsimp only
  have hl' : Lay { s with x := upd s.x im ((s.x im).set p ((s.x im)[p] + v)) } rows := by
    refine ⟨hl.len, hl.sorted, hl.ap, hl.ai, hl.pos, ?_⟩
    intro q hq
    show (upd s.x im _ q).length = s.ai.length
    unfold upd
    split
    · rename_i h; subst h; simpa using hl.xlen q hq
    · exact hl.xlen q hq
  refine ⟨_, rfl, hl', ?_⟩
  intro q r' c'
  obtain ⟨a1, a2⟩ := cell_comp (s := { s with x := upd s.x im ((s.x im).set p ((s.x im)[p] + v)) }) hc ⟨hs.len, hs.wf⟩ hl' q r' c'
  obtain ⟨k1, k2⟩ := cell_comp hc hs hl q r' c'
  by_cases hm' : (r', c') ∈ entries 0 rows
  · obtain ⟨p', hp2⟩ := List.mem_iff_getElem?.1 hm'
    rw [a1 p' hp2, k1 p' hp2]
    dsimp only
    by_cases hq : q = im
    · subst hq
      rw [upd_self, List.getElem?_set]
      by_cases h3 : p = p'
      · subst h3
        rw [hp] at hp2
        simp only [Option.some.injEq, Prod.mk.injEq] at hp2
        rw [if_pos rfl, if_pos hp', if_pos ⟨rfl, hp2.1.symm, hp2.2.symm⟩, List.getElem?_eq_getElem hp']
        rfl
      · rw [if_neg h3, if_neg]
        rintro ⟨_, rfl, rfl⟩
        have hnd := nodup_entries 0 rows hl.sorted
        have l1 := (List.getElem?_eq_some_iff.1 hp).1
        exact h3 ((List.getElem?_inj l1 hnd).1 (hp.trans hp2.symm))
    · rw [upd_ne _ _ hq, if_neg (fun h => hq h.1)]
  · rw [a2 hm', k2 hm', if_neg]
    rintro ⟨_, rfl, rfl⟩
    exact hm' hm

/-! `CreateMatrix` -/

theorem setPos_get (m : FMap Nat Nat) (rows : List Nat) (i : Nat) (hn : rows.Nodup) (r p : Nat) :
    (setPos m rows i).get r = some p ↔ (∃ j, rows[j]? = some r ∧ p = i + j) ∨ (r ∉ rows ∧ m.get r = some p) := by
  induction rows generalizing m i with
  | nil => simp [setPos]
  | cons a rows ih =>
    rw [List.nodup_cons] at hn
    simp only [setPos]
    rw [ih _ _ hn.2, FMap.get_set]
    constructor
    · rintro (⟨j, hj, rfl⟩ | ⟨h1, h2⟩)
      · exact .inl ⟨j + 1, by simpa using hj, by omega⟩
      · split at h2
        · rename_i h3
          subst h3
          simp only [Option.some.injEq] at h2
          exact .inl ⟨0, by simp, by omega⟩
        · rename_i h3
          exact .inr ⟨by simp [h1, h3], h2⟩
    · rintro (⟨j, hj, rfl⟩ | ⟨h1, h2⟩)
      · cases j with
        | zero =>
          simp only [List.getElem?_cons_zero, Option.some.injEq] at hj
          subst hj
          exact .inr ⟨hn.1, by simp⟩
        | succ j => exact .inl ⟨j, by simpa using hj, by omega⟩
      · simp only [List.mem_cons, not_or] at h1
        exact .inr ⟨h1.2, by rw [if_neg h1.1]; exact h2⟩

theorem setPos_wf (m : FMap Nat Nat) (rows : List Nat) (i : Nat) (h : m.WF) : (setPos m rows i).WF := by
  induction rows generalizing m i with
  | nil => exact h
  | cons a rows ih => exact ih _ _ (h.set _ _)

/-- the sorted rows of a column -/
def sortedRows (m : FMap Nat Nat) : List Nat := m.keys.insertionSort (· ≤ ·)

theorem sortedRows_perm (m : FMap Nat Nat) : (sortedRows m).Perm m.keys := List.perm_insertionSort _ _

theorem sortedRows_sorted (m : FMap Nat Nat) (h : m.WF) : (sortedRows m).Pairwise (· < ·) := by
  have h1 : (sortedRows m).Pairwise (· ≤ ·) := List.pairwise_insertionSort _ _
  have h2 : (sortedRows m).Pairwise (· ≠ ·) := (sortedRows_perm m).nodup_iff.2 h
  have := List.pairwise_and_iff.2 ⟨h1, h2⟩
  refine this.imp ?_
  rintro a b ⟨hab, hne⟩
  omega

theorem setPos_sorted_get (m : FMap Nat Nat) (h : m.WF) (i r p : Nat) :
    (setPos m (sortedRows m) i).get r = some p ↔ ∃ j, (sortedRows m)[j]? = some r ∧ p = i + j := by
  rw [setPos_get _ _ _ ((sortedRows_perm m).nodup_iff.2 h)]
  constructor
  · rintro (h | ⟨h1, h2⟩)
    · exact h
    · exfalso
      apply h1
      rw [(sortedRows_perm m).mem_iff, FMap.mem_keys, h2]
      rfl
  · exact .inl

theorem setPos_sorted_has (m : FMap Nat Nat) (h : m.WF) (i r : Nat) : (setPos m (sortedRows m) i).has r = m.has r := by
  rw [Bool.eq_iff_iff, FMap.has_iff m, ← (sortedRows_perm m).mem_iff]
  constructor
  · intro hr
    obtain ⟨p, hp⟩ := Option.isSome_iff_exists.1 hr
    obtain ⟨j, hj, _⟩ := (setPos_sorted_get m h i r p).1 hp
    exact List.mem_of_getElem? hj
  · intro hr
    obtain ⟨j, hj⟩ := List.mem_iff_getElem?.1 hr
    have := (setPos_sorted_get m h i r (i + j)).2 ⟨j, hj, rfl⟩
    simp [FMap.has, this]

theorem createCols_spec (ms : List (FMap Nat Nat)) (k c0 : Nat) (hw : ∀ m ∈ ms, m.WF) :
    (createCols ms k).2.1 = apOf k (ms.map sortedRows) ∧ (createCols ms k).2.2 = (ms.map sortedRows).flatten ∧
    (createCols ms k).1.length = ms.length ∧
    (∀ c m', (createCols ms k).1[c]? = some m' →
      (∃ m, ms[c]? = some m ∧ ∀ r, m'.has r = m.has r) ∧ m'.WF ∧
      ∀ r p, m'.get r = some p ↔ k ≤ p ∧ (entries c0 (ms.map sortedRows))[p - k]? = some (r, c0 + c)) := by
  induction ms generalizing k c0 with
  | nil => simp [createCols, apOf]
  | cons m ms ih =>
    have hwm := hw m List.mem_cons_self
    obtain ⟨h1, h2, h3, h4⟩ := ih (k + (sortedRows m).length) (c0 + 1) (fun m' h => hw m' (List.mem_cons_of_mem _ h))
    simp only [createCols, List.map_cons, apOf, List.flatten_cons, List.length_cons, entries]
    refine ⟨by rw [← h1]; rfl, by rw [← h2]; rfl, by rw [← h3]; rfl, ?_⟩
    intro c m' hm'
    cases c with
    | zero =>
      simp only [List.getElem?_cons_zero, Option.some.injEq] at hm'
      have hm'' : setPos m (sortedRows m) k = m' := hm'
      subst hm''
      refine ⟨⟨m, by simp, setPos_sorted_has m hwm k⟩, setPos_wf _ _ _ hwm, ?_⟩
      intro r p
      rw [setPos_sorted_get m hwm]
      constructor
      · rintro ⟨j, hj, rfl⟩
        refine ⟨by omega, ?_⟩
        have hjl := (List.getElem?_eq_some_iff.1 hj).1
        rw [show k + j - k = j by omega, List.getElem?_append_left (by simpa using hjl), List.getElem?_map, hj]
        rfl
      · rintro ⟨hkp, he⟩
        rw [List.getElem?_append] at he
        split at he
        · rw [List.getElem?_map] at he
          obtain ⟨a, ha, hae⟩ := Option.map_eq_some_iff.1 he
          simp only [Prod.mk.injEq] at hae
          exact ⟨p - k, by rw [ha, hae.1], by omega⟩
        · have := mem_entries (List.mem_of_getElem? he)
          simp at this
          omega
    | succ c =>
      simp only [List.getElem?_cons_succ] at hm'
      obtain ⟨⟨m0, g1, g2⟩, g3, g4⟩ := h4 c m' hm'
      refine ⟨⟨m0, by simpa using g1, g2⟩, g3, ?_⟩
      intro r p
      rw [g4]
      have e1 : c0 + 1 + c = c0 + (c + 1) := by omega
      rw [e1]
      constructor
      · rintro ⟨q1, q2⟩
        refine ⟨by omega, ?_⟩
        rw [List.getElem?_append_right (by simp only [List.length_map]; omega), List.length_map,
          show p - k - (sortedRows m).length = p - (k + (sortedRows m).length) by omega]
        exact q2
      · rintro ⟨q1, q2⟩
        rw [List.getElem?_append] at q2
        split at q2
        · rw [List.getElem?_map] at q2
          obtain ⟨a, ha, hae⟩ := Option.map_eq_some_iff.1 q2
          simp only [Prod.mk.injEq] at hae
          omega
        · rename_i hlt
          simp only [List.length_map] at hlt q2
          refine ⟨by omega, ?_⟩
          rw [show p - (k + (sortedRows m).length) = p - k - (sortedRows m).length by omega]
          exact q2

theorem createMatrix_spec (s : Mat R) (hs : SymOk s) :
    SymOk (createMatrix s) ∧ Same s (createMatrix s) ∧ (createMatrix s).compressed = true ∧ (createMatrix s).oob = s.oob ∧
    Lay (createMatrix s) (s.sym.map sortedRows) ∧ (∀ im, (im = true → s.cpx = true) → ∀ r c, cell (createMatrix s) im r c = 0) ∧
    (∀ r c ms, s.sym[c]? = some ms → ms.has r = true → (r, c) ∈ entries 0 (s.sym.map sortedRows)) := by
  obtain ⟨h1, h2, h3, h4⟩ := createCols_spec s.sym 0 0 (fun m hm => (hs.wf m hm).1)
  have hsym : SymOk (createMatrix s) := by
    refine ⟨h3.trans hs.len, ?_⟩
    intro m' hm'
    obtain ⟨c, hc⟩ := List.mem_iff_getElem?.1 hm'
    obtain ⟨⟨m, g1, g2⟩, g3, _⟩ := h4 c m' hc
    exact ⟨g3, fun r hr => (hs.wf m (List.mem_of_getElem? g1)).2 r (by rw [← g2]; exact hr)⟩
  have hx : ∀ im, (im = true → s.cpx = true) → (createMatrix s).x im = List.replicate (createMatrix s).ai.length 0 := by
    intro im him
    show (if im = true ∧ s.cpx = false then s.x im else _) = _
    rw [if_neg]
    · rfl
    · rintro ⟨a, b⟩
      rw [him a] at b
      exact absurd b (by simp)
  have hlay : Lay (createMatrix s) (s.sym.map sortedRows) := by
    refine ⟨by rw [List.length_map]; exact hs.len, ?_, h1, h2, ?_, ?_⟩
    · intro l hl
      obtain ⟨m, hm, rfl⟩ := List.mem_map.1 hl
      exact sortedRows_sorted m (hs.wf m hm).1
    · intro c m' hm' r p
      have := (h4 c m' hm').2.2 r p
      simpa using this
    · intro im him
      rw [hx im him]
      simp
  refine ⟨hsym, ⟨rfl, rfl, rfl⟩, rfl, rfl, hlay, ?_, ?_⟩
  · intro im him r c
    obtain ⟨k1, k2⟩ := cell_comp (s := createMatrix s) rfl hsym hlay im r c
    by_cases hm : (r, c) ∈ entries 0 (s.sym.map sortedRows)
    · obtain ⟨p, hp⟩ := List.mem_iff_getElem?.1 hm
      rw [k1 p hp, hx im him, List.getElem?_replicate]
      split <;> rfl
    · exact k2 hm
  · intro r c ms hms hr
    have hc : c < (createMatrix s).sym.length := by
      rw [show (createMatrix s).sym.length = s.sym.length from h3]
      exact (List.getElem?_eq_some_iff.1 hms).1
    have hg := List.getElem?_eq_getElem hc
    obtain ⟨⟨m, g1, g2⟩, g3, g4⟩ := h4 c _ hg
    rw [hms] at g1
    simp only [Option.some.injEq] at g1
    subst g1
    rw [← g2] at hr
    obtain ⟨p, hp⟩ := Option.isSome_iff_exists.1 hr
    have := (g4 r p).1 hp
    exact List.mem_of_getElem? (by simpa using this.2)

/-! `Finalize` -/

theorem get_of_mem_wf {m : FMap Nat R} : ∀ {c : Nat} {v : R}, FMap.WF ((c, v) :: m) → FMap.get m c = none := by
  intro c v h
  have h' : c ∉ FMap.keys m := by
    have : (FMap.keys ((c, v) :: m)).Nodup := h
    simp only [FMap.keys, List.map_cons, List.nodup_cons] at this
    exact this.1
  rw [FMap.mem_keys] at h'
  simpa using h'

theorem reAddRow_spec (im : Bool) (i : Nat) (m : FMap Nat R) (s : Mat R) {rows : List (List Nat)} (hc : s.compressed = true)
    (hs : SymOk s) (hl : Lay s rows) (hm : m.WF) (hin : ∀ c, m.has c = true → (i, c) ∈ entries 0 rows) (him : im = true → s.cpx = true) :
    ∃ xs, reAddRow im i m s = some { s with x := xs } ∧ Lay { s with x := xs } rows ∧
      ∀ q r c, cell { s with x := xs } q r c = if q = im ∧ r = i then cell s q r c + (m.get c).getD 0 else cell s q r c := by
  induction m generalizing s with
  | nil =>
    refine ⟨s.x, rfl, hl, ?_⟩
    intro q r c
    simp
  | cons e m ih =>
    obtain ⟨c1, v⟩ := e
    have hnone := get_of_mem_wf hm
    have hm' : FMap.WF m := by
      have : (FMap.keys ((c1, v) :: m)).Nodup := hm
      simp only [FMap.keys, List.map_cons, List.nodup_cons] at this
      exact this.2
    simp only [reAddRow]
    obtain ⟨xs, e1, l1, k1⟩ := addPattern_spec s hc hs hl im (r := i) (c := c1) v (hin c1 (by simp [FMap.has, FMap.get])) him
    rw [e1]
    dsimp only
    obtain ⟨xs2, e2, l2, k2⟩ := ih { s with x := xs } hc ⟨hs.len, hs.wf⟩ l1 hm' (by
      intro c hc'
      refine hin c ?_
      simp only [FMap.has, FMap.get]
      split
      · rfl
      · exact hc') him
    refine ⟨xs2, e2, l2, ?_⟩
    intro q r c
    rw [k2, k1]
    simp only [FMap.get]
    by_cases hq : q = im ∧ r = i
    · rw [if_pos hq, if_pos hq]
      by_cases h3 : c1 = c
      · subst h3
        rw [if_pos ⟨hq.1, hq.2, rfl⟩, if_pos rfl, hnone]
        simp
      · rw [if_neg (fun h => h3 h.2.2.symm), if_neg h3]
    · rw [if_neg hq, if_neg hq, if_neg (fun h => hq ⟨h.1, h.2.1⟩)]

theorem reAdd_spec (im : Bool) (i : Nat) (ms : List (FMap Nat R)) (s : Mat R) {rows : List (List Nat)} (hc : s.compressed = true)
    (hs : SymOk s) (hl : Lay s rows) (hm : ∀ r m, ms[r]? = some m → m.WF ∧ ∀ c, m.has c = true → (i + r, c) ∈ entries 0 rows)
    (him : im = true → s.cpx = true) :
    ∃ xs, reAdd im i ms s = some { s with x := xs } ∧ Lay { s with x := xs } rows ∧
      ∀ q r c, cell { s with x := xs } q r c =
        if q = im ∧ i ≤ r then cell s q r c + ((ms[r - i]?).bind (fun m => FMap.get m c)).getD 0 else cell s q r c := by
  induction ms generalizing s i with
  | nil =>
    refine ⟨s.x, rfl, hl, ?_⟩
    intro q r c
    simp
  | cons m ms ih =>
    simp only [reAdd]
    have h0 := hm 0 m (by simp)
    obtain ⟨xs, e1, l1, k1⟩ := reAddRow_spec im i m s hc hs hl h0.1 (fun c h => h0.2 c h) him
    rw [e1]
    dsimp only
    obtain ⟨xs2, e2, l2, k2⟩ := ih (i + 1) { s with x := xs } hc ⟨hs.len, hs.wf⟩ l1 (by
      intro r m' h
      have := hm (r + 1) m' (by simpa using h)
      rw [show i + 1 + r = i + (r + 1) by omega]
      exact this) him
    refine ⟨xs2, e2, l2, ?_⟩
    intro q r c
    rw [k2, k1]
    by_cases hq : q = im
    · by_cases h3 : r = i
      · subst h3
        rw [if_neg (by omega), if_pos ⟨hq, rfl⟩, if_pos ⟨hq, Nat.le_refl _⟩]
        simp
      · simp only [h3, and_false, if_false]
        by_cases h4 : i ≤ r
        · rw [if_pos ⟨hq, by omega⟩, if_pos ⟨hq, h4⟩]
          obtain ⟨d, hd⟩ : ∃ d, r - i = d + 1 := ⟨r - i - 1, by omega⟩
          rw [hd, show r - (i + 1) = d by omega]
          simp
        · rw [if_neg (fun h => by omega), if_neg (fun h => h4 h.2)]
    · rw [if_neg (fun h => hq h.1), if_neg (fun h => hq h.1), if_neg (fun h => hq h.1)]

theorem cell_clearOob (s : Mat R) (hc : s.compressed = true) (im : Bool) (k : Nat) (q : Bool) (r c : Nat) :
    cell (clearOob s im k) q r c = cell s q r c := by
  simp only [cell, clearOob, hc, if_true]

theorem finalize_unc_spec (s : Mat R) (hs : UOk s) (hni : s.cpx = false → ∀ m ∈ s.oob true, m = []) :
    ∃ s', finalize s = some s' ∧ COk s' ∧ Room s' ∧ Same s s' ∧ s'.sameSym = false ∧
      Lay s' (s.sym.map sortedRows) ∧
      ∀ q, (q = true → s.cpx = true) → ∀ r c, cell s' q r c = cell s q r c := by
  unfold finalize
  rw [if_neg (by rw [hs.unc]; simp)]
  obtain ⟨a1, a2, a3, a4, a5, a6, a7⟩ := createMatrix_spec { s with sameSym := false } ⟨hs.sym.len, hs.sym.wf⟩
  have aS : (createMatrix { s with sameSym := false }).sameSym = false := rfl
  generalize createMatrix { s with sameSym := false } = t at *
  dsimp only at a2 a4 a5 a6 a7
  have hin : ∀ im, ∀ r m, (s.oob im)[r]? = some m → m.WF ∧ ∀ c, m.has c = true → (0 + r, c) ∈ entries 0 (s.sym.map sortedRows) := by
    intro im r m hm
    have := hs.inSym im r m hm
    refine ⟨this.1, fun c hc => ?_⟩
    obtain ⟨ms, h1, h2⟩ := this.2 c hc
    rw [Nat.zero_add]
    exact a7 r c ms h1 h2
  obtain ⟨xs, e1, l1, k1⟩ := reAdd_spec false 0 (s.oob false) t a3 a1 a5 (hin false) (by simp)
  rw [e1]
  dsimp only
  have kc : ∀ q r c, cell (clearOob { t with x := xs } false t.n) q r c = cell { t with x := xs } q r c :=
    fun q r c => cell_clearOob { t with x := xs } a3 _ _ _ _ _
  have so : (clearOob { t with x := xs } false t.n).oob true = s.oob true := by
    simp [clearOob, upd, a4]
  have hoobF : (clearOob { t with x := xs } false t.n).oob false = List.replicate t.n [] := by
    simp [clearOob, upd]
  have hlay2 : Lay (clearOob { t with x := xs } false t.n) (s.sym.map sortedRows) :=
    ⟨l1.len, l1.sorted, l1.ap, l1.ai, l1.pos, l1.xlen⟩
  have hcomp : (clearOob { t with x := xs } false t.n).compressed = true := a3
  have hsym2 : SymOk (clearOob { t with x := xs } false t.n) := ⟨a1.len, a1.wf⟩
  have hsame2 : Same s (clearOob { t with x := xs } false t.n) := ⟨a2.n, a2.cpx, a2.crm⟩
  have hSS : (clearOob { t with x := xs } false t.n).sameSym = false := aS
  have hk2 : ∀ q r c, cell (clearOob { t with x := xs } false t.n) q r c =
      if q = false then cell t q r c + (((s.oob false)[r]?).bind (fun m => FMap.get m c)).getD 0 else cell t q r c := by
    intro q r c
    rw [kc, k1]
    simp
  have htn : t.n = (clearOob { t with x := xs } false t.n).n := rfl
  generalize clearOob { t with x := xs } false t.n = t2 at *
  rw [htn] at hoobF
  by_cases hcx : t2.cpx = true
  · rw [if_pos hcx]
    obtain ⟨xs2, e2, l2, k3⟩ := reAdd_spec true 0 (t2.oob true) t2 hcomp hsym2 hlay2 (by rw [so]; exact hin true) (fun _ => hcx)
    rw [e2]
    dsimp only
    refine ⟨_, rfl, ⟨hcomp, ⟨hsym2.len, hsym2.wf⟩, ⟨_, l2.len, l2.sorted, l2.ap, l2.ai, l2.pos, l2.xlen⟩, ?_⟩, ?_, ⟨hsame2.n, hsame2.cpx, hsame2.crm⟩,
      hSS, ⟨l2.len, l2.sorted, l2.ap, l2.ai, l2.pos, l2.xlen⟩, ?_⟩
    · intro im m hm
      cases im
      · simp only [clearOob, upd, Bool.false_eq_true, if_false, hoobF] at hm
        exact List.eq_of_mem_replicate hm
      · simp only [clearOob, upd, if_true] at hm
        exact List.eq_of_mem_replicate hm
    · intro im _
      cases im
      · simp [clearOob, upd, hoobF]
      · simp [clearOob, upd]
    · intro q hq r c
      rw [cell_clearOob { t2 with x := xs2 } hcomp, k3, hk2, so]
      cases q
      · simp only [Bool.false_eq_true, false_and, if_false, if_true]
        rw [a6 false (by simp), zero_add]
        simp [cell, hs.unc]
      · simp only [true_and, Nat.zero_le, if_true, Bool.true_eq_false, if_false]
        rw [a6 true hq, zero_add]
        simp [cell, hs.unc]
  · rw [if_neg hcx]
    have hcx' : s.cpx = false := by rw [hsame2.cpx] at hcx; simpa using hcx
    refine ⟨_, rfl, ⟨hcomp, hsym2, ⟨_, hlay2⟩, ?_⟩, ?_, hsame2, hSS, hlay2, ?_⟩
    · intro im m hm
      cases im
      · rw [hoobF] at hm
        exact List.eq_of_mem_replicate hm
      · rw [so] at hm
        exact hni hcx' m hm
    · intro im him
      cases im
      · simp [hoobF]
      · exact absurd (him rfl) hcx
    · intro q hq r c
      rw [hk2]
      cases q
      · rw [if_pos rfl, a6 false (by simp), zero_add]
        simp [cell, hs.unc]
      · exact absurd (by rw [hsame2.cpx]; exact hq rfl) hcx

end Verif.Matrix
