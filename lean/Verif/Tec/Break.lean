import Verif.Tec.Read

/-!
# Long lines

`BreakLine` replaces blanks by newlines, so that lines are short; the tokens stay the same.
-/

namespace Verif.Tec
open Verif.Vtk (Text isWs runM showNat)

/-- Among any `k` characters in a row there is `c`. -/
def Has (c : Char) (k : ℕ) (s : Text) : Prop :=
  ∀ start : ℕ, start + k ≤ s.length → ∃ i : ℕ, start ≤ i ∧ i < start + k ∧ s[i]? = some c

theorem has_short {c : Char} {k : ℕ} {s : Text} (h : s.length < k) : Has c k s := fun start hs => by omega

theorem has_cons {c : Char} {k : ℕ} {w s : Text} (hw : w.length < k) (h : Has c k s) : Has c k (w ++ c :: s) := by
  intro start hs
  rw [List.length_append, List.length_cons] at hs
  by_cases hle : start ≤ w.length
  · exact ⟨w.length, hle, by omega, by simp⟩
  · obtain ⟨i, h1, h2, h3⟩ := h (start - (w.length + 1)) (by omega)
    refine ⟨i + (w.length + 1), by omega, by omega, ?_⟩
    rw [List.getElem?_append_right (by omega), show i + (w.length + 1) - w.length = i + 1 by omega, List.getElem?_cons_succ]
    exact h3

theorem rfind_some {s : Text} {c : Char} {seek p : ℕ} (h : rfind s c seek = some p) :
    s[p]? = some c ∧ p ≤ seek ∧ ∀ q : ℕ, p < q → q ≤ seek → s[q]? ≠ some c := by
  unfold rfind at h
  obtain ⟨ys, hy⟩ := List.getLast?_eq_some_iff.1 h
  have hm : p ∈ (List.range (seek + 1)).filter fun i => s[i]? = some c := by rw [hy]; simp
  obtain ⟨h1, h2⟩ := List.mem_filter.1 hm
  refine ⟨by simpa using h2, by have := List.mem_range.1 h1; omega, fun q hq hqs hc => ?_⟩
  have hqm : q ∈ (List.range (seek + 1)).filter fun i => s[i]? = some c :=
    List.mem_filter.2 ⟨List.mem_range.2 (by omega), by simpa using hc⟩
  have hpw : List.Pairwise (· < ·) ((List.range (seek + 1)).filter fun i => s[i]? = some c) := List.pairwise_lt_range.filter _
  rw [hy] at hpw hqm
  rcases List.mem_append.1 hqm with hq' | hq'
  · have := (List.pairwise_append.1 hpw).2.2 q hq' p (by simp)
    omega
  · have := List.mem_singleton.1 hq'
    omega

theorem rfind_none {s : Text} {c : Char} {seek : ℕ} (h : rfind s c seek = none) : ∀ q : ℕ, q ≤ seek → s[q]? ≠ some c := by
  intro q hq hc
  unfold rfind at h
  rw [List.getLast?_eq_none_iff, List.filter_eq_nil_iff] at h
  exact h q (List.mem_range.2 (by omega)) (by simpa using hc)

/-- A blank was replaced by a newline. -/
def R (a b : Char) : Prop := b = a ∨ (a = ' ' ∧ b = '\n')

theorem forall2_refl (l : Text) : List.Forall₂ R l l := by
  induction l with
  | nil => exact .nil
  | cons a l ih => exact .cons (Or.inl rfl) ih

theorem forall2_app {a b c d : Text} (h1 : List.Forall₂ R a b) (h2 : List.Forall₂ R c d) : List.Forall₂ R (a ++ c) (b ++ d) := by
  induction h1 with
  | nil => exact h2
  | cons h _ ih => exact .cons h ih

theorem split_at {s : Text} {start pos : ℕ} (hge : start ≤ pos) {c : Char} (hp : s[pos]? = some c) :
    s.drop start = (s.drop start).take (pos - start) ++ c :: s.drop (pos + 1) := by
  have hpl : pos < s.length := by
    by_contra hn
    rw [List.getElem?_eq_none (by omega)] at hp
    simp at hp
  have h1 : s.drop pos = c :: s.drop (pos + 1) := by
    rw [List.drop_eq_getElem_cons hpl]
    rw [List.getElem?_eq_getElem hpl] at hp
    rw [Option.some.inj hp]
  have h2 : (s.drop start).drop (pos - start) = s.drop pos := by
    rw [List.drop_drop, show start + (pos - start) = pos by omega]
  rw [← h1, ← h2, List.take_append_drop]

theorem breakFrom_ok {s : Text} (hs : Has ' ' 30000 s) : ∀ (n start : ℕ), s.length < n + start → start < s.length →
    ∃ out, breakFrom s n start = some out ∧ List.Forall₂ R (s.drop start) out ∧ Has '\n' 30000 out
  | 0, start, h1, h2 => by omega
  | n + 1, start, h1, h2 => by
    rw [breakFrom]
    dsimp only
    by_cases hseek : s.length - 1 < start + 29999
    · rw [if_pos hseek]
      exact ⟨_, rfl, forall2_refl _, has_short (by rw [List.length_drop]; omega)⟩
    · rw [if_neg hseek]
      obtain ⟨i, hi1, hi2, hi3⟩ := hs start (by omega)
      cases hr : rfind s ' ' (start + 29999) with
      | none => exact absurd hi3 (rfind_none hr i (by omega))
      | some pos =>
        dsimp only
        obtain ⟨hp1, hp2, hp3⟩ := rfind_some hr
        have hge : start ≤ pos := by
          by_contra hlt
          exact hp3 i (by omega) (by omega) hi3
        have hpl : pos < s.length := by
          by_contra hn
          rw [List.getElem?_eq_none (by omega)] at hp1
          simp at hp1
        have hsplit := split_at hge hp1
        have hpiece : piece s start pos = (s.drop start).take (pos - start) := by
          unfold piece
          rw [if_neg (by omega)]
        have hlen : ((s.drop start).take (pos - start)).length < 30000 := by
          rw [List.length_take]; omega
        rw [hpiece]
        generalize (s.drop start).take (pos - start) = w at hsplit hlen
        by_cases hend : s.length ≤ pos + 1
        · rw [if_pos hend]
          refine ⟨_, rfl, ?_, has_cons hlen (has_short (by simp))⟩
          have hnil : s.drop (pos + 1) = [] := List.drop_eq_nil_of_le hend
          rw [hsplit, hnil]
          exact forall2_app (forall2_refl _) (.cons (Or.inr ⟨rfl, rfl⟩) .nil)
        · rw [if_neg hend]
          obtain ⟨out, e1, e2, e3⟩ := breakFrom_ok hs n (pos + 1) (by omega) (by omega)
          rw [e1]
          refine ⟨w ++ '\n' :: out, ?_, ?_, has_cons hlen e3⟩
          · simp
          · rw [hsplit]
            exact forall2_app (forall2_refl _) (.cons (Or.inr ⟨rfl, rfl⟩) e2)

/-- **Long lines are broken at blanks**: when no word is too long the program ends, some blanks are newlines, and
lines have less than 30000 characters. -/
theorem breakLine_ok {s : Text} (hs : Has ' ' 30000 s) :
    ∃ out, breakLine s = some out ∧ List.Forall₂ R s out ∧ Has '\n' 30000 out := by
  unfold breakLine
  split
  · rename_i h
    subst h
    exact ⟨[], rfl, .nil, has_short (by simp)⟩
  · split
    · rename_i h
      exact ⟨s, rfl, forall2_refl _, has_short h⟩
    · obtain ⟨out, e1, e2, e3⟩ := breakFrom_ok hs (s.length + 1) 0 (by omega) (by omega)
      exact ⟨out, e1, e2, e3⟩

/-! ### Tokens -/

/-- `x` takes the lexer from one state to another, with these tokens. -/
def Lexes (b : Bool) (s : LX) (x : Text) (toks : List Tok) (s' : LX) : Prop := runM (xstep b) s x = some (s', toks)

theorem Lexes.append {b : Bool} {s s1 s2 : LX} {x y : Text} {i j : List Tok} (h1 : Lexes b s x i s1) (h2 : Lexes b s1 y j s2) :
    Lexes b s (x ++ y) (i ++ j) s2 := Verif.Vtk.runM_append h1 h2

theorem Lexes.nil (b : Bool) (s : LX) : Lexes b s [] [] s := rfl

theorem Lexes.cons {b : Bool} {s s1 s2 : LX} {c : Char} {y : Text} {i j : List Tok} (h1 : xstep b s c = some (s1, i)) (h2 : Lexes b s1 y j s2) :
    Lexes b s (c :: y) (i ++ j) s2 := by
  refine Verif.Vtk.runM_append (x := [c]) ?_ h2
  simp [runM, h1]

theorem Lexes.inv {b : Bool} {s s2 : LX} {c : Char} {y : Text} {k : List Tok} (h : Lexes b s (c :: y) k s2) :
    ∃ s1 i j, xstep b s c = some (s1, i) ∧ Lexes b s1 y j s2 ∧ k = i ++ j := by
  unfold Lexes at h
  rw [runM] at h
  cases hx : xstep b s c with
  | none => rw [hx] at h; simp at h
  | some p =>
    obtain ⟨s1, i⟩ := p
    rw [hx] at h
    simp only at h
    cases hr : runM (xstep b) s1 y with
    | none => rw [hr] at h; simp at h
    | some q =>
      obtain ⟨s3, j⟩ := q
      rw [hr] at h
      simp only [Option.some.injEq, Prod.mk.injEq] at h
      obtain ⟨rfl, rfl⟩ := h
      exact ⟨s1, i, j, rfl, hr, rfl⟩

theorem xstep_blank (s : LX) : xstep true s ' ' = xstep true s '\n' := by
  cases s <;> rfl

theorem Lexes.rel {s s' : LX} {x y : Text} {k : List Tok} (hr : List.Forall₂ R x y) (h : Lexes true s x k s') : Lexes true s y k s' := by
  induction hr generalizing s k with
  | nil => exact h
  | cons hab hl ih =>
    obtain ⟨s1, i, j, h1, h2, rfl⟩ := h.inv
    refine Lexes.cons ?_ (ih h2)
    rcases hab with rfl | ⟨rfl, rfl⟩
    · exact h1
    · rw [← xstep_blank]; exact h1

theorem Lexes.loose {s s' : LX} {x : Text} {k : List Tok} (h : Lexes true s x k s') : Lexes false s x k s' := by
  induction x generalizing s k with
  | nil => exact h
  | cons c x ih =>
    obtain ⟨s1, i, j, h1, h2, rfl⟩ := h.inv
    refine Lexes.cons ?_ (ih h2)
    cases s with
    | blank => exact h1
    | word w => exact h1
    | quote q =>
      simp only [xstep] at h1 ⊢
      split at h1
      · rw [if_pos ‹_›]; exact h1
      · rw [if_neg ‹_›]
        split at h1
        · simp at h1
        · simpa using h1

/-- A line that is broken has the same tokens. -/
theorem breakLine_lex {s : Text} {toks : List Tok} (hs : Has ' ' 30000 s) (h : Lexes true .blank s toks .blank) :
    ∃ out, breakLine s = some out ∧ Lexes false .blank out toks .blank ∧ Has '\n' 30000 out := by
  obtain ⟨out, h1, h2, h3⟩ := breakLine_ok hs
  exact ⟨out, h1, (h.rel h2).loose, h3⟩

/-! ### Words and strings -/

/-- A character of a word. -/
def wordC (c : Char) : Bool := ! isSep c && ! isSym c && ! (c = '"')

def WordOK (w : Text) : Prop := w ≠ [] ∧ ∀ c ∈ w, wordC c = true

theorem wordC_iff {c : Char} (h : wordC c = true) : isSep c = false ∧ isSym c = false ∧ c ≠ '"' := by
  unfold wordC at h
  simp only [Bool.and_eq_true, Bool.not_eq_true', decide_eq_false_iff_not] at h
  exact ⟨h.1.1, h.1.2, h.2⟩

theorem lexes_more {b : Bool} {x : Text} (h : ∀ c ∈ x, wordC c = true) : ∀ w, Lexes b (.word w) x [] (.word (w ++ x)) := by
  induction x with
  | nil => intro w; rw [List.append_nil]; exact Lexes.nil _ _
  | cons c x ih =>
    intro w
    obtain ⟨h1, h2, h3⟩ := wordC_iff (h c (by simp))
    have := ih (fun d hd => h d (by simp [hd])) (w ++ [c])
    rw [List.append_assoc] at this
    exact Lexes.cons (i := []) (by simp [xstep, h1, h2, h3]) this

theorem lexes_word {b : Bool} {w : Text} (h : WordOK w) : Lexes b .blank w [] (.word w) := by
  obtain ⟨hne, hc⟩ := h
  obtain ⟨c, w, rfl⟩ := List.exists_cons_of_ne_nil hne
  obtain ⟨h1, h2, h3⟩ := wordC_iff (hc c (by simp))
  exact Lexes.cons (i := []) (by simp [xstep, h1, h2, h3]) (lexes_more (fun d hd => hc d (by simp [hd])) [c])

theorem lexes_sep {b : Bool} {w : Text} {c : Char} (h : isSep c = true) : Lexes b (.word w) [c] [.word w] .blank := by
  simp [Lexes, runM, xstep, h]

theorem lexes_quote {b : Bool} {x : Text} (h : ∀ c ∈ x, c ≠ '"' ∧ (b = true → isWs c = false)) : ∀ w, Lexes b (.quote w) x [] (.quote (w ++ x)) := by
  induction x with
  | nil => intro w; rw [List.append_nil]; exact Lexes.nil _ _
  | cons c x ih =>
    intro w
    obtain ⟨h1, h2⟩ := h c (by simp)
    have := ih (fun d hd => h d (by simp [hd])) (w ++ [c])
    rw [List.append_assoc] at this
    refine Lexes.cons (i := []) ?_ this
    simp only [xstep]
    rw [if_neg h1, if_neg]
    cases b
    · simp
    · simp [h2 rfl]

theorem lexes_str {b : Bool} {x : Text} (h : ∀ c ∈ x, c ≠ '"' ∧ (b = true → isWs c = false)) : Lexes b .blank (quoted x) [.str x] .blank := by
  unfold quoted
  have h1 : Lexes b .blank ['"'] [] (.quote []) := rfl
  have h2 := lexes_quote h []
  have h3 : Lexes b (.quote ([] ++ x)) ['"'] [.str x] .blank := by simp [Lexes, runM, xstep]
  exact h1.append (h2.append h3)

/-! ### Blocks of words -/

/-- Printed values are words, not too long. -/
structure FmtOK {D : Type} (fmt : D → Text) : Prop where
  word : ∀ d, WordOK (fmt d)
  short : ∀ d, (fmt d).length < 29999
  kw : ∀ d, fmt d ≠ "VARLOCATION".toList

variable {D : Type}

theorem block_lex {fmt : D → Text} (hf : FmtOK fmt) (b : Bool) : ∀ vs : List D, Lexes b .blank (writeBlock fmt vs ++ ['\n']) (vs.map fun v => .word (fmt v)) .blank
  | [] => rfl
  | v :: vs => by
    rw [writeBlock]
    have h1 := lexes_word (b := b) (hf.word v)
    cases vs with
    | nil =>
      simp only [List.flatMap_nil, List.append_nil, List.map_cons, List.map_nil]
      exact h1.append (lexes_sep rfl)
    | cons w vs =>
      have ih := block_lex hf b (w :: vs)
      have := h1.append ((lexes_sep (c := ' ') rfl).append ih)
      simpa [writeBlock] using this

theorem block_has {fmt : D → Text} (hf : FmtOK fmt) : ∀ vs : List D, Has ' ' 30000 (writeBlock fmt vs ++ ['\n'])
  | [] => has_short (by simp [writeBlock])
  | v :: vs => by
    have h1 := hf.short v
    cases vs with
    | nil =>
      refine has_short ?_
      simp [writeBlock]
      omega
    | cons w vs =>
      have ih := block_has hf (w :: vs)
      have := has_cons (w := fmt v) (by omega) ih
      simpa [writeBlock] using this

theorem uniform_block (fmt : D → Text) (n : ℕ) (v : D) : writeUniform fmt n v = writeBlock fmt (List.replicate n v) := by
  unfold writeUniform
  cases n with
  | zero => rfl
  | succ n =>
    rw [if_pos (by omega), List.replicate_succ, writeBlock, Nat.add_sub_cancel]
    congr 1
    induction n with
    | zero => rfl
    | succ n ih => rw [List.range_succ, List.flatMap_append, ih, List.replicate_succ', List.flatMap_append]; simp

theorem comp_block (fmt : D → Text) {vs : List D} (h : vs ≠ []) : writeComp fmt vs = ' ' :: writeBlock fmt vs := by
  obtain ⟨v, vs, rfl⟩ := List.exists_cons_of_ne_nil h
  rw [writeComp, List.flatMap_cons, writeBlock]
  rfl

/-- A block, on as many lines as needed. -/
theorem block_ok {fmt : D → Text} (hf : FmtOK fmt) (vs : List D) :
    ∃ out, breakLine (writeBlock fmt vs ++ ['\n']) = some out ∧ Lexes false .blank out (vs.map fun v => .word (fmt v)) .blank := by
  obtain ⟨out, h1, h2, -⟩ := breakLine_lex (block_has hf vs) (block_lex hf true vs)
  exact ⟨out, h1, h2⟩

theorem block_ok' {fmt : D → Text} (hf : FmtOK fmt) (vs : List D) :
    ∃ out, breakLine (' ' :: writeBlock fmt vs ++ ['\n']) = some out ∧ Lexes false .blank out (vs.map fun v => .word (fmt v)) .blank := by
  have h0 : Lexes true .blank [' '] [] .blank := rfl
  obtain ⟨out, h1, h2, -⟩ := breakLine_lex (s := ' ' :: (writeBlock fmt vs ++ ['\n'])) (has_cons (w := []) (by simp) (block_has hf vs)) (h0.append (block_lex hf true vs))
  exact ⟨out, h1, h2⟩

end Verif.Tec
