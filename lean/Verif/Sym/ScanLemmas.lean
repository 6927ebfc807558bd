import Verif.Sym.Scan

/-!
# Scanning the pieces of printed expressions
-/

namespace Verif.Sym

/-! ### Characters -/

theorem digit_not_alpha {c : Char} (h : c.isDigit = true) : c.isAlpha = false := by
  by_contra h4
  rw [Bool.not_eq_false] at h4
  simp only [Char.isDigit, Char.isAlpha, Char.isUpper, Char.isLower, Bool.and_eq_true,
    Bool.or_eq_true, decide_eq_true_eq, ge_iff_le] at h h4
  rcases h4 with h4 | h4
  · have := UInt32.le_trans h4.1 h.2; revert this; decide
  · have := UInt32.le_trans h4.1 h.2; revert this; decide

theorem digit_ne {c : Char} (h : c.isDigit = true) {d : Char} (hd : d.isDigit = false) : c ≠ d := by
  rintro rfl; rw [h] at hd; cases hd

theorem alpha_ne {c : Char} (h : c.isAlpha = true) {d : Char} (hd : d.isAlpha = false) : c ≠ d := by
  rintro rfl; rw [h] at hd; cases hd

theorem digit_not_space {c : Char} (h : c.isDigit = true) : isSpaceC c = false := by
  simp [isSpaceC, digit_ne h (d := ' ') (by decide), digit_ne h (d := '\t') (by decide),
    digit_ne h (d := '\r') (by decide), digit_ne h (d := '\n') (by decide)]

theorem alpha_not_space {c : Char} (h : c.isAlpha = true) : isSpaceC c = false := by
  simp [isSpaceC, alpha_ne h (d := ' ') (by decide), alpha_ne h (d := '\t') (by decide),
    alpha_ne h (d := '\r') (by decide), alpha_ne h (d := '\n') (by decide)]

/-! ### The shape of numbers -/

/-- The characters of numbers. -/
def isNumC (c : Char) : Bool :=
  c.isDigit || c = '.' || c = 'e' || c = 'E' || c = '+' || c = '-'

theorem isInteger_chars {s : Str} (h : isInteger s = true) : ∀ c ∈ s, isNumC c = true := by
  intro c hc
  simp only [isInteger, Bool.and_eq_true, List.all_eq_true] at h
  simp [isNumC, h.2 c hc]

theorem isExpo_chars {s : Str} (h : isExpo s = true) : ∀ c ∈ s, isNumC c = true := by
  intro c hc
  have aux : ∀ (d : Char) (ds : Str), ((d = 'e' || d = 'E') && isInteger ds) = true →
      isNumC d = true ∧ ∀ c ∈ ds, isNumC c = true := by
    intro d ds h
    rw [Bool.and_eq_true, Bool.or_eq_true, decide_eq_true_eq, decide_eq_true_eq] at h
    refine ⟨?_, isInteger_chars h.2⟩
    rcases h.1 with rfl | rfl <;> decide
  unfold isExpo at h
  split at h
  · have := aux _ _ h
    simp only [List.mem_cons] at hc
    rcases hc with rfl | rfl | hc
    · exact this.1
    · decide
    · exact this.2 c hc
  · have := aux _ _ h
    simp only [List.mem_cons] at hc
    rcases hc with rfl | rfl | hc
    · exact this.1
    · decide
    · exact this.2 c hc
  · have := aux _ _ h
    simp only [List.mem_cons] at hc
    rcases hc with rfl | hc
    · exact this.1
    · exact this.2 c hc
  · cases h

theorem chars_of_drop {s : Str} {P : Char → Bool} (hP : ∀ c, c.isDigit = true → P c = true)
    (h : ∀ c ∈ s.dropWhile Char.isDigit, P c = true) : ∀ c ∈ s, P c = true := by
  intro c hc
  rw [← List.takeWhile_append_dropWhile (p := Char.isDigit) (l := s), List.mem_append] at hc
  rcases hc with hc | hc
  · exact hP c (List.all_eq_true.1 List.all_takeWhile c hc)
  · exact h c hc

theorem isNumC_digit (c : Char) (h : c.isDigit = true) : isNumC c = true := by simp [isNumC, h]

theorem isNumber_chars {s : Str} (h : isNumber s = true) : ∀ c ∈ s, isNumC c = true := by
  simp only [isNumber, Bool.or_eq_true] at h
  rcases h with ((h | h) | h) | h
  · apply chars_of_drop isNumC_digit
    unfold isFloat1 at h
    split at h
    · rename_i ds hd
      rw [hd]
      intro c hc
      rcases List.mem_cons.1 hc with rfl | hc
      · decide
      · exact isInteger_chars h c hc
    · cases h
  · apply chars_of_drop isNumC_digit
    unfold isFloat2 at h
    rw [Bool.and_eq_true] at h
    have h := h.2
    split at h
    · rename_i ds hd
      rw [hd]
      intro c hc
      rcases List.mem_cons.1 hc with rfl | hc
      · decide
      · exact isNumC_digit c ((List.all_eq_true.1 h) c hc)
    · cases h
  · apply chars_of_drop isNumC_digit
    unfold isFloat3 at h
    rw [Bool.and_eq_true] at h
    have h := h.2
    split at h
    · rename_i ds hd
      rw [hd]
      intro c hc
      rcases List.mem_cons.1 hc with rfl | hc
      · decide
      · exact chars_of_drop isNumC_digit (isExpo_chars h) c hc
    · exact isExpo_chars h
  · exact isInteger_chars h

theorem isNumber_head {c : Char} {cs : Str} (h : isNumber (c :: cs) = true) :
    c.isDigit = true ∨ c = '.' := by
  by_cases hd : c.isDigit = true
  · exact .inl hd
  · right
    have hdrop : (c :: cs).dropWhile Char.isDigit = c :: cs := by
      rw [List.dropWhile_cons, if_neg hd]
    have htake : (c :: cs).takeWhile Char.isDigit = [] := by
      rw [List.takeWhile_cons, if_neg hd]
    simp only [isNumber, isFloat1, isFloat2, isFloat3, isInteger, hdrop, htake, List.isEmpty_nil,
      Bool.not_true, Bool.false_and, Bool.or_false, List.all_cons, Bool.not_eq_true _ ▸ hd] at h
    split at h
    · rename_i h1; cases h1; rfl
    · simp at h

theorem isNumber_ne_nil {s : Str} (h : isNumber s = true) : s ≠ [] := by
  rintro rfl; revert h; decide

/-! ### Longer texts that match no rule -/

/-- The literal texts among the patterns. -/
def lits : List Str :=
  [['<'], ['<', '='], ['>'], ['>', '='], ['=', '='], ['!', '='], ['!'], ['&', '&'], ['|', '|']]

theorem rule_none {L : Str} (h1 : ∃ c ∈ L, isSpaceC c = false) (h2 : isNumber L = false)
    (h3 : L ≠ ['d', 'd', 't']) (h4 : L ∉ lits) (h5 : isName L = false) (h6 : 2 ≤ L.length) :
    rule L = none := by
  unfold rule
  rw [if_neg, if_neg, if_neg h3]
  · split <;> first | (exact absurd (by decide) h4) | skip
    split
    · rename_i h; rw [h5] at h; cases h
    · split
      · simp at h6
      · rfl
  · rw [h2]; simp
  · obtain ⟨c, hc, hs⟩ := h1
    simp only [Bool.and_eq_true, List.all_eq_true, not_and]
    intro _ h
    rw [h c hc] at hs; cases hs

/-- The characters that follow a piece in a printed expression. -/
def isStop (c : Char) : Bool := c = ' ' || c = ')' || c = ','

/-- The rest of the text starts with a character that cannot continue a name or a number. -/
def Stop (rest : Str) : Prop := ∀ c, rest.head? = some c → isStop c = true

theorem stop_cases {q : Char} (h : isStop q = true) : q = ' ' ∨ q = ')' ∨ q = ',' := by
  simp only [isStop, Bool.or_eq_true, decide_eq_true_eq] at h
  tauto

/-- The continuation of a lexeme into the rest contains the first character of the rest. -/
theorem stop_cont {rest t u : Str} {d : Char} (hs : Stop rest) (h : rest = t ++ d :: u) :
    ∃ q w, t ++ [d] = q :: w ∧ isStop q = true := by
  cases t with
  | nil => exact ⟨d, [], rfl, hs d (by rw [h]; rfl)⟩
  | cons q w => exact ⟨q, w ++ [d], rfl, hs q (by rw [h]; rfl)⟩

theorem isName_of_append {s w : Str} {q : Char} (hq : isNameC q = false) (hs : s ≠ []) :
    isName (s ++ q :: w) = false := by
  cases s with
  | nil => exact absurd rfl hs
  | cons c cs =>
    simp [isName, hq]

theorem isNumber_of_mem {s : Str} {q : Char} (hq : isNumC q = false) (hm : q ∈ s) :
    isNumber s = false := by
  by_contra h
  rw [Bool.not_eq_false] at h
  rw [isNumber_chars h q hm] at hq; cases hq

theorem not_lits_of_mem {s : Str} {q : Char} (hq : isStop q = true) (hm : q ∈ s) : s ∉ lits := by
  intro h
  simp only [lits, List.mem_cons, List.not_mem_nil, or_false] at h
  rcases stop_cases hq with rfl | rfl | rfl <;>
    rcases h with rfl | rfl | rfl | rfl | rfl | rfl | rfl | rfl | rfl <;>
    revert hm <;> decide

theorem ne_ddt_of_mem {s : Str} {q : Char} (hq : isStop q = true) (hm : q ∈ s) :
    s ≠ ['d', 'd', 't'] := by
  rintro rfl
  rcases stop_cases hq with rfl | rfl | rfl <;> revert hm <;> decide

/-- A lexeme continued by a stopping character matches no rule, if it did not start with a
space. -/
theorem rule_none_stop {c : Char} {s w : Str} {q : Char} (hc : isSpaceC c = false)
    (hq : isStop q = true) : rule ((c :: s) ++ q :: w) = none := by
  have hm : q ∈ (c :: s) ++ q :: w := by simp
  apply rule_none ⟨c, by simp, hc⟩
  · apply isNumber_of_mem (q := q) _ hm
    rcases stop_cases hq with rfl | rfl | rfl <;> decide
  · exact ne_ddt_of_mem hq hm
  · exact not_lits_of_mem hq hm
  · apply isName_of_append _ (by simp)
    rcases stop_cases hq with rfl | rfl | rfl <;> decide
  · simp; omega

/-! ### Pieces -/

theorem lex_of_stop {c : Char} {s rest : Str} {a : Tok} (hc : isSpaceC c = false)
    (h : rule (c :: s) = some (some a)) (hs : Stop rest) :
    lex ((c :: s) ++ rest) = (lex rest).map (a :: ·) := by
  have := lex_step (s := c :: s) (rest := rest) (a := some a) (by simp) h
    (by
      intro t d u hr
      obtain ⟨q, w, h1, h2⟩ := stop_cont hs hr
      rw [h1]
      exact rule_none_stop hc h2)
  simpa using this

theorem number_not_space {c : Char} {s : Str} (h : isNumber (c :: s) = true) :
    isSpaceC c = false := by
  rcases isNumber_head h with h | rfl
  · exact digit_not_space h
  · decide

theorem rule_number {s : Str} (h : isNumber s = true) : rule s = some (some (.num s)) := by
  unfold rule
  rw [if_neg, if_pos h]
  cases s with
  | nil => exact absurd rfl (isNumber_ne_nil h)
  | cons c s => simp [number_not_space h]

/-- A printed number is read as one number token. -/
theorem lex_num {s rest : Str} (h : isNumber s = true) (hs : Stop rest) :
    lex (s ++ rest) = (lex rest).map (.num s :: ·) := by
  cases s with
  | nil => exact absurd rfl (isNumber_ne_nil h)
  | cons c s => exact lex_of_stop (number_not_space h) (rule_number h) hs

theorem isName_head {c : Char} {s : Str} (h : isName (c :: s) = true) : c.isAlpha = true := by
  simp only [isName, Bool.and_eq_true] at h; exact h.1

theorem rule_name {s : Str} (h : isName s = true) (hd : s ≠ ['d', 'd', 't']) :
    rule s = some (some (.word s)) := by
  cases s with
  | nil => cases h
  | cons c s =>
    have ha := isName_head h
    have hnd : c.isDigit = false := by
      by_contra h'; rw [Bool.not_eq_false] at h'; rw [digit_not_alpha h'] at ha; cases ha
    unfold rule
    rw [if_neg, if_neg, if_neg hd]
    · split
      all_goals first
        | (rename_i heq; cases heq; revert ha; decide)
        | rw [if_pos h]
    · intro hn
      rcases isNumber_head hn with h' | rfl
      · rw [hnd] at h'; cases h'
      · revert ha; decide
    · simp [alpha_not_space ha]

/-- A printed name is read as one word. -/
theorem lex_name {s rest : Str} (h : isName s = true) (hd : s ≠ ['d', 'd', 't'])
    (hs : Stop rest) : lex (s ++ rest) = (lex rest).map (.word s :: ·) := by
  cases s with
  | nil => cases h
  | cons c s => exact lex_of_stop (alpha_not_space (isName_head h)) (rule_name h hd) hs

/-- A printed function name is read as one word. -/
theorem lex_name_paren {s rest : Str} (h : isName s = true) (hd : s ≠ ['d', 'd', 't']) :
    lex (s ++ '(' :: rest) = (lex ('(' :: rest)).map (.word s :: ·) := by
  cases s with
  | nil => cases h
  | cons c s =>
    have := lex_step (s := c :: s) (rest := '(' :: rest) (a := some (.word (c :: s))) (by simp)
      (rule_name h hd)
      (by
        intro t d u hr
        obtain ⟨w, hw⟩ : ∃ w, t ++ [d] = '(' :: w := by
          cases t with
          | nil => cases hr; exact ⟨_, rfl⟩
          | cons a b => cases hr; exact ⟨_, rfl⟩
        rw [hw]
        have hm : '(' ∈ (c :: s) ++ '(' :: w := by simp
        apply rule_none ⟨c, by simp, alpha_not_space (isName_head h)⟩
        · exact isNumber_of_mem (q := '(') (by decide) hm
        · intro hh; rw [hh] at hm; revert hm; decide
        · intro hh
          simp only [lits, List.mem_cons, List.not_mem_nil, or_false] at hh
          rcases hh with hh | hh | hh | hh | hh | hh | hh | hh | hh <;> rw [hh] at hm <;>
            revert hm <;> decide
        · exact isName_of_append (by decide) (by simp)
        · simp; omega)
    simpa using this

/-- The characters that are tokens by themselves whatever follows. -/
def isPunct (c : Char) : Bool := c = '(' || c = ')' || c = ',' || c = '-' || c = '+' || c = '*'

theorem punct_cases {c : Char} (h : isPunct c = true) :
    c = '(' ∨ c = ')' ∨ c = ',' ∨ c = '-' ∨ c = '+' ∨ c = '*' := by
  simp only [isPunct, Bool.or_eq_true, decide_eq_true_eq] at h; tauto

theorem rule_punct_none {c q : Char} {w : Str} (h : isPunct c = true) :
    rule (c :: q :: w) = none := by
  apply rule_none ⟨c, by simp, ?_⟩
  · by_contra hn
    rw [Bool.not_eq_false] at hn
    have := isNumber_head hn
    rcases punct_cases h with rfl | rfl | rfl | rfl | rfl | rfl <;> revert this <;> decide
  · rcases punct_cases h with rfl | rfl | rfl | rfl | rfl | rfl <;> simp
  · rcases punct_cases h with rfl | rfl | rfl | rfl | rfl | rfl <;> simp [lits]
  · rcases punct_cases h with rfl | rfl | rfl | rfl | rfl | rfl <;> simp [isName]
  · simp
  · rcases punct_cases h with rfl | rfl | rfl | rfl | rfl | rfl <;> decide

theorem lex_punct {c : Char} {rest : Str} (h : isPunct c = true) :
    lex (c :: rest) = (lex rest).map (.sym c :: ·) := by
  have := lex_step (s := [c]) (rest := rest) (a := some (.sym c)) (by simp)
    (by rcases punct_cases h with rfl | rfl | rfl | rfl | rfl | rfl <;> decide)
    (by
      intro t d u _
      obtain ⟨q, w, hw⟩ : ∃ q w, t ++ [d] = q :: w := by
        cases t with
        | nil => exact ⟨_, _, rfl⟩
        | cons a b => exact ⟨_, _, rfl⟩
      rw [hw]
      exact rule_punct_none h)
  simpa using this

/-- A blank before something that is not a blank is skipped. -/
theorem lex_blank {rest : Str} (h : ∀ c, rest.head? = some c → isSpaceC c = false) :
    lex (' ' :: rest) = lex rest := by
  have := lex_step (s := [' ']) (rest := rest) (a := none) (by simp) (by decide)
    (by
      intro t d u hr
      obtain ⟨q, w, hw, hq⟩ : ∃ q w, t ++ [d] = q :: w ∧ isSpaceC q = false := by
        cases t with
        | nil => exact ⟨d, [], rfl, h d (by rw [hr]; rfl)⟩
        | cons a b => exact ⟨a, b ++ [d], rfl, h a (by rw [hr]; rfl)⟩
      rw [hw]
      apply rule_none ⟨q, by simp, hq⟩
      · by_contra hn
        rw [Bool.not_eq_false] at hn
        have := isNumber_head hn
        revert this; decide
      · simp
      · simp [lits]
      · simp [isName]
      · simp)
  rw [List.singleton_append] at this
  rw [this]
  cases lex rest <;> rfl

/-- A logical operator before a blank is read as one token. -/
theorem lex_op (o : LOp) (rest : Str) :
    lex (o.text ++ ' ' :: rest) = (lex (' ' :: rest)).map (.op o :: ·) := by
  cases o <;> exact lex_of_stop (by decide) (by decide) (by intro c hc; cases hc; decide)

/-- `!` before something that is not `=`. -/
theorem lex_not {rest : Str} (h : rest.head? ≠ some '=') :
    lex ('!' :: rest) = (lex rest).map (.not :: ·) := by
  have := lex_step (s := ['!']) (rest := rest) (a := some .not) (by simp) (by decide)
    (by
      intro t d u hr
      obtain ⟨q, w, hw, hq⟩ : ∃ q w, t ++ [d] = q :: w ∧ q ≠ '=' := by
        cases t with
        | nil => exact ⟨d, [], rfl, fun h' => h (by rw [hr, h']; rfl)⟩
        | cons a b => exact ⟨a, b ++ [d], rfl, fun h' => h (by rw [hr, h']; rfl)⟩
      rw [hw]
      apply rule_none ⟨'!', by simp, by decide⟩
      · by_contra hn
        rw [Bool.not_eq_false] at hn
        have := isNumber_head hn
        revert this; decide
      · simp
      · simp [lits, hq]
      · simp [isName]
      · simp)
  simpa using this

end Verif.Sym
