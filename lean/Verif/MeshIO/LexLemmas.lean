import Mathlib.Data.List.TakeWhile
import Verif.MeshIO.Lex

/-!
# How the scanner reads the texts that the writers produce
-/

namespace Verif.MeshIO

/-- The scanner reads `x` as the tokens `ts`: whatever follows `x`, it goes on in start states `s'`
with the beginning-of-line flag `b'`. -/
def Lexes (s : Stk) (b : Bool) (x : Text) (ts : List Tok) (s' : Stk) (b' : Bool) (P : Text → Prop) : Prop :=
  ∀ rest, P rest → (lex s b (x ++ rest)).1.map Prod.fst = ts ++ (lex s' b' rest).1.map Prod.fst ∧
    (lex s b (x ++ rest)).2 = (lex s' b' rest).2

/-- A piece of text that can be followed by anything. -/
abbrev LexA (s : Stk) (b : Bool) (x : Text) (ts : List Tok) (s' : Stk) (b' : Bool) : Prop :=
  Lexes s b x ts s' b' fun _ => True

/-- The next character satisfies `p`. -/
def Next (p : Char → Prop) (rest : Text) : Prop := ∃ c u, rest = c :: u ∧ p c

theorem Lexes.append {s b x ts s' b' P y us s'' b'' Q} (h : Lexes s b x ts s' b' P)
    (h' : Lexes s' b' y us s'' b'' Q) (hPQ : ∀ rest, Q rest → P (y ++ rest)) :
    Lexes s b (x ++ y) (ts ++ us) s'' b'' Q := by
  intro rest hr
  obtain ⟨h1, h2⟩ := h (y ++ rest) (hPQ rest hr)
  obtain ⟨h3, h4⟩ := h' rest hr
  rw [List.append_assoc, h1, h2, h3, h4]
  simp

theorem LexA.append {s b x ts s' b' y us s'' b''} (h : LexA s b x ts s' b')
    (h' : LexA s' b' y us s'' b'') : LexA s b (x ++ y) (ts ++ us) s'' b'' :=
  Lexes.append h h' fun _ _ => trivial

theorem LexA.nil (s b) : LexA s b [] [] s b := by
  intro rest _; simp

theorem Lexes.mono {s b x ts s' b' P Q} (h : Lexes s b x ts s' b' P) (hPQ : ∀ r, Q r → P r) :
    Lexes s b x ts s' b' Q := fun rest hr => h rest (hPQ rest hr)

/-- Repeated pieces. -/
theorem LexA.flatMap {β : Type} {s b} {f : β → Text} {g : β → List Tok} (l : List β)
    (h : ∀ v ∈ l, LexA s b (f v) (g v) s b) : LexA s b (l.flatMap f) (l.flatMap g) s b := by
  induction l with
  | nil => exact LexA.nil s b
  | cons v l ih =>
    rw [List.flatMap_cons, List.flatMap_cons]
    exact (h v (by simp)).append (ih fun w hw => h w (by simp [hw]))

/-! ### Single matches -/

theorem lexes_tok {s : Stk} {b : Bool} {x : Text} {t : Tok} {a : SAct} {P : Text → Prop}
    (hx : x ≠ []) (h : rule s.cur b x = some (.tok t a))
    (hno : ∀ rest, P rest → ∀ c t u, rest = t ++ c :: u → rule s.cur b (x ++ (t ++ [c])) = none) :
    Lexes s b x [t] (a.run s) (t = .eol) P := by
  intro rest hr
  rw [lex_step hx h (hno rest hr)]
  simp [Act.emit]

theorem lexes_nl {s : Stk} (b : Bool) (hs : s.cur ≠ .cmd) : LexA s b ['\n'] [] s true := by
  intro rest _
  have : lex s b (['\n'] ++ rest) = Act.emit .nl s rest := by
    refine lex_step (by simp) ?_ ?_
    · simp [rule, isBlank, hs]
    · intro c t u _
      simp [rule, isBlank]
  rw [this]
  simp [Act.emit]

theorem lexes_blank {s : Stk} {b : Bool} {c : Char} (hc : isBlank c = true) :
    Lexes s b [c] [] s false (Next fun d => isBlank d = false) := by
  rintro rest ⟨d, u, rfl, hd⟩
  have hc' : c ≠ '#' := by rintro rfl; simp [isBlank] at hc
  have : lex s b ([c] ++ d :: u) = Act.emit .skip s (d :: u) := by
    refine lex_step (by simp) ?_ ?_
    · simp [rule, hc, hc']
    · intro e t w h
      have hm : d ∈ t ++ [e] := by
        cases t with
        | nil => simp at h; simp [h.1]
        | cons y t => simp at h; simp [h.1]
      have : (t ++ [e]).all isBlank = false := by
        rw [List.all_eq_false]
        exact ⟨d, hm, by simp [hd]⟩
      simp only [List.singleton_append, rule, if_neg hc', if_pos hc]
      rw [this]; rfl
  rw [this]
  simp [Act.emit]

/-- A quoted name. -/
theorem lexes_quoted {s : Stk} {b : Bool} {n : Text} (hn : '"' ∉ n) :
    LexA s b ('"' :: n ++ ['"']) [.word n] s false := by
  have := lexes_tok (s := s) (b := b) (x := '"' :: n ++ ['"']) (t := .word n) (a := .stay)
    (P := fun _ => True) (by simp) ?_ ?_
  · exact this
  · have h1 : (n ++ ['"']).all (fun _ => true) = true := by simp
    rw [List.cons_append]
    simp only [rule, isBlank]
    simp
    exact hn
  · intro rest _ c t u _
    have e : '"' :: n ++ ['"'] ++ (t ++ [c]) = '"' :: (n ++ '"' :: t ++ [c]) := by simp
    have h1 : n ++ '"' :: t ++ [c] ≠ [] := by simp
    have hd : (n ++ '"' :: t ++ [c]).dropLast = n ++ '"' :: t := by
      rw [List.dropLast_concat]
    have h2 : (n ++ '"' :: t).all (fun d => d ≠ '"') = false := by
      rw [List.all_eq_false]
      exact ⟨'"', by simp, by simp⟩
    rw [e]
    simp only [rule, isBlank]
    rw [if_neg (by decide), if_neg (by decide), if_neg (by decide), if_pos trivial, if_neg h1, hd, h2]
    simp

/-- No rule other than those for comments, blanks, line ends, quotes and `COMMAND` matches a text with
a blank or a line end in it. -/
theorem rule_none_of_ws {sec : Sec} {b : Bool} {c q : Char} {cs : Text}
    (h1 : c ≠ '#') (h2 : isBlank c = false) (h3 : c ≠ '\n') (h4 : c ≠ '"')
    (hq : q ∈ cs) (hq' : isBlank q = true ∨ q = '\n')
    (hcmd : (b && sec ∈ cmdSecs && isCommand (c :: cs)) = false) :
    rule sec b (c :: cs) = none := by
  have hnum : Sym.isNumC q = false := by
    rcases hq' with h | h
    · simp only [isBlank, Bool.or_eq_true, decide_eq_true_eq] at h
      rcases h with (h | h) | h <;> subst h <;> decide
    · subst h; decide
  have hword : isWordC q = false := by
    rcases hq' with h | h
    · simp only [isBlank, Bool.or_eq_true, decide_eq_true_eq] at h
      rcases h with (h | h) | h <;> subst h <;> decide
    · subst h; decide
  have hcs : cs ≠ [] := List.ne_nil_of_mem hq
  have hall : cs.all isWordC = false := by
    rw [List.all_eq_false]; exact ⟨q, hq, by simp [hword]⟩
  have hds : q ∈ dropSign (c :: cs) := by
    unfold dropSign; split
    · rename_i h; cases h; exact hq
    · rename_i h; cases h; exact hq
    · simp [hq]
  have hN : Sym.isNumber (dropSign (c :: cs)) = false := Sym.isNumber_of_mem hnum hds
  simp only [Sym.isNumber, Bool.or_eq_false_iff] at hN
  have hF : isFloat (c :: cs) = false := by simp [isFloat, hN]
  have hI : isInt (c :: cs) = false := by
    unfold isInt; split
    · rename_i h; cases h
      have := Sym.isNumber_of_mem (s := cs) hnum hq
      simp only [Sym.isNumber, Bool.or_eq_false_iff] at this
      exact this.2
    · have := Sym.isNumber_of_mem (s := c :: cs) hnum (by simp [hq])
      simp only [Sym.isNumber, Bool.or_eq_false_iff] at this
      exact this.2
  have hO : isOpt (c :: cs) = false := by
    unfold isOpt; split
    · rename_i d s h
      cases h
      rw [Bool.and_eq_false_iff]
      rcases List.mem_cons.mp hq with h | h
      · left; subst h
        rcases hq' with h | h
        · simp only [isBlank, Bool.or_eq_true, decide_eq_true_eq] at h
          rcases h with (h | h) | h <;> subst h <;> decide
        · subst h; decide
      · right
        rw [List.all_eq_false]
        refine ⟨q, h, ?_⟩
        rcases hq' with h | h
        · simp only [isBlank, Bool.or_eq_true, decide_eq_true_eq] at h
          rcases h with (h | h) | h <;> subst h <;> decide
        · subst h; decide
    · rfl
  simp only [rule, if_neg h1, h2, if_neg h3, if_neg h4, hall, hF, hI, hO, hcmd, if_neg hcs]
  simp

/-- A blank or a line end. -/
def isWs (c : Char) : Prop := isBlank c = true ∨ c = '\n'

theorem Next.mem {p : Char → Prop} {rest t u : Text} {c : Char} (h : Next p rest)
    (e : rest = t ++ c :: u) : ∃ q ∈ t ++ [c], p q := by
  obtain ⟨d, w, rfl, hd⟩ := h
  cases t with
  | nil => simp at e; exact ⟨d, by simp [e.1], hd⟩
  | cons y t => simp at e; exact ⟨d, by simp [e.1], hd⟩

/-- A token that starts neither as a comment, blank, line end nor quote and is followed by a blank or
a line end. -/
theorem lexes_before_ws {s : Stk} {b : Bool} {c : Char} {cs : Text} {t : Tok} {a : SAct}
    (h1 : c ≠ '#') (h2 : isBlank c = false) (h3 : c ≠ '\n') (h4 : c ≠ '"')
    (hcmd : b = false ∨ s.cur ∉ cmdSecs ∨ "COMMAND".toList.isPrefixOf (c :: cs) = false ∧ (c :: cs).length ≥ 7 ∨ c ≠ 'C')
    (h : rule s.cur b (c :: cs) = some (.tok t a)) :
    Lexes s b (c :: cs) [t] (a.run s) (t = .eol) (Next isWs) := by
  refine lexes_tok (by simp) h ?_
  intro rest hr d t' u e
  obtain ⟨q, hq, hw⟩ := hr.mem e
  rw [List.cons_append]
  refine rule_none_of_ws h1 h2 h3 h4 (q := q) (List.mem_append_right _ hq) hw ?_
  rcases hcmd with h | h | ⟨h, hl⟩ | h
  · simp [h]
  · simp [h]
  · have : "COMMAND".toList.isPrefixOf (c :: (cs ++ (t' ++ [d]))) = false := by
      rw [← List.cons_append]
      rw [Bool.eq_false_iff] at h ⊢
      intro hp
      apply h
      rw [List.isPrefixOf_iff_prefix] at hp ⊢
      exact List.prefix_of_prefix_length_le hp (List.prefix_append _ _) (by simpa using hl)
    simp only [isCommand, this, Bool.false_and, Bool.and_false]
  · have : "COMMAND".toList.isPrefixOf (c :: (cs ++ (t' ++ [d]))) = false := by
      rw [Bool.eq_false_iff]
      intro hp
      rw [List.isPrefixOf_iff_prefix] at hp
      obtain ⟨w, hw⟩ := hp
      have : 'C' = c := (List.cons.inj hw).1
      exact h this.symm
    simp only [isCommand, this, Bool.false_and, Bool.and_false]

/-- A keyword at the beginning of a line. -/
theorem lexes_kw {s : Stk} (k : Kw) (hk : s.cur ∈ k.secs) :
    Lexes s true k.text [.kw k] (k.act.run s) false (Next isWs) := by
  obtain ⟨c, cs, hc⟩ : ∃ c cs, k.text = c :: cs := by cases k <;> exact ⟨_, _, rfl⟩
  rw [hc]
  have hfind : Kw.all.find? (fun k' => k'.text = k.text && s.cur ∈ k'.secs) = some k := by
    generalize s.cur = sec at hk
    cases k <;> simp only [Kw.secs, List.mem_cons, List.not_mem_nil, or_false] at hk <;>
      rcases hk with rfl | rfl | rfl | rfl <;> decide
  have h : rule s.cur true (c :: cs) = some (.tok (.kw k) k.act) := by
    rw [hc] at hfind
    have hpre : isCommand (c :: cs) = false := by rw [← hc]; cases k <;> decide
    have hh : isHeadC c = true := by cases k <;> cases hc <;> decide
    have hw : cs.all isWordC = true := by cases k <;> cases hc <;> decide
    have h1 : c ≠ '#' := by cases k <;> cases hc <;> decide
    have h2 : isBlank c = false := by cases k <;> cases hc <;> decide
    have h3 : c ≠ '\n' := by cases k <;> cases hc <;> decide
    have h4 : c ≠ '"' := by cases k <;> cases hc <;> decide
    simp only [rule, if_neg h1, h2, if_neg h3, if_neg h4, hh, hpre, hw]
    simp only [Bool.and_false, if_true]
    rw [if_neg (by simp), if_neg (by simp), hfind]
  have := lexes_before_ws (s := s) (b := true) (c := c) (cs := cs) ?_ ?_ ?_ ?_ ?_ h
  · simpa using this
  · cases k <;> cases hc <;> decide
  · cases k <;> cases hc <;> decide
  · cases k <;> cases hc <;> decide
  · cases k <;> cases hc <;> decide
  · right; right; right; cases k <;> cases hc <;> decide

/-- How the writers print an index (`operator<<` for `size_t`). -/
def showNat (n : Nat) : Text := Nat.toDigits 10 n

theorem showNat_first (n : Nat) : ∃ d ds, showNat n = d :: ds ∧ d.isDigit = true := by
  match h : Nat.toDigits 10 n with
  | [] => exact absurd h Nat.toDigits_ne_nil
  | d :: ds => exact ⟨d, ds, h, Nat.isDigit_of_mem_toDigits (n := n) (b := 10) (by norm_num) (by norm_num)
      (by rw [h]; simp)⟩

theorem showNat_isInteger (n : Nat) : Sym.isInteger (showNat n) = true := by
  have : (showNat n).all Char.isDigit = true := by
    rw [List.all_eq_true]
    intro c hc
    exact Nat.isDigit_of_mem_toDigits (n := n) (b := 10) (by norm_num) (by norm_num) hc
  have h2 : showNat n ≠ [] := Nat.toDigits_ne_nil
  simp [Sym.isInteger, this, h2]

theorem digitsVal_showNat (n : Nat) : digitsVal (showNat n) = n := by
  unfold digitsVal showNat
  rw [Nat.ofDigitChars_toDigits (by norm_num) (by norm_num)]

/-- The first character of a number. -/
theorem digit_facts {c : Char} (h : c.isDigit = true) : c ≠ '#' ∧ isBlank c = false ∧ c ≠ '\n' ∧
    c ≠ '"' ∧ isHeadC c = false ∧ c ≠ '-' ∧ c ≠ '+' ∧ c ≠ 'C' := by
  refine ⟨Sym.digit_ne h (by decide), ?_, Sym.digit_ne h (by decide), Sym.digit_ne h (by decide), ?_,
    Sym.digit_ne h (by decide), Sym.digit_ne h (by decide), Sym.digit_ne h (by decide)⟩
  · have h1 := Sym.digit_ne h (d := ' ') (by decide)
    have h2 := Sym.digit_ne h (d := '\t') (by decide)
    have h3 := Sym.digit_ne h (d := '\r') (by decide)
    simp [isBlank, h1, h2, h3]
  · simp only [isHeadC, Sym.digit_not_alpha h, Bool.false_or, decide_eq_false_iff_not]
    simp only [Char.isDigit, Bool.and_eq_true, decide_eq_true_eq] at h
    have h9 := UInt32.le_iff_toNat_le.mp h.2
    intro hge
    have := UInt32.le_iff_toNat_le.mp hge
    have e1 : (57 : UInt32).toNat = 57 := rfl
    have e2 : (128 : UInt32).toNat = 128 := rfl
    change c.val.toNat ≤ 57 at h9
    change 128 ≤ c.val.toNat at this
    omega

/-- Digits alone are no floating point number. -/
theorem isFloat_digits {s : Text} (h : Sym.isInteger s = true) : isFloat s = false := by
  simp only [Sym.isInteger, Bool.and_eq_true] at h
  obtain ⟨h1, h2⟩ := h
  cases s with
  | nil => simp at h1
  | cons c cs =>
    have hc : c.isDigit = true := by simp at h2; exact h2.1
    have hf := digit_facts hc
    have hds : dropSign (c :: cs) = c :: cs := by
      unfold dropSign; split
      · rename_i h; cases h; exact absurd rfl hf.2.2.2.2.2.2.1
      · rename_i h; cases h; exact absurd rfl hf.2.2.2.2.2.1
      · rfl
    have hdw : (c :: cs).dropWhile Char.isDigit = [] := by
      exact List.dropWhile_eq_nil_iff.mpr fun x hx => (List.all_eq_true.mp h2) x hx
    simp only [isFloat, hds, Sym.isFloat1, Sym.isFloat2, Sym.isFloat3, hdw]
    simp [Sym.isExpo]

/-- An index. -/
theorem lexes_nat {s : Stk} {b : Bool} (n : Nat) :
    Lexes s b (showNat n) [.int n] s false (Next isWs) := by
  obtain ⟨d, ds, e, hd⟩ := showNat_first n
  obtain ⟨h1, h2, h3, h4, h5, h6, h7, h8⟩ := digit_facts hd
  have hI := showNat_isInteger n
  have hF := isFloat_digits hI
  have hV := digitsVal_showNat n
  rw [e] at hI hF hV ⊢
  have hint : isInt (d :: ds) = true := by
    unfold isInt; split
    · rename_i h; cases h; exact absurd rfl h6
    · exact hI
  have hv : intVal (d :: ds) = n := by
    unfold intVal; split
    · rename_i h; cases h; exact absurd rfl h6
    · rw [hV]
  have h : rule s.cur b (d :: ds) = some (.tok (.int n) .stay) := by
    simp only [rule, if_neg h1, h2, if_neg h3, if_neg h4, h5, hF, hint, hv]
    simp
  simpa [SAct.run] using lexes_before_ws h1 h2 h3 h4 (by simp [h8]) h

/-- The text of a finite `double` (`std::scientific`): `[-]d.ddd...e[+-]dd`. -/
def Sci (x : Text) : Prop := isFloat x = true ∧ ∃ c cs, x = c :: cs ∧ (c.isDigit = true ∨ c = '-')

/-- A number. -/
theorem lexes_sci {s : Stk} {b : Bool} {x : Text} (hx : Sci x) :
    Lexes s b x [.float x] s false (Next isWs) := by
  obtain ⟨hF, c, cs, rfl, hc⟩ := hx
  have hf : c ≠ '#' ∧ isBlank c = false ∧ c ≠ '\n' ∧ c ≠ '"' ∧ isHeadC c = false ∧ c ≠ 'C' := by
    rcases hc with h | rfl
    · have := digit_facts h; exact ⟨this.1, this.2.1, this.2.2.1, this.2.2.2.1, this.2.2.2.2.1, this.2.2.2.2.2.2.2⟩
    · decide
  obtain ⟨h1, h2, h3, h4, h5, h6⟩ := hf
  have h : rule s.cur b (c :: cs) = some (.tok (.float (c :: cs)) .stay) := by
    simp only [rule, if_neg h1, h2, if_neg h3, if_neg h4, h5, hF]
    simp
  simpa [SAct.run] using lexes_before_ws h1 h2 h3 h4 (by simp [h6]) h

/-- A name without quotes, not at the beginning of a line. -/
theorem lexes_word {s : Stk} {c : Char} {cs : Text} (hc : isHeadC c = true) (hcs : cs.all isWordC = true) :
    Lexes s false (c :: cs) [.word (c :: cs)] s false (Next isWs) := by
  have hw : ∀ d, isHeadC d = false → c ≠ d := by rintro d hd rfl; simp [hd] at hc
  have h1 := hw '#' (by decide)
  have h2 : isBlank c = false := by
    have h1 := hw ' ' (by decide)
    have h2 := hw '\t' (by decide)
    have h3 := hw '\r' (by decide)
    simp [isBlank, h1, h2, h3]
  have h3 := hw '\n' (by decide)
  have h4 := hw '"' (by decide)
  have h : rule s.cur false (c :: cs) = some (.tok (.word (c :: cs)) .stay) := by
    simp only [rule, if_neg h1, h2, if_neg h3, if_neg h4, hc, hcs]
    simp
  simpa [SAct.run] using lexes_before_ws h1 h2 h3 h4 (by simp) h

/-- `-name` in a command. -/
theorem lexes_opt {s : Stk} {c : Char} {cs : Text} (hs : s.cur = .cmd) (b : Bool)
    (hc : c.isLower = true) (hcs : (cs.all fun c => c.isLower || c.isDigit || c = '_') = true) :
    Lexes s b ('-' :: c :: cs) [.opt (c :: cs)] s false (Next isWs) := by
  have hnum : c.isDigit = false := by
    cases h : c.isDigit with
    | false => rfl
    | true =>
      have := Sym.digit_not_alpha h
      simp [Char.isAlpha, hc] at this
  have hne : ∀ d, d.isLower = false → c ≠ d := by rintro d hd rfl; simp [hd] at hc
  have hdw : (c :: cs).dropWhile Char.isDigit = c :: cs := by simp [hnum]
  have htw : (c :: cs).takeWhile Char.isDigit = [] := by simp [hnum]
  have hF : isFloat ('-' :: c :: cs) = false := by
    simp only [isFloat, dropSign, Sym.isFloat1, Sym.isFloat2, Sym.isFloat3, hdw, htw]
    have := hne '.' (by decide)
    simp only [List.isEmpty_nil, Bool.not_true, Bool.false_and, Bool.or_false]
    split
    · rename_i h; cases h; exact absurd rfl this
    · rfl
  have hI : isInt ('-' :: c :: cs) = false := by simp [isInt, Sym.isInteger, hnum]
  have hO : isOpt ('-' :: c :: cs) = true := by simp only [isOpt, hc, hcs, Bool.and_self]
  have h : rule s.cur b ('-' :: c :: cs) = some (.tok (.opt (c :: cs)) .stay) := by
    have h1 : isBlank '-' = false := by decide
    have h2 : isHeadC '-' = false := by decide
    simp only [rule, h1, h2, hF, hI, hO, hs]
    simp
  simpa [SAct.run] using lexes_before_ws (by decide) (by decide) (by decide) (by decide) (by simp) h

/-- `COMMAND ` at the beginning of a line. -/
theorem lexes_command {s : Stk} (hs : s.cur ∈ cmdSecs) :
    Lexes s true "COMMAND ".toList [.command] (.cmd :: s) false (Next fun c => isBlank c = false) := by
  have h : rule s.cur true "COMMAND ".toList = some (.tok .command (.push .cmd)) := by
    generalize s.cur = sec at hs
    simp only [cmdSecs, List.mem_cons, List.not_mem_nil, or_false] at hs
    rcases hs with rfl | rfl | rfl | rfl | rfl | rfl | rfl | rfl <;> decide
  have := lexes_tok (P := Next fun c => isBlank c = false) (by simp) h ?_
  · simpa [SAct.run] using this
  · intro rest hr c t u e
    obtain ⟨q, hq, hw⟩ := hr.mem e
    have hw' : ¬ (q = ' ' ∨ q = '\t') := by
      rintro (rfl | rfl) <;> simp [isBlank] at hw
    have e1 : "COMMAND ".toList ++ (t ++ [c]) = 'C' :: ("OMMAND ".toList ++ (t ++ [c])) := by simp
    rw [e1]
    refine rule_none_of_ws (q := ' ') (by decide) (by decide) (by decide) (by decide) (by simp) (by decide) ?_
    have : isCommand ('C' :: ("OMMAND ".toList ++ (t ++ [c]))) = false := by
      rw [← e1]
      have e2 : List.drop 7 ("COMMAND ".toList ++ (t ++ [c])) = ' ' :: (t ++ [c]) := by simp
      have : (' ' :: (t ++ [c])).all (fun c => c = ' ' || c = '\t') = false := by
        rw [List.all_eq_false]
        exact ⟨q, by simp at hq ⊢; right; exact hq, by simpa using hw'⟩
      rw [isCommand, e2, this, Bool.and_false]
    rw [this, Bool.and_false]

/-- The end of the line of a command. -/
theorem lexes_eol {s : Stk} (b : Bool) : LexA (.cmd :: s) b ['\n'] [.eol] s true := by
  have h : rule (Stk.cur (.cmd :: s)) b ['\n'] = some (.tok .eol .pop) := by
    simp [rule, Stk.cur, isBlank]
  have := lexes_tok (P := fun _ => True) (by simp) h ?_
  · simpa [SAct.run] using this
  · intro rest _ c t u _
    simp [rule, isBlank]

end Verif.MeshIO
