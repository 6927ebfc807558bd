import Verif.Gmsh.File

/-!
# How the scanner of Gmsh files reads a file
-/

namespace Verif.Gmsh.File
open Verif.MeshIO (Text isBlank isFloat isInt isHeadC isWordC isWs Next dropSign showNat intVal digitsVal
  showNat_first showNat_isInteger digitsVal_showNat digit_facts isFloat_digits)

/-! ### One match -/

theorem longest_eq {sec : Sec} {bol : Bool} {cs : Text} {n : Nat} {a : Option Tok}
    (h : rule sec bol (cs.take n) = some a) (hn : 0 < n) (N : Nat) (hN : n ≤ N)
    (hno : ∀ m, n < m → m ≤ N → rule sec bol (cs.take m) = none) : longest sec bol cs N = some (n, a) := by
  induction N with
  | zero => omega
  | succ N ih =>
    rw [longest]
    rcases Nat.lt_or_ge n (N + 1) with hlt | hge
    · rw [hno (N + 1) hlt le_rfl]
      exact ih (by omega) (fun m h1 h2 => hno m h1 (by omega))
    · have : n = N + 1 := by omega
      subst this
      rw [h]

theorem longest_pos {sec bol} {cs : Text} {N k : Nat} {a} (h : longest sec bol cs N = some (k, a)) : 0 < k := by
  induction N with
  | zero => simp [longest] at h
  | succ N ih =>
    rw [longest] at h
    split at h
    · simp at h; omega
    · exact ih h

theorem lexF_mono : ∀ (n m : Nat) (s : Stk) (bol : Bool) (cs : Text), cs.length ≤ n →
    cs.length ≤ m → lexF n s bol cs = lexF m s bol cs := by
  intro n
  induction n with
  | zero =>
    intro m s bol cs hn hm
    have : cs = [] := List.length_eq_zero_iff.mp (by omega)
    subst this
    cases m <;> rfl
  | succ n ih =>
    intro m s bol cs hn hm
    cases cs with
    | nil => cases m <;> rfl
    | cons c cs =>
      cases m with
      | zero => simp at hm
      | succ m =>
        have hd : ∀ k, 0 < k → ((c :: cs).drop k).length ≤ n ∧ ((c :: cs).drop k).length ≤ m := by
          intro k hk
          simp only [List.length_drop, List.length_cons] at *
          omega
        rw [lexF, lexF]
        split
        · rfl
        · rename_i k h; exact ih _ _ _ _ (hd k (longest_pos h)).1 (hd k (longest_pos h)).2
        · rename_i k t h
          rw [ih m _ _ _ (hd k (longest_pos h)).1 (hd k (longest_pos h)).2]

/-- How the result of a match is put in front of the rest. -/
def emit (a : Option Tok) (s : Stk) (rest : Text) : List (Tok × Stk) × Stk :=
  match a with
  | none => lex s false rest
  | some t => ((t, t.run s) :: (lex (t.run s) (t = .eol) rest).1, (lex (t.run s) (t = .eol) rest).2)

theorem lex_step {s : Stk} {bol : Bool} {x rest : Text} {a : Option Tok} (hx : x ≠ []) (h : rule s.cur bol x = some a)
    (hno : ∀ c t u, rest = t ++ c :: u → rule s.cur bol (x ++ (t ++ [c])) = none) :
    lex s bol (x ++ rest) = emit a s rest := by
  have hlen : 0 < x.length := List.length_pos_iff.mpr hx
  have hl : longest s.cur bol (x ++ rest) (x ++ rest).length = some (x.length, a) := by
    refine longest_eq (by simpa using h) hlen _ (by simp) fun m h1 h2 => ?_
    have hm : (x ++ rest).take m = x ++ rest.take (m - x.length) := by
      rw [List.take_append, List.take_of_length_le (by omega)]
    have hm2 : m - x.length - 1 < rest.length := by simp only [List.length_append] at h2; omega
    have ht : rest.take (m - x.length) = rest.take (m - x.length - 1) ++ [rest[m - x.length - 1]] := by
      have e : m - x.length = (m - x.length - 1) + 1 := by omega
      conv_lhs => rw [e]
      exact List.take_succ_eq_append_getElem hm2
    rw [hm, ht]
    refine hno _ _ (rest.drop (m - x.length - 1 + 1)) ?_
    rw [← List.drop_eq_getElem_cons hm2, List.take_append_drop]
  obtain ⟨c, cs, rfl⟩ := List.exists_cons_of_ne_nil hx
  have hd : ((c :: cs) ++ rest).drop (c :: cs).length = rest := by simp
  unfold lex
  rw [List.cons_append] at *
  rw [show (c :: (cs ++ rest)).length = (cs ++ rest).length + 1 from rfl, lexF, hl]
  cases a with
  | none =>
    show lexF _ s false (List.drop (c :: cs).length (c :: (cs ++ rest))) = _
    rw [hd]; exact lexF_mono _ _ _ _ _ (by simp) le_rfl
  | some t =>
    simp only [hd, emit, lex]
    rw [lexF_mono _ rest.length _ _ rest (by simp) le_rfl]

/-! ### Pieces of text -/

/-- The scanner reads `x` as the tokens `ts`: whatever follows `x`, it goes on in start states `s'` with the
beginning-of-line flag `b'`. -/
def Lexes (s : Stk) (b : Bool) (x : Text) (ts : List Tok) (s' : Stk) (b' : Bool) (P : Text → Prop) : Prop :=
  ∀ rest, P rest → (lex s b (x ++ rest)).1.map Prod.fst = ts ++ (lex s' b' rest).1.map Prod.fst ∧
    (lex s b (x ++ rest)).2 = (lex s' b' rest).2

/-- A piece of text that can be followed by anything. -/
abbrev LexA (s : Stk) (b : Bool) (x : Text) (ts : List Tok) (s' : Stk) (b' : Bool) : Prop :=
  Lexes s b x ts s' b' fun _ => True

theorem Lexes.append {s b x ts s' b' P y us s'' b'' Q} (h : Lexes s b x ts s' b' P)
    (h' : Lexes s' b' y us s'' b'' Q) (hPQ : ∀ rest, Q rest → P (y ++ rest)) :
    Lexes s b (x ++ y) (ts ++ us) s'' b'' Q := by
  intro rest hr
  obtain ⟨h1, h2⟩ := h (y ++ rest) (hPQ rest hr)
  obtain ⟨h3, h4⟩ := h' rest hr
  rw [List.append_assoc, h1, h2, h3, h4]
  simp

theorem LexA.append {s b x ts s' b' y us s'' b''} (h : LexA s b x ts s' b')
    (h' : LexA s' b' y us s'' b'') : LexA s b (x ++ y) (ts ++ us) s'' b'' :=
  Lexes.append h h' fun _ _ => trivial

theorem LexA.nil (s b) : LexA s b [] [] s b := by
  intro rest _; simp

theorem LexA.flatMap {β : Type} {s b} {f : β → Text} {g : β → List Tok} (l : List β)
    (h : ∀ v ∈ l, LexA s b (f v) (g v) s b) : LexA s b (l.flatMap f) (l.flatMap g) s b := by
  induction l with
  | nil => exact LexA.nil s b
  | cons v l ih =>
    rw [List.flatMap_cons, List.flatMap_cons]
    exact (h v (by simp)).append (ih fun w hw => h w (by simp [hw]))

theorem lexes_tok {s : Stk} {b : Bool} {x : Text} {t : Tok} {P : Text → Prop} (hx : x ≠ [])
    (h : rule s.cur b x = some (some t))
    (hno : ∀ rest, P rest → ∀ c t u, rest = t ++ c :: u → rule s.cur b (x ++ (t ++ [c])) = none) :
    Lexes s b x [t] (t.run s) (t = .eol) P := by
  intro rest hr
  rw [lex_step hx h (hno rest hr)]
  simp [emit]

/-! ### Texts with a blank or a line end in them -/

theorem ws_cases {q : Char} (h : isWs q) : q = ' ' ∨ q = '\t' ∨ q = '\r' ∨ q = '\n' := by
  rcases h with h | h
  · simp only [isBlank, Bool.or_eq_true, decide_eq_true_eq] at h
    tauto
  · exact Or.inr (Or.inr (Or.inr h))

theorem num_no_ws {x : Text} (h : isFloat x = true ∨ isInt x = true) {q : Char} (hq : q ∈ x) : ¬ isWs q := by
  intro hw
  have hnum : Verif.Sym.isNumC q = false := by
    rcases ws_cases hw with h | h | h | h <;> subst h <;> decide
  have hs : q ≠ '+' ∧ q ≠ '-' := by
    rcases ws_cases hw with h | h | h | h <;> subst h <;> decide
  have hds : q ∈ dropSign x := by
    unfold dropSign; split
    · rename_i s; rcases List.mem_cons.1 hq with rfl | h
      · exact absurd rfl hs.1
      · exact h
    · rename_i s; rcases List.mem_cons.1 hq with rfl | h
      · exact absurd rfl hs.2
      · exact h
    · exact hq
  have hN := Verif.Sym.isNumber_of_mem hnum hds
  simp only [Verif.Sym.isNumber, Bool.or_eq_false_iff] at hN
  rcases h with h | h
  · simp [isFloat, hN] at h
  · unfold isInt at h
    split at h
    · rename_i s
      have hq' : q ∈ s := by
        rcases List.mem_cons.1 hq with rfl | h
        · exact absurd rfl hs.2
        · exact h
      have := Verif.Sym.isNumber_of_mem (s := s) hnum hq'
      simp only [Verif.Sym.isNumber, Bool.or_eq_false_iff] at this
      rw [this.2] at h
      simp at h
    · have := Verif.Sym.isNumber_of_mem (s := x) hnum hq
      simp only [Verif.Sym.isNumber, Bool.or_eq_false_iff] at this
      rw [this.2] at h
      simp at h

theorem word_no_ws {q : Char} (hw : isWs q) : isWordC q = false ∧ isHeadC q = false ∧ q ≠ '"' := by
  rcases ws_cases hw with h | h | h | h <;> subst h <;> decide

theorem name_no_ws {x : Text} (h : isName x = true) {q : Char} (hq : q ∈ x) : ¬ isWs q := by
  intro hw
  obtain ⟨h1, h2, _⟩ := word_no_ws hw
  cases x with
  | nil => simp at hq
  | cons c cs =>
    simp only [isName, Bool.and_eq_true] at h
    rcases List.mem_cons.1 hq with rfl | hq
    · rw [h2] at h; simp at h
    · rw [List.all_eq_true.1 h.2 q hq] at h1; simp at h1

theorem quoted_no_ws {x : Text} (h : isQuoted x = true) {q : Char} (hq : q ∈ x) : ¬ isWs q := by
  intro hw
  obtain ⟨_, _, h3⟩ := word_no_ws hw
  unfold isQuoted at h
  split at h
  · rename_i cs
    simp only [Bool.and_eq_true, decide_eq_true_eq] at h
    obtain ⟨h1, h2⟩ := h
    rcases List.mem_cons.1 hq with rfl | hq
    · exact h3 rfl
    · obtain ⟨ys, rfl⟩ := List.getLast?_eq_some_iff.1 h1
      rw [List.dropLast_concat] at h2
      rcases List.mem_append.1 hq with hq | hq
      · exact name_no_ws h2 hq hw
      · exact h3 (by simpa using hq)
  · simp at h

theorem kw_no_ws (k : Kw) {q : Char} (hq : q ∈ k.text) : ¬ isWs q := by
  intro hw
  rcases ws_cases hw with h | h | h | h <;> subst h <;> revert hq <;> cases k <;> decide

/-- No rule but those for blanks, line ends and the version matches a text with a blank or a line end in it. -/
theorem rule_none_of_ws {sec : Sec} {b : Bool} {c q : Char} {cs : Text} (hc : ¬ (c :: cs).all isBlank) (h0 : c ≠ '\n')
    (hq : q ∈ c :: cs) (hw : isWs q) (hcs : cs ≠ [])
    (hf : b = false ∨ sec ≠ .format ∨ (c :: cs).all isFmtC = false) : rule sec b (c :: cs) = none := by
  have hF : isFloat (c :: cs) = false := Bool.eq_false_iff.2 fun h => num_no_ws (Or.inl h) hq hw
  have hI : isInt (c :: cs) = false := Bool.eq_false_iff.2 fun h => num_no_ws (Or.inr h) hq hw
  have hN : isName (c :: cs) = false := Bool.eq_false_iff.2 fun h => name_no_ws h hq hw
  have hQ : isQuoted (c :: cs) = false := Bool.eq_false_iff.2 fun h => quoted_no_ws h hq hw
  have hK : (if b then Kw.all.find? (fun k => k.text = c :: cs && k.sec = sec) else none) = none := by
    split
    · rw [List.find?_eq_none]
      intro k _ h
      simp only [Bool.and_eq_true, decide_eq_true_eq] at h
      exact kw_no_ws k (by rw [h.1]; exact hq) hw
    · rfl
  unfold rule
  dsimp only
  rw [if_neg h0, if_neg hc, hF, hI, hK]
  simp only [Bool.false_eq_true, and_false, if_false, hQ, hN, hcs]
  rw [if_neg]
  rintro ⟨h1, h2, h3⟩
  rcases hf with h | h | h
  · simp [h] at h1
  · exact h h2
  · rw [h] at h3; simp at h3

/-- A token followed by a blank or a line end. -/
theorem lexes_ws {s : Stk} {b : Bool} {c : Char} {cs : Text} {t : Tok} (hc : ¬ isWs c) (hf : b = false ∨ s.cur ≠ .format)
    (h : rule s.cur b (c :: cs) = some (some t)) : Lexes s b (c :: cs) [t] (t.run s) (t = .eol) (Next isWs) := by
  refine lexes_tok (by simp) h ?_
  intro rest hr d t' u e
  obtain ⟨q, hq, hw⟩ := hr.mem e
  rw [List.cons_append]
  refine rule_none_of_ws ?_ (fun h => hc (Or.inr h)) (q := q) (by simp only [List.mem_cons, List.mem_append] at hq ⊢; tauto) hw
    (by simp) (hf.imp_right Or.inl)
  rw [List.all_cons, Bool.and_eq_true]
  exact fun h => hc (Or.inl h.1)

/-- A line end. -/
theorem lexes_eol (s : Stk) (b : Bool) : LexA s b ['\n'] [.eol] s true := by
  have h : rule s.cur b ['\n'] = some (some .eol) := by unfold rule; simp
  refine lexes_tok (by simp) h ?_
  intro rest _ c t u _
  unfold rule
  simp

/-- A blank before a token. -/
theorem lexes_blank (s : Stk) : Lexes s false [' '] [] s false (Next fun c => ¬ isWs c) := by
  intro rest hr
  have h : rule s.cur false [' '] = some none := by
    unfold rule
    dsimp only
    rw [if_neg (by decide), if_pos (by decide)]
  rw [lex_step (by simp) h]
  · exact ⟨by simp [emit], rfl⟩
  · intro c t u e
    obtain ⟨q, hq, hw⟩ := hr.mem e
    show rule s.cur false (' ' :: (t ++ [c])) = none
    refine rule_none_of_ws ?_ (by decide) (q := ' ') (by simp) (Or.inl (by decide)) (by simp) (Or.inl rfl)
    rw [List.all_eq_true]
    intro hall
    exact hw (Or.inl (hall q (by simp only [List.mem_cons]; exact Or.inr hq)))

/-- A blank and a token. -/
theorem lexes_sp {s s' : Stk} {c : Char} {cs : Text} {ts : List Tok} {b : Bool} {P : Text → Prop} (hc : ¬ isWs c)
    (h : Lexes s false (c :: cs) ts s' b P) : Lexes s false (' ' :: c :: cs) ts s' b P := by
  have := (lexes_blank s).append h fun rest _ => ⟨c, cs ++ rest, rfl, hc⟩
  simpa using this

/-! ### Tokens -/

theorem digit_no_ws {c : Char} (h : c.isDigit = true) : ¬ isWs c := by
  obtain ⟨_, h2, h3, _⟩ := digit_facts h
  rintro (h | h)
  · rw [h2] at h; simp at h
  · exact h3 h

theorem not_blank {c : Char} {cs : Text} (hc : ¬ isWs c) : ¬ ((c :: cs).all isBlank = true) := by
  rw [List.all_cons, Bool.and_eq_true]
  exact fun h => hc (Or.inl h.1)

/-- An index. -/
theorem lexes_nat {s : Stk} {b : Bool} (n : Nat) (hs : s.cur = .names ∨ s.cur = .nodes ∨ s.cur = .elems) :
    Lexes s b (showNat n) [.int n] s false (Next isWs) := by
  obtain ⟨d, ds, e, hd⟩ := showNat_first n
  obtain ⟨h1, h2, h3, h4, h5, h6, h7, h8⟩ := digit_facts hd
  have hI := showNat_isInteger n
  have hF := isFloat_digits hI
  have hV := digitsVal_showNat n
  rw [e] at hI hF hV ⊢
  have hint : isInt (d :: ds) = true := by
    unfold isInt; split
    · rename_i h; cases h; exact absurd rfl h6
    · exact hI
  have hv : intVal (d :: ds) = n := by
    unfold intVal; split
    · rename_i h; cases h; exact absurd rfl h6
    · rw [hV]
  have hno := digit_no_ws hd
  have h : rule s.cur b (d :: ds) = some (some (.int n)) := by
    unfold rule
    dsimp only
    rw [if_neg h3, if_neg (not_blank hno), if_neg (by simp [hF]), if_pos ⟨hs, hint⟩, hv]
  have := lexes_ws hno (Or.inr (by rcases hs with h | h | h <;> rw [h] <;> decide)) h
  simpa [Tok.run] using this

/-- The text of a coordinate: an integer, or a floating point number. -/
def IsNum (x : Text) : Prop := isFloat x = true ∨ isInt x = true

/-- The token of a coordinate. -/
def numTok (x : Text) : Tok := if isFloat x = true then .float x else .int (intVal x)

theorem num_first {x : Text} (h : IsNum x) : ∃ c cs, x = c :: cs ∧ ¬ isWs c := by
  cases x with
  | nil => rcases h with h | h <;> exact absurd h (by decide)
  | cons c cs => exact ⟨c, cs, rfl, num_no_ws h (by simp)⟩

theorem lexes_num {s : Stk} {b : Bool} {x : Text} (hx : IsNum x) (hs : s.cur = .nodes) :
    Lexes s b x [numTok x] s false (Next isWs) := by
  obtain ⟨c, cs, rfl, hc⟩ := num_first hx
  have h : rule s.cur b (c :: cs) = some (some (numTok (c :: cs))) := by
    unfold rule numTok
    dsimp only
    rw [if_neg (fun h => hc (Or.inr h)), if_neg (not_blank hc)]
    by_cases hF : isFloat (c :: cs) = true
    · rw [if_pos ⟨hs, hF⟩, if_pos hF]
    · rw [if_neg (fun h => hF h.2), if_neg hF, if_pos ⟨Or.inr (Or.inl hs), hx.resolve_left hF⟩]
  have hr : (numTok (c :: cs)).run s = s := by unfold numTok; split <;> rfl
  have hb : (numTok (c :: cs) = .eol) = False := by unfold numTok; split <;> simp
  have := lexes_ws hc (Or.inr (by rw [hs]; decide)) h
  simpa only [hr, hb, decide_false] using this

theorem name_last {w : Text} (hw : isName w = true) : isQuoted ('"' :: (w ++ ['"'])) = true := by
  simp [isQuoted, hw]

/-- A name in quotation marks, not at the beginning of a line. -/
theorem lexes_quoted {s : Stk} {w : Text} (hw : isName w = true) (hs : s.cur = .names) :
    Lexes s false ('"' :: (w ++ ['"'])) [.word w] s false (Next isWs) := by
  have hno : ¬ isWs '"' := by
    rintro (h | h) <;> revert h <;> decide
  have hds : Verif.Sym.isNumber (dropSign ('"' :: (w ++ ['"']))) = false :=
    Verif.Sym.isNumber_of_mem (q := '"') (by decide) (by simp [dropSign])
  simp only [Verif.Sym.isNumber, Bool.or_eq_false_iff] at hds
  have hI : isInt ('"' :: (w ++ ['"'])) = false := by
    simp only [isInt, Verif.Sym.isInteger, List.all_cons]
    simp
  have h : rule s.cur false ('"' :: (w ++ ['"'])) = some (some (.word w)) := by
    unfold rule
    dsimp only
    rw [if_neg (by decide), if_neg (not_blank hno), if_neg (by simp [isFloat, hds]), if_neg (by simp [hI])]
    simp only [Bool.false_eq_true, if_false, false_and]
    rw [if_pos ⟨hs, name_last hw⟩]
    simp
  have := lexes_ws hno (Or.inl rfl) h
  simpa [Tok.run] using this

theorem kw_first (k : Kw) : ∃ cs, k.text = '$' :: cs := by
  cases k <;> exact ⟨_, rfl⟩

theorem dollar_rule (s : Sec) (b : Bool) (cs : Text) : rule s b ('$' :: cs) =
    match (if b then Kw.all.find? (fun k => k.text = '$' :: cs && k.sec = s) else none) with
    | some k => some (some (.kw k))
    | none => if cs = [] then some (some (.ch '$')) else none := by
  have hds : Verif.Sym.isNumber (dropSign ('$' :: cs)) = false :=
    Verif.Sym.isNumber_of_mem (q := '$') (by decide) (by simp [dropSign])
  simp only [Verif.Sym.isNumber, Bool.or_eq_false_iff] at hds
  have hI : isInt ('$' :: cs) = false := by
    simp only [isInt, Verif.Sym.isInteger, List.all_cons]
    simp
  have hf : isFmtC '$' = false := by decide
  have hh : isHeadC '$' = false := by decide
  unfold rule
  dsimp only
  rw [if_neg (by decide), if_neg (by rw [List.all_cons, Bool.and_eq_true]; exact fun h => absurd h.1 (by decide)),
    if_neg (by simp [isFloat, hds]), if_neg (by simp [hI])]
  generalize (if b then Kw.all.find? (fun k => k.text = '$' :: cs && k.sec = s) else none) = o
  cases o with
  | some k => rfl
  | none =>
    dsimp only
    rw [if_neg (by rw [List.all_cons, hf]; simp), if_neg (by simp [isQuoted]), if_neg (by simp [isName, hh]),
      if_neg (c := ('$' : Char).val = 0 ∨ _) (by decide)]

/-- A keyword at the beginning of a line. -/
theorem lexes_kw {s : Stk} (k : Kw) (hk : s.cur = k.sec) : LexA s true (k.text ++ ['\n']) [.kw k, .eol] (k.run s) true := by
  have h : rule s.cur true k.text = some (some (.kw k)) := by
    rw [hk]
    cases k <;> (show rule _ true ('$' :: _) = _; rw [dollar_rule]; decide)
  have hl : Lexes s true k.text [.kw k] (k.run s) false (Next isWs) := by
    refine lexes_tok (by cases k <;> decide) h ?_
    intro rest hr d t' u e
    obtain ⟨q, hq, hw⟩ := hr.mem e
    obtain ⟨cs, hcs⟩ := kw_first k
    rw [hcs, List.cons_append, dollar_rule]
    have : (if true = true then Kw.all.find? (fun k => k.text = '$' :: (cs ++ (t' ++ [d])) && k.sec = s.cur) else none) = none := by
      rw [if_pos rfl, List.find?_eq_none]
      intro k' _ h'
      simp only [Bool.and_eq_true, decide_eq_true_eq] at h'
      exact kw_no_ws k' (by rw [h'.1]; simp only [List.mem_cons, List.mem_append] at hq ⊢; tauto) hw
    rw [this]
    simp
  exact hl.append (lexes_eol _ _) fun rest _ => ⟨'\n', rest, rfl, Or.inr rfl⟩

/-- The line with the version. -/
theorem lexes_format {s : Stk} {v : Text} (hv : v.all isFmtC = true) (h0 : ∃ c ∈ v, c ≠ ' ') (hs : s.cur = .format) :
    LexA s true (v ++ ['\n']) [.format v, .eol] s true := by
  obtain ⟨q, hq, hqs⟩ := h0
  cases v with
  | nil => simp at hq
  | cons c cs =>
    have hc : isFmtC c = true := by simp at hv; exact hv.1
    have hn : c ≠ '\n' := by rintro rfl; revert hc; decide
    have hd : c ≠ '$' := by rintro rfl; revert hc; decide
    have hblank : ¬ ((c :: cs).all isBlank = true) := by
      rw [List.all_eq_true]
      intro h
      have h1 := h q hq
      have h2 := List.all_eq_true.1 hv q hq
      simp only [isBlank, Bool.or_eq_true, decide_eq_true_eq] at h1
      rcases h1 with (h | h) | h
      · exact hqs h
      · subst h; revert h2; decide
      · subst h; revert h2; decide
    have hK : ∀ x, (Kw.all.find? fun k => decide (k.text = c :: x) && decide (k.sec = s.cur)) = none := by
      intro x
      rw [List.find?_eq_none]
      intro k _ h
      simp only [Bool.and_eq_true, decide_eq_true_eq] at h
      obtain ⟨y, hy⟩ := kw_first k
      rw [hy] at h
      exact hd (List.cons.inj h.1).1.symm
    have h : rule s.cur true (c :: cs) = some (some (.format (c :: cs))) := by
      unfold rule
      dsimp only
      rw [if_neg hn, if_neg hblank, if_neg (by simp [hs]), if_neg (by simp [hs])]
      simp only [if_true, hK]
      rw [if_pos ⟨trivial, hs, hv⟩]
    have hl : Lexes s true (c :: cs) [.format (c :: cs)] s false (Next (· = '\n')) := by
      refine lexes_tok (by simp) h ?_
      intro rest hr d t' u e
      obtain ⟨p, hp, rfl⟩ := hr.mem e
      rw [List.cons_append]
      refine rule_none_of_ws ?_ hn (q := '\n') (by simp only [List.mem_cons, List.mem_append] at hp ⊢; tauto) (Or.inr rfl)
        (by simp) (Or.inr (Or.inr ?_))
      · intro h
        rw [List.all_eq_true] at h
        have := h '\n' (by simp only [List.mem_cons, List.mem_append] at hp ⊢; tauto)
        revert this; decide
      · rw [List.all_eq_false]
        exact ⟨'\n', by simp only [List.mem_cons, List.mem_append] at hp ⊢; tauto, by decide⟩
    exact hl.append (lexes_eol _ _) fun rest _ => ⟨'\n', rest, rfl, rfl⟩

end Verif.Gmsh.File
