import Verif.Sym.Text

/-!
# The scanner (`mcScanner.l`)

A flex scanner: at every position the longest match of any rule is taken, the first rule in the
file when several rules match the same text. Rules that start with `^` (the commands) only match at
the beginning of a line; an expression is scanned in the middle of one, so they are left out, and so
are quoted strings, comments and UTF-8 sequences, which printed expressions do not contain.
-/

namespace Verif.Sym

/-! ### Character classes and patterns -/

def isSpaceC (c : Char) : Bool := c = ' ' || c = '\t' || c = '\r' || c = '\n'

/-- `[A-Za-z_0-9:]` -/
def isNameC (c : Char) : Bool := c.isAlpha || c.isDigit || c = '_' || c = ':'

/-- `integer` (`mcScanner.l:33`): `[0-9]+`. -/
def isInteger (s : Str) : Bool := !s.isEmpty && s.all Char.isDigit

/-- `float1` (`mcScanner.l:34`): `[0-9]*\.[0-9]+`. -/
def isFloat1 (s : Str) : Bool :=
  match s.dropWhile Char.isDigit with
  | '.' :: ds => isInteger ds
  | _ => false

/-- `float2` (`mcScanner.l:35`): `[0-9]+\.[0-9]*`. -/
def isFloat2 (s : Str) : Bool :=
  !(s.takeWhile Char.isDigit).isEmpty &&
  match s.dropWhile Char.isDigit with
  | '.' :: ds => ds.all Char.isDigit
  | _ => false

/-- The exponent of `float3`: `[eE][+-]?[0-9]+`. -/
def isExpo (s : Str) : Bool :=
  match s with
  | c :: '+' :: ds => (c = 'e' || c = 'E') && isInteger ds
  | c :: '-' :: ds => (c = 'e' || c = 'E') && isInteger ds
  | c :: ds => (c = 'e' || c = 'E') && isInteger ds
  | [] => false

/-- `float3` (`mcScanner.l:36`): `[0-9]+\.?[0-9]*[eE][+-]?[0-9]+`. -/
def isFloat3 (s : Str) : Bool :=
  !(s.takeWhile Char.isDigit).isEmpty &&
  match s.dropWhile Char.isDigit with
  | '.' :: ds => isExpo (ds.dropWhile Char.isDigit)
  | ds => isExpo ds

/-- The number rules (`mcScanner.l:52-54`). -/
def isNumber (s : Str) : Bool := isFloat1 s || isFloat2 s || isFloat3 s || isInteger s

/-- The name rule (`mcScanner.l:92`): `[A-Za-z][A-Za-z_0-9:]*`. -/
def isName (s : Str) : Bool :=
  match s with
  | c :: cs => c.isAlpha && cs.all isNameC
  | [] => false

/-- Tokens. The kind of a name (variable, model, function, ...) is looked up by the parser. -/
inductive Tok
  | num (s : Str)
  | word (s : Str)
  | ddt
  | op (o : LOp)
  | not
  | sym (c : Char)
deriving DecidableEq

/-- What the first matching rule does with the text (`mcScanner.l:48-117`): `none` if no rule matches,
`some none` for a rule that skips. -/
def rule (s : Str) : Option (Option Tok) :=
  if !s.isEmpty && s.all isSpaceC then some none
  else if isNumber s then some (some (.num s))
  else if s = ['d', 'd', 't'] then some (some .ddt)
  else match s with
    | ['<'] => some (some (.op .lt))
    | ['<', '='] => some (some (.op .lte))
    | ['>'] => some (some (.op .gt))
    | ['>', '='] => some (some (.op .gte))
    | ['=', '='] => some (some (.op .eq))
    | ['!', '='] => some (some (.op .neq))
    | ['!'] => some (some .not)
    | ['&', '&'] => some (some (.op .and))
    | ['|', '|'] => some (some (.op .or))
    | s =>
      if isName s then some (some (.word s))
      else match s with
        | [c] => if c = '\n' then none else some (some (.sym c))
        | _ => none

/-- The longest match among the prefixes of length at most `n`. -/
def longest (cs : Str) : Nat → Option (Nat × Option Tok)
  | 0 => none
  | n + 1 => match rule (cs.take (n + 1)) with
    | some a => some (n + 1, a)
    | none => longest cs n

/-- The scanner loop, with at most `n` matches. -/
def lexF : Nat → Str → Option (List Tok)
  | _, [] => some []
  | 0, _ :: _ => none
  | n + 1, c :: cs => match longest (c :: cs) (c :: cs).length with
    | none => none
    | some (k, a) => (lexF n ((c :: cs).drop k)).map (a.toList ++ ·)

/-- The tokens of a text. -/
def lex (cs : Str) : Option (List Tok) := lexF cs.length cs

/-! ### Lemmas -/

theorem longest_eq {cs : Str} {n : Nat} {a : Option Tok} (h : rule (cs.take n) = some a)
    (hn : 0 < n) (N : Nat) (hN : n ≤ N) (hno : ∀ m, n < m → m ≤ N → rule (cs.take m) = none) :
    longest cs N = some (n, a) := by
  induction N with
  | zero => omega
  | succ N ih =>
    rw [longest]
    rcases Nat.lt_or_ge n (N + 1) with hlt | hge
    · rw [hno (N + 1) hlt le_rfl]
      exact ih (by omega) fun m h1 h2 => hno m h1 (by omega)
    · have : n = N + 1 := by omega
      rw [← this, h]

theorem longest_pos {cs : Str} {N k : Nat} {a} (h : longest cs N = some (k, a)) : 0 < k := by
  induction N with
  | zero => cases h
  | succ N ih =>
    rw [longest] at h
    split at h
    · cases h; omega
    · exact ih h

theorem lexF_mono : ∀ (n m : Nat) (cs : Str), cs.length ≤ n → cs.length ≤ m →
    lexF n cs = lexF m cs := by
  intro n
  induction n with
  | zero =>
    intro m cs h1 _
    have : cs = [] := List.length_eq_zero_iff.1 (by omega)
    subst this
    cases m <;> rfl
  | succ n ih =>
    intro m cs h1 h2
    cases cs with
    | nil => cases m <;> rfl
    | cons c cs =>
      cases m with
      | zero => simp at h2
      | succ m =>
        rw [lexF, lexF]
        split
        · rfl
        · rename_i k a hk
          have hp := longest_pos hk
          have hl : ((c :: cs).drop k).length ≤ n ∧ ((c :: cs).drop k).length ≤ m := by
            simp only [List.length_drop, List.length_cons] at h1 h2 ⊢; omega
          rw [ih m _ hl.1 hl.2]

/-- Scanning a text whose first match is `s`. -/
theorem lex_step {s rest : Str} {a : Option Tok} (hs : s ≠ [])
    (h : rule s = some a)
    (hno : ∀ t d u, rest = t ++ d :: u → rule (s ++ (t ++ [d])) = none) :
    lex (s ++ rest) = (lex rest).map (a.toList ++ ·) := by
  have hlen : 0 < s.length := List.length_pos_iff.2 hs
  have hk : longest (s ++ rest) (s ++ rest).length = some (s.length, a) := by
    apply longest_eq (by rw [List.take_left']; exact h; rfl) hlen
    · simp
    · intro m h1 h2
      rw [List.take_append, List.take_of_length_le h1.le]
      have hm : m - s.length ≤ rest.length := by simp at h2; omega
      obtain ⟨j, hj⟩ : ∃ j, m - s.length = j + 1 := ⟨m - s.length - 1, by omega⟩
      rw [hj] at hm ⊢
      have hj' : j < rest.length := by omega
      rw [List.take_succ_eq_append_getElem hj']
      apply hno (rest.take j) rest[j] (rest.drop (j + 1))
      rw [← List.drop_eq_getElem_cons hj', List.take_append_drop]
  obtain ⟨c, cs, hc⟩ : ∃ c cs, s ++ rest = c :: cs := by
    cases s with
    | nil => exact absurd rfl hs
    | cons c cs => exact ⟨c, cs ++ rest, rfl⟩
  unfold lex
  rw [hc] at hk ⊢
  rw [List.length_cons, lexF, hk]
  dsimp only
  rw [← hc, List.drop_left' rfl]
  congr 1
  apply lexF_mono
  · have := congrArg List.length hc
    simp only [List.length_append, List.length_cons] at this
    omega
  · exact le_rfl

end Verif.Sym
