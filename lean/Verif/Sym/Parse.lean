import Verif.Sym.ScanLemmas

/-!
# The parser (`mcParser.y`)

The expression part of the grammar. The grammar is ambiguous and disambiguated by the precedence
declarations; the model is the precedence-climbing parser for these declarations.
-/

namespace Verif.Sym

/-- The binary operators of the grammar (`mcParser.y:159-172`). -/
inductive PBin
  | logic (o : LOp) | plus | minus | mul | div | pow
deriving DecidableEq

/-- A parsed expression, before the semantic actions. -/
inductive Raw
  | num (s : Str)
  | name (s : Str)
  | call (f : Str) (args : List Raw)
  | neg (r : Raw)
  | pos (r : Raw)
  | not (r : Raw)
  | bin (o : PBin) (a b : Raw)

/-- The precedence of the binary operators, loosest first (`mcParser.y:75-81`). -/
def PBin.prec : PBin → Nat
  | .logic .or => 1
  | .logic .and => 2
  | .logic .eq => 3
  | .logic .neq => 3
  | .logic .lt => 4
  | .logic .lte => 4
  | .logic .gt => 4
  | .logic .gte => 4
  | .plus => 5
  | .minus => 5
  | .mul => 6
  | .div => 6
  | .pow => 7

/-- The precedence the right operand is parsed with: `^` is the only right-associative operator
(`mcParser.y:81`). -/
def PBin.rprec : PBin → Nat
  | .pow => 7
  | o => o.prec + 1

def binOf : Tok → Option PBin
  | .op o => some (.logic o)
  | .sym c =>
    if c = '+' then some .plus
    else if c = '-' then some .minus
    else if c = '*' then some .mul
    else if c = '/' then some .div
    else if c = '^' then some .pow
    else none
  | _ => none

mutual
/-- Unary operators bind tightest (`mcParser.y:82`), then numbers, names, calls and parentheses
(`mcParser.y:167`, `173-227`). `fn` says which names are functions (`mcScanner.l:94-99`). -/
def pPrim (fn : Str → Bool) : Nat → List Tok → Option (Raw × List Tok)
  | 0, _ => none
  | n + 1, ts => match ts with
    | .num s :: r => some (.num s, r)
    | .sym '-' :: r => match pPrim fn n r with
      | some (x, r) => some (.neg x, r)
      | none => none
    | .sym '+' :: r => match pPrim fn n r with
      | some (x, r) => some (.pos x, r)
      | none => none
    | .not :: r => match pPrim fn n r with
      | some (x, r) => some (.not x, r)
      | none => none
    | .sym '(' :: r => match pExpr fn n 0 r with
      | some (x, .sym ')' :: r) => some (x, r)
      | _ => none
    | .word s :: r =>
      if fn s then match r with
        | .sym '(' :: r => match pArgs fn n r with
          | some (xs, r) => some (.call s xs, r)
          | none => none
        | _ => none
      else some (.name s, r)
    | _ => none
/-- An expression whose operators have at least precedence `p`. -/
def pExpr (fn : Str → Bool) : Nat → Nat → List Tok → Option (Raw × List Tok)
  | 0, _, _ => none
  | n + 1, p, ts => match pPrim fn n ts with
    | some (x, r) => pLoop fn n p x r
    | none => none
/-- The operators after the left operand `x`. -/
def pLoop (fn : Str → Bool) : Nat → Nat → Raw → List Tok → Option (Raw × List Tok)
  | 0, _, _, _ => none
  | n + 1, p, x, ts => match ts with
    | [] => some (x, [])
    | t :: r => match binOf t with
      | none => some (x, t :: r)
      | some o =>
        if p ≤ o.prec then match pExpr fn n o.rprec r with
          | some (y, r) => pLoop fn n p (.bin o x y) r
          | none => none
        else some (x, t :: r)
/-- `varobj ')'` (`mcParser.y:345-353`). -/
def pArgs (fn : Str → Bool) : Nat → List Tok → Option (List Raw × List Tok)
  | 0, _ => none
  | n + 1, ts => match pExpr fn n 0 ts with
    | some (x, .sym ')' :: r) => some ([x], r)
    | some (x, .sym ',' :: r) => match pArgs fn n r with
      | some (xs, r) => some (x :: xs, r)
      | none => none
    | _ => none
end

/-- Parsing a complete text as one expression. -/
def parseRaw (fn : Str → Bool) (cs : Str) : Option Raw :=
  match lex cs with
  | none => none
  | some ts => match pExpr fn (2 * ts.length + 2) 0 ts with
    | some (r, []) => some r
    | _ => none

/-! ### What a printed tree reads as -/

def BOp.bin : BOp → PBin
  | .mul => .mul
  | .plus => .plus
  | .minus => .minus
  | .logic o => .logic o

def BOp.tok : BOp → Tok
  | .mul => .sym '*'
  | .plus => .sym '+'
  | .minus => .sym '-'
  | .logic o => .op o

def UOp.toks : UOp → List Tok
  | .none => []
  | .neg => [.sym '-']
  | .not => [.not]

def UOp.raw : UOp → Raw → Raw
  | .none, r => r
  | .neg, r => .neg r
  | .not, r => .not r

mutual
def toks : PTree → List Tok
  | .num s => [.num s]
  | .name s => [.word s]
  | .unit => [.sym '(', .sym ')']
  | .call f _ args => .word f :: .sym '(' :: toksArgs args
  | .paren u hd tl => .sym '(' :: (u.toks ++ (toks hd ++ (toksItems tl ++ [.sym ')'])))
/-- The arguments up to and including the closing parenthesis. -/
def toksArgs : PArgs → List Tok
  | .nil => [.sym ')']
  | .cons t .nil => toks t ++ [.sym ')']
  | .cons t as => toks t ++ .sym ',' :: toksArgs as
def toksItems : PItems → List Tok
  | .nil => []
  | .cons op t is => op.tok :: (toks t ++ toksItems is)
end

mutual
def raw : PTree → Raw
  | .num s => .num s
  | .name s => .name s
  | .unit => .name []
  | .call f _ args => .call f (rawArgs args)
  | .paren u hd tl => rawItems (u.raw (raw hd)) tl
def rawArgs : PArgs → List Raw
  | .nil => []
  | .cons t as => raw t :: rawArgs as
/-- Left-associative. -/
def rawItems (x : Raw) : PItems → Raw
  | .nil => x
  | .cons op t is => rawItems (.bin op.bin x (raw t)) is
end

mutual
/-- The trees that are read back: names and numbers as the scanner wants them, functions that are
functions, and in every pair of parentheses operators of one precedence only. -/
def OKTree (fn : Str → Bool) : PTree → Prop
  | .num s => isNumber s = true
  | .name s => isName s = true ∧ s ≠ ['d', 'd', 't'] ∧ fn s = false
  | .unit => False
  | .call f sep args => isName f = true ∧ f ≠ ['d', 'd', 't'] ∧ fn f = true ∧ args ≠ .nil ∧
      OKArgs fn sep args
  | .paren _ hd tl => OKTree fn hd ∧ ∃ q, OKItems fn q tl
def OKArgs (fn : Str → Bool) (sep : Str) : PArgs → Prop
  | .nil => True
  | .cons t as => OKTree fn t ∧ (as = .nil ∨ sep = [','] ∨ sep = [',', ' ']) ∧ OKArgs fn sep as
def OKItems (fn : Str → Bool) (q : Nat) : PItems → Prop
  | .nil => True
  | .cons op t is => op.bin.prec = q ∧ OKTree fn t ∧ OKItems fn q is
end

/-! ### Scanning a printed tree -/

/-- A printed tree starts with a character that is neither a blank nor `=`. -/
theorem render_head {fn} (t : PTree) (h : OKTree fn t) :
    ∃ c s, render t = c :: s ∧ isSpaceC c = false ∧ c ≠ '=' := by
  cases t with
  | num s =>
    simp only [OKTree] at h
    cases s with
    | nil => exact absurd rfl (isNumber_ne_nil h)
    | cons c s =>
      refine ⟨c, s, by simp only [render], number_not_space h, ?_⟩
      rintro rfl
      have := isNumber_head h
      revert this; decide
  | name s =>
    simp only [OKTree] at h
    cases s with
    | nil => exact absurd h.1 (by decide)
    | cons c s =>
      have ha := isName_head h.1
      exact ⟨c, s, by simp only [render], alpha_not_space ha, alpha_ne ha (by decide)⟩
  | unit => simp only [OKTree] at h
  | call f sep args =>
    simp only [OKTree] at h
    cases f with
    | nil => exact absurd h.1 (by decide)
    | cons c s =>
      have ha := isName_head h.1
      exact ⟨c, _, by simp only [render, List.cons_append]; rfl, alpha_not_space ha,
        alpha_ne ha (by decide)⟩
  | paren u hd tl =>
    exact ⟨'(', _, by simp only [render, List.singleton_append, List.cons_append]; rfl, by decide,
      by decide⟩

theorem lex_uop {fn} (u : UOp) (t : PTree) (h : OKTree fn t) (rest : Str) :
    lex (u.text ++ (render t ++ rest)) = (lex (render t ++ rest)).map (u.toks ++ ·) := by
  cases u with
  | none => simp only [UOp.text, UOp.toks, List.nil_append]; cases lex (render t ++ rest) <;> rfl
  | neg => exact lex_punct (by decide)
  | not =>
    obtain ⟨c, s, h1, _, h3⟩ := render_head t h
    refine lex_not ?_
    rw [h1]
    simp [h3]

theorem lex_bop (op : BOp) (rest : Str) :
    lex (op.text ++ ' ' :: rest) = (lex (' ' :: rest)).map (op.tok :: ·) := by
  cases op with
  | mul => exact lex_punct (by decide)
  | plus => exact lex_punct (by decide)
  | minus => exact lex_punct (by decide)
  | logic o => exact lex_op o rest

theorem bop_head (op : BOp) : ∃ c s, op.text = c :: s ∧ isSpaceC c = false := by
  cases op with
  | mul => exact ⟨_, _, rfl, by decide⟩
  | plus => exact ⟨_, _, rfl, by decide⟩
  | minus => exact ⟨_, _, rfl, by decide⟩
  | logic o => cases o <;> exact ⟨_, _, rfl, by decide⟩

theorem map_map_append (o : Option (List Tok)) (a b : List Tok) :
    (o.map (b ++ ·)).map (a ++ ·) = o.map (a ++ b ++ ·) := by
  cases o <;> simp

theorem stop_items (tl : PItems) (rest : Str) : Stop (renderItems tl ++ (')' :: rest)) := by
  cases tl with
  | nil => intro c hc; cases hc; decide
  | cons op t is =>
    intro c hc
    simp only [renderItems, List.singleton_append, List.cons_append, List.head?_cons,
      Option.some.injEq] at hc
    subst hc; decide

mutual
theorem lex_render {fn} : ∀ (t : PTree) (rest : Str), OKTree fn t → Stop rest →
    lex (render t ++ rest) = (lex rest).map (toks t ++ ·)
  | .num s, rest, h, hs => by
    simp only [OKTree] at h
    simp only [render, toks]
    exact lex_num h hs
  | .name s, rest, h, hs => by
    simp only [OKTree] at h
    simp only [render, toks]
    exact lex_name h.1 h.2.1 hs
  | .unit, rest, h, hs => by simp only [OKTree] at h
  | .call f sep args, rest, h, hs => by
    simp only [OKTree] at h
    obtain ⟨h1, h2, h3, h4, h5⟩ := h
    have e1 : render (.call f sep args) ++ rest = f ++ ('(' :: (renderArgs sep args ++ (')' :: rest))) := by
      simp [render]
    have e2 := lex_args args sep rest h4 h5 
    rw [e1]
    -- '(' is not a stopping character: the name is cut by longest match all the same
    rw [lex_name_paren h1 h2, lex_punct (by decide), e2]
    simp [toks, Option.map_map, Function.comp_def]
  | .paren u hd tl, rest, h, hs => by
    simp only [OKTree] at h
    obtain ⟨h1, q, h2⟩ := h
    have e1 : render (.paren u hd tl) ++ rest
        = '(' :: (u.text ++ (render hd ++ (renderItems tl ++ (')' :: rest)))) := by
      simp [render]
    rw [e1, lex_punct (by decide), lex_uop u hd h1, lex_render hd _ h1 (stop_items tl rest),
      lex_items tl q rest h2]
    simp [toks, Option.map_map, Function.comp_def]
theorem lex_args {fn} : ∀ (as : PArgs) (sep rest : Str), as ≠ .nil → OKArgs fn sep as →
    lex (renderArgs sep as ++ (')' :: rest)) = (lex rest).map (toksArgs as ++ ·)
  | .nil, _, _, h, _ => absurd rfl h
  | .cons t .nil, sep, rest, _, h => by
    simp only [OKArgs] at h
    rw [renderArgs, lex_render t _ h.1 (by intro c hc; cases hc; decide), lex_punct (by decide)]
    simp [toksArgs, Option.map_map, Function.comp_def]
  | .cons t (.cons t' as), sep, rest, _, h => by
    rw [OKArgs] at h
    obtain ⟨h1, h2, h3⟩ := h
    have ih := lex_args (.cons t' as) sep rest (by simp) h3
    have h4 : OKTree fn t' := by rw [OKArgs] at h3; exact h3.1
    have hblank : ∀ x, (renderArgs sep (.cons t' as) ++ (')' :: rest)).head? = some x →
        isSpaceC x = false := by
      intro x hx
      obtain ⟨c, s, hc, hsp, _⟩ := render_head t' h4
      have : ∃ s', renderArgs sep (.cons t' as) = c :: s' := by
        cases as with
        | nil => rw [renderArgs, hc]; exact ⟨_, rfl⟩
        | cons t'' as => rw [renderArgs, hc]; exact ⟨_, rfl⟩; simp
      obtain ⟨s', hs'⟩ := this
      rw [hs'] at hx
      cases hx; exact hsp
    have e : renderArgs sep (.cons t (.cons t' as)) ++ (')' :: rest)
        = render t ++ (sep ++ (renderArgs sep (.cons t' as) ++ (')' :: rest))) := by
      rw [renderArgs] <;> simp
    rw [e]
    rcases h2 with h2 | rfl | rfl
    · cases h2
    · rw [lex_render t _ h1 (by intro c hc; cases hc; decide), List.singleton_append,
        lex_punct (by decide), ih]
      simp [toksArgs, Option.map_map, Function.comp_def]
    · rw [lex_render t _ h1 (by intro c hc; cases hc; decide), List.cons_append,
        lex_punct (by decide), List.singleton_append, lex_blank hblank, ih]
      simp [toksArgs, Option.map_map, Function.comp_def]
theorem lex_items {fn} : ∀ (is : PItems) (q : Nat) (rest : Str), OKItems fn q is →
    lex (renderItems is ++ (')' :: rest)) = (lex rest).map (toksItems is ++ Tok.sym ')' :: ·)
  | .nil, _, rest, _ => by
    simp only [renderItems, List.nil_append, toksItems]
    exact lex_punct (by decide)
  | .cons op t is, q, rest, h => by
    simp only [OKItems] at h
    obtain ⟨_, h2, h3⟩ := h
    have e : renderItems (.cons op t is) ++ (')' :: rest)
        = ' ' :: (op.text ++ ' ' :: (render t ++ (renderItems is ++ (')' :: rest)))) := by
      simp [renderItems]
    rw [e, lex_blank, lex_bop, lex_blank, lex_render t _ h2 (stop_items is rest),
      lex_items is q rest h3]
    · simp [toksItems, Option.map_map, Function.comp_def]
    · intro c hc
      obtain ⟨d, s, hd, hsp, _⟩ := render_head t h2
      rw [hd] at hc
      cases hc; exact hsp
    · intro c hc
      obtain ⟨d, s, hd, hsp⟩ := bop_head op
      rw [hd] at hc
      cases hc; exact hsp
end

/-! ### Parsing a printed tree -/

theorem toks_len (t : PTree) : 1 ≤ (toks t).length := by
  cases t <;> simp only [toks, List.length_cons, List.length_nil] <;> omega

theorem binOf_tok (op : BOp) : binOf op.tok = some op.bin := by
  cases op <;> rfl

theorem rprec_bop (op : BOp) : op.bin.rprec = op.bin.prec + 1 := by
  cases op <;> rfl

theorem binOf_close : binOf (.sym ')') = none := by decide

theorem binOf_comma : binOf (.sym ',') = none := by decide

/-- An operand is complete in front of `)`, `,` and operators of lower precedence. -/
theorem pLoop_stop {fn} {n p : Nat} {x : Raw} {t : Tok} {r : List Tok} (hn : 1 ≤ n)
    (h : ∀ o, binOf t = some o → o.prec < p) : pLoop fn n p x (t :: r) = some (x, t :: r) := by
  obtain ⟨m, rfl⟩ : ∃ m, n = m + 1 := ⟨n - 1, by omega⟩
  rw [pLoop]
  split
  · rfl
  · rename_i o ho
    rw [if_neg]
    have := h o ho
    omega

theorem items_stop {fn} (is : PItems) (q p : Nat) (h : OKItems fn q is) (hp : q < p) (x : Raw)
    (n : Nat) (hn : 1 ≤ n) (rest : List Tok) :
    pLoop fn n p x (toksItems is ++ .sym ')' :: rest)
      = some (x, toksItems is ++ .sym ')' :: rest) := by
  cases is with
  | nil =>
    simp only [toksItems, List.nil_append]
    exact pLoop_stop hn (by intro o ho; rw [binOf_close] at ho; cases ho)
  | cons op t is =>
    simp only [OKItems] at h
    simp only [toksItems, List.cons_append]
    refine pLoop_stop hn (fun o ho => ?_)
    rw [binOf_tok] at ho
    cases ho
    omega

theorem pPrim_word {fn} {n : Nat} {s : Str} {r : List Tok} (h : fn s = false) :
    pPrim fn (n + 1) (.word s :: r) = some (.name s, r) := by
  simp only [pPrim, h]; rfl

theorem pPrim_call {fn} {n : Nat} {s : Str} {r r' : List Tok} {xs : List Raw} (h : fn s = true)
    (ha : pArgs fn n r = some (xs, r')) :
    pPrim fn (n + 1) (.word s :: .sym '(' :: r) = some (.call s xs, r') := by
  simp only [pPrim, h, if_true, ha]

theorem pPrim_paren {fn} {n : Nat} {r r' : List Tok} {x : Raw}
    (ha : pExpr fn n 0 r = some (x, .sym ')' :: r')) :
    pPrim fn (n + 1) (.sym '(' :: r) = some (x, r') := by
  simp only [pPrim, ha]

theorem pPrim_uop {fn} {n : Nat} (u : UOp) {r r' : List Tok} {x : Raw}
    (ha : ∀ m, n ≤ m → pPrim fn m r = some (x, r')) :
    pPrim fn (n + 1) (u.toks ++ r) = some (u.raw x, r') := by
  cases u with
  | none => exact ha _ (by omega)
  | neg =>
    simp only [UOp.toks, UOp.raw, List.singleton_append, pPrim, ha n le_rfl]
  | not =>
    simp only [UOp.toks, UOp.raw, List.singleton_append, pPrim, ha n le_rfl]

mutual
theorem pPrim_ok {fn} : ∀ (t : PTree) (n : Nat) (rest : List Tok), OKTree fn t →
    2 * (toks t).length ≤ n → pPrim fn n (toks t ++ rest) = some (raw t, rest)
  | .num s, n, rest, _, hn => by
    simp only [toks, List.length_singleton] at hn
    obtain ⟨m, rfl⟩ : ∃ m, n = m + 1 := ⟨n - 1, by omega⟩
    simp only [toks, raw, List.singleton_append, pPrim]
  | .name s, n, rest, h, hn => by
    simp only [OKTree] at h
    simp only [toks, List.length_singleton] at hn
    obtain ⟨m, rfl⟩ : ∃ m, n = m + 1 := ⟨n - 1, by omega⟩
    simp only [toks, raw, List.singleton_append]
    exact pPrim_word h.2.2
  | .unit, _, _, h, _ => by simp only [OKTree] at h
  | .call f sep args, n, rest, h, hn => by
    simp only [OKTree] at h
    simp only [toks, List.length_cons] at hn
    obtain ⟨m, rfl⟩ : ∃ m, n = m + 1 := ⟨n - 1, by omega⟩
    simp only [toks, raw, List.cons_append]
    exact pPrim_call h.2.2.1 (pArgs_ok args sep m rest h.2.2.2.1 h.2.2.2.2 (by omega))
  | .paren u hd tl, n, rest, h, hn => by
    simp only [OKTree] at h
    obtain ⟨h1, q, h2⟩ := h
    simp only [toks, List.length_cons, List.length_append, List.length_nil] at hn
    obtain ⟨m, rfl⟩ : ∃ m, n = m + 3 := ⟨n - 3, by have := toks_len hd; omega⟩
    simp only [toks, raw, List.cons_append, List.append_assoc, List.nil_append]
    apply pPrim_paren
    rw [pExpr, pPrim_uop u (x := raw hd) (r' := toksItems tl ++ .sym ')' :: rest)]
    · dsimp only
      exact pLoop_ok tl q 0 _ _ rest h2 (Nat.zero_le _) (by have := toks_len hd; omega)
    · intro k hk
      exact pPrim_ok hd k _ h1 (by omega)
theorem pArgs_ok {fn} : ∀ (as : PArgs) (sep : Str) (n : Nat) (rest : List Tok), as ≠ .nil →
    OKArgs fn sep as → 2 * (toksArgs as).length ≤ n →
    pArgs fn n (toksArgs as ++ rest) = some (rawArgs as, rest)
  | .nil, _, _, _, h, _, _ => absurd rfl h
  | .cons t .nil, sep, n, rest, _, h, hn => by
    rw [OKArgs] at h
    rw [toksArgs, List.length_append, List.length_singleton] at hn
    have := toks_len t
    obtain ⟨m, rfl⟩ : ∃ m, n = m + 2 := ⟨n - 2, by omega⟩
    rw [toksArgs, List.append_assoc, List.singleton_append, pArgs, pExpr,
      pPrim_ok t m _ h.1 (by omega)]
    dsimp only
    rw [pLoop_stop (by omega) (by intro o ho; rw [binOf_close] at ho; cases ho)]
    simp only [rawArgs]
  | .cons t (.cons t' as), sep, n, rest, _, h, hn => by
    rw [OKArgs] at h
    have e : toksArgs (.cons t (.cons t' as)) = toks t ++ .sym ',' :: toksArgs (.cons t' as) := by
      rw [toksArgs]; simp
    rw [e, List.length_append, List.length_cons] at hn
    have := toks_len t
    obtain ⟨m, rfl⟩ : ∃ m, n = m + 2 := ⟨n - 2, by omega⟩
    rw [e, List.append_assoc, List.cons_append, pArgs, pExpr, pPrim_ok t m _ h.1 (by omega)]
    dsimp only
    rw [pLoop_stop (by omega) (by intro o ho; rw [binOf_comma] at ho; cases ho)]
    have ih := pArgs_ok (.cons t' as) sep (m + 1) rest (by simp) h.2.2 (by omega)
    rw [rawArgs]
    simp only [ih]
theorem pLoop_ok {fn} : ∀ (is : PItems) (q p : Nat) (x : Raw) (n : Nat) (rest : List Tok),
    OKItems fn q is → p ≤ q → 2 * (toksItems is).length + 1 ≤ n →
    pLoop fn n p x (toksItems is ++ .sym ')' :: rest) = some (rawItems x is, .sym ')' :: rest)
  | .nil, q, p, x, n, rest, _, _, hn => by
    simp only [toksItems, List.nil_append, rawItems]
    exact pLoop_stop (by omega) (by intro o ho; rw [binOf_close] at ho; cases ho)
  | .cons op t is, q, p, x, n, rest, h, hp, hn => by
    simp only [OKItems] at h
    obtain ⟨h1, h2, h3⟩ := h
    simp only [toksItems, List.length_cons, List.length_append] at hn
    have := toks_len t
    obtain ⟨m, rfl⟩ : ∃ m, n = m + 2 := ⟨n - 2, by omega⟩
    simp only [toksItems, List.cons_append, List.append_assoc]
    rw [pLoop]
    rw [binOf_tok]
    dsimp only
    rw [if_pos (by omega), pExpr, pPrim_ok t m _ h2 (by omega)]
    dsimp only
    rw [rprec_bop, h1, items_stop is q (q + 1) h3 (by omega) _ m (by omega)]
    dsimp only
    rw [pLoop_ok is q p _ (m + 1) rest h3 hp (by omega), rawItems]
end

/-- A printed tree is read back as it was printed. -/
theorem parseRaw_render {fn} (t : PTree) (h : OKTree fn t) :
    parseRaw fn (render t) = some (raw t) := by
  have hl : lex (render t) = some (toks t) := by
    have := lex_render t [] h (by intro c hc; cases hc)
    simpa [lex, lexF] using this
  unfold parseRaw
  rw [hl]
  dsimp only
  rw [pExpr]
  have := pPrim_ok t (2 * (toks t).length + 1) [] h (by omega)
  rw [List.append_nil] at this
  rw [this]
  simp only [pLoop]

end Verif.Sym
