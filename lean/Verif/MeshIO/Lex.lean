import Verif.Sym.ScanLemmas

/-!
# The scanner of mesh files (`DevsimScanner.l`)

A flex scanner with start states: at every position the longest match of any rule that is active in
the current start state is taken, the first rule in the file when several rules match the same text.
Rules with `^` match at the beginning of a line only. Start states are kept on a stack
(`yy_push_state`, `yy_pop_state`); the stack survives from one `load_devices` to the next, because
nothing resets it.

Simplification: a character outside ASCII stands for the UTF-8 sequences that the file allows in a
name; ill-formed sequences are not modelled.
-/

namespace Verif.MeshIO

/-- `std::string` -/
abbrev Text := List Char

/-- Start states (`DevsimScanner.l:38-39`). -/
inductive Sec
  | initial | device | coord | region | node | edge | tri | tet | iface | contact
  | nodesol | edgesol | nodemodel | edgemodel | trimodel | tetmodel | ifmodel | cmd
  | ifeq | ceq | req
deriving DecidableEq, Repr

/-- What a rule does to the stack of start states. -/
inductive SAct
  | push (s : Sec)
  | pop
  | stay
deriving DecidableEq, Repr

/-- The keyword rules, in the order of the file (`DevsimScanner.l:58-300`), except `COMMAND`. -/
inductive Kw
  | begDevice
  | endDevice
  | begCoord
  | endCoord
  | begRegion
  | endRegion
  | begNode
  | endNode
  | begEdge
  | endEdge
  | begTri
  | endTri
  | begTet
  | endTet
  | begContact
  | endContact
  | begNodeSol
  | endNodeSol
  | begEdgeSol
  | endEdgeSol
  | begNodeModel
  | endNodeModel
  | begEdgeModel
  | endEdgeModel
  | begTriModel
  | endTriModel
  | begTetModel
  | endTetModel
  | begIfModel
  | endIfModel
  | begIfEq
  | endIfEq
  | begCEq
  | endCEq
  | begREq
  | endREq
  | data
  | builtin
  | dataparent
  | uniform
  | begIface
  | endIface
deriving DecidableEq, Repr

/-- The text of a keyword. -/
def Kw.text : Kw → Text
  | .begDevice => "begin_device".toList
  | .endDevice => "end_device".toList
  | .begCoord => "begin_coordinates".toList
  | .endCoord => "end_coordinates".toList
  | .begRegion => "begin_region".toList
  | .endRegion => "end_region".toList
  | .begNode => "begin_nodes".toList
  | .endNode => "end_nodes".toList
  | .begEdge => "begin_edges".toList
  | .endEdge => "end_edges".toList
  | .begTri => "begin_triangles".toList
  | .endTri => "end_triangles".toList
  | .begTet => "begin_tetrahedra".toList
  | .endTet => "end_tetrahedra".toList
  | .begContact => "begin_contact".toList
  | .endContact => "end_contact".toList
  | .begNodeSol => "begin_node_solution".toList
  | .endNodeSol => "end_node_solution".toList
  | .begEdgeSol => "begin_edge_solution".toList
  | .endEdgeSol => "end_edge_solution".toList
  | .begNodeModel => "begin_node_model".toList
  | .endNodeModel => "end_node_model".toList
  | .begEdgeModel => "begin_edge_model".toList
  | .endEdgeModel => "end_edge_model".toList
  | .begTriModel => "begin_triangle_edge_model".toList
  | .endTriModel => "end_triangle_edge_model".toList
  | .begTetModel => "begin_tetrahedron_edge_model".toList
  | .endTetModel => "end_tetrahedron_edge_model".toList
  | .begIfModel => "begin_interface_node_model".toList
  | .endIfModel => "end_interface_node_model".toList
  | .begIfEq => "begin_equation".toList
  | .endIfEq => "end_equation".toList
  | .begCEq => "begin_equation".toList
  | .endCEq => "end_equation".toList
  | .begREq => "begin_equation".toList
  | .endREq => "end_equation".toList
  | .data => "DATA".toList
  | .builtin => "BUILTIN".toList
  | .dataparent => "DATAPARENT".toList
  | .uniform => "UNIFORM".toList
  | .begIface => "begin_interface".toList
  | .endIface => "end_interface".toList

/-- The start states in which the rule is active. -/
def Kw.secs : Kw → List Sec
  | .begDevice => [.initial]
  | .endDevice => [.device]
  | .begCoord => [.device]
  | .endCoord => [.coord]
  | .begRegion => [.device]
  | .endRegion => [.region]
  | .begNode => [.region, .contact, .iface]
  | .endNode => [.node]
  | .begEdge => [.region, .contact, .iface]
  | .endEdge => [.edge]
  | .begTri => [.region, .contact, .iface]
  | .endTri => [.tri]
  | .begTet => [.region]
  | .endTet => [.tet]
  | .begContact => [.device]
  | .endContact => [.contact]
  | .begNodeSol => [.region]
  | .endNodeSol => [.nodesol]
  | .begEdgeSol => [.region]
  | .endEdgeSol => [.edgesol]
  | .begNodeModel => [.region]
  | .endNodeModel => [.nodemodel]
  | .begEdgeModel => [.region]
  | .endEdgeModel => [.edgemodel]
  | .begTriModel => [.region]
  | .endTriModel => [.trimodel]
  | .begTetModel => [.region]
  | .endTetModel => [.tetmodel]
  | .begIfModel => [.iface]
  | .endIfModel => [.ifmodel]
  | .begIfEq => [.iface]
  | .endIfEq => [.ifeq]
  | .begCEq => [.contact]
  | .endCEq => [.ceq]
  | .begREq => [.region]
  | .endREq => [.req]
  | .data => [.nodemodel, .edgemodel, .trimodel, .tetmodel]
  | .builtin => [.nodemodel, .edgemodel, .trimodel, .tetmodel]
  | .dataparent => [.nodemodel, .edgemodel, .trimodel, .tetmodel]
  | .uniform => [.nodemodel, .edgemodel, .trimodel, .tetmodel]
  | .begIface => [.device]
  | .endIface => [.iface]

/-- The action of the rule. -/
def Kw.act : Kw → SAct
  | .begDevice => .push .device
  | .endDevice => .pop
  | .begCoord => .push .coord
  | .endCoord => .pop
  | .begRegion => .push .region
  | .endRegion => .pop
  | .begNode => .push .node
  | .endNode => .pop
  | .begEdge => .push .edge
  | .endEdge => .pop
  | .begTri => .push .tri
  | .endTri => .pop
  | .begTet => .push .tet
  | .endTet => .pop
  | .begContact => .push .contact
  | .endContact => .pop
  | .begNodeSol => .push .nodesol
  | .endNodeSol => .pop
  | .begEdgeSol => .push .edgesol
  | .endEdgeSol => .pop
  | .begNodeModel => .push .nodemodel
  | .endNodeModel => .pop
  | .begEdgeModel => .push .edgemodel
  | .endEdgeModel => .pop
  | .begTriModel => .push .trimodel
  | .endTriModel => .pop
  | .begTetModel => .push .tetmodel
  | .endTetModel => .pop
  | .begIfModel => .push .ifmodel
  | .endIfModel => .pop
  | .begIfEq => .push .ifeq
  | .endIfEq => .pop
  | .begCEq => .push .ceq
  | .endCEq => .pop
  | .begREq => .push .req
  | .endREq => .pop
  | .data => .stay
  | .builtin => .stay
  | .dataparent => .stay
  | .uniform => .stay
  | .begIface => .push .iface
  | .endIface => .pop

/-- All of them, in file order. -/
def Kw.all : List Kw :=
  [.begDevice, .endDevice, .begCoord, .endCoord, .begRegion, .endRegion, .begNode, .endNode, .begEdge, .endEdge, .begTri, .endTri, .begTet, .endTet, .begContact, .endContact, .begNodeSol, .endNodeSol, .begEdgeSol, .endEdgeSol, .begNodeModel, .endNodeModel, .begEdgeModel, .endEdgeModel, .begTriModel, .endTriModel, .begTetModel, .endTetModel, .begIfModel, .endIfModel, .begIfEq, .endIfEq, .begCEq, .endCEq, .begREq, .endREq, .data, .builtin, .dataparent, .uniform, .begIface, .endIface]

/-- Tokens (`DevsimParser.y:20-40`). -/
inductive Tok
  | float (s : Text)
  | int (i : Int)
  | word (s : Text)
  | opt (s : Text)
  | eol
  | kw (k : Kw)
  | command
  | ch (c : Char)
deriving DecidableEq, Repr

/-- What a matching rule does. -/
inductive Act
  | skip
  | nl
  | tok (t : Tok) (a : SAct)
deriving DecidableEq, Repr

/-! ### Patterns -/

/-- `[ \t\r]` (`DevsimScanner.l:43`) -/
def isBlank (c : Char) : Bool := c = ' ' || c = '\t' || c = '\r'

/-- First character of a name (`DevsimScanner.l:307`). -/
def isHeadC (c : Char) : Bool := c.isAlpha || 128 ≤ c.val

/-- Following characters of a name: `[A-Za-z_0-9:@]` or UTF-8. -/
def isWordC (c : Char) : Bool :=
  c.isAlpha || c.isDigit || c = '_' || c = ':' || c = '@' || 128 ≤ c.val

/-- Drop a sign `[+-]?`. -/
def dropSign : Text → Text
  | '+' :: s => s
  | '-' :: s => s
  | s => s

/-- `{float1}|{float2}|{float3}` (`DevsimScanner.l:24-26`, `53`). -/
def isFloat (s : Text) : Bool :=
  Sym.isFloat1 (dropSign s) || Sym.isFloat2 (dropSign s) || Sym.isFloat3 (dropSign s)

/-- `{integer}` (`DevsimScanner.l:23`): `[-]?[0-9]+`. -/
def isInt : Text → Bool
  | '-' :: s => Sym.isInteger s
  | s => Sym.isInteger s

/-- The number written by a string of digits. -/
def digitsVal (s : Text) : Nat := Nat.ofDigitChars 10 s 0

/-- `Devsimlval.ival = atof(yytext)` for an integer text (`DevsimScanner.l:55`). The conversion to
`int` overflows for large values; here the integer is unbounded. -/
def intVal : Text → Int
  | '-' :: s => -(digitsVal s : Int)
  | s => (digitsVal s : Int)

/-- `-[a-z][a-z_0-9]*` (`DevsimScanner.l:282`). -/
def isOpt : Text → Bool
  | '-' :: c :: s => c.isLower && s.all fun c => c.isLower || c.isDigit || c = '_'
  | _ => false

/-- `"DATA"`, ... : the sections in which `^COMMAND[ \t]+` is active (`DevsimScanner.l:268`). -/
def cmdSecs : List Sec := [.nodemodel, .edgemodel, .trimodel, .tetmodel, .ifmodel, .req, .ceq, .ifeq]

/-- `COMMAND[ \t]+` -/
def isCommand (s : Text) : Bool :=
  "COMMAND".toList.isPrefixOf s && !(s.drop 7).isEmpty &&
    (s.drop 7).all (fun c => c = ' ' || c = '\t')

/-- What the scanner does with a text when the first rule that matches all of it is applied, in start
state `sec`, at the beginning of a line or not; `none` if no rule matches. The rules are grouped by
the first character of the text, since no two rules for different groups match the same text
(`DevsimScanner.l:41-319`). -/
def rule (sec : Sec) (bol : Bool) : Text → Option Act
  | [] => none
  | c :: cs =>
    if c = '#' then
      if cs.all (· ≠ '\n') then some .skip else none
    else if isBlank c then
      if cs.all isBlank then some .skip else none
    else if c = '\n' then
      if cs = [] then (if sec = .cmd then some (.tok .eol .pop) else some .nl) else none
    else if c = '"' then
      if cs = [] then some (.tok (.ch c) .stay)
      else if cs.getLast? = some '"' ∧ cs.dropLast.all (· ≠ '"') then some (.tok (.word cs.dropLast) .stay)
      else none
    else if isHeadC c then
      if bol && sec ∈ cmdSecs && isCommand (c :: cs) then some (.tok .command (.push .cmd))
      else if cs.all isWordC then
        match (if bol then Kw.all.find? (fun k => k.text = c :: cs && sec ∈ k.secs) else none) with
        | some k => some (.tok (.kw k) k.act)
        | none => some (.tok (.word (c :: cs)) .stay)
      else none
    else if isFloat (c :: cs) then some (.tok (.float (c :: cs)) .stay)
    else if isInt (c :: cs) then some (.tok (.int (intVal (c :: cs))) .stay)
    else if sec = .cmd ∧ isOpt (c :: cs) then some (.tok (.opt cs) .stay)
    else if cs = [] then some (.tok (.ch c) .stay)
    else none

/-- The longest match among the prefixes of length at most `n`. -/
def longest (sec : Sec) (bol : Bool) (cs : Text) : Nat → Option (Nat × Act)
  | 0 => none
  | n + 1 => match rule sec bol (cs.take (n + 1)) with
    | some a => some (n + 1, a)
    | none => longest sec bol cs n

/-- The stack of start states: the current one is its head, `INITIAL` when it is empty. -/
abbrev Stk := List Sec

def Stk.cur (s : Stk) : Sec := s.headD .initial

/-- `yy_push_state`, `yy_pop_state` -/
def SAct.run : SAct → Stk → Stk
  | .push x, s => x :: s
  | .pop, s => s.tail
  | .stay, s => s

/-- The tokens of a text, each with the stack of start states after it, and the stack at the end of
the text. At most `n` matches; `DevsimScanner.l` matches every nonempty text, see `longest_some`. -/
def lexF : Nat → Stk → Bool → Text → List (Tok × Stk) × Stk
  | 0, s, _, _ => ([], s)
  | _ + 1, s, _, [] => ([], s)
  | n + 1, s, bol, c :: cs => match longest s.cur bol (c :: cs) (c :: cs).length with
    | none => ([], s)
    | some (k, .skip) => lexF n s false ((c :: cs).drop k)
    | some (k, .nl) => lexF n s true ((c :: cs).drop k)
    | some (k, .tok t a) =>
      let r := lexF n (a.run s) (t = .eol) ((c :: cs).drop k)
      ((t, a.run s) :: r.1, r.2)

/-- The tokens of a text. -/
def lex (s : Stk) (bol : Bool) (cs : Text) : List (Tok × Stk) × Stk := lexF cs.length s bol cs

/-! ### Lemmas -/

theorem longest_eq {sec : Sec} {bol : Bool} {cs : Text} {n : Nat} {a : Act}
    (h : rule sec bol (cs.take n) = some a) (hn : 0 < n) (N : Nat) (hN : n ≤ N)
    (hno : ∀ m, n < m → m ≤ N → rule sec bol (cs.take m) = none) :
    longest sec bol cs N = some (n, a) := by
  induction N with
  | zero => omega
  | succ N ih =>
    rw [longest]
    rcases Nat.lt_or_ge n (N + 1) with hlt | hge
    · rw [hno (N + 1) hlt le_rfl]
      exact ih (by omega) (fun m h1 h2 => hno m h1 (by omega))
    · have : n = N + 1 := by omega
      subst this
      rw [h]

theorem longest_pos {sec bol} {cs : Text} {N k : Nat} {a} (h : longest sec bol cs N = some (k, a)) :
    0 < k := by
  induction N with
  | zero => simp [longest] at h
  | succ N ih =>
    rw [longest] at h
    split at h
    · simp at h; omega
    · exact ih h

/-- Some rule matches a single character: the scanner never stops before the end of the text. -/
theorem rule_single (sec : Sec) (bol : Bool) (c : Char) : (rule sec bol [c]).isSome := by
  simp only [rule, List.all_nil]
  repeat' split
  all_goals simp_all

theorem longest_some (sec : Sec) (bol : Bool) (c : Char) (cs : Text) (N : Nat) :
    (longest sec bol (c :: cs) (N + 1)).isSome := by
  induction N with
  | zero =>
    rw [longest]
    have := rule_single sec bol c
    simp only [Nat.zero_add, List.take_succ_cons, List.take_zero]
    cases h : rule sec bol [c] with
    | none => simp [h] at this
    | some a => simp
  | succ N ih =>
    rw [longest]
    split
    · simp
    · exact ih

theorem lexF_mono : ∀ (n m : Nat) (s : Stk) (bol : Bool) (cs : Text), cs.length ≤ n →
    cs.length ≤ m → lexF n s bol cs = lexF m s bol cs := by
  intro n
  induction n with
  | zero =>
    intro m s bol cs hn hm
    have : cs = [] := List.length_eq_zero_iff.mp (by omega)
    subst this
    cases m <;> rfl
  | succ n ih =>
    intro m s bol cs hn hm
    cases cs with
    | nil => cases m <;> rfl
    | cons c cs =>
      cases m with
      | zero => simp at hm
      | succ m =>
        have hd : ∀ k, 0 < k → ((c :: cs).drop k).length ≤ n ∧ ((c :: cs).drop k).length ≤ m := by
          intro k hk
          simp only [List.length_drop, List.length_cons] at *
          omega
        rw [lexF, lexF]
        split
        · rfl
        · rename_i k h; exact ih _ _ _ _ (hd k (longest_pos h)).1 (hd k (longest_pos h)).2
        · rename_i k h; exact ih _ _ _ _ (hd k (longest_pos h)).1 (hd k (longest_pos h)).2
        · rename_i k t a h
          rw [ih m _ _ _ (hd k (longest_pos h)).1 (hd k (longest_pos h)).2]

theorem lex_nil (s : Stk) (bol : Bool) : lex s bol [] = ([], s) := rfl

/-- How the result of a match is put in front of the rest. -/
def Act.emit (a : Act) (s : Stk) (rest : Text) : List (Tok × Stk) × Stk :=
  match a with
  | .skip => lex s false rest
  | .nl => lex s true rest
  | .tok t a => ((t, a.run s) :: (lex (a.run s) (t = .eol) rest).1, (lex (a.run s) (t = .eol) rest).2)

/-- One match of the scanner: the text `x` is matched when a rule matches it and no rule matches a
longer prefix. -/
theorem lex_step {s : Stk} {bol : Bool} {x rest : Text} {a : Act} (hx : x ≠ [])
    (h : rule s.cur bol x = some a)
    (hno : ∀ c t u, rest = t ++ c :: u → rule s.cur bol (x ++ (t ++ [c])) = none) :
    lex s bol (x ++ rest) = a.emit s rest := by
  have hlen : 0 < x.length := List.length_pos_iff.mpr hx
  have hl : longest s.cur bol (x ++ rest) (x ++ rest).length = some (x.length, a) := by
    refine longest_eq (by simpa using h) hlen _ (by simp) fun m h1 h2 => ?_
    have hm : (x ++ rest).take m = x ++ rest.take (m - x.length) := by
      rw [List.take_append, List.take_of_length_le (by omega)]
    have hm2 : m - x.length - 1 < rest.length := by simp only [List.length_append] at h2; omega
    have ht : rest.take (m - x.length) = rest.take (m - x.length - 1) ++ [rest[m - x.length - 1]] := by
      have e : m - x.length = (m - x.length - 1) + 1 := by omega
      conv_lhs => rw [e]
      exact List.take_succ_eq_append_getElem hm2
    rw [hm, ht]
    refine hno _ _ (rest.drop (m - x.length - 1 + 1)) ?_
    rw [← List.drop_eq_getElem_cons hm2, List.take_append_drop]
  obtain ⟨c, cs, rfl⟩ := List.exists_cons_of_ne_nil hx
  have hd : ((c :: cs) ++ rest).drop (c :: cs).length = rest := by simp
  unfold lex
  rw [List.cons_append] at *
  rw [show (c :: (cs ++ rest)).length = (cs ++ rest).length + 1 from rfl, lexF, hl]
  cases a with
  | skip =>
    show lexF _ s false (List.drop (c :: cs).length (c :: (cs ++ rest))) = _
    rw [hd]; exact lexF_mono _ _ _ _ _ (by simp) le_rfl
  | nl =>
    show lexF _ s true (List.drop (c :: cs).length (c :: (cs ++ rest))) = _
    rw [hd]; exact lexF_mono _ _ _ _ _ (by simp) le_rfl
  | tok t a =>
    simp only [hd, Act.emit, lex]
    rw [lexF_mono _ rest.length _ _ rest (by simp) le_rfl]

end Verif.MeshIO
