import Verif.Gmsh.Load

/-!
# Gmsh files (`GmshScanner.l`, `GmshParser.y`)

The scanner is a flex scanner with start states, as in `Verif.MeshIO.Lex`: the longest match of a rule that is
active in the current start state, the first rule in the file when several rules match the same text; rules with `^`
match at the beginning of a line only. The stack of start states survives from one `create_gmsh_mesh` to the next,
because nothing resets it.

Simplifications: a character outside ASCII stands for the UTF-8 sequences that the file allows in a name. `char` is
taken to be signed, as on x86. Line numbers and messages are left out. Integers of the file are unbounded; in
the program they go through `double` to `int`, which is undefined for values that do not fit.
-/

namespace Verif.Gmsh
open Verif.MeshIO

variable {α : Type}

namespace File

/-- Start states (`GmshScanner.l:39`). -/
inductive Sec
  | initial | format | names | nodes | elems
deriving DecidableEq, Repr

/-- The keyword rules (`GmshScanner.l:49-93`). -/
inductive Kw
  | begFormat | endFormat | begNames | endNames | begNodes | endNodes | begElems | endElems
deriving DecidableEq, Repr

/-- The text of a keyword. -/
def Kw.text : Kw → Text
  | .begFormat => "$MeshFormat".toList
  | .endFormat => "$EndMeshFormat".toList
  | .begNames => "$PhysicalNames".toList
  | .endNames => "$EndPhysicalNames".toList
  | .begNodes => "$Nodes".toList
  | .endNodes => "$EndNodes".toList
  | .begElems => "$Elements".toList
  | .endElems => "$EndElements".toList

/-- The start state in which the rule is active. -/
def Kw.sec : Kw → Sec
  | .begFormat | .begNames | .begNodes | .begElems => .initial
  | .endFormat => .format
  | .endNames => .names
  | .endNodes => .nodes
  | .endElems => .elems

/-- All of them, in file order. -/
def Kw.all : List Kw := [.begFormat, .endFormat, .begNames, .endNames, .begNodes, .endNodes, .begElems, .endElems]

/-- The stack of start states: the current one is its head, `INITIAL` when it is empty. -/
abbrev Stk := List Sec

def Stk.cur (s : Stk) : Sec := s.headD .initial

/-- `yy_push_state`, `yy_pop_state` -/
def Kw.run : Kw → Stk → Stk
  | .begFormat, s => .format :: s
  | .begNames, s => .names :: s
  | .begNodes, s => .nodes :: s
  | .begElems, s => .elems :: s
  | _, s => s.tail

/-- Tokens (`GmshParser.y:26-33`). `eof` is a character whose value is not positive: the parser takes it for the end of
the file (`GmshScanner.l:108`; `yylex` returns it as `int`). -/
inductive Tok
  | eol
  | float (s : Text)
  | int (i : Int)
  | format (s : Text)
  | word (s : Text)
  | kw (k : Kw)
  | ch (c : Char)
  | eof
deriving DecidableEq, Repr

def Tok.run : Tok → Stk → Stk
  | .kw k, s => k.run s
  | _, s => s

/-- `[0-9. ]` (`GmshScanner.l:59`) -/
def isFmtC (c : Char) : Bool := c.isDigit || c = '.' || c = ' '

/-- A name (`GmshScanner.l:103`). -/
def isName : Text → Bool
  | c :: cs => isHeadC c && cs.all isWordC
  | [] => false

/-- A name in quotation marks (`GmshScanner.l:95`). -/
def isQuoted : Text → Bool
  | '"' :: cs => cs.getLast? = some '"' && isName cs.dropLast
  | _ => false

/-- What the scanner does with a text when the first rule that matches all of it is applied (`GmshScanner.l:41-108`): it is
skipped (`some none`) or a token is returned; `none` if no rule matches. -/
def rule (sec : Sec) (bol : Bool) : Text → Option (Option Tok)
  | [] => none
  | c :: cs =>
    if c = '\n' then (if cs = [] then some (some .eol) else none)
    else if (c :: cs).all isBlank then some none
    else if sec = .nodes ∧ isFloat (c :: cs) then some (some (.float (c :: cs)))
    else if (sec = .names ∨ sec = .nodes ∨ sec = .elems) ∧ isInt (c :: cs) then some (some (.int (intVal (c :: cs))))
    else match (if bol then Kw.all.find? (fun k => k.text = c :: cs && k.sec = sec) else none) with
    | some k => some (some (.kw k))
    | none =>
      if bol ∧ sec = .format ∧ (c :: cs).all isFmtC then some (some (.format (c :: cs)))
      else if sec = .names ∧ isQuoted (c :: cs) then some (some (.word cs.dropLast))
      else if sec = .names ∧ isName (c :: cs) then some (some (.word (c :: cs)))
      else if cs = [] then some (some (if c.val = 0 ∨ 128 ≤ c.val then .eof else .ch c))
      else none

/-- The longest match among the prefixes of length at most `n`. -/
def longest (sec : Sec) (bol : Bool) (cs : Text) : Nat → Option (Nat × Option Tok)
  | 0 => none
  | n + 1 => match rule sec bol (cs.take (n + 1)) with
    | some a => some (n + 1, a)
    | none => longest sec bol cs n

/-- The tokens of a text, each with the stack of start states after it, and the stack at the end of the text. At most
`n` matches. -/
def lexF : Nat → Stk → Bool → Text → List (Tok × Stk) × Stk
  | 0, s, _, _ => ([], s)
  | _ + 1, s, _, [] => ([], s)
  | n + 1, s, bol, c :: cs => match longest s.cur bol (c :: cs) (c :: cs).length with
    | none => ([], s)
    | some (k, none) => lexF n s false ((c :: cs).drop k)
    | some (k, some t) =>
      let r := lexF n (t.run s) (t = .eol) ((c :: cs).drop k)
      ((t, t.run s) :: r.1, r.2)

/-- The tokens of a text. -/
def lex (s : Stk) (bol : Bool) (cs : Text) : List (Tok × Stk) × Stk := lexF cs.length s bol cs

/-! ### The parser -/

/-- States of the parser: what has been read of a section (`GmshParser.y:39-158`). -/
inductive St (α : Type)
  | start
  | fmt0 | fmt1 | fmt2 (s : Text) | fmt3 (s : Text) | fmt4 (s : Text)
  | top
  | hdr0 (s : Sec) | hdr1 (s : Sec) | hdr2 (s : Sec)
  | names | names1 (d : Int) | names2 (d i : Int) | names3 (d i : Int) (w : Text) | namesEnd
  | nodes | nodes1 (i : Int) | nodes2 (i : Int) (x : α) | nodes3 (i : Int) (x y : α) | nodes4 (i : Int) (x y z : α)
  | elems | elems1 (l : List Int)

/-- The type of an element (`GmshParser.y:208-224`). -/
def elemType (n : Int) : Option Nat :=
  if n = 15 then some 0 else if n = 1 then some 1 else if n = 2 then some 2 else if n = 4 then some 3 else none

/-- `processElement` (`GmshParser.y:170-320`) -/
def procElem : List Int → Option Elem
  | idx :: num :: tags :: rest =>
    if idx < 1 then none
    else match elemType num with
    | none => none
    | some ty =>
      if tags < 1 then none
      else if rest.length < 2 then none
      else if rest.headD 0 < 1 then none
      else
        let ns := rest.drop tags.toNat
        if ns.any (· < 1) then none
        else if ns.length = ty + 1 then some { ty := ty, phys := (rest.headD 0).toNat, nodes := ns.map Int.toNat }
        else none
  | _ => none

/-- `number` (`GmshParser.y:151-158`) -/
def number (env : Env α) : Tok → Option α
  | .float s => some (env.atof s)
  | .int i => some (env.ofInt i)
  | _ => none

/-- A token at the beginning of a section (`GmshParser.y:42-60`). -/
def stepTop : Tok → Option (St α)
  | .eol => some .top
  | .kw .begNames => some (.hdr0 .names)
  | .kw .begNodes => some (.hdr0 .nodes)
  | .kw .begElems => some (.hdr0 .elems)
  | _ => none

/-- `HasPhysicalName` (`GmshLoader.cc:784-795`) -/
def hasName (G : Gmsh α) (d i : Nat) : Bool :=
  match (G.phys d).get i with
  | some n => !n.isEmpty
  | none => false

/-- A token that is not the end of the file: the next state and the mesh, or `none` for a syntax error or `YYABORT`. -/
def step (env : Env α) (st : St α) (t : Tok) (G : Gmsh α) : Option (St α × Gmsh α) :=
  match st with
  | .start => if t = .kw .begFormat then some (.fmt0, G) else none
  | .fmt0 => if t = .eol then some (.fmt1, G) else none
  | .fmt1 => match t with
    | .format s => some (.fmt2 s, G)
    | _ => none
  | .fmt2 s => if t = .eol then some (.fmt3 s, G) else none
  | .fmt3 s => if t = .kw .endFormat then some (.fmt4 s, G) else none
  | .fmt4 s => if t = .eol ∧ (s = "2.2 0 8".toList ∨ s = "2.1 0 8".toList) then some (.top, G) else none
  | .top => (stepTop t).map fun s => (s, G)
  | .hdr0 s => if t = .eol then some (.hdr1 s, G) else none
  | .hdr1 s => match t with
    | .int _ => some (.hdr2 s, G)
    | _ => none
  | .hdr2 s => if t = .eol then some ((if s = .names then .names else if s = .nodes then .nodes else .elems), G) else none
  | .names => match t with
    | .int d => some (.names1 d, G)
    | .kw .endNames => some (.namesEnd, G)
    | t => (stepTop t).map fun s => (s, G)
  | .names1 d => match t with
    | .int i => some (.names2 d i, G)
    | _ => none
  | .names2 d i => match t with
    | .word w => some (.names3 d i w, G)
    | _ => none
  | .names3 d i w =>
    if t ≠ .eol then none
    else if d < 0 ∨ d > 3 then none
    else if i < 1 then none
    else if hasName G d.toNat i.toNat then none
    else some (.names, G.addPhys d.toNat i.toNat w)
  | .namesEnd => if t = .eol then some (.names, G) else none
  | .nodes => match t with
    | .int i => some (.nodes1 i, G)
    | .kw .endNodes => some (.nodes, G)
    | t => (stepTop t).map fun s => (s, G)
  | .nodes1 i => (number env t).map fun x => (.nodes2 i x, G)
  | .nodes2 i x => (number env t).map fun y => (.nodes3 i x y, G)
  | .nodes3 i x y => (number env t).map fun z => (.nodes4 i x y z, G)
  | .nodes4 i x y z =>
    if t ≠ .eol then none
    else if i < 1 then none
    else some (.nodes, G.addCoord i.toNat (x, y, z))
  | .elems => match t with
    | .int i => some (.elems1 [i], G)
    | .kw .endElems => some (.elems, G)
    | t => (stepTop t).map fun s => (s, G)
  | .elems1 l => match t with
    | .int i => some (.elems1 (l ++ [i]), G)
    | .eol => (procElem l).map fun e => (.elems, G.addElem e)
    | _ => none

/-- The states in which the end of the file is accepted. -/
def St.final : St α → Bool
  | .start | .top | .names | .nodes | .elems => true
  | _ => false

/-- The parser: its verdict, the mesh, and the stack of start states that it leaves. -/
def parse (env : Env α) (e : Stk) : St α → Gmsh α → List (Tok × Stk) → Bool × Gmsh α × Stk
  | st, G, [] => (st.final, G, e)
  | st, G, (t, s) :: ts =>
    if t = .eof then (st.final, G, s)
    else match step env st t G with
    | none => (false, G, s)
    | some (st', G') => parse env e st' G' ts

/-- `LoadMeshesFromFile` (`GmshScanner.l:115-160`) for a file that can be opened; `s` is the stack of start states left by
earlier calls. As with lists, the mesh is in the list of meshes whatever the verdict. -/
def load (env : Env α) (s : Stk) (text : Text) : Bool × Gmsh α × Stk :=
  let r := lex s true text
  parse env r.2 .start {} r.1

end File
end Verif.Gmsh
