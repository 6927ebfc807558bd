import Verif.Tec.Write

/-!
# What a Tecplot file means

A specification: a reader of Tecplot ASCII files with finite elements in block format. Characters are grouped to tokens (words,
strings between quotes, signs; blanks and commas separate), and the tokens are read as a title, a list of variables and zones.
A zone has for each variable one value per node, or one per element when the variable is in the list of `VARLOCATION`, and then the
nodes of each element, counted from 1. Values are words.
-/

namespace Verif.Tec
open Verif.Vtk (Text readNat isWs runM)

inductive Tok
  | word (w : Text)
  | str (s : Text)
  | sym (c : Char)
deriving DecidableEq

inductive LX
  | blank
  | word (w : Text)
  | quote (s : Text)

def isSym (c : Char) : Bool := c = '=' || c = '(' || c = ')' || c = '[' || c = ']'
def isSep (c : Char) : Bool := isWs c || c = ','

/-- One character. With `strict`, blanks in strings are refused. -/
def xstep (strict : Bool) : LX → Char → Option (LX × List Tok)
  | .blank, c => if isSep c then some (.blank, []) else if isSym c then some (.blank, [.sym c])
    else if c = '"' then some (.quote [], []) else some (.word [c], [])
  | .word w, c => if isSep c then some (.blank, [.word w]) else if isSym c then some (.blank, [.word w, .sym c])
    else if c = '"' then none else some (.word (w ++ [c]), [])
  | .quote s, c => if c = '"' then some (.blank, [.str s]) else if strict && isWs c then none else some (.quote (s ++ [c]), [])

/-- The tokens of a text that ends with a blank. -/
def lex (x : Text) : Option (List Tok) :=
  match runM (xstep false) .blank x with
  | some (.blank, l) => some l
  | _ => none

structure Zone where
  name : Text
  nodes : ℕ
  elems : ℕ
  type : Text
  /-- for each variable its values -/
  values : List (List Text)
  /-- the nodes of the elements, counted from 0 -/
  conn : List (List ℕ)
deriving DecidableEq

structure Tec where
  title : Text
  vars : List Text
  zones : List Zone
deriving DecidableEq

/-- `n` words. -/
def takeWords : ℕ → List Tok → Option (List Text × List Tok)
  | 0, l => some ([], l)
  | n + 1, .word w :: l => (takeWords n l).map fun p => (w :: p.1, p.2)
  | _ + 1, _ => none

/-- Blocks of so many words. -/
def takeBlocks : List ℕ → List Tok → Option (List (List Text) × List Tok)
  | [], l => some ([], l)
  | n :: ns, l =>
    match takeWords n l with
    | none => none
    | some (b, l) => (takeBlocks ns l).map fun p => (b :: p.1, p.2)

def takeStrs : List Tok → List Text × List Tok
  | .str s :: l => let p := takeStrs l; (s :: p.1, p.2)
  | l => ([], l)

/-- Words up to the next token of another kind. -/
def takeRun : List Tok → List Text × List Tok
  | .word s :: l => let p := takeRun l; (s :: p.1, p.2)
  | l => ([], l)

/-- A node, counted from 1. -/
def readIdx (w : Text) : Option ℕ :=
  match readNat w with
  | some (n + 1) => some n
  | _ => none

def corners (type : Text) : Option ℕ :=
  if type = "FELINESEG".toList then some 2 else if type = "FETRIANGLE".toList then some 3
  else if type = "FETETRAHEDRON".toList then some 4 else none

/-- The variables that are on elements. -/
def readLocation : List Tok → Option (List ℕ × List Tok)
  | .word v :: l =>
    if v = "VARLOCATION".toList then
      match l with
      | .sym '=' :: .sym '(' :: .sym '[' :: l =>
        let p := takeRun l
        match p.2 with
        | .sym ']' :: .sym '=' :: .word c :: .sym ')' :: l =>
          if c = "CELLCENTERED".toList then (p.1.mapM readNat).map fun ns => (ns, l) else none
        | _ => none
      | _ => none
    else some ([], .word v :: l)
  | l => some ([], l)

/-- The values and the corners, after the line of the zone. -/
def readBody (nvars : ℕ) (name nodes elems type : Text) (l : List Tok) : Option (Zone × List Tok) :=
  match readNat nodes, readNat elems, corners type, readLocation l with
  | some n, some e, some c, some (cells, l) =>
    match takeBlocks ((List.range nvars).map fun i => if i + 1 ∈ cells then e else n) l with
    | none => none
    | some (values, l) =>
      match takeBlocks (List.replicate e c) l with
      | none => none
      | some (conn, l) =>
        match conn.mapM (fun ws => ws.mapM readIdx) with
        | none => none
        | some conn => some (⟨name, n, e, type, values, conn⟩, l)
  | _, _, _, _ => none

/-- One zone, after the word `ZONE`. -/
def readZone (nvars : ℕ) : List Tok → Option (Zone × List Tok)
  | .word t :: .sym '=' :: .str name :: .word k1 :: .sym '=' :: .word nodes :: .word k2 :: .sym '=' :: .word elems ::
    .word k3 :: .sym '=' :: .word pack :: .word k4 :: .sym '=' :: .word type :: l =>
    if t = "T".toList ∧ k1 = "NODES".toList ∧ k2 = "ELEMENTS".toList ∧ k3 = "DATAPACKING".toList ∧ pack = "BLOCK".toList ∧
      k4 = "ZONETYPE".toList then readBody nvars name nodes elems type l
    else none
  | _ => none

/-- All zones; the number bounds how many. -/
def readZones (nvars : ℕ) : ℕ → List Tok → Option (List Zone)
  | _, [] => some []
  | 0, _ => none
  | n + 1, .word z :: l =>
    if z = "ZONE".toList then
      match readZone nvars l with
      | none => none
      | some (z, l) => (readZones nvars n l).map (z :: ·)
    else none
  | _ + 1, _ => none

def readTec (x : Text) : Option Tec :=
  match lex x with
  | some (.word t :: .sym '=' :: .str title :: .word v :: .sym '=' :: l) =>
    if t = "TITLE".toList ∧ v = "VARIABLES".toList then
      let p := takeStrs l
      (readZones p.1.length p.2.length p.2).map fun zs => ⟨title, p.1, zs⟩
    else none
  | _ => none

/-! ### Variables and their values -/

/-- What a variable shows. -/
inductive Var
  | coord (n : Text)
  | node (n : Text)
  | edge (n : Text)
  /-- component of a vector: 0, 1 or 2 -/
  | vec (n : Text) (k : ℕ)
  | elem (n : Text)
deriving DecidableEq

variable {D : Type}

def comp (k : ℕ) (p : D × D × D) : D := if k = 0 then p.1 else if k = 1 then p.2.1 else p.2.2

def Var.name : Var → Text
  | .coord n => n
  | .node n => n
  | .edge n => n
  | .vec n k => n ++ (if k = 0 then "_x_onNode".toList else if k = 1 then "_y_onNode".toList else "_z_onNode".toList)
  | .elem n => n

def Var.onElems : Var → Bool
  | .elem _ => true
  | _ => false

/-- The values of a variable in a region: those of the model; zeros when the region has no such model. -/
def Var.values (zero : D) (r : Reg D) : Var → List D
  | .coord n => ((r.nodeModels.lookup n).map (·.2)).getD (List.replicate r.nodes zero)
  | .node n => ((r.nodeModels.lookup n).map (·.2)).getD (List.replicate r.nodes zero)
  | .edge n => ((r.edgeModels.lookup n).map (·.2.1)).getD (List.replicate r.nodes zero)
  | .vec n k => ((r.edgeModels.lookup n).map (fun m => m.2.2.map (comp k))).getD (List.replicate r.nodes zero)
  | .elem n => ((r.elemModels.lookup n).map (·.2)).getD (List.replicate r.elems.length zero)

/-- What a file with these variables should say about a device. -/
def meant (fmt : D → Text) (zero : D) (dname : Text) (d : Dev D) (vars : List Var) : Tec where
  title := dname
  vars := vars.map Var.name
  zones := d.regs.map fun r =>
    { name := r.1
      nodes := r.2.nodes
      elems := r.2.elems.length
      type := if d.dim = 1 then "FELINESEG".toList else if d.dim = 2 then "FETRIANGLE".toList else "FETETRAHEDRON".toList
      values := vars.map fun v => (v.values zero r.2).map fmt
      conn := r.2.elems }

end Verif.Tec
