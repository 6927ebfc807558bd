import Verif.MeshIO.Load

/-!
# The grammar of mesh files (`DevsimParser.y`) and `load_devices`

The grammar is a list of left-recursive sections. A parser state is the innermost section that is
open; a token that it does not accept closes it, if it may be closed there, and is offered to the
enclosing section. Semantic actions are carried out when the last symbol of their rule is read, which
is when `bison` reduces the rule.
-/

namespace Verif.MeshIO

variable {α : Type}

/-- Lists of elements in a region, a contact or an interface. -/
inductive Elem
  | rnode | redge | rtri | rtet | cnode | cedge | ctri | inode | iedge | itri
deriving DecidableEq, Repr

/-- Number of indices on a line (`DevsimParser.y:181`, `378`, `414`, `454`, `206`, `229`, `256`, `288`,
`325`, `353`). -/
def Elem.arity : Elem → Nat
  | .rnode => 1 | .redge => 2 | .rtri => 3 | .rtet => 4
  | .cnode => 1 | .cedge => 2 | .ctri => 3
  | .inode => 2 | .iedge => 4 | .itri => 6

/-- What owns the list. -/
inductive Owner
  | region | contact | iface
deriving DecidableEq, Repr

def Elem.owner : Elem → Owner
  | .rnode | .redge | .rtri | .rtet => .region
  | .cnode | .cedge | .ctri => .contact
  | .inode | .iedge | .itri => .iface

/-- The keyword that closes the list. -/
def Elem.fin : Elem → Kw
  | .rnode | .cnode | .inode => .endNode
  | .redge | .cedge | .iedge => .endEdge
  | .rtri | .ctri | .itri => .endTri
  | .rtet => .endTet

/-- Where the parser is inside a model or an equation (`DevsimParser.y:839-905`). -/
inductive Sub
  | idle | data | parent | uniform | cmd0 | cmd | opt (n : Text) | eol
deriving DecidableEq, Repr

/-- Parser states. -/
inductive Ctx (α : Type)
  | all
  | device
  | coords (p : List α)
  | region
  | contact
  | iface
  | elems (e : Elem) (p : List Int)
  | sol (k : MK)
  | model (k : MK) (u : Sub)
  | eqn (o : Owner) (u : Sub)
  | hdr (k : Kw) (ws : List Text)

/-- The static variables of the reader (`DevsimReader.cc:13-21`), the names in `MeshKeeper`, and the
devices. -/
structure Sess (α : Type) where
  loader : Option (Loader α) := none
  reg : Option (Text × MReg α) := none
  con : Option (Text × MCon α) := none
  ifc : Option (Text × MIfc α) := none
  sol : Option (Text × Sol α) := none
  eqn : Option (Text × Eqn α) := none
  meshes : List Text := []
  devs : Devs α := []

/-- `DeletePointers` (`DevsimReader.cc:24-32`) -/
def Sess.deletePointers (s : Sess α) : Sess α :=
  { s with reg := none, con := none, ifc := none, sol := none, eqn := none }

/-- Result of reading a token: go on, `YYABORT` (or a syntax error), an exception, or a null pointer
that is dereferenced. -/
inductive R (α : Type)
  | ok (c : Ctx α) (s : Sess α)
  | abort (s : Sess α)
  | throw (s : Sess α)
  | crash

def Owner.ctx : Owner → Ctx α
  | .region => .region
  | .contact => .contact
  | .iface => .iface

def MK.ctx : MK → Ctx α
  | .ifn => .iface
  | _ => .region

/-- A model or an equation may be closed here. -/
def Sub.closed : Sub → Bool
  | .idle | .data | .cmd | .eol => true
  | _ => false

/-- The enclosing section, if the present one may be closed here. -/
def Ctx.up : Ctx α → Option (Ctx α)
  | .all => none
  | .device => some .all
  | .coords [] => some .device
  | .coords _ => none
  | .region => some .device
  | .contact => some .device
  | .iface => some .device
  | .elems e [] => some e.owner.ctx
  | .elems _ _ => none
  | .sol _ => some .region
  | .model k u => if u.closed then some k.ctx else none
  | .eqn o u => if u.closed then some o.ctx else none
  | .hdr _ _ => none

/-- Number of words after the keyword of a section. -/
def Kw.words : Kw → Nat
  | .begRegion => 2
  | .begContact => 3
  | .begIface => 3
  | _ => 1

/-- The sections with a name that may be opened. -/
def Ctx.opens : Ctx α → Kw → Bool
  | .all, .begDevice => true
  | .device, .begRegion | .device, .begContact | .device, .begIface => true
  | .region, .begNodeSol | .region, .begEdgeSol | .region, .begNodeModel | .region, .begEdgeModel
  | .region, .begTriModel | .region, .begTetModel | .region, .begREq => true
  | .contact, .begCEq => true
  | .iface, .begIfModel | .iface, .begIfEq => true
  | _, _ => false

/-- Start a new solution (`DevsimParser.y:589-606` and the other models): there must be none in
progress and none of that name. The rule for edge solutions does not stop the parser after reporting
the error (`DevsimParser.y:908-922`). -/
def newSol (s : Sess α) (dup : Option Bool) (n : Text) (v : Sol α) (c : Ctx α) (stop : Bool) : R α :=
  match dup with
  | none => .crash
  | some d => if s.sol.isSome || d then (if stop then .abort s else .ok c s) else .ok c { s with sol := some (n, v) }

/-- Start a new equation (`DevsimParser.y:615-640`, ...). -/
def newEqn (s : Sess α) (dup : Option Bool) (n : Text) (o : Owner) : R α :=
  match dup with
  | none => .crash
  | some d => if s.eqn.isSome || d then .abort s else .ok (.eqn o .idle) { s with eqn := some (n, {}) }

/-- The action when the words of a header are complete. -/
def openSec (s : Sess α) : Kw → List Text → R α
  | .begDevice, [n] =>                                   -- `DevsimParser.y:59-83`
    if s.loader.isSome then .abort s
    else if n ∈ s.meshes then .abort s
    else .ok .device { s with loader := some { name := n }, meshes := n :: s.meshes }
  | .begRegion, [n, m] =>                                -- `DevsimParser.y:130-149`
    if s.reg.isSome then .abort s
    else match s.loader with
      | none => .crash
      | some L => if L.regions.has n then .abort s else .ok .region { s with reg := some (n, { material := m }) }
  | .begContact, [n, r, m] =>                            -- `DevsimParser.y:504-523`
    if s.con.isSome then .abort s
    else match s.loader with
      | none => .crash
      | some L => if L.contacts.has n then .abort s
        else .ok .contact { s with con := some (n, { region := r, material := m }) }
  | .begIface, [n, r0, r1] =>                            -- `DevsimParser.y:543-562`
    if s.ifc.isSome then .abort s
    else match s.loader with
      | none => .crash
      | some L => if L.ifaces.has n then .abort s
        else .ok .iface { s with ifc := some (n, { region0 := r0, region1 := r1 }) }
  | .begNodeSol, [n] => newSol s (s.reg.map (·.2.sols.has n)) n { kind := .node, dt := .data } (.sol .node) true
  | .begEdgeSol, [n] => newSol s (s.reg.map (·.2.sols.has n)) n { kind := .edge, dt := .data } (.sol .edge) false
  | .begNodeModel, [n] => newSol s (s.reg.map (·.2.sols.has n)) n { kind := .node } (.model .node .idle) true
  | .begEdgeModel, [n] => newSol s (s.reg.map (·.2.sols.has n)) n { kind := .edge } (.model .edge .idle) true
  | .begTriModel, [n] => newSol s (s.reg.map (·.2.sols.has n)) n { kind := .tri } (.model .tri .idle) true
  | .begTetModel, [n] => newSol s (s.reg.map (·.2.sols.has n)) n { kind := .tet } (.model .tet .idle) true
  | .begIfModel, [n] => newSol s (s.ifc.map (·.2.sols.has n)) n { kind := .ifn } (.model .ifn .idle) true
  | .begREq, [n] => newEqn s (s.reg.map (·.2.eqns.has n)) n .region
  | .begCEq, [n] => newEqn s (s.con.map (·.2.eqns.has n)) n .contact
  | .begIfEq, [n] => newEqn s (s.ifc.map (·.2.eqns.has n)) n .iface
  | _, _ => .abort s

/-- Open a list of elements: it must be empty so far (`DevsimParser.y:169-178`, ...). -/
def openElems (s : Sess α) : Ctx α → Kw → Option (R α)
  | .region, .begNode => some (go .rnode (s.reg.map (!·.2.nodes.isEmpty)))
  | .region, .begEdge => some (go .redge (s.reg.map (!·.2.edges.isEmpty)))
  | .region, .begTri => some (go .rtri (s.reg.map (!·.2.tris.isEmpty)))
  | .region, .begTet => some (go .rtet (s.reg.map (!·.2.tets.isEmpty)))
  | .contact, .begNode => some (go .cnode (s.con.map (!·.2.elems.nodes.isEmpty)))
  | .contact, .begEdge => some (go .cedge (s.con.map (!·.2.elems.edges.isEmpty)))
  | .contact, .begTri => some (go .ctri (s.con.map (!·.2.elems.tris.isEmpty)))
  | .iface, .begNode => some (go .inode (s.ifc.map (!·.2.pairs.isEmpty)))
  | .iface, .begEdge => some (go .iedge (s.ifc.map (!·.2.elems0.edges.isEmpty)))
  | .iface, .begTri => some (go .itri (s.ifc.map (!·.2.elems0.tris.isEmpty)))
  | _, _ => none
where
  go (e : Elem) : Option Bool → R α
    | none => .crash
    | some true => .abort s
    | some false => .ok (.elems e []) s

/-- Add the element of a line (`DevsimParser.y:181-200`, ...). -/
def addElem (s : Sess α) : Elem → List Nat → R α
  | .rnode, [a] => withReg .rnode fun r => { r with nodes := r.nodes ++ [a] }
  | .redge, [a, b] => withReg .redge fun r => { r with edges := r.edges ++ [mkElem [a, b]] }
  | .rtri, [a, b, c] => withReg .rtri fun r => { r with tris := r.tris ++ [mkElem [a, b, c]] }
  | .rtet, [a, b, c, d] => withReg .rtet fun r => { r with tets := r.tets ++ [mkElem [a, b, c, d]] }
  | .cnode, [a] => withCon .cnode fun r => { r with nodes := r.nodes ++ [a] }
  | .cedge, [a, b] => withCon .cedge fun r => { r with edges := r.edges ++ [mkElem [a, b]] }
  | .ctri, [a, b, c] => withCon .ctri fun r => { r with tris := r.tris ++ [mkElem [a, b, c]] }
  | .inode, [a, b] => withIfc .inode fun i => { i with pairs := i.pairs ++ [(a, b)] }
  | .iedge, [a, b, c, d] => withIfc .iedge fun i =>
      { i with elems0 := { i.elems0 with edges := i.elems0.edges ++ [mkElem [a, b]] },
               elems1 := { i.elems1 with edges := i.elems1.edges ++ [mkElem [c, d]] } }
  | .itri, [a, b, c, d, e, f] => withIfc .itri fun i =>
      { i with elems0 := { i.elems0 with tris := i.elems0.tris ++ [mkElem [a, b, c]] },
               elems1 := { i.elems1 with tris := i.elems1.tris ++ [mkElem [d, e, f]] } }
  | _, _ => .crash
where
  withReg (e : Elem) (f : MReg α → MReg α) : R α := match s.reg with
    | none => .crash
    | some (n, r) => .ok (.elems e []) { s with reg := some (n, f r) }
  withCon (e : Elem) (f : MReg α → MReg α) : R α := match s.con with
    | none => .crash
    | some (n, c) => .ok (.elems e []) { s with con := some (n, { c with elems := f c.elems }) }
  withIfc (e : Elem) (f : MIfc α → MIfc α) : R α := match s.ifc with
    | none => .crash
    | some (n, i) => .ok (.elems e []) { s with ifc := some (n, f i) }

/-- A change of the solution in progress. -/
def withSol (s : Sess α) (c : Ctx α) (f : Sol α → Sol α) : R α := match s.sol with
  | none => .crash
  | some (n, v) => .ok c { s with sol := some (n, f v) }

/-- A change of the equation in progress. -/
def withEqn (s : Sess α) (c : Ctx α) (f : Eqn α → Eqn α) : R α := match s.eqn with
  | none => .crash
  | some (n, v) => .ok c { s with eqn := some (n, f v) }

/-- Close a solution or model: `AddSolution(std::move(Sol))` (`DevsimParser.y:611`, ...). -/
def closeSol (s : Sess α) (k : MK) (c : Ctx α) : R α :=
  match s.sol with
  | none => .crash
  | some (n, v) => match k with
    | .ifn => match s.ifc with
      | none => .crash
      | some (i, f) => .ok c { s with sol := none, ifc := some (i, { f with sols := f.sols.put n v }) }
    | _ => match s.reg with
      | none => .crash
      | some (i, f) => .ok c { s with sol := none, reg := some (i, { f with sols := f.sols.put n v }) }

/-- Close an equation (`DevsimParser.y:637`, ...). -/
def closeEqn (s : Sess α) (o : Owner) (c : Ctx α) : R α :=
  match s.eqn with
  | none => .crash
  | some (n, v) => match o with
    | .region => match s.reg with
      | none => .crash
      | some (i, f) => .ok c { s with eqn := none, reg := some (i, { f with eqns := f.eqns.put n v }) }
    | .contact => match s.con with
      | none => .crash
      | some (i, f) => .ok c { s with eqn := none, con := some (i, { f with eqns := f.eqns.put n v }) }
    | .iface => match s.ifc with
      | none => .crash
      | some (i, f) => .ok c { s with eqn := none, ifc := some (i, { f with eqns := f.eqns.put n v }) }

/-- The keyword that closes a model. -/
def MK.fin : MK → Kw
  | .node => .endNodeModel
  | .edge => .endEdgeModel
  | .tri => .endTriModel
  | .tet => .endTetModel
  | .ifn => .endIfModel

def Owner.fin : Owner → Kw
  | .region => .endREq
  | .contact => .endCEq
  | .iface => .endIfEq

/-- `number` (`DevsimParser.y:118-127`) -/
def Tok.num (env : Env α) : Tok → Option α
  | .float x => some (env.atof x)
  | .int i => some (env.ofInt i)
  | _ => none

/-- An argument of a command. -/
def Tok.val (env : Env α) : Tok → Option (Val α)
  | .float x => some (.float (env.atof x))
  | .int i => some (.int i)
  | .word w => some (.str w)
  | _ => none

/-- `END_DEVICE` (`DevsimParser.y:86-106`): finalize and instantiate. When `Finalize` fails or an
assertion throws, the static pointer to the loader keeps its value. -/
def endDevice (env : Env α) (s : Sess α) : R α :=
  match s.loader with
  | none => .crash
  | some L =>
    let f := L.finalize
    if f.1 then
      let r := instantiate env f.2 s.devs
      match r.1 with
      | .ok => .ok .device { s.deletePointers with loader := none, devs := r.2 }
      | .fail => .abort { s with loader := none, devs := r.2 }
      | .throw => .throw { s with loader := some f.2, devs := r.2 }
    else .abort { s with loader := some f.2 }

/-- What the innermost open section does with a token; `none` if it does not accept it. -/
def accept (env : Env α) (s : Sess α) (c : Ctx α) (t : Tok) : Option (R α) :=
  match c with
  | .hdr k ws => match t with
    | .word w => some (if (ws ++ [w]).length = k.words then openSec s k (ws ++ [w]) else .ok (.hdr k (ws ++ [w])) s)
    | _ => none
  | .coords p => match t.num env with
    | some x => some (match p with
      | [a, b] => match s.loader with
        | none => .crash
        | some L => .ok (.coords []) { s with loader := some { L with coords := L.coords ++ [(a, b, x)] } }
      | _ => .ok (.coords (p ++ [x])) s)
    | none => if t = .kw .endCoord ∧ p.isEmpty then some (.ok (.coords []) s) else none
  | .elems e p => match t with
    | .int i =>
      if (p ++ [i]).length = e.arity then
        (if (p ++ [i]).any (· < 0) then some (.abort s) else some (addElem s e ((p ++ [i]).map Int.toNat)))
      else some (.ok (.elems e (p ++ [i])) s)
    | _ => if t = .kw e.fin ∧ p.isEmpty then some (.ok (.elems e []) s) else none
  | .sol k => match t.num env with
    | some x => some (withSol s (.sol k) fun v => { v with vals := v.vals ++ [x] })
    | none => if t = .kw (if k = .node then .endNodeSol else .endEdgeSol) then some (closeSol s k (.sol k)) else none
  | .model k u => match u with
    | .data => match t.num env with
      | some x => some (withSol s (.model k .data) fun v => { v with vals := v.vals ++ [x] })
      | none => inModel k t
    | .parent => match t with
      | .word w => some (withSol s (.model k .idle) fun v => { v with dt := .parent, parent := w })
      | _ => none
    | .uniform => match t.num env with
      | some x => some (withSol s (.model k .idle) fun v => { v with dt := .unif, uval := some x })
      | none => none
    | .cmd0 => match t with
      | .word w => some (withSol s (.model k .cmd) fun v => { v with dt := .command, cmd := w })
      | _ => none
    | .cmd => match t with
      | .opt o => some (.ok (.model k (.opt o)) s)
      | .eol => some (.ok (.model k .eol) s)
      | _ => inModel k t
    | .opt o => match t.val env with
      | some x => some (withSol s (.model k .cmd) fun v => { v with args := v.args ++ [(o, x)] })
      | none => none
    | .eol => match t with
      | .eol => some (.ok (.model k .eol) s)
      | _ => inModel k t
    | .idle => inModel k t
  | .eqn o u => match u with
    | .cmd0 => match t with
      | .word w => some (withEqn s (.eqn o .cmd) fun v => { v with cmd := w })
      | _ => none
    | .cmd => match t with
      | .opt n => some (.ok (.eqn o (.opt n)) s)
      | .eol => some (.ok (.eqn o .eol) s)
      | _ => inEqn o t
    | .opt n => match t.val env with
      | some x => some (withEqn s (.eqn o .cmd) fun v => { v with args := v.args ++ [(n, x)] })
      | none => none
    | .eol => match t with
      | .eol => some (.ok (.eqn o .eol) s)
      | _ => inEqn o t
    | .idle => inEqn o t
    | _ => none
  | c => match t with
    | .kw k =>
      if c.opens k then some (.ok (.hdr k []) s)
      else match openElems s c k with
      | some r => some r
      | none => match c, k with
        | .device, .begCoord => some (.ok (.coords []) s)
        | .device, .endDevice => some (endDevice env s)
        | .region, .endRegion => some (match s.reg, s.loader with
          | some (n, r), some L => .ok .region { s with reg := none, loader := some { L with regions := L.regions.put n r } }
          | _, _ => .crash)
        | .contact, .endContact => some (match s.con, s.loader with
          | some (n, r), some L => .ok .contact { s with con := none, loader := some { L with contacts := L.contacts.put n r } }
          | _, _ => .crash)
        | .iface, .endIface => some (match s.ifc, s.loader with
          | some (n, r), some L => .ok .iface { s with ifc := none, loader := some { L with ifaces := L.ifaces.put n r } }
          | _, _ => .crash)
        | _, _ => none
    | _ => none
where
  /-- Sections of a model (`DevsimParser.y:664-675`, ...); interface models have commands only. -/
  inModel (k : MK) : Tok → Option (R α)
    | .kw .data => if k = .ifn then none else some (withSol s (.model k .data) fun v => { v with dt := .data })
    | .kw .builtin => if k = .ifn then none else some (withSol s (.model k .idle) fun v => { v with dt := .builtin })
    | .kw .dataparent => if k = .ifn then none else some (.ok (.model k .parent) s)
    | .kw .uniform => if k = .ifn then none else some (.ok (.model k .uniform) s)
    | .command => some (.ok (.model k .cmd0) s)
    | .kw f => if f = k.fin then some (closeSol s k (.model k .idle)) else none
    | _ => none
  /-- Inside an equation. -/
  inEqn (o : Owner) : Tok → Option (R α)
    | .command => some (.ok (.eqn o .cmd0) s)
    | .kw f => if f = o.fin then some (closeEqn s o (.eqn o .idle)) else none
    | _ => none

/-- Read one token: sections that do not accept it are closed, at most four of them. A token that no
open section accepts is a syntax error. -/
def stepN (env : Env α) (s : Sess α) : Nat → Ctx α → Tok → R α
  | 0, _, _ => .abort s
  | n + 1, c, t => match accept env s c t with
    | some r => r
    | none => match c.up with
      | some c' => stepN env s n c' t
      | none => .abort s

def step (env : Env α) (s : Sess α) (c : Ctx α) (t : Tok) : R α := stepN env s 5 c t

/-- At the end of the text every open section must be one that may be closed. -/
def Ctx.closedN : Nat → Ctx α → Bool
  | 0, _ => false
  | n + 1, c => match c with
    | .all => true
    | c => match c.up with
      | some c' => Ctx.closedN n c'
      | none => false

/-- How `load_devices` ends. -/
inductive Res
  | ok | fail | throw | crash
deriving DecidableEq, Repr

/-- `Devsimparse` (`DevsimParser.y`): the tokens are read one after the other; each comes with the stack
of start states after it. -/
def parse (env : Env α) : Ctx α → Sess α → List (Tok × Stk) → Stk → Res × Sess α × Stk
  | c, s, [], fin => if c.closedN 5 then (.ok, s, fin) else (.fail, s, fin)
  | c, s, (t, st) :: ts, fin => match step env s c t with
    | .ok c' s' => parse env c' s' ts fin
    | .abort s' => (.fail, s', st)
    | .throw s' => (.throw, s', st)
    | .crash => (.crash, s, st)

/-- `load_devices` on a file with the given contents (`DevsimScanner.l:312-344`): the scanner starts in
the start states that the last load left. `DeletePointers` is skipped when an exception passes. -/
def load (env : Env α) (s : Sess α) (stk : Stk) (text : Text) : Res × Sess α × Stk :=
  let l := lex stk true text
  let r := parse env .all s l.1 l.2
  match r.1 with
  | .throw => r
  | _ => (r.1, r.2.1.deletePointers, r.2.2)

end Verif.MeshIO
