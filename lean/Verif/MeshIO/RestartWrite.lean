import Verif.MeshIO.RoundTrip

/-!
# `write_devices` with `type="devsim"` (`DevsimRestartWriter.cc`)

and the tokens that the scanner reads in the written text.
-/

namespace Verif.MeshIO

variable {α : Type}

/-- A command: its name, and options with their values, which are always written in quotes. -/
abbrev Cmd := Text × List (Text × Text)

/-- How a model is written (`Serialize` of the model): `BUILTIN` (`NodeModel.cc:253-256`, ...),
`DATAPARENT`, `UNIFORM` or `DATA` (`NodeSolution.cc:75-96`, `EdgeSubModel.cc:83-104`, ...), or the command
that makes it (`NodeExprModel.cc:137-153`, ...). -/
inductive MSer (α : Type)
  | builtin
  | parent (p : Text)
  | unif (x : α)
  | data (l : List α)
  | cmd (c : Cmd)

/-- What the file has besides the geometry: the models of each region, the models of each interface (they
are always made by commands), and the equations; and whether elements were given for an interface
(`Interface::ElementsProvided`). -/
structure Extra (α : Type) where
  models : Text → MK → SMap Text (MSer α) := fun _ _ => []
  reqns : Text → SMap Text Cmd := fun _ => []
  ceqns : Text → SMap Text Cmd := fun _ => []
  imodels : Text → SMap Text Cmd := fun _ => []
  ieqns : Text → SMap Text Cmd := fun _ => []
  provided : Text → Bool := fun _ => true

/-! ### The text -/

/-- A `COMMAND` line (for example `ExprEquation.cc:112-129`). -/
def cmdLine (c : Cmd) : Text :=
  "COMMAND ".toList ++ (c.1 ++ ((c.2.flatMap fun a => ' ' :: ('-' :: a.1 ++ ' ' :: ('"' :: a.2 ++ ['"']))) ++ ['\n']))

/-- What `Serialize` writes, with the end of line that follows it. Data of models on triangle edges end
with one more end of line (`TriangleEdgeSubModel.cc:94-103`). -/
def serLine (F : Fmt α) (k : MK) : MSer α → Text
  | .builtin => kwLine .builtin
  | .parent p => hdrLine .dataparent [p]
  | .unif x => Kw.text .uniform ++ ' ' :: (F.fmt x ++ ['\n'])
  | .data l => kwLine .data ++ ((l.flatMap fun x => F.fmt x ++ ['\n']) ++ (if k = .tri then ['\n'] else []))
  | .cmd c => cmdLine c

/-- The keyword that opens a model. -/
def MK.beg : MK → Kw
  | .node => .begNodeModel
  | .edge => .begEdgeModel
  | .tri => .begTriModel
  | .tet => .begTetModel
  | .ifn => .begIfModel

/-- The start state of a model. -/
def MK.sec : MK → Sec
  | .node => .nodemodel
  | .edge => .edgemodel
  | .tri => .trimodel
  | .tet => .tetmodel
  | .ifn => .ifmodel

def Owner.beg : Owner → Kw
  | .region => .begREq
  | .contact => .begCEq
  | .iface => .begIfEq

def Owner.sec : Owner → Sec
  | .region => .req
  | .contact => .ceq
  | .iface => .ifeq

/-- The start state of what owns an equation. -/
def Owner.base : Owner → Sec
  | .region => .region
  | .contact => .contact
  | .iface => .iface

def MK.base : MK → Sec
  | .ifn => .iface
  | _ => .region

/-- `NodeModel::DevsimSerialize` (`NodeModel.cc:258-263`) and the same of the other models. -/
def serModels (F : Fmt α) (k : MK) (ms : SMap Text (MSer α)) : Text :=
  ms.flatMap fun m => hdrLine k.beg [m.1] ++ (serLine F k m.2 ++ (kwLine k.fin ++ ['\n']))

/-- `Equation::DevsimSerialize` (`Equation.cc:1307-1312`) and the same of the other equations. -/
def serEqns (o : Owner) (es : SMap Text Cmd) : Text :=
  es.flatMap fun e => hdrLine o.beg [e.1] ++ (cmdLine e.2 ++ (kwLine o.fin ++ ['\n']))

/-- The elements of a region: only those of the dimension of the device (`DevsimRestartWriter.cc:213-227`). -/
def elemPart (dim : Nat) (r : Reg α) : List (Kw × Kw × List (List Nat)) :=
  if dim = 1 then [(.begEdge, .endEdge, r.edges)]
  else if dim = 2 then (if r.tris.isEmpty then [] else [(.begTri, .endTri, r.tris)])
  else if dim = 3 then (if r.tets.isEmpty then [] else [(.begTet, .endTet, r.tets)])
  else []

/-- The elements of a contact (`DevsimRestartWriter.cc:264-302`). -/
def conPart (dim : Nat) (c : Con) : List (Kw × Kw × List (List Nat)) :=
  if dim = 1 then [(.begNode, .endNode, c.nodes.map fun i => [i])]
  else if dim = 2 then (if c.edges.isEmpty then [] else [(.begEdge, .endEdge, c.edges)])
  else if dim = 3 then (if c.tris.isEmpty then [] else [(.begTri, .endTri, c.tris)])
  else []

/-- The elements of an interface (`DevsimRestartWriter.cc:326-372`). -/
def ifcPart (dim : Nat) (provided : Bool) (i : Ifc) : List (Kw × Kw × List (List Nat)) :=
  if dim = 1 ∨ provided = false then [(.begNode, .endNode, (i.nodes0.zip i.nodes1).map fun p => [p.1, p.2])]
  else if dim = 2 then
    (if i.edges0.isEmpty ∨ i.edges0.length ≠ i.edges1.length then []
     else [(.begEdge, .endEdge, (i.edges0.zip i.edges1).map fun p => p.1 ++ p.2)])
  else if dim = 3 then
    (if i.tris0.isEmpty ∨ i.tris0.length ≠ i.tris1.length then []
     else [(.begTri, .endTri, (i.tris0.zip i.tris1).map fun p => p.1 ++ p.2)])
  else []

def partText (p : List (Kw × Kw × List (List Nat))) : Text := p.flatMap fun x => elemSec x.1 x.2.1 x.2.2

def partToks (p : List (Kw × Kw × List (List Nat))) : List Tok := p.flatMap fun x => elemToks x.1 x.2.1 x.2.2

/-- One region (`DevsimRestartWriter.cc:202-253`). -/
def serRegion (F : Fmt α) (X : Extra α) (dim : Nat) (rn : Text) (r : Reg α) : Text :=
  hdrLine .begRegion [rn, r.material] ++
  (elemSec .begNode .endNode (r.nodes.map fun i => [i]) ++
  (partText (elemPart dim r) ++
  (serModels F .node (X.models rn .node) ++
  (serModels F .edge (X.models rn .edge) ++
  (serModels F .tri (X.models rn .tri) ++
  (serModels F .tet (X.models rn .tet) ++
  (serEqns .region (X.reqns rn) ++
  (kwLine .endRegion ++ ['\n']))))))))

/-- One contact (`DevsimRestartWriter.cc:255-313`). -/
def serContact (X : Extra α) (dim : Nat) (n : Text) (c : Con) : Text :=
  hdrLine .begContact [n, c.region, c.material] ++
    (partText (conPart dim c) ++ (serEqns .contact (X.ceqns n) ++ (kwLine .endContact ++ ['\n'])))

/-- One interface (`DevsimRestartWriter.cc:315-387`). -/
def serIface (F : Fmt α) (X : Extra α) (dim : Nat) (n : Text) (i : Ifc) : Text :=
  hdrLine .begIface [n, i.region0, i.region1] ++
    (partText (ifcPart dim (X.provided n) i) ++
    (serModels F .ifn ((X.imodels n).map fun e => (e.1, .cmd e.2)) ++
    (serEqns .iface (X.ieqns n) ++ (kwLine .endIface ++ ['\n']))))

/-- One device (`DevsimRestartWriter.cc:172-396`). -/
def serDevice (F : Fmt α) (n : Text) (d : Dev α) (X : Extra α) : Text :=
  hdrLine .begDevice [n] ++ (writeCoords F d.coords ++
    ((d.regions.flatMap fun e => serRegion F X d.dim e.1 e.2) ++
    ((d.contacts.flatMap fun e => serContact X d.dim e.1 e.2) ++
    ((d.ifaces.flatMap fun e => serIface F X d.dim e.1 e.2) ++ (kwLine .endDevice ++ ['\n'])))))

/-- `DevsimRestartWriter::WriteMeshes_` (`DevsimRestartWriter.cc:422-447`): all devices. -/
def serDevices (F : Fmt α) (ds : SMap Text (Dev α × Extra α)) : Text := ds.flatMap fun e => serDevice F e.1 e.2.1 e.2.2

/-! ### The tokens -/

def cmdToks (c : Cmd) : List Tok :=
  .command :: .word c.1 :: (c.2.flatMap fun a => [Tok.opt a.1, Tok.word a.2]) ++ [.eol]

def serToks (F : Fmt α) : MSer α → List Tok
  | .builtin => [.kw .builtin]
  | .parent p => [.kw .dataparent, .word p]
  | .unif x => [.kw .uniform, .float (F.fmt x)]
  | .data l => .kw .data :: l.map fun x => Tok.float (F.fmt x)
  | .cmd c => cmdToks c

def serModelToks (F : Fmt α) (k : MK) (ms : SMap Text (MSer α)) : List Tok :=
  ms.flatMap fun m => [.kw k.beg, .word m.1] ++ (serToks F m.2 ++ [.kw k.fin])

def serEqnToks (o : Owner) (es : SMap Text Cmd) : List Tok :=
  es.flatMap fun e => [.kw o.beg, .word e.1] ++ (cmdToks e.2 ++ [.kw o.fin])

def serRegionToks (F : Fmt α) (X : Extra α) (dim : Nat) (rn : Text) (r : Reg α) : List Tok :=
  [.kw .begRegion, .word rn, .word r.material] ++
  (elemToks .begNode .endNode (r.nodes.map fun i => [i]) ++
  (partToks (elemPart dim r) ++
  (serModelToks F .node (X.models rn .node) ++
  (serModelToks F .edge (X.models rn .edge) ++
  (serModelToks F .tri (X.models rn .tri) ++
  (serModelToks F .tet (X.models rn .tet) ++
  (serEqnToks .region (X.reqns rn) ++ [.kw .endRegion])))))))

def serContactToks (X : Extra α) (dim : Nat) (n : Text) (c : Con) : List Tok :=
  [.kw .begContact, .word n, .word c.region, .word c.material] ++
    (partToks (conPart dim c) ++ (serEqnToks .contact (X.ceqns n) ++ [.kw .endContact]))

def serIfaceToks (F : Fmt α) (X : Extra α) (dim : Nat) (n : Text) (i : Ifc) : List Tok :=
  [.kw .begIface, .word n, .word i.region0, .word i.region1] ++
    (partToks (ifcPart dim (X.provided n) i) ++
    (serModelToks F .ifn ((X.imodels n).map fun e => (e.1, .cmd e.2)) ++
    (serEqnToks .iface (X.ieqns n) ++ [.kw .endIface])))

def serDeviceToks (F : Fmt α) (n : Text) (d : Dev α) (X : Extra α) : List Tok :=
  [.kw .begDevice, .word n] ++ (coordToks F d.coords ++
    ((d.regions.flatMap fun e => serRegionToks F X d.dim e.1 e.2) ++
    ((d.contacts.flatMap fun e => serContactToks X d.dim e.1 e.2) ++
    ((d.ifaces.flatMap fun e => serIfaceToks F X d.dim e.1 e.2) ++ [.kw .endDevice]))))

/-! ### The written text is read as these tokens -/

/-- A command that can be read: a name, options in lower case, and values without quotes. -/
structure CmdOK (c : Cmd) : Prop where
  name : ∃ a as, c.1 = a :: as ∧ isHeadC a = true ∧ as.all isWordC = true
  args : ∀ a ∈ c.2, (∃ o os, a.1 = o :: os ∧ o.isLower = true ∧
    (os.all fun c => c.isLower || c.isDigit || c = '_') = true) ∧ '"' ∉ a.2

/-- A model that can be read: finite numbers, and names without quotes. -/
def SerOK (F : Fmt α) : MSer α → Prop
  | .builtin => True
  | .parent p => '"' ∉ p
  | .unif x => Sci (F.fmt x)
  | .data l => ∀ x ∈ l, Sci (F.fmt x)
  | .cmd c => CmdOK c

theorem lexes_args {s : Stk} (as : List (Text × Text)) (h : ∀ a ∈ as, (∃ o os, a.1 = o :: os ∧ o.isLower = true ∧
    (os.all fun c => c.isLower || c.isDigit || c = '_') = true) ∧ '"' ∉ a.2) :
    LexA (.cmd :: s) false ((as.flatMap fun a => ' ' :: ('-' :: a.1 ++ ' ' :: ('"' :: a.2 ++ ['"']))) ++ ['\n'])
      ((as.flatMap fun a => [Tok.opt a.1, Tok.word a.2]) ++ [.eol]) s true := by
  induction as with
  | nil => simpa using lexes_eol (s := s) false
  | cons a as ih =>
    obtain ⟨⟨o, os, ho, h1, h2⟩, h3⟩ := h a (by simp)
    have l1 := lexes_blank (s := .cmd :: s) (b := false) (c := ' ') (by decide)
    have l2 := lexes_opt (s := .cmd :: s) (c := o) (cs := os) rfl false h1 h2
    have l3 := Lexes.append l1 l2 fun rest _ => ⟨'-', o :: os ++ rest, by simp, by decide⟩
    have l4 := Lexes.append l3 (lexes_blank (s := .cmd :: s) (b := false) (c := ' ') (by decide))
      fun rest _ => ⟨' ', rest, rfl, isWs_sp⟩
    have l5 := Lexes.append l4 (lexes_quoted (s := .cmd :: s) (b := false) h3)
      fun rest _ => ⟨'"', a.2 ++ '"' :: rest, by simp, by decide⟩
    have l6 := Lexes.append l5 (ih fun x hx => h x (by simp [hx])) fun _ _ => trivial
    simpa [ho] using l6

theorem lexes_cmdLine {s : Stk} (hs : s.cur ∈ cmdSecs) {c : Cmd} (h : CmdOK c) :
    LexA s true (cmdLine c) (cmdToks c) s true := by
  obtain ⟨a, as, hc, h1, h2⟩ := h.name
  have hb : isBlank a = false := by
    have hw : ∀ d, isHeadC d = false → a ≠ d := by rintro d hd rfl; simp [hd] at h1
    simp [isBlank, hw ' ' (by decide), hw '\t' (by decide), hw '\r' (by decide)]
  have l1 := Lexes.append (lexes_command hs) (lexes_word (s := .cmd :: s) h1 h2)
    fun rest _ => ⟨a, as ++ rest, rfl, hb⟩
  have l2 := Lexes.append l1 (lexes_args (s := s) c.2 h.args) fun rest _ => by
    cases e : c.2 with
    | nil => exact ⟨'\n', rest, by simp, isWs_nl⟩
    | cons x l => exact ⟨' ', _, rfl, isWs_sp⟩
  unfold cmdLine cmdToks
  rw [hc]
  simpa using l2

theorem lexes_serLine {F : Fmt α} {s : Stk} {k : MK} (hs : s.cur = k.sec) {m : MSer α} (h : SerOK F m)
    (hk : k = .ifn → ∃ c, m = .cmd c) : LexA s true (serLine F k m) (serToks F m) s true := by
  have hne : s.cur ≠ .cmd := by rw [hs]; cases k <;> decide
  have hnif : (∀ c, m ≠ .cmd c) → k ≠ .ifn := by
    intro h1 h2; obtain ⟨c, hc⟩ := hk h2; exact h1 c hc
  cases m with
  | builtin =>
    have hk := hnif (by simp)
    exact lexes_kwLine .builtin (by rw [hs]; cases k <;> first | exact absurd rfl hk | decide) hne
  | parent p =>
    have hk := hnif (by simp)
    have := lexes_hdrLine (s := s) .dataparent [p]
      (by rw [hs]; cases k <;> first | exact absurd rfl hk | decide) hne (by simpa [SerOK] using h)
    simpa [SAct.run, Kw.act, serLine, serToks] using this
  | unif x =>
    have hk := hnif (by simp)
    have l1 := Lexes.append (lexes_kw .uniform (s := s) (by rw [hs]; cases k <;> first | exact absurd rfl hk | decide))
      (lexes_blank (s := s) (b := false) (c := ' ') (by decide)) fun rest _ => ⟨' ', rest, rfl, isWs_sp⟩
    have l2 := Lexes.append l1 (lexes_valLine (s := s) hne false h) fun rest _ => by
      have := sci_next h ('\n' :: rest); simpa using this
    simpa [serLine, serToks] using l2
  | data l =>
    have hk' := hnif (by simp)
    have l1 := lexes_kwLine (s := s) .data (by rw [hs]; cases k <;> first | exact absurd rfl hk' | decide) hne
    have l2 := LexA.flatMap (s := s) (b := true) (f := fun y => F.fmt y ++ ['\n'])
      (g := fun y => [Tok.float (F.fmt y)]) l fun y hy => lexes_valLine hne true (h y hy)
    have l3 : LexA s true (if k = .tri then ['\n'] else []) [] s true := by
      split
      · exact lexes_nl true hne
      · exact LexA.nil _ _
    have e2 : (l.flatMap fun y => [Tok.float (F.fmt y)]) = l.map fun y => Tok.float (F.fmt y) := by
      clear l2 h hk hnif
      induction l with
      | nil => rfl
      | cons a l ih => simp [ih]
    rw [e2] at l2
    have := LexA.append l1 (LexA.append l2 l3)
    simpa [serLine, serToks, SAct.run, Kw.act] using this
  | cmd c => exact lexes_cmdLine (by rw [hs]; cases k <;> decide) h

theorem lexes_serModels {F : Fmt α} {s : Stk} (k : MK) (hs : s.cur = k.base) (ms : SMap Text (MSer α))
    (hn : ∀ m ∈ ms, '"' ∉ m.1 ∧ SerOK F m.2) (hk : k = .ifn → ∀ m ∈ ms, ∃ c, m.2 = .cmd c) :
    LexA s true (serModels F k ms) (serModelToks F k ms) s true := by
  have hne : s.cur ≠ .cmd := by rw [hs]; cases k <;> decide
  refine LexA.flatMap ms fun m hm => ?_
  have h1 := lexes_hdrLine (s := s) k.beg [m.1] (by rw [hs]; cases k <;> decide)
    (by cases k <;> simp [MK.beg, Kw.act, SAct.run, Stk.cur]) (by simpa using (hn m hm).1)
  have e1 : k.beg.act = .push k.sec := by cases k <;> rfl
  have e2 : k.fin.act = .pop := by cases k <;> rfl
  rw [e1] at h1
  have h2 := lexes_serLine (F := F) (s := k.sec :: s) (k := k) rfl (hn m hm).2 fun h => hk h m hm
  have h3 := lexes_kwLine (s := k.sec :: s) k.fin (by cases k <;> simp [Stk.cur, MK.sec, MK.fin, Kw.secs])
    (by rw [e2]; exact hne)
  rw [e2] at h3
  have h4 := LexA.append h1 (LexA.append h2 (LexA.append h3 (lexes_nl (s := s) true hne)))
  simpa [SAct.run] using h4

theorem lexes_serEqns {s : Stk} (o : Owner) (hs : s.cur = o.base) (es : SMap Text Cmd)
    (hn : ∀ m ∈ es, '"' ∉ m.1 ∧ CmdOK m.2) : LexA s true (serEqns o es) (serEqnToks o es) s true := by
  have hne : s.cur ≠ .cmd := by rw [hs]; cases o <;> decide
  refine LexA.flatMap es fun m hm => ?_
  have h1 := lexes_hdrLine (s := s) o.beg [m.1] (by rw [hs]; cases o <;> decide)
    (by cases o <;> simp [Owner.beg, Kw.act, SAct.run, Stk.cur]) (by simpa using (hn m hm).1)
  have e1 : o.beg.act = .push o.sec := by cases o <;> rfl
  have e2 : o.fin.act = .pop := by cases o <;> rfl
  rw [e1] at h1
  have h2 := lexes_cmdLine (s := o.sec :: s) (by cases o <;> simp [Stk.cur, Owner.sec, cmdSecs]) (hn m hm).2
  have h3 := lexes_kwLine (s := o.sec :: s) o.fin (by cases o <;> simp [Stk.cur, Owner.sec, Owner.fin, Kw.secs])
    (by rw [e2]; exact hne)
  rw [e2] at h3
  have h4 := LexA.append h1 (LexA.append h2 (LexA.append h3 (lexes_nl (s := s) true hne)))
  simpa [SAct.run] using h4

/-- Lists of elements that the scanner reads in start state `x`. -/
def PartOK (x : Sec) (p : List (Kw × Kw × List (List Nat))) : Prop :=
  ∀ e ∈ p, x ∈ e.1.secs ∧ (∃ y, e.1.act = .push y ∧ y ≠ .cmd ∧ y ∈ e.2.1.secs) ∧ e.2.1.act = .pop ∧
    ∀ l ∈ e.2.2, l ≠ []

theorem lexes_part {s : Stk} {p : List (Kw × Kw × List (List Nat))} (h : PartOK s.cur p) (hs : s.cur ≠ .cmd) :
    LexA s true (partText p) (partToks p) s true := by
  refine LexA.flatMap p fun e he => ?_
  obtain ⟨h1, ⟨y, h2, h3, h4⟩, h5, h6⟩ := h e he
  exact lexes_elemSec _ _ _ h6 h1 y h2 h3 h4 h5 hs

/-- The conditions under which the written text can be read: names without quotes, finite values, and
elements with at least one node. -/
structure SerWritable (F : Fmt α) (n : Text) (d : Dev α) (X : Extra α) : Prop where
  name : '"' ∉ n
  coords : ∀ c ∈ d.coords, Sci (F.fmt c.1) ∧ Sci (F.fmt c.2.1) ∧ Sci (F.fmt c.2.2)
  rnames : ∀ e ∈ d.regions, '"' ∉ e.1 ∧ '"' ∉ e.2.material
  elems : ∀ e ∈ d.regions, (∀ l ∈ e.2.edges, l ≠ []) ∧ (∀ l ∈ e.2.tris, l ≠ []) ∧ (∀ l ∈ e.2.tets, l ≠ [])
  models : ∀ e ∈ d.regions, ∀ k, ∀ m ∈ X.models e.1 k, '"' ∉ m.1 ∧ SerOK F m.2
  reqns : ∀ e ∈ d.regions, ∀ m ∈ X.reqns e.1, '"' ∉ m.1 ∧ CmdOK m.2
  cnames : ∀ e ∈ d.contacts, '"' ∉ e.1 ∧ '"' ∉ e.2.region ∧ '"' ∉ e.2.material
  celems : ∀ e ∈ d.contacts, (∀ l ∈ e.2.edges, l ≠ []) ∧ ∀ l ∈ e.2.tris, l ≠ []
  ceqns : ∀ e ∈ d.contacts, ∀ m ∈ X.ceqns e.1, '"' ∉ m.1 ∧ CmdOK m.2
  inames : ∀ e ∈ d.ifaces, '"' ∉ e.1 ∧ '"' ∉ e.2.region0 ∧ '"' ∉ e.2.region1
  ielems : ∀ e ∈ d.ifaces, (∀ l ∈ e.2.edges0, l ≠ []) ∧ ∀ l ∈ e.2.tris0, l ≠ []
  imodels : ∀ e ∈ d.ifaces, ∀ m ∈ X.imodels e.1, '"' ∉ m.1 ∧ CmdOK m.2
  ieqns : ∀ e ∈ d.ifaces, ∀ m ∈ X.ieqns e.1, '"' ∉ m.1 ∧ CmdOK m.2

theorem elemPart_ok {dim : Nat} {r : Reg α}
    (h : (∀ l ∈ r.edges, l ≠ []) ∧ (∀ l ∈ r.tris, l ≠ []) ∧ (∀ l ∈ r.tets, l ≠ [])) :
    PartOK .region (elemPart dim r) := by
  intro e he
  unfold elemPart at he
  split_ifs at he
  · simp only [List.mem_singleton] at he
    subst he
    exact ⟨by simp [Kw.secs], ⟨.edge, rfl, by decide, by simp [Kw.secs]⟩, rfl, h.1⟩
  · simp at he
  · simp only [List.mem_singleton] at he
    subst he
    exact ⟨by simp [Kw.secs], ⟨.tri, rfl, by decide, by simp [Kw.secs]⟩, rfl, h.2.1⟩
  · simp at he
  · simp only [List.mem_singleton] at he
    subst he
    exact ⟨by simp [Kw.secs], ⟨.tet, rfl, by decide, by simp [Kw.secs]⟩, rfl, h.2.2⟩
  · simp at he

theorem conPart_ok {dim : Nat} {c : Con} (h : (∀ l ∈ c.edges, l ≠ []) ∧ (∀ l ∈ c.tris, l ≠ [])) :
    PartOK .contact (conPart dim c) := by
  intro e he
  unfold conPart at he
  split_ifs at he
  · simp only [List.mem_singleton] at he
    subst he
    exact ⟨by simp [Kw.secs], ⟨.node, rfl, by decide, by simp [Kw.secs]⟩, rfl, by simp⟩
  · simp at he
  · simp only [List.mem_singleton] at he
    subst he
    exact ⟨by simp [Kw.secs], ⟨.edge, rfl, by decide, by simp [Kw.secs]⟩, rfl, h.1⟩
  · simp at he
  · simp only [List.mem_singleton] at he
    subst he
    exact ⟨by simp [Kw.secs], ⟨.tri, rfl, by decide, by simp [Kw.secs]⟩, rfl, h.2⟩
  · simp at he

theorem ifcPart_ok {dim : Nat} {b : Bool} {c : Ifc} (h : (∀ l ∈ c.edges0, l ≠ []) ∧ (∀ l ∈ c.tris0, l ≠ [])) :
    PartOK .iface (ifcPart dim b c) := by
  intro e he
  have hz : ∀ (a b : List (List Nat)), (∀ l ∈ a, l ≠ []) → ∀ l ∈ (a.zip b).map fun p => p.1 ++ p.2, l ≠ [] := by
    intro a b ha l hl
    obtain ⟨p, hp, rfl⟩ := List.mem_map.1 hl
    have := ha _ (List.of_mem_zip hp).1
    simp [this]
  unfold ifcPart at he
  split_ifs at he
  · simp only [List.mem_singleton] at he
    subst he
    exact ⟨by simp [Kw.secs], ⟨.node, rfl, by decide, by simp [Kw.secs]⟩, rfl, by
      intro l hl; obtain ⟨p, -, rfl⟩ := List.mem_map.1 hl; simp⟩
  · simp at he
  · simp only [List.mem_singleton] at he
    subst he
    exact ⟨by simp [Kw.secs], ⟨.edge, rfl, by decide, by simp [Kw.secs]⟩, rfl, hz _ _ h.1⟩
  · simp at he
  · simp only [List.mem_singleton] at he
    subst he
    exact ⟨by simp [Kw.secs], ⟨.tri, rfl, by decide, by simp [Kw.secs]⟩, rfl, hz _ _ h.2⟩
  · simp at he

section
variable {F : Fmt α} {n : Text} {d : Dev α} {X : Extra α}

theorem lexes_serRegion (W : SerWritable F n d X) {e : Text × Reg α}
    (he : e ∈ d.regions) {s : Stk} (hs : s.cur = .device) :
    LexA s true (serRegion F X d.dim e.1 e.2) (serRegionToks F X d.dim e.1 e.2) s true := by
  have hq := W.rnames e he
  have h1 := lexes_hdrLine (s := s) .begRegion [e.1, e.2.material] (by rw [hs]; decide) (by simp [Kw.act, SAct.run, Stk.cur])
    (by simp [hq])
  have h2 := lexes_elemSec (s := .region :: s) .begNode .endNode (e.2.nodes.map fun i => [i]) (by simp)
    (by simp [Stk.cur, Kw.secs]) .node rfl (by decide) (by decide) rfl (by simp [Stk.cur])
  have h3 := lexes_part (s := .region :: s) (elemPart_ok (dim := d.dim) (W.elems e he)) (by simp [Stk.cur])
  have hm := fun k (hb : MK.base k = .region) (hk : k ≠ .ifn) =>
    lexes_serModels (F := F) (s := .region :: s) k hb.symm (X.models e.1 k) (W.models e he k) (fun h => absurd h hk)
  have h5 := lexes_serEqns (s := .region :: s) .region rfl (X.reqns e.1) (W.reqns e he)
  have h8 := lexes_kwLine (s := .region :: s) .endRegion (by simp [Stk.cur, Kw.secs])
    (by simp only [Kw.act, SAct.run, List.tail_cons, hs]; decide)
  have h9 := lexes_nl (s := s) true (by rw [hs]; decide)
  exact h1.append (h2.append (h3.append ((hm .node rfl (by decide)).append ((hm .edge rfl (by decide)).append
    ((hm .tri rfl (by decide)).append ((hm .tet rfl (by decide)).append (h5.append (by simpa using h8.append h9))))))))

theorem lexes_serContact (W : SerWritable F n d X) {e : Text × Con}
    (he : e ∈ d.contacts) {s : Stk} (hs : s.cur = .device) :
    LexA s true (serContact X d.dim e.1 e.2) (serContactToks X d.dim e.1 e.2) s true := by
  have hq := W.cnames e he
  have h1 := lexes_hdrLine (s := s) .begContact [e.1, e.2.region, e.2.material] (by rw [hs]; decide) (by simp [Kw.act, SAct.run, Stk.cur])
    (by simp [hq])
  have h3 := lexes_part (s := .contact :: s) (conPart_ok (dim := d.dim) (W.celems e he)) (by simp [Stk.cur])
  have h5 := lexes_serEqns (s := .contact :: s) .contact rfl (X.ceqns e.1) (W.ceqns e he)
  have h8 := lexes_kwLine (s := .contact :: s) .endContact (by simp [Stk.cur, Kw.secs])
    (by simp only [Kw.act, SAct.run, List.tail_cons, hs]; decide)
  have h9 := lexes_nl (s := s) true (by rw [hs]; decide)
  exact h1.append (h3.append (h5.append (by simpa using h8.append h9)))

theorem lexes_serIface (W : SerWritable F n d X) {e : Text × Ifc}
    (he : e ∈ d.ifaces) {s : Stk} (hs : s.cur = .device) :
    LexA s true (serIface F X d.dim e.1 e.2) (serIfaceToks F X d.dim e.1 e.2) s true := by
  have hq := W.inames e he
  have h1 := lexes_hdrLine (s := s) .begIface [e.1, e.2.region0, e.2.region1] (by rw [hs]; decide) (by simp [Kw.act, SAct.run, Stk.cur])
    (by simp [hq])
  have h3 := lexes_part (s := .iface :: s) (ifcPart_ok (dim := d.dim) (b := X.provided e.1) (W.ielems e he)) (by simp [Stk.cur])
  have h4 := lexes_serModels (F := F) (s := .iface :: s) .ifn rfl ((X.imodels e.1).map fun e => (e.1, .cmd e.2))
    (by intro m hm; obtain ⟨x, hx, rfl⟩ := List.mem_map.1 hm; exact W.imodels e he x hx)
    (by intro _ m hm; obtain ⟨x, hx, rfl⟩ := List.mem_map.1 hm; exact ⟨_, rfl⟩)
  have h5 := lexes_serEqns (s := .iface :: s) .iface rfl (X.ieqns e.1) (W.ieqns e he)
  have h8 := lexes_kwLine (s := .iface :: s) .endIface (by simp [Stk.cur, Kw.secs])
    (by simp only [Kw.act, SAct.run, List.tail_cons, hs]; decide)
  have h9 := lexes_nl (s := s) true (by rw [hs]; decide)
  exact h1.append (h3.append (h4.append (h5.append (by simpa using h8.append h9))))

theorem lexes_serRegions (W : SerWritable F n d X) {s : Stk} (hs : s.cur = .device) :
    LexA s true (d.regions.flatMap fun e => serRegion F X d.dim e.1 e.2)
      (d.regions.flatMap fun e => serRegionToks F X d.dim e.1 e.2) s true := by
  apply LexA.flatMap
  intro e he
  exact lexes_serRegion W he hs

theorem lexes_serContacts (W : SerWritable F n d X) {s : Stk} (hs : s.cur = .device) :
    LexA s true (d.contacts.flatMap fun e => serContact X d.dim e.1 e.2)
      (d.contacts.flatMap fun e => serContactToks X d.dim e.1 e.2) s true := by
  apply LexA.flatMap
  intro e he
  exact lexes_serContact W he hs

theorem lexes_serIfaces (W : SerWritable F n d X) {s : Stk} (hs : s.cur = .device) :
    LexA s true (d.ifaces.flatMap fun e => serIface F X d.dim e.1 e.2)
      (d.ifaces.flatMap fun e => serIfaceToks F X d.dim e.1 e.2) s true := by
  apply LexA.flatMap
  intro e he
  exact lexes_serIface W he hs

theorem lexes_end {s : Stk} (k : Kw) {x : Sec} (hk : x ∈ k.secs) (ha : k.act = .pop) (hs : s.cur ≠ .cmd) :
    LexA (x :: s) true (kwLine k ++ ['\n']) [.kw k] s true := by
  have h6 := lexes_kwLine (s := x :: s) k hk (by rw [ha]; exact hs)
  rw [ha] at h6
  have h7 := h6.append (lexes_nl (s := s) true hs)
  rw [List.append_nil] at h7
  exact h7

theorem lexes_serDevice_aux (W : SerWritable F n d X) {s : Stk} (hs : s.cur = .initial) :
    LexA s true (serDevice F n d X) (serDeviceToks F n d X) s true := by
  have hc : Stk.cur (.device :: s) = .device := by simp [Stk.cur]
  have h1 := lexes_hdrLine (s := s) .begDevice [n] (by rw [hs]; decide) (by simp [Kw.act, SAct.run, Stk.cur])
    (by simpa using W.name)
  have h7 := lexes_end (s := s) (x := .device) .endDevice (by decide) rfl (by rw [hs]; decide)
  have h8 := (lexes_serContacts W hc).append ((lexes_serIfaces W hc).append h7)
  have h9 := (lexes_coords (F := F) (s := .device :: s) d.coords W.coords hc).append
    ((lexes_serRegions W hc).append h8)
  unfold serDevice serDeviceToks
  exact h1.append h9

theorem lexes_serDevice (W : SerWritable F n d X) :
    LexA [] true (serDevice F n d X) (serDeviceToks F n d X) [] true :=
  lexes_serDevice_aux W (by simp [Stk.cur])

end

/-- The text of all devices. -/
theorem lexes_serDevices {F : Fmt α} {ds : SMap Text (Dev α × Extra α)}
    (W : ∀ e ∈ ds, SerWritable F e.1 e.2.1 e.2.2) :
    LexA [] true (serDevices F ds) (ds.flatMap fun e => serDeviceToks F e.1 e.2.1 e.2.2) [] true :=
  LexA.flatMap ds fun e he => lexes_serDevice (W e he)

end Verif.MeshIO
