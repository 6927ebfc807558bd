import Verif.MeshIO.LexLemmas
import Verif.MeshIO.Parse

/-!
# `write_devices` with `type="devsim_data"` (`DevsimWriter.cc`)

and the tokens that the scanner reads in the written text.
-/

namespace Verif.MeshIO

variable {α : Type}

/-- What writing needs to know: how a `double` is printed (`std::setprecision(15) << std::scientific`,
`DevsimWriter.cc:129`) and the values of the built-in models, which depend on the geometry of the
device only. -/
structure Fmt (α : Type) where
  fmt : α → Text
  bval : Dev α → Text → MK → Text → List α

/-- The geometry of a device: everything but the models. -/
def Dev.geo (d : Dev α) : Dev α :=
  { d with regions := d.regions.map fun e => (e.1, { e.2 with nm := [], em := [], tm := [], um := [] }) }

/-- `GetScalarValues`: the values of a model. -/
def srcVals (F : Fmt α) (d : Dev α) (rn : Text) (r : Reg α) (k : MK) (n : Text) : Src α → List α
  | .builtin => F.bval d.geo rn k n
  | .unif x => List.replicate (r.size k) x
  | .data l => l

/-- A line that consists of a keyword. -/
def kwLine (k : Kw) : Text := k.text ++ ['\n']

/-- A keyword followed by quoted names. -/
def hdrLine (k : Kw) (ns : List Text) : Text :=
  k.text ++ (ns.flatMap fun n => ' ' :: ('"' :: n ++ ['"'])) ++ ['\n']

/-- Indices separated by tabs. -/
def natLine : List Nat → Text
  | [] => ['\n']
  | [n] => showNat n ++ ['\n']
  | n :: ns => showNat n ++ '\t' :: natLine ns

/-- A list of elements (`DevsimWriter.cc:38-85`): keyword, one line for each, keyword, empty line. -/
def elemSec (b e : Kw) (ls : List (List Nat)) : Text :=
  kwLine b ++ ls.flatMap natLine ++ (kwLine e ++ ['\n'])

/-- The same without the empty line (`DevsimWriter.cc:193-198`, `215-220`). -/
def elemSec' (b e : Kw) (ls : List (List Nat)) : Text :=
  kwLine b ++ ls.flatMap natLine ++ kwLine e

/-- `WriteCoordinates` (`DevsimWriter.cc:27-36`) -/
def writeCoords (F : Fmt α) (cs : List (α × α × α)) : Text :=
  kwLine .begCoord ++ (cs.flatMap fun c => F.fmt c.1 ++ '\t' :: (F.fmt c.2.1 ++ '\t' :: (F.fmt c.2.2 ++ ['\n']))) ++
    (kwLine .endCoord ++ ['\n'])

/-- `WriteNodeModels`, `WriteEdgeModels` (`DevsimWriter.cc:88-122`) -/
def writeModels (F : Fmt α) (b e : Kw) (ms : List (Text × List α)) : Text :=
  ms.flatMap fun m => hdrLine b [m.1] ++ (m.2.flatMap fun x => F.fmt x ++ ['\n']) ++ kwLine e

/-- The values of the models of one kind. -/
def modelVals (F : Fmt α) (d : Dev α) (rn : Text) (r : Reg α) (k : MK) : List (Text × List α) :=
  (r.models k).map fun m => (m.1, srcVals F d rn r k m.1 m.2)

/-- One region (`DevsimWriter.cc:150-178`). -/
def writeRegion (F : Fmt α) (d : Dev α) (rn : Text) (r : Reg α) : Text :=
  hdrLine .begRegion [rn, r.material] ++
  (elemSec .begNode .endNode (r.nodes.map fun i => [i]) ++
  (elemSec .begEdge .endEdge r.edges ++
  ((if r.tris.isEmpty then [] else elemSec .begTri .endTri r.tris) ++
  ((if r.tets.isEmpty then [] else elemSec .begTet .endTet r.tets) ++
  (writeModels F .begNodeSol .endNodeSol (modelVals F d rn r .node) ++
  (writeModels F .begEdgeSol .endEdgeSol (modelVals F d rn r .edge) ++
  (kwLine .endRegion ++ ['\n'])))))))

/-- One contact (`DevsimWriter.cc:181-201`). -/
def writeContact (n : Text) (c : Con) : Text :=
  hdrLine .begContact [n, c.region, c.material] ++
    (elemSec' .begNode .endNode (c.nodes.map fun i => [i]) ++ kwLine .endContact)

/-- One interface (`DevsimWriter.cc:203-224`). -/
def writeIface (n : Text) (c : Ifc) : Text :=
  hdrLine .begIface [n, c.region0, c.region1] ++
    (elemSec' .begNode .endNode ((c.nodes0.zip c.nodes1).map fun p => [p.1, p.2]) ++ kwLine .endIface)

/-- One device (`DevsimWriter.cc:123-235`). -/
def writeDevice (F : Fmt α) (n : Text) (d : Dev α) : Text :=
  hdrLine .begDevice [n] ++ (writeCoords F d.coords ++
    ((d.regions.flatMap fun e => writeRegion F d e.1 e.2) ++
    ((d.contacts.flatMap fun e => writeContact e.1 e.2) ++
    ((d.ifaces.flatMap fun e => writeIface e.1 e.2) ++ kwLine .endDevice))))

/-- `DevsimWriter::WriteMeshes_` (`DevsimWriter.cc:263-286`): all devices. -/
def writeDevices (F : Fmt α) (ds : Devs α) : Text := ds.flatMap fun e => writeDevice F e.1 e.2

/-! ### The tokens -/

def elemToks (b e : Kw) (ls : List (List Nat)) : List Tok :=
  .kw b :: (ls.flatMap fun l => l.map fun (i : Nat) => Tok.int i) ++ [.kw e]

def modelToks (F : Fmt α) (b e : Kw) (ms : List (Text × List α)) : List Tok :=
  ms.flatMap fun m => .kw b :: .word m.1 :: (m.2.map fun x => Tok.float (F.fmt x)) ++ [.kw e]

def coordToks (F : Fmt α) (cs : List (α × α × α)) : List Tok :=
  .kw .begCoord :: (cs.flatMap fun c => [.float (F.fmt c.1), .float (F.fmt c.2.1), .float (F.fmt c.2.2)]) ++
    [.kw .endCoord]

def regionToks (F : Fmt α) (d : Dev α) (rn : Text) (r : Reg α) : List Tok :=
  [.kw .begRegion, .word rn, .word r.material] ++
  (elemToks .begNode .endNode (r.nodes.map fun i => [i]) ++
  (elemToks .begEdge .endEdge r.edges ++
  ((if r.tris.isEmpty then [] else elemToks .begTri .endTri r.tris) ++
  ((if r.tets.isEmpty then [] else elemToks .begTet .endTet r.tets) ++
  (modelToks F .begNodeSol .endNodeSol (modelVals F d rn r .node) ++
  (modelToks F .begEdgeSol .endEdgeSol (modelVals F d rn r .edge) ++
  [.kw .endRegion]))))))

def contactToks (n : Text) (c : Con) : List Tok :=
  [.kw .begContact, .word n, .word c.region, .word c.material] ++
    (elemToks .begNode .endNode (c.nodes.map fun i => [i]) ++ [.kw .endContact])

def ifaceToks (n : Text) (c : Ifc) : List Tok :=
  [.kw .begIface, .word n, .word c.region0, .word c.region1] ++
    (elemToks .begNode .endNode ((c.nodes0.zip c.nodes1).map fun p => [p.1, p.2]) ++ [.kw .endIface])

def deviceToks (F : Fmt α) (n : Text) (d : Dev α) : List Tok :=
  [.kw .begDevice, .word n] ++ (coordToks F d.coords ++
    ((d.regions.flatMap fun e => regionToks F d e.1 e.2) ++
    ((d.contacts.flatMap fun e => contactToks e.1 e.2) ++
    ((d.ifaces.flatMap fun e => ifaceToks e.1 e.2) ++ [.kw .endDevice]))))

/-! ### The written text is read as these tokens -/

theorem isWs_nl : isWs '\n' := by right; rfl
theorem isWs_tab : isWs '\t' := by left; rfl
theorem isWs_sp : isWs ' ' := by left; rfl

theorem lexes_kwLine {s : Stk} (k : Kw) (hk : s.cur ∈ k.secs) (hs : Stk.cur (k.act.run s) ≠ .cmd) :
    LexA s true (kwLine k) [.kw k] (k.act.run s) true := by
  have := Lexes.append (lexes_kw k hk) (lexes_nl false hs) fun rest _ => ⟨'\n', rest, rfl, isWs_nl⟩
  simpa [kwLine] using this

theorem lexes_names {s : Stk} (hs : s.cur ≠ .cmd) (ns : List Text) (hn : ∀ n ∈ ns, '"' ∉ n) :
    LexA s false ((ns.flatMap fun n => ' ' :: ('"' :: n ++ ['"'])) ++ ['\n']) (ns.map .word) s true := by
  induction ns with
  | nil => simpa using lexes_nl false hs
  | cons n ns ih =>
    have h1 := Lexes.append (lexes_blank (s := s) (b := false) (c := ' ') (by decide))
      (lexes_quoted (s := s) (b := false) (hn n (by simp)))
      fun rest _ => ⟨'"', n ++ '"' :: rest, by simp, by decide⟩
    have h2 := Lexes.append h1 (ih fun m hm => hn m (by simp [hm])) fun _ _ => trivial
    simpa using h2

theorem lexes_hdrLine {s : Stk} (k : Kw) (ns : List Text) (hk : s.cur ∈ k.secs)
    (hs : Stk.cur (k.act.run s) ≠ .cmd) (hn : ∀ n ∈ ns, '"' ∉ n) :
    LexA s true (hdrLine k ns) (.kw k :: ns.map .word) (k.act.run s) true := by
  have := Lexes.append (lexes_kw k hk) (lexes_names hs ns hn) fun rest _ => by
    cases ns with
    | nil => exact ⟨'\n', rest, rfl, isWs_nl⟩
    | cons n ns => exact ⟨' ', _, rfl, isWs_sp⟩
  simpa [hdrLine] using this

theorem natLine_next (n : Nat) (ns : List Nat) (rest : Text) :
    Next (fun d => isBlank d = false) (natLine (n :: ns) ++ rest) := by
  obtain ⟨d, ds, e, hd⟩ := showNat_first n
  have := (digit_facts hd).2.1
  cases ns with
  | nil => exact ⟨d, ds ++ '\n' :: rest, by simp [natLine, e], this⟩
  | cons m ms => exact ⟨d, ds ++ '\t' :: (natLine (m :: ms) ++ rest), by simp [natLine, e], this⟩

theorem lexes_natLine {s : Stk} (hs : s.cur ≠ .cmd) : ∀ (ns : List Nat), ns ≠ [] → ∀ b,
    LexA s b (natLine ns) (ns.map fun (i : Nat) => Tok.int i) s true
  | [], h, _ => absurd rfl h
  | [n], _, b => by
    have := Lexes.append (lexes_nat (s := s) (b := b) n) (lexes_nl false hs)
      fun rest _ => ⟨'\n', rest, rfl, isWs_nl⟩
    simpa [natLine] using this
  | n :: m :: ms, _, b => by
    have h1 := Lexes.append (lexes_nat (s := s) (b := b) n)
      (lexes_blank (s := s) (b := false) (c := '\t') (by decide)) fun rest _ => ⟨'\t', rest, rfl, isWs_tab⟩
    have h2 := Lexes.append h1 (lexes_natLine hs (m :: ms) (by simp) false)
      fun rest _ => natLine_next m ms rest
    simpa [natLine] using h2

theorem lexes_elemSec' {s : Stk} (b e : Kw) (ls : List (List Nat)) (hl : ∀ l ∈ ls, l ≠ [])
    (hb : s.cur ∈ b.secs) (x : Sec) (hba : b.act = .push x) (hx : x ≠ .cmd) (hxe : x ∈ e.secs)
    (hea : e.act = .pop) (hs : s.cur ≠ .cmd) :
    LexA s true (elemSec' b e ls) (elemToks b e ls) s true := by
  have h1 := lexes_kwLine (s := s) b hb (by rw [hba]; exact hx)
  rw [hba] at h1
  have h2 := LexA.flatMap (s := x :: s) (b := true) (f := natLine)
    (g := fun l => l.map fun (i : Nat) => Tok.int i) ls fun l hl' => lexes_natLine (s := x :: s) hx l (hl l hl') true
  have h3 := lexes_kwLine (s := x :: s) e hxe (by rw [hea]; exact hs)
  rw [hea] at h3
  have := LexA.append (LexA.append h1 h2) h3
  simpa [elemSec', elemToks, SAct.run] using this

theorem lexes_elemSec {s : Stk} (b e : Kw) (ls : List (List Nat)) (hl : ∀ l ∈ ls, l ≠ [])
    (hb : s.cur ∈ b.secs) (x : Sec) (hba : b.act = .push x) (hx : x ≠ .cmd) (hxe : x ∈ e.secs)
    (hea : e.act = .pop) (hs : s.cur ≠ .cmd) :
    LexA s true (elemSec b e ls) (elemToks b e ls) s true := by
  have := LexA.append (lexes_elemSec' b e ls hl hb x hba hx hxe hea hs) (lexes_nl true hs)
  simpa [elemSec, elemSec'] using this

theorem sci_next {x : Text} (hx : Sci x) (rest : Text) : Next (fun d => isBlank d = false) (x ++ rest) := by
  obtain ⟨_, c, cs, rfl, hc⟩ := hx
  refine ⟨c, cs ++ rest, rfl, ?_⟩
  rcases hc with h | rfl
  · exact (digit_facts h).2.1
  · decide

theorem lexes_valLine {s : Stk} (hs : s.cur ≠ .cmd) (b : Bool) {x : Text} (hx : Sci x) :
    LexA s b (x ++ ['\n']) [.float x] s true := by
  have := Lexes.append (lexes_sci (s := s) (b := b) hx) (lexes_nl false hs)
    fun rest _ => ⟨'\n', rest, rfl, isWs_nl⟩
  simpa using this

theorem lexes_coordLine {s : Stk} (hs : s.cur ≠ .cmd) (b : Bool) {x y z : Text} (hx : Sci x) (hy : Sci y) (hz : Sci z) :
    LexA s b (x ++ '\t' :: (y ++ '\t' :: (z ++ ['\n']))) [.float x, .float y, .float z] s true := by
  have tab : ∀ w, Sci w → Lexes s false ['\t'] [] s false fun rest => Next (fun d => isBlank d = false) rest :=
    fun w hw => lexes_blank (by decide)
  have h1 := Lexes.append (lexes_sci (s := s) (b := b) hx) (tab y hy) fun rest _ => ⟨'\t', rest, rfl, isWs_tab⟩
  have h2 := Lexes.append (lexes_sci (s := s) (b := false) hy) (tab z hz) fun rest _ => ⟨'\t', rest, rfl, isWs_tab⟩
  have h3 := lexes_valLine hs false hz
  have h4 := Lexes.append h2 h3 fun rest _ => by
    have := sci_next hz ('\n' :: rest); simpa using this
  have h5 := Lexes.append h1 h4 fun rest _ => by
    have := sci_next hy ('\t' :: (z ++ ('\n' :: rest))); simpa using this
  simpa using h5

theorem lexes_coords {F : Fmt α} {s : Stk} (cs : List (α × α × α))
    (hf : ∀ c ∈ cs, Sci (F.fmt c.1) ∧ Sci (F.fmt c.2.1) ∧ Sci (F.fmt c.2.2)) (hs : s.cur = .device) :
    LexA s true (writeCoords F cs) (coordToks F cs) s true := by
  have h1 := lexes_kwLine (s := s) .begCoord (by rw [hs]; decide) (by simp [Kw.act, SAct.run, Stk.cur])
  have h2 := LexA.flatMap (s := .coord :: s) (b := true)
    (f := fun c : α × α × α => F.fmt c.1 ++ '\t' :: (F.fmt c.2.1 ++ '\t' :: (F.fmt c.2.2 ++ ['\n'])))
    (g := fun c => [Tok.float (F.fmt c.1), Tok.float (F.fmt c.2.1), Tok.float (F.fmt c.2.2)]) cs
    fun c hc => lexes_coordLine (by simp [Stk.cur]) true (hf c hc).1 (hf c hc).2.1 (hf c hc).2.2
  have h3 := lexes_kwLine (s := .coord :: s) .endCoord (by simp [Stk.cur, Kw.secs])
    (by simp only [Kw.act, SAct.run, List.tail_cons, hs]; decide)
  have h4 := lexes_nl (s := s) true (by rw [hs]; decide)
  have := LexA.append (LexA.append (LexA.append h1 h2) h3) h4
  simpa [writeCoords, coordToks] using this

theorem lexes_models {F : Fmt α} {s : Stk} (b e : Kw) (ms : List (Text × List α))
    (hn : ∀ m ∈ ms, '"' ∉ m.1) (hf : ∀ m ∈ ms, ∀ x ∈ m.2, Sci (F.fmt x))
    (hb : s.cur ∈ b.secs) (x : Sec) (hba : b.act = .push x) (hx : x ≠ .cmd) (hxe : x ∈ e.secs)
    (hea : e.act = .pop) (hs : s.cur ≠ .cmd) :
    LexA s true (writeModels F b e ms) (modelToks F b e ms) s true := by
  refine LexA.flatMap ms fun m hm => ?_
  have h1 := lexes_hdrLine (s := s) b [m.1] hb (by rw [hba]; exact hx) (by simpa using hn m hm)
  rw [hba] at h1
  have h2 := LexA.flatMap (s := x :: s) (b := true) (f := fun y => F.fmt y ++ ['\n'])
    (g := fun y => [Tok.float (F.fmt y)]) m.2 fun y hy => lexes_valLine (s := x :: s) hx true (hf m hm y hy)
  have h3 := lexes_kwLine (s := x :: s) e hxe (by rw [hea]; exact hs)
  rw [hea] at h3
  have := LexA.append (LexA.append h1 h2) h3
  have e2 : (m.2.flatMap fun y => [Tok.float (F.fmt y)]) = m.2.map fun y => Tok.float (F.fmt y) := by
    induction m.2 with
    | nil => rfl
    | cons a l ih => simp [ih]
  rw [e2] at this
  simpa [SAct.run] using this

/-- The conditions under which the written text can be read: names without quotes and finite values. -/
structure Writable (F : Fmt α) (n : Text) (d : Dev α) : Prop where
  name : '"' ∉ n
  coords : ∀ c ∈ d.coords, Sci (F.fmt c.1) ∧ Sci (F.fmt c.2.1) ∧ Sci (F.fmt c.2.2)
  rnames : ∀ e ∈ d.regions, '"' ∉ e.1 ∧ '"' ∉ e.2.material
  elems : ∀ e ∈ d.regions, (∀ l ∈ e.2.edges, l ≠ []) ∧ (∀ l ∈ e.2.tris, l ≠ []) ∧ (∀ l ∈ e.2.tets, l ≠ [])
  mnames : ∀ e ∈ d.regions, (∀ m ∈ e.2.nm, '"' ∉ m.1) ∧ ∀ m ∈ e.2.em, '"' ∉ m.1
  mvals : ∀ e ∈ d.regions, (∀ m ∈ modelVals F d e.1 e.2 .node, ∀ x ∈ m.2, Sci (F.fmt x)) ∧
    ∀ m ∈ modelVals F d e.1 e.2 .edge, ∀ x ∈ m.2, Sci (F.fmt x)
  cnames : ∀ e ∈ d.contacts, '"' ∉ e.1 ∧ '"' ∉ e.2.region ∧ '"' ∉ e.2.material
  inames : ∀ e ∈ d.ifaces, '"' ∉ e.1 ∧ '"' ∉ e.2.region0 ∧ '"' ∉ e.2.region1

theorem lexes_region {F : Fmt α} {n : Text} {d : Dev α} (W : Writable F n d) {e : Text × Reg α}
    (he : e ∈ d.regions) {s : Stk} (hs : s.cur = .device) :
    LexA s true (writeRegion F d e.1 e.2) (regionToks F d e.1 e.2) s true := by
  have hq := W.rnames e he
  have hel := W.elems e he
  have hmn := W.mnames e he
  have hmv := W.mvals e he
  have h1 := lexes_hdrLine (s := s) .begRegion [e.1, e.2.material] (by rw [hs]; decide) (by simp [Kw.act, SAct.run, Stk.cur])
    (by simp [hq])
  have h2 := lexes_elemSec (s := .region :: s) .begNode .endNode (e.2.nodes.map fun i => [i]) (by simp)
    (by simp [Stk.cur, Kw.secs]) .node rfl (by decide) (by decide) rfl (by simp [Stk.cur])
  have h3 := lexes_elemSec (s := .region :: s) .begEdge .endEdge e.2.edges hel.1
    (by simp [Stk.cur, Kw.secs]) .edge rfl (by decide) (by decide) rfl (by simp [Stk.cur])
  have h4 : LexA (.region :: s) true (if e.2.tris.isEmpty then [] else elemSec .begTri .endTri e.2.tris)
      (if e.2.tris.isEmpty then [] else elemToks .begTri .endTri e.2.tris) (.region :: s) true := by
    split
    · exact LexA.nil _ _
    · exact lexes_elemSec (s := .region :: s) .begTri .endTri e.2.tris hel.2.1
        (by simp [Stk.cur, Kw.secs]) .tri rfl (by decide) (by decide) rfl (by simp [Stk.cur])
  have h5 : LexA (.region :: s) true (if e.2.tets.isEmpty then [] else elemSec .begTet .endTet e.2.tets)
      (if e.2.tets.isEmpty then [] else elemToks .begTet .endTet e.2.tets) (.region :: s) true := by
    split
    · exact LexA.nil _ _
    · exact lexes_elemSec (s := .region :: s) .begTet .endTet e.2.tets hel.2.2
        (by simp [Stk.cur, Kw.secs]) .tet rfl (by decide) (by decide) rfl (by simp [Stk.cur])
  have h6 := lexes_models (F := F) (s := .region :: s) .begNodeSol .endNodeSol (modelVals F d e.1 e.2 .node)
    (by simp only [modelVals, List.mem_map]; rintro m ⟨a, ha, rfl⟩; exact hmn.1 a ha) hmv.1
    (by simp [Stk.cur, Kw.secs]) .nodesol rfl (by decide) (by decide) rfl (by simp [Stk.cur])
  have h7 := lexes_models (F := F) (s := .region :: s) .begEdgeSol .endEdgeSol (modelVals F d e.1 e.2 .edge)
    (by simp only [modelVals, List.mem_map]; rintro m ⟨a, ha, rfl⟩; exact hmn.2 a ha) hmv.2
    (by simp [Stk.cur, Kw.secs]) .edgesol rfl (by decide) (by decide) rfl (by simp [Stk.cur])
  have h8 := lexes_kwLine (s := .region :: s) .endRegion (by simp [Stk.cur, Kw.secs])
    (by simp only [Kw.act, SAct.run, List.tail_cons, hs]; decide)
  have h9 := lexes_nl (s := s) true (by rw [hs]; decide)
  exact h1.append (h2.append (h3.append (h4.append (h5.append (h6.append (h7.append (by simpa using h8.append h9)))))))

theorem lexes_contact {F : Fmt α} {n : Text} {d : Dev α} (W : Writable F n d) {e : Text × Con}
    (he : e ∈ d.contacts) {s : Stk} (hs : s.cur = .device) :
    LexA s true (writeContact e.1 e.2) (contactToks e.1 e.2) s true := by
  have hq := W.cnames e he
  have h1 := lexes_hdrLine (s := s) .begContact [e.1, e.2.region, e.2.material] (by rw [hs]; decide) (by simp [Kw.act, SAct.run, Stk.cur])
    (by simp [hq])
  have h2 := lexes_elemSec' (s := .contact :: s) .begNode .endNode (e.2.nodes.map fun i => [i]) (by simp)
    (by simp [Stk.cur, Kw.secs]) .node rfl (by decide) (by decide) rfl (by simp [Stk.cur])
  have h3 := lexes_kwLine (s := .contact :: s) .endContact (by simp [Stk.cur, Kw.secs])
    (by simp only [Kw.act, SAct.run, List.tail_cons, hs]; decide)
  exact h1.append (h2.append h3)

theorem lexes_iface {F : Fmt α} {n : Text} {d : Dev α} (W : Writable F n d) {e : Text × Ifc}
    (he : e ∈ d.ifaces) {s : Stk} (hs : s.cur = .device) :
    LexA s true (writeIface e.1 e.2) (ifaceToks e.1 e.2) s true := by
  have hq := W.inames e he
  have h1 := lexes_hdrLine (s := s) .begIface [e.1, e.2.region0, e.2.region1] (by rw [hs]; decide) (by simp [Kw.act, SAct.run, Stk.cur])
    (by simp [hq])
  have h2 := lexes_elemSec' (s := .iface :: s) .begNode .endNode
    ((e.2.nodes0.zip e.2.nodes1).map fun p => [p.1, p.2])
    (by intro l hl; obtain ⟨p, _, rfl⟩ := List.mem_map.mp hl; simp)
    (by simp [Stk.cur, Kw.secs]) .node rfl (by decide) (by decide) rfl (by simp [Stk.cur])
  have h3 := lexes_kwLine (s := .iface :: s) .endIface (by simp [Stk.cur, Kw.secs])
    (by simp only [Kw.act, SAct.run, List.tail_cons, hs]; decide)
  exact h1.append (h2.append h3)

/-- The text of a device without its last line. -/
def truncated (F : Fmt α) (n : Text) (d : Dev α) : Text :=
  hdrLine .begDevice [n] ++ (writeCoords F d.coords ++
    ((d.regions.flatMap fun e => writeRegion F d e.1 e.2) ++
    ((d.contacts.flatMap fun e => writeContact e.1 e.2) ++
    (d.ifaces.flatMap fun e => writeIface e.1 e.2))))

/-- The tokens of a device without the last one. -/
def prefixToks (F : Fmt α) (n : Text) (d : Dev α) : List Tok :=
  [.kw .begDevice, .word n] ++ (coordToks F d.coords ++
    ((d.regions.flatMap fun e => regionToks F d e.1 e.2) ++
    ((d.contacts.flatMap fun e => contactToks e.1 e.2) ++
    (d.ifaces.flatMap fun e => ifaceToks e.1 e.2))))

theorem writeDevice_truncated (F : Fmt α) (n : Text) (d : Dev α) :
    writeDevice F n d = truncated F n d ++ kwLine .endDevice := by
  rw [writeDevice, truncated]; simp only [List.append_assoc]

theorem deviceToks_prefix (F : Fmt α) (n : Text) (d : Dev α) :
    deviceToks F n d = prefixToks F n d ++ [.kw .endDevice] := by
  rw [deviceToks, prefixToks]; simp only [List.append_assoc]

theorem lexes_truncated {F : Fmt α} {n : Text} {d : Dev α} (W : Writable F n d) {s : Stk}
    (hs : s.cur = .initial) :
    LexA s true (truncated F n d) (prefixToks F n d) (.device :: s) true := by
  have hc : Stk.cur (.device :: s) = .device := by simp [Stk.cur]
  have h1 := lexes_hdrLine (s := s) .begDevice [n] (by rw [hs]; decide) (by simp [Kw.act, SAct.run, Stk.cur])
    (by simpa using W.name)
  have h2 := lexes_coords (F := F) (s := .device :: s) d.coords W.coords hc
  have h3 : LexA (.device :: s) true (d.regions.flatMap fun e => writeRegion F d e.1 e.2)
      (d.regions.flatMap fun e => regionToks F d e.1 e.2) (.device :: s) true := by
    apply LexA.flatMap
    intro e he
    exact lexes_region W he hc
  have h4 : LexA (.device :: s) true (d.contacts.flatMap fun e => writeContact e.1 e.2)
      (d.contacts.flatMap fun e => contactToks e.1 e.2) (.device :: s) true := by
    apply LexA.flatMap
    intro e he
    exact lexes_contact W he hc
  have h5 : LexA (.device :: s) true (d.ifaces.flatMap fun e => writeIface e.1 e.2)
      (d.ifaces.flatMap fun e => ifaceToks e.1 e.2) (.device :: s) true := by
    apply LexA.flatMap
    intro e he
    exact lexes_iface W he hc
  have h7 := h1.append (h2.append (h3.append (h4.append h5)))
  unfold truncated prefixToks
  exact h7

theorem lexes_device_aux {F : Fmt α} {n : Text} {d : Dev α} (W : Writable F n d) {s : Stk}
    (hs : s.cur = .initial) :
    LexA s true (writeDevice F n d) (deviceToks F n d) s true := by
  have h6 := lexes_kwLine (s := .device :: s) .endDevice (by simp [Stk.cur, Kw.secs])
    (by simp only [Kw.act, SAct.run, List.tail_cons, hs]; decide)
  have h7 := (lexes_truncated W hs).append h6
  simp only [Kw.act, SAct.run, List.tail_cons] at h7
  rw [writeDevice_truncated, deviceToks_prefix]
  exact h7

/-- The text of a device is read as its tokens, from the start state `INITIAL` back to it. -/
theorem lexes_device {F : Fmt α} {n : Text} {d : Dev α} (W : Writable F n d) :
    LexA [] true (writeDevice F n d) (deviceToks F n d) [] true :=
  lexes_device_aux W (by simp [Stk.cur])

/-- The text of all devices. -/
theorem lexes_devices {F : Fmt α} {ds : Devs α} (W : ∀ e ∈ ds, Writable F e.1 e.2) :
    LexA [] true (writeDevices F ds) (ds.flatMap fun e => deviceToks F e.1 e.2) [] true :=
  LexA.flatMap ds fun e he => lexes_device (W e he)

end Verif.MeshIO
