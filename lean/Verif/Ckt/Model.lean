import Verif.Circuit.Props
import Verif.Circuit.Elements

/-!
Model of the parameters of circuit elements: `circuitElementCmd` and `circuitAlterCmd` (commands/CircuitCommands.cc 145-352), the
parameters of the five elements (`addParam`), and the loops of InstanceKeeper over the elements with the values they have then.

The node table and the constructors are those of `Verif.Circuit`, the entries of one element those of `Verif.Elements`; here a name is a
`String`.  `F` stands for `double`, `K` for the names of solutions.  `instMod_` is split in two: `st.elems` has the nodes of an element,
`objs` its parameters.

Simplifications: the copies `v_`, `i_` of the value of a source are overwritten in `assembleDC_impl` before they are used, so only the
signal is kept; `sigList_` is used by no command; the name given to a command is not empty (`stringCannotBeEmpty`; `name[0]` of an empty
string is `'\0'`, no element either); `pow(R, -1)` is `R⁻¹`.
-/
namespace Verif.Ckt
open Verif
open Verif.Circuit (ElemKind Names St)

/-- the first letter, CircuitCommands.cc:183, 210-254 -/
def kindOf (name : String) : Option ElemKind :=
  match name.toList with
  | [] => none
  | c :: _ =>
    if c = 'V' ∨ c = 'v' then some .V
    else if c = 'I' ∨ c = 'i' then some .I
    else if c = 'C' ∨ c = 'c' then some .C
    else if c = 'L' ∨ c = 'l' then some .L
    else if c = 'R' ∨ c = 'r' then some .R
    else none

theorem internal_ne (n : String) {s : String} (h : s.toList.getLast? ≠ some 'I') : n ++ ".I" ≠ s := by
  rintro rfl
  apply h
  rw [String.toList_append]
  simp

/-- the names of nodes and elements: "0" and "GND" (CircuitCommands.cc:31-43), `name + ".I"` (InstanceModel.cc:28-43) -/
def names : Names String where
  zero := "0"
  gnd := "GND"
  internal n := n ++ ".I"
  kind := kindOf
  zero_ne_gnd := by decide
  internal_ne_zero n := internal_ne n (by decide)
  internal_ne_gnd n := internal_ne n (by decide)

/-- the parameters of an element: IdealResistor.hh, IdealCapacitor.hh, IdealInductor.hh, IdealCurrent.hh, IdealVoltage.hh -/
inductive Obj (F : Type)
  | resistor (R : F)
  | capacitor (C : F)
  | inductor (L : F)
  | current (sig : F)
  | voltage (sig acr aci : F)
deriving Repr

/-- `addParam`: IdealResistor.cc:74-83, IdealCapacitor.cc:73-82, IdealInductor.cc:98-107, IdealVoltage.cc:134-153, IdealCurrent.cc:56-65;
`none` if it returns false, and then nothing is changed -/
def addParam {F : Type} : Obj F → String → F → Option (Obj F)
  | .resistor _, s, v => if s = "R" then some (.resistor v) else none
  | .capacitor _, s, v => if s = "C" then some (.capacitor v) else none
  | .inductor _, s, v => if s = "L" then some (.inductor v) else none
  | .current _, s, v => if s = "I" then some (.current v) else none
  | .voltage g r i, s, v =>
    if s = "V" then some (.voltage v r i)
    else if s = "acreal" then some (.voltage g v i)
    else if s = "acimag" then some (.voltage g r v)
    else none

/-- the constructor and what circuitElementCmd does with the new element before `addInstanceModel`, CircuitCommands.cc:210-245; the
parameters are 1 after the constructors of R, C and L -/
def make {F : Type} [One F] (k : ElemKind) (value acr aci : F) : Obj F :=
  match k with
  | .V => .voltage value acr aci
  | .I => .current value
  | .C => (addParam (.capacitor 1) "C" value).getD (.capacitor 1)
  | .L => (addParam (.inductor 1) "L" value).getD (.inductor 1)
  | .R => (addParam (.resistor 1) "R" value).getD (.resistor 1)

/-- NodeKeeper and InstanceKeeper -/
structure World (K F : Type) where
  st : St String K F
  objs : FMap String (Obj F)

def World.init {K F : Type} : World K F := ⟨St.init, []⟩

/-- what a command reports: nothing (`SetEmptyResult`), an error text, or an exception (FATAL or a failed assertion), which becomes an
error in the interpreter as well -/
inductive Res
  | empty
  | err (m : String)
  | raised
deriving DecidableEq, Repr

variable {K F : Type} [DecidableEq K] [Field F] [DecidableEq F]

/-- circuitElementCmd after the options, CircuitCommands.cc:176-260 -/
def elementCmd (w : World K F) (name n1 n2 : String) (value acr aci : F) : World K F × Res :=
  if kindOf name ≠ some .V ∧ (acr ≠ 0 ∨ aci ≠ 0) then
    (w, .err ("Cannot specify -acreal or -acimag for non-voltage circuit element  \"" ++ name ++ "\"\n"))
  else
    let r := Circuit.elementCmd names w.st name n1 n2
    match kindOf name with
    | none =>
      let nodes := Circuit.andThen (Circuit.createNode names w.st n1 .default) fun st => Circuit.createNode names st n2 .default
      (⟨r.1, w.objs⟩, if nodes.2 then .raised else .err ("Cannot figure out what element type -name  \"" ++ name ++ "\" is\n"))
    | some k => if r.2 then (⟨r.1, w.objs⟩, .raised) else (⟨r.1, w.objs.set name (make k value acr aci)⟩, .empty)

/-- CircuitCommands.cc:315-334 -/
def letter : ElemKind → String
  | .V => "V"
  | .I => "I"
  | .C => "C"
  | .L => "L"
  | .R => "R"

/-- the name of the parameter that is meant, CircuitCommands.cc:307-335 -/
def paramName (name param : String) : String :=
  let p := if param = "" then "value" else param
  if p = "value" then (match kindOf name with | some k => letter k | none => p) else p

/-- circuitAlterCmd after the options, CircuitCommands.cc:286-352 (the number in the text of the error is left out) -/
def alterCmd (w : World K F) (name param : String) (value : F) : World K F × Res :=
  match w.objs.get name with
  | none => (w, .err ("Cannot find circuit element -name  \"" ++ name ++ "\"\n"))
  | some o =>
    match addParam o (paramName name param) value with
    | some o' => (⟨w.st, w.objs.set name o'⟩, .empty)
    | none => (w, .err ("Circuit element -name  \"" ++ name ++ "\" does not accept parameter \"" ++ paramName name param ++ "\" with value \"\"\n"))

/-- the circuit commands and analyses; the others than `element` and `alter` are those of `Circuit.Cmd` -/
inductive Cmd (K F : Type)
  | element (name n1 n2 : String) (value acr aci : F)
  | alter (name param : String) (value : F)
  | addNode (n : String) (ut : Circuit.UpdateType)
  | nodeAlias (n al : String)
  | setVal (k : K) (n : String) (x : F)
  | query
  | solve (start : Nat) (ks : List (K × (Nat → F)))
  | deleteCircuit

/-- a command of `Circuit` -/
def other (w : World K F) (c : Circuit.Cmd String K F) : World K F × Res :=
  let r := Circuit.step names w.st c
  (⟨r.1, w.objs⟩, if r.2 then .raised else .empty)

/-- one command; deleteCircuitCmd (CircuitCommands.cc:555-579) deletes both keepers -/
def step (w : World K F) : Cmd K F → World K F × Res
  | .element name n1 n2 v r i => elementCmd w name n1 n2 v r i
  | .alter name p v => alterCmd w name p v
  | .addNode n ut => other w (.addNode n ut)
  | .nodeAlias n al => other w (.alias n al)
  | .setVal k n x => other w (.setVal k n x)
  | .query => other w .query
  | .solve s ks => other w (.solve s ks)
  | .deleteCircuit => (World.init, .empty)

def run (w : World K F) (cs : List (Cmd K F)) : World K F := cs.foldl (fun w c => (step w c).1) w

/-! ### the assembly -/

/-- an element with the numbers of its nodes and its parameters, as `assembleDC_impl` and `assembleTran_impl` read them (citations in
`Circuit/Elements.lean`; `v_ = sig_->getVoltage()`, IdealVoltage.cc:86, IdealCurrent.cc:40) -/
def live (st : St String K F) (e : Circuit.Elem String) (o : Obj F) : Elements.Elem F :=
  let row := Circuit.pointerRow st
  match o with
  | .resistor R => .resistor (row e.top) (row e.bot) R
  | .capacitor C => .capacitor (row e.top) (row e.bot) C
  | .inductor L => .inductor (row e.top) (row e.bot) ((e.branch.bind row).getD 0) L
  | .voltage v _ _ => .voltage (row e.top) (row e.bot) ((e.branch.bind row).getD 0) v
  | .current i => .current (row e.top) (row e.bot) i

/-- the elements in the loops of InstanceKeeper.cc:73-97 -/
def elements (w : World K F) : List (Elements.Elem F) :=
  w.st.elems.filterMap fun p => (w.objs.get p.1).map fun o => live w.st p.2 o

/-- `assembleACRHS_impl`, IdealVoltage.cc:122-131; the others add nothing (InstanceModel.hh:53) -/
def acEntry (st : St String K F) (e : Circuit.Elem String) : Obj F → List (Nat × F × F)
  | .voltage _ r i => [((e.branch.bind (Circuit.pointerRow st)).getD 0, r, i)]
  | _ => []

/-- InstanceKeeper::assembleACRHS, InstanceKeeper.cc:99-106: row, real part, imaginary part -/
def acRhs (w : World K F) : List (Nat × F × F) :=
  w.st.elems.flatMap fun p => match w.objs.get p.1 with
    | some o => acEntry w.st p.2 o
    | none => []

end Verif.Ckt
