import Verif.Ckt.Model

/-!
Specification of C94: the elements of a circuit are as they were told.

What is told about an element is its two nodes and up to three numbers; an account has it for every element there is.
-/
namespace Verif.Ckt.Spec
open Verif
open Verif.Circuit (ElemKind)
open Verif.Ckt (Res)

/-- what was told about an element last -/
structure Told (F : Type) where
  kind : ElemKind
  n1 : String
  n2 : String
  value : F
  acreal : F
  acimag : F

/-- the elements there are -/
abbrev Account (F : Type) := String → Option (Told F)

/-- the letters of the kinds -/
inductive Letter : ElemKind → Char → Prop
  | V : Letter .V 'V'
  | v : Letter .V 'v'
  | I : Letter .I 'I'
  | i : Letter .I 'i'
  | C : Letter .C 'C'
  | c : Letter .C 'c'
  | L : Letter .L 'L'
  | l : Letter .L 'l'
  | R : Letter .R 'R'
  | r : Letter .R 'r'

/-- the name begins with a letter of the kind -/
def Names (k : ElemKind) (name : String) : Prop := ∃ c s, name.toList = c :: s ∧ Letter k c

/-- the numbers of an element -/
inductive Param
  | value
  | acreal
  | acimag

/-- the texts for a number of an element of a kind -/
inductive Means : ElemKind → String → Param → Prop
  | value (k) : Means k "value" .value
  | nothing (k) : Means k "" .value
  | V : Means .V "V" .value
  | I : Means .I "I" .value
  | C : Means .C "C" .value
  | L : Means .L "L" .value
  | R : Means .R "R" .value
  | acreal : Means .V "acreal" .acreal
  | acimag : Means .V "acimag" .acimag

/-- one number is another one -/
def Told.with {F : Type} (t : Told F) (x : F) : Param → Told F
  | .value => { t with value := x }
  | .acreal => { t with acreal := x }
  | .acimag => { t with acimag := x }

/-- the account with one element told (again) -/
def tell {F : Type} (A : Account F) (name : String) (t : Told F) : Account F := fun n => if n = name then some t else A n

/-- an answer that is an error -/
def IsError (r : Res) : Prop := r ≠ .empty

/-- what a command makes of the account and answers; `solved` says that the circuit has a solution -/
inductive Does {K F : Type} [Zero F] (solved : Prop) (A : Account F) : Cmd K F → Account F → Res → Prop
  /-- a new element, unless there is a solution; the ac numbers are for voltage sources -/
  | element (name n1 n2 v r i k) (hs : ¬ solved) (hk : Names k name) (hn : A name = none) (hac : k = .V ∨ (r = 0 ∧ i = 0)) :
      Does solved A (.element name n1 n2 v r i) (tell A name ⟨k, n1, n2, v, r, i⟩) .empty
  | noElement (name n1 n2 v r i e)
      (h : solved ∨ (∀ k, ¬ Names k name) ∨ A name ≠ none ∨ (¬ Names .V name ∧ ¬ (r = 0 ∧ i = 0))) (he : IsError e) :
      Does solved A (.element name n1 n2 v r i) A e
  /-- another number for an element -/
  | alter (name p x t m) (h : A name = some t) (hm : Means t.kind p m) : Does solved A (.alter name p x) (tell A name (t.with x m)) .empty
  | notThere (name p x e) (h : A name = none) (he : IsError e) : Does solved A (.alter name p x) A e
  | notItsOwn (name p x t e) (h : A name = some t) (hm : ∀ m, ¬ Means t.kind p m) (he : IsError e) : Does solved A (.alter name p x) A e
  /-- nothing else tells anything about elements -/
  | addNode (n ut e) : Does solved A (.addNode n ut) A e
  | nodeAlias (n al e) : Does solved A (.nodeAlias n al) A e
  | setVal (k n x e) : Does solved A (.setVal k n x) A e
  | query (e) : Does solved A .query A e
  | solve (s ks e) : Does solved A (.solve s ks) A e
  | delete : Does solved A .deleteCircuit (fun _ => none) .empty

/-- what the element does in the equations: Ohm's law and so on are in `Elements.currentOut` and the theorems of `Circuit/Elements.lean`;
`row` is the row of a node (`none`: ground), the branch of `name` is the node `name.I` -/
def Told.element {F : Type} (row : String → Option Nat) (name : String) (t : Told F) : Elements.Elem F :=
  match t.kind with
  | .R => .resistor (row t.n1) (row t.n2) t.value
  | .C => .capacitor (row t.n1) (row t.n2) t.value
  | .L => .inductor (row t.n1) (row t.n2) ((row (name ++ ".I")).getD 0) t.value
  | .V => .voltage (row t.n1) (row t.n2) ((row (name ++ ".I")).getD 0) t.value
  | .I => .current (row t.n1) (row t.n2) t.value

end Verif.Ckt.Spec
