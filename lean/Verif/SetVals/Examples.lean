import Verif.SetVals.Cmds

/-!
# Examples, and where the program does something else than asked
-/

namespace Verif.SetVals.Examples

open Verif.Deps (Kind Dfn Src Denotes DenotesRefs Ref)
open Verif.PyArg (F64 Py Lib)

/-- three nodes, two edges, one triangle -/
def count : Kind → Nat
  | .node => 3
  | .edge => 2
  | .tri => 3
  | .tet => 0

def noContact : Kind → String → Option (List Nat) := fun _ _ => none
abbrev new : Reg := newReg count noContact

/-- an expression: the parameter `p` everywhere -/
def expr : Dfn String Arr := .expr [.par "p"] fun vs => vs.headD (.all 0)
/-- an expression: the model `a` -/
def copyOfA : Dfn String Arr := .expr [.model "a"] fun vs => vs.headD (.all 0)

/-! ### C88 in a concrete history -/

def hist : List Call := [.define .node "a" .sol, .define .node "b" .sol, .define .node "c" copyOfA,
  .setValues .node "a" "" [1, 2, 3], .show .get .node "c", .setOne "a" 1 9, .show .get .node "c",
  .setValues .node "b" "a" [], .show .get .node "b", .setValues .node "b" "" [1], .setValues .node "b" "z" [1, 2, 3], .setOne "b" 3 0,
  .setOne "b" (-1) 4, .show .get .node "b", .show .delete .node "b", .show .get .node "b", .show .get .edge "a"]

example : (run 9 new hist).2 = [.empty, .empty, .empty, .empty, .list [1, 2, 3], .empty, .list [1, 9, 3], .empty, .list [1, 9, 3],
    .err "wrong number of elements\n", .err "-init_from z does not exist\n", .err "-index 3 does not exist\n", .empty, .list [4, 4, 4], .empty,
    .err "Node Model b does not exist\n", .err "Edge Model a does not exist\n"] := by decide

/-- the hypotheses of `story_new_partial` are met by a history with settings, a computed model and readings -/
def small : List Call := [.define .node "a" .sol, .setValues .node "a" "" [1, 2, 3], .show .get .node "a"]

theorem small_ok : OkAll count noContact (Src.init zero) small := by
  refine ⟨⟨rfl, fun m k d h => by simp [Src.init] at h, fun refs f h => by cases h⟩, ?_⟩
  intro a src1 h1
  cases h1 with
  | defined _ _ _ _ _ hn ho hd hd' hp =>
    refine ⟨?_, ?_⟩
    · intro k d h; rw [hn] at h; cases h; rfl
    · intro a src2 _
      exact ⟨trivial, fun _ _ _ => trivial⟩

example : ∃ src', Story count noContact (Src.init zero) small (run 9 new small).2 src' :=
  story_new_partial count noContact small 9 ["a"] (by decide) small_ok (by
    intro k n d h
    simp [small] at h
    simp [h.2.1])

/-! ### Both options -/

/-- C88 (F126): `values` and `init_from` given together is no error: the values of the other model are taken and the list is ignored, … -/
theorem both_options_init_wins (k : Kind) (src : Told) (len : Nat) (name init : String) (vals l : List F64) (hi : Exists src k init)
    (ht : IsData src k name) (h : Values src len init l) (l' : List F64) (ha : Asked src len k name init vals l') : l' = l :=
  ha.det (.init l hi ht h)

example : (run 9 new [.define .node "a" .sol, .define .node "b" .sol, .setOne "a" (-1) 5, .setValues .node "b" "a" [1, 2, 3],
    .show .get .node "b"]).2 = [.empty, .empty, .empty, .empty, .list [5, 5, 5]] := by decide

/-- … but for a model of extended precision, or one that is no data model, the list is taken and `init_from` is ignored. -/
theorem both_options_values_win {E : Type} (b128 : Bool) (t : Target) (ht : t ≠ .sol) (name init : String) (vals iv : List F64) (iv128 : List E) :
    decide b128 t true true name init vals iv iv128 vals.length = .set vals := by
  simp [decide, ht]

/-- A list that is no list of numbers is no error either if `init_from` is given, and otherwise "wrong number of elements". -/
theorem unreadable_values (L : Lib) (v : Py) (h : PyArg.getDoubleList L v = none) (name : String) (n : Nat) (hn : n ≠ 0) (b : Bool) :
    decide (E := Empty) false .sol true b name "" (given L v) [] [] n = .refuse "wrong number of elements\n" := by
  have : given L v = [] := (given_iff L v).2 (.inl h)
  rw [this]
  cases b <;> simp [decide, Ne.symm hn]

/-- F128: `init_from` for a model that is not a data model does not copy: without a list the number of elements is wrong. -/
theorem init_of_expression_refused (name init : String) (iv : List F64) (n : Nat) (hn : n ≠ 0) :
    decide (E := Empty) false .other true true name init [] iv [] n = .refuse "wrong number of elements\n" := by
  simp [decide, Ne.symm hn]

/-- F127: a text is a list of its characters: `values="123"` sets 1, 2, 3 (if the library reads the digits as these numbers). -/
theorem text_as_list (L : Lib) (x y z : F64) (h1 : L.parseFloat "1" = some x) (h2 : L.parseFloat "2" = some y) (h3 : L.parseFloat "3" = some z) :
    given L (.str "123") = [x, y, z] := by
  have : PyArg.getDoubleList L (.str "123") = some [x, y, z] := by
    have e : ("123" : String).toList = ['1', '2', '3'] := by decide
    have s1 : String.singleton '1' = "1" := by decide
    have s2 : String.singleton '2' = "2" := by decide
    have s3 : String.singleton '3' = "3" := by decide
    simp [PyArg.getDoubleList, PyArg.fromBytes, PyArg.arrayInfo, PyArg.fromList, PyArg.listOf, PyArg.getDouble, e, s1, s2, s3, h1, h2, h3]
  exact (given_iff L _).1 _ this (by simp [PyArg.listOf])

/-! ### Values set on a model that is computed -/

def overwritten : List Call := [.define .node "e" expr, .setPar "p" (.all 7), .setValues .node "e" "" [1, 2, 3], .show .get .node "e",
  .setPar "p" (.all 7), .show .get .node "e"]

/-- C88 is false without the restriction to data models (F132): setting values on an expression is accepted, reading gives these values although
the expression has another value, and they vanish the next time a parameter is set, even to the value it has. -/
theorem set_on_expression : (run 9 new overwritten).2 = [.empty, .empty, .empty, .list [1, 2, 3], .empty, .list [7, 7, 7]] := by decide

theorem set_on_expression_told : ∃ src : Told, src.defn "e" = some (.node, expr) ∧ src.par "p" = .all 7 ∧ Values src 3 "e" [7, 7, 7] ∧
    ¬ Values src 3 "e" [1, 2, 3] := by
  let src : Told := { defn := fun n => if n = "e" then some (.node, expr) else none, data := fun _ => .all 0, par := fun _ => .all 7 }
  have hv : Values src 3 "e" [7, 7, 7] :=
    ⟨.all 7, .expr (k := .node) (refs := [.par "p"]) (f := fun vs => vs.headD (.all 0)) (vs := [.all 7]) rfl (.par .nil) rfl, rfl⟩
  refine ⟨src, rfl, rfl, hv, fun h => ?_⟩
  have := h.det hv
  revert this
  decide

/-! ### A contact model -/

def atContact : Reg := newReg count fun k n => if k = .node ∧ n = "a" then some [0, 2] else none

/-- F131: setting one node of a model that belongs to a contact sets all nodes of the contact, and not the node asked for. -/
theorem set_one_on_contact : (run 9 atContact [.define .node "a" .sol, .setOne "a" 1 9, .show .get .node "a"]).2 =
    [.empty, .empty, .list [9, 0, 9]] := by decide

/-! ### Commands with keywords -/

def lib : Lib := { parseInt := fun _ => none, parseFloat := fun _ => none, ofInt := fun n => some (BitVec.ofInt 64 n), text := fun _ => "", repr := fun _ => "" }

def world : World := fun d => if d = "dev" then some { dim := 1, region := fun r => if r = "bulk" then some (run 9 new [.define .node "a" .sol]).1 else none } else none

def kwSet (name : String) (v : Py) : List (String × Py) := [("device", .str "dev"), ("region", .str "bulk"), ("name", .str name), ("values", v)]

example : (setValuesCmd lib 9 .nodes world (kwSet "a" (.seq [.int 4, .int 5, .int 6]))).2 = .empty := by decide
example : (showCmd lib 9 .nodes .get (setValuesCmd lib 9 .nodes world (kwSet "a" (.seq [.int 4, .int 5, .int 6]))).1
    [("device", .str "dev"), ("region", .str "bulk"), ("name", .str "a")]).2 = .list [4, 5, 6] := by decide
/-- F129: in one dimension two messages: that it is not supported, and that the model does not exist -/
example : (setValuesCmd lib 9 .elements world (kwSet "a" (.seq []))).2 =
    .err "1D not supported for set_element_values\nModel a does not exist\n" := by decide
example : (setValuesCmd lib 9 .nodes world [("device", .str "dev"), ("region", .str "oxide"), ("name", .str "a")]).2 =
    .err "on Region \"oxide\" on Device \"dev\" does not exist.\n" := by decide
/-- neither values nor a model to take them from: accepted as an empty list -/
example : (setValuesCmd lib 9 .nodes world [("device", .str "dev"), ("region", .str "bulk"), ("name", .str "a")]).2 =
    .err "wrong number of elements\n" := by decide

end Verif.SetVals.Examples
