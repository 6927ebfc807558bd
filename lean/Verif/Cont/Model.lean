import Mathlib.Data.List.Sort
import Mathlib.Tactic.Common
/-!
# Models at a contact: the indexes, the loop over them, and what is stored

`NodeModel::GetContactIndexes`, `NodeModel.cc` 177-190; `EdgeModel::GetContactIndexes`, `EdgeModel.cc` 332-351;
`ModelExprEval.cc` 686-762 for a function of data of the kind of the model; `ModelDataHolder::set_indexes`,
`ModelDataHolder.cc` 225-240; `SetValues`, `NodeModel.cc` 136-152, `EdgeModel.cc` 274-290.

Numbers are of any type. The function is a black box that gives a number and an error text (empty if there is no error).
-/
namespace Verif.Cont

/-- `NodeModel::GetContactIndexes`, `NodeModel.cc` 177-190. -/
def nodeIndexes (contact : List Nat) : List Nat := contact.mergeSort (· ≤ ·)

/-- `EdgeModel::GetContactIndexes`, `EdgeModel.cc` 332-351: the edges of each node (`nte`), put together and sorted. -/
def edgeIndexes (nte : Nat → List Nat) (contact : List Nat) : List Nat := (contact.flatMap nte).mergeSort (· ≤ ·)

variable {α : Type}

/-- `ModelExprEval.cc` 706-750: the loop. The first list is the indexes from `k` on, the second the points to come; the values,
the points at which the function is called, and the error. -/
def loop (zero : α) (g : Nat → α × String) : List Nat → List Nat → List α × List Nat × String
  | _, [] => ([], [], "")
  | [], is => (List.replicate is.length zero, [], "")
  | j :: rem, i :: is =>
    if i < j then
      let r := loop zero g (j :: rem) is
      (zero :: r.1, r.2)
    else if (g i).2 ≠ "" then ((g i).1 :: List.replicate is.length zero, [i], (g i).2)
    else
      let r := loop zero g (if i = j then rem else j :: rem) is
      ((g i).1 :: r.1, i :: r.2.1, r.2.2)

/-- `ModelDataHolder::set_indexes`, `ModelDataHolder.cc` 225-240. -/
def store (zero : α) (n : Nat) (indexes : List Nat) (v : List α) : List α :=
  indexes.foldl (fun a i => a.set i (v.getD i zero)) (List.replicate n zero)

/-- The values of a model at a contact with `n` points, or the error; and the points at which the function was called.
The vector of indexes is not empty. -/
def compute (zero : α) (n : Nat) (indexes : List Nat) (g : Nat → α × String) : (List α ⊕ String) × List Nat :=
  let r := loop zero g indexes (List.range n)
  (if r.2.2 = "" then .inl (store zero n indexes r.1) else .inr r.2.2, r.2.1)

end Verif.Cont
