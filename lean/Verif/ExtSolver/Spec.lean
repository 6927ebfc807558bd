import Verif.ExtSolver.Model
import Verif.Matrix.Props

/-!
Specification of the calls of a custom solver and of the use of its answers.
-/

namespace Verif.ExtSolver.Spec
open Verif Verif.PyArg Verif.ExtSolver

/-- the dictionary has the value `v` for the key `k` (keys are compared as texts; of several such keys the last counts) -/
def Item (L : Lib) (items : List (Py × Py)) (k : String) (v : Py) : Prop :=
  ∃ pre key post, items = pre ++ (key, v) :: post ∧ getString L key = k ∧ ∀ q ∈ post, getString L q.1 ≠ k

/-- the dictionary says that all is well: an item `status` that is true for Python -/
def Well (L : Lib) (items : List (Py × Py)) : Prop := ∃ o, Item L items "status" o ∧ (getBoolean o).2 = true

/-- an answer to `factor` that lets the program go on -/
def Accepted (L : Lib) (r : Reply × Bool) : Prop :=
  r.2 = false ∧ ∃ items o, r.1 = .dict items ∧ Well L items ∧ Item L items "message" o

/-- an answer to `factor` that makes the factorization fail -/
def FactorFails (L : Lib) (r : Reply × Bool) : Prop :=
  (∃ o, r.1 = .value o) ∨ ∃ items, r.1 = .dict items ∧ Well L items ∧ (r.2 = true ∨ ¬ ∃ o, Item L items "message" o)

/-- an answer to `factor` that is an error -/
def FactorRefused (L : Lib) (r : Reply × Bool) : Prop :=
  r.1 = .raised ∨ ∃ items, r.1 = .dict items ∧ ¬ Well L items

/-- the answer to `solve` has the numbers `v` as its solution -/
def Numbers {T : Type} (L : Lib) (get : Py → Option (List T)) (items : List (Py × Py)) (v : List T) : Prop :=
  ∃ o, Item L items "x" o ∧ get o = some v

/-- an answer to `solve`, for `k` unknowns, with the numbers `v` -/
def Answers {T : Type} (L : Lib) (get : Py → Option (List T)) (k : Nat) (r : Reply × Bool) (v : List T) : Prop :=
  r.2 = false ∧ v.length = k ∧ ∃ items, r.1 = .dict items ∧ Well L items ∧ Numbers L get items v

/-- an answer to `solve` that is an error -/
def SolveRefused {T : Type} (L : Lib) (get : Py → Option (List T)) (k : Nat) (r : Reply × Bool) : Prop :=
  r.1 = .raised ∨ ∃ items, r.1 = .dict items ∧ (¬ Well L items ∨ ¬ ∃ v, Numbers L get items v ∧ v.length = k)

variable {R : Type} [AddZeroClass R] [DecidableEq R]

/-- **The history of a solve.**  `h`: the calls; `xs`: the solutions of the linear systems that were used. -/
structure History (L : Lib) (C : Conv R) (cb : Callback) (p : Pre) (dr : Drive R) (symMax : Nat) (h : List Msg) (xs : List (List R)) : Prop where
  /-- the first call is `init` -/
  first : h[0]? = some (.init p.transpose p.n)
  /-- the calls 1, 3, 5, … are `factor`, with the matrix of the iteration: the sums of the entries in the order in which they were added, in
  the format that was asked for, and with the object that was returned by `init`; the structure is declared to be the same only if it
  is that of the `factor` call before -/
  factor : ∀ (i : ℕ) (m : Msg), h[2 * i + 1]? = some m → ∃ ap ai same vs, m = .factor p.obj ap ai same false (vs.map C.toD) ∧
    Matrix.Spec.Represents p.n ap ai vs (Matrix.byLine p.crm fun r c => Matrix.Spec.value false r c 0 (dr.assemble (xs.take i))) ∧
    (same = true → symMax ≤ i ∧ ∃ j same' ax', i = j + 1 ∧ h[2 * j + 1]? = some (.factor p.obj ap ai same' false ax'))
  /-- the calls 2, 4, 6, … are `solve`, with the right hand side of the iteration -/
  solve : ∀ (i : ℕ) (m : Msg), h[2 * i + 2]? = some m → m = .solve p.obj false ((dr.rhs (xs.take i)).map C.toD)
  /-- a call of `solve` is made only after an answer to `factor` that lets the program go on -/
  accepted : ∀ i : ℕ, 2 * i + 2 < h.length → Accepted L (cb (h.take (2 * i + 2)))
  /-- what is used is the answer to `solve`; but if that is not a dictionary, the vector of zeros is used -/
  used : ∀ (i : ℕ) (x : List R), xs[i]? = some x → 2 * i + 2 < h.length ∧
    ((∃ v, Answers L (getDoubleList L) (dr.rhs (xs.take i)).length (cb (h.take (2 * i + 3))) v ∧ x = v.map C.ofD) ∨
      (cb (h.take (2 * i + 3))).2 = false ∧ (∃ o, (cb (h.take (2 * i + 3))).1 = .value o) ∧ x = List.replicate p.n 0)

end Verif.ExtSolver.Spec
