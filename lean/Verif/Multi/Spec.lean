import Verif.Multi.Model

/-!
Specification: what the user declared, and the value of a name that follows from it.  Nothing here mentions objects,
pointers, flags or callbacks.
-/

namespace Verif.Multi

variable {N V : Type} [DecidableEq N]

/-- A name is a quantity with values given by the user, or the result number `k` of a function of other names. -/
inductive Decl (N V : Type) where
  | given (v : V)
  | out (ins : List N) (f : List V → Nat → V) (k : Nat)

/-- The declarations in force. -/
abbrev Env (N V : Type) := N → Option (Decl N V)

/-- The value of a name under the declarations in force. -/
inductive Val (E : Env N V) : N → V → Prop where
  | given {n v} : E n = some (.given v) → Val E n v
  | out {n ins f k vs} : E n = some (.out ins f k) → vs.length = ins.length →
      (∀ (j : Nat) (m : N) (v : V), ins[j]? = some m → vs[j]? = some v → Val E m v) → Val E n (f vs k)

/-- Declaration of the outputs of a group, the first has number `k`. -/
def declOuts (ins : List N) (f : List V → Nat → V) : Nat → Env N V → List N → Env N V
  | _, E, [] => E
  | k, E, c :: outs => declOuts ins f (k + 1) (Function.update E c (some (.out ins f k))) outs

/-- What a successful command declares. -/
def declare (zero : V) (E : Env N V) : Op N V → Env N V
  | .leaf n _ => Function.update E n (some (.given zero))
  | .group n _ _ ins outs f => declOuts ins f 0 E (n :: outs)
  | .set n v => Function.update E n (some (.given v))
  | .get _ => E
  | .delete _ => E

/-- Commands that use no name twice: new models have new names, values are only given to solutions, and the inputs of
a group are declared. -/
def Clean (E : Env N V) : Op N V → Prop
  | .leaf n _ => E n = none
  | .group n _ _ ins outs _ => (n :: outs).Nodup ∧ (∀ c ∈ n :: outs, E c = none) ∧ ∀ m ∈ ins, E m ≠ none
  | .set n _ => ∃ v, E n = some (.given v)
  | .get _ => True
  | .delete _ => True

/-- Histories of clean commands: state and declarations in force.  A command that fails declares nothing; a crash ends
the history. -/
inductive Reach [Inhabited N] (zero : V) : Env N V → St N V → Prop where
  | init : Reach zero (fun _ => none) (init zero)
  | ok {E s op s' r fuel} : Reach zero E s → Clean E op → step zero fuel s op = (s', .ok r) →
      Reach zero (declare zero E op) s'
  | error {E s op s' fuel} : Reach zero E s → Clean E op → step zero fuel s op = (s', .error) → Reach zero E s'

/-- The same without deletions. -/
inductive ReachNoDelete [Inhabited N] (zero : V) : Env N V → St N V → Prop where
  | init : ReachNoDelete zero (fun _ => none) (init zero)
  | ok {E s op s' r fuel} : ReachNoDelete zero E s → Clean E op → (∀ n, op ≠ .delete n) →
      step zero fuel s op = (s', .ok r) → ReachNoDelete zero (declare zero E op) s'
  | error {E s op s' fuel} : ReachNoDelete zero E s → Clean E op → (∀ n, op ≠ .delete n) →
      step zero fuel s op = (s', .error) → ReachNoDelete zero E s'

end Verif.Multi
