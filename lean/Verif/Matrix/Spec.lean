import Verif.Matrix.Model
/- Specification of the assembled matrix, independent of how `CompressedMatrix` stores it. -/
namespace Verif.Matrix.Spec
open Verif.Matrix

variable {R : Type} [AddZeroClass R] [DecidableEq R]

/-- Real part (`im = false`) or imaginary part of the entry at `(r, c)` of the matrix after the calls, `a` being its value before:
every insertion adds its value, clearing makes it zero. -/
def value (im : Bool) (r c : Nat) : R → List (Op R) → R
  | a, [] => a
  | a, .add im' r' c' v :: os => value im r c (if im' = im ∧ r' = r ∧ c' = c then a + v else a) os
  | a, .addComplex r' c' re i :: os => value im r c (if r' = r ∧ c' = c then a + (if im then i else re) else a) os
  | a, .finalize :: os => value im r c a os
  | _, .clear :: os => value im r c 0 os

/-- the call has indices inside an `n` by `n` matrix, and imaginary parts only go into complex matrices -/
def InRange (n : Nat) (cpx : Bool) : Op R → Prop
  | .add im r c _ => r < n ∧ c < n ∧ (im = true → cpx = true)
  | .addComplex r c _ _ => r < n ∧ c < n ∧ cpx = true
  | .finalize => True
  | .clear => True

def IsClear : Op R → Prop
  | .clear => True
  | _ => False

/-- The arrays `ap`, `ai`, `xs` are a compressed-line representation of the `n` by `n` matrix `A` (`A l k`: line `l`, index `k`). -/
structure Represents (n : Nat) (ap ai : List Nat) (xs : List R) (A : Nat → Nat → R) : Prop where
  apLen : ap.length = n + 1
  first : ap[0]? = some 0
  last : ap[n]? = some ai.length
  xsLen : xs.length = ai.length
  /-- every line is an interval of positions, with strictly increasing indices below `n`, and holds the entries of `A` -/
  line : ∀ l, l < n → ∃ b e, ap[l]? = some b ∧ ap[l + 1]? = some e ∧ b ≤ e ∧
    (∀ j, b ≤ j → j < e → ∃ k, k < n ∧ ai[j]? = some k ∧ xs[j]? = some (A l k)) ∧
    (∀ j j' k k', b ≤ j → j < j' → j' < e → ai[j]? = some k → ai[j']? = some k' → k < k') ∧
    (∀ k, k < n → (∀ j, b ≤ j → j < e → ai[j]? ≠ some k) → A l k = 0)

end Verif.Matrix.Spec
