import Verif.Params.Model
/-
What the parameter commands mean, in terms of the history of commands only (newest first).
-/
namespace Verif.Params
variable {D R N V : Type} [DecidableEq D] [DecidableEq R] [DecidableEq N]

/-- the regions of device `d`, if it exists after the history `h` (newest command first) -/
def regionsAfter : List (Op D R N V) → D → Option (List R)
  | [], _ => none
  | .create d' rs :: h, d =>
    match regionsAfter h d' with
    | some _ => regionsAfter h d                      -- refused, the device exists
    | none => if d' = d then some rs else regionsAfter h d
  | .delete d' :: h, d => if d' = d then none else regionsAfter h d
  | .set _ _ _ _ :: h, d => regionsAfter h d

/-- the last value given to `n` at global scope -/
def lastGlobal (dflt : N → Option V) : List (Op D R N V) → N → Option V
  | [], n => dflt n
  | .set none none n' v :: h, n => if n' = n then some v else lastGlobal dflt h n
  | _ :: h, n => lastGlobal dflt h n

/-- the last value given to `n` on the device `d` itself since `d` was created -/
def lastDevice : List (Op D R N V) → D → N → Option V
  | [], _, _ => none
  | .set (some d') none n' v :: h, d, n =>
    if d' = d ∧ n' = n ∧ (regionsAfter h d').isSome then some v else lastDevice h d n
  | .delete d' :: h, d, n => if d' = d then none else lastDevice h d n
  | _ :: h, d, n => lastDevice h d n

/-- the last value given to `n` on region `r` of device `d` since `d` was created -/
def lastRegion : List (Op D R N V) → D → R → N → Option V
  | [], _, _, _ => none
  | .set (some d') (some r') n' v :: h, d, r, n =>
    if d' = d ∧ r' = r ∧ n' = n ∧ r' ∈ (regionsAfter h d').getD [] then some v else lastRegion h d r n
  | .delete d' :: h, d, r, n => if d' = d then none else lastRegion h d r n
  | _ :: h, d, r, n => lastRegion h d r n

end Verif.Params
