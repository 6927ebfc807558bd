import Verif.Deps.Model
/-
Specification of what a region's models mean, without any caching, flags or callbacks.
-/
namespace Verif.Deps

/-- What the user has told the region: the current definitions (with their kind), the data of the solution
models and the parameters. -/
structure Src (N V : Type) where
  defn : N → Option (Kind × Dfn N V)
  data : N → V
  par : N → V

variable {N V : Type}

/-! `Denotes zero src n v`: evaluating the definition of `n` from scratch gives `v` (a missing model counts as
zero). There is no such `v` for a cyclic definition. -/
mutual
inductive Denotes (zero : V) (src : Src N V) : N → V → Prop where
  | absent {n} : src.defn n = none → Denotes zero src n zero
  | sol {n k} : src.defn n = some (k, .sol) → Denotes zero src n (src.data n)
  | expr {n k refs f vs v} : src.defn n = some (k, .expr refs f) → DenotesRefs zero src refs vs →
      v = f vs → Denotes zero src n v
inductive DenotesRefs (zero : V) (src : Src N V) : List (Ref N) → List V → Prop where
  | nil : DenotesRefs zero src [] []
  | par {p rs vs} : DenotesRefs zero src rs vs → DenotesRefs zero src (.par p :: rs) (src.par p :: vs)
  | model {n rs v vs} : Denotes zero src n v → DenotesRefs zero src rs vs →
      DenotesRefs zero src (.model n :: rs) (v :: vs)
end

variable [DecidableEq N]

/-- The effect of a command on what the user has said.  Reading has none. -/
def Src.step (zero : V) (src : Src N V) : Op N V → Src N V
  | .setPar p v => { src with par := fun q => if q = p then v else src.par q }
  | .setValues n v => match src.defn n with
    | some _ => { src with data := fun m => if m = n then v else src.data m }
    | none => src
  | .define k n d => match src.defn n with
    | some (k', _) => if k' = k then { src with defn := fun m => if m = n then some (k, d) else src.defn m,
                                                 data := fun m => if m = n then zero else src.data m }
                      else src                     -- refused: other kind
    | none => { src with defn := fun m => if m = n then some (k, d) else src.defn m,
                          data := fun m => if m = n then zero else src.data m }
  | .delete k n => match src.defn n with
    | some (k', _) => if k' = k then { src with defn := fun m => if m = n then none else src.defn m } else src
    | none => src
  | .read _ => src

def Src.run (zero : V) (src : Src N V) (ops : List (Op N V)) : Src N V := ops.foldl (Src.step zero) src

def Src.init (zero : V) : Src N V := { defn := fun _ => none, data := fun _ => zero, par := fun _ => zero }

end Verif.Deps
