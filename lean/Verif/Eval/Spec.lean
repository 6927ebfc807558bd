import Verif.Eval.Model

/-!
# What the value of an expression model should be (property C53)

A *point* is a node, an edge, or an edge of an element of the region. The expression of a model denotes, at each point
of the model's kind, the number `Sym.eval` gives to it when each name of a model stands for the value of that model at
that point.
-/

namespace Verif.Eval

open Verif.ScalarData Verif.Sym

/-- Where an array of kind `k` is read for point `i` of kind `k'`: at the same place for the same kind; the array of an
edge model at the edge of an element edge. A node model has no value on an edge, and so on. -/
def loc (R : Reg) (k k' : Kind) (i : Nat) : Option Nat :=
  match k, k' with
  | .node, .node => some i
  | .edge, .edge => some i
  | .tri, .tri => some i
  | .tet, .tet => some i
  | .edge, .tri => some (R.triEdge i)
  | .edge, .tet => some (R.tetEdge i)
  | _, _ => none

/-- The value of model number `j` of kind `k` at point `i` of kind `k'` (0 where it has none). -/
def valueAt (R : Reg) (k : Kind) (j : Nat) (k' : Kind) (i : Nat) : ℝ :=
  match loc R k k' i with
  | some l => (((R.env k).models j).values (R.env k).n).getD l 0
  | none => 0

/-- The value of each name of a model at point `i` of kind `k'`; a name that refers to no model is 0. -/
def mval (R : Reg) (k' : Kind) (i : Nat) (m : Str) : ℝ :=
  match resolve R m with
  | some (k, j) => valueAt R k j k' i
  | none => 0

/-- The value of a parameter or circuit node; parameters take precedence. -/
def vars (R : Reg) (x : Str) : ℝ := (R.param x).getD ((R.circ x).getD 0)

/-- The value of a function at some arguments, if it has one; functions registered from scripts take precedence. -/
def appl (R : Reg) (f : Str) (xs : List ℝ) : Option ℝ :=
  match R.tcl f with
  | some g => g.f xs
  | none => match R.fns f with
    | some g => g.f xs
    | none => none

/-- The names of an expression, given the values of the models. -/
def genv (R : Reg) (m : Str → ℝ) : Sym.Env := ⟨vars R, m, fun f xs => (appl R f xs).getD 0⟩

/-- The environment of a point. -/
def penv (R : Reg) (k : Kind) (i : Nat) : Sym.Env := genv R (mval R k i)

/-- The name is registered, as a script or a built in function. -/
def known (R : Reg) (f : Str) : Prop := (R.tcl f).isSome = true ∨ (R.fns f).isSome = true

mutual
/-- The functions an expression calls, under the names they are looked up with. -/
def fnNames {K : Type} : Expr K → List Str
  | .con _ => []
  | .var _ => []
  | .model _ => []
  | .add vs => fnNamesL vs
  | .prod vs => fnNamesL vs
  | .exp a => ['e', 'x', 'p'] :: fnNames a
  | .log a => ['l', 'o', 'g'] :: fnNames a
  | .pow a b => ['p', 'o', 'w'] :: (fnNames a ++ fnNames b)
  | .user f as => f :: fnNamesL as
  | .blog op a b => opName op :: (fnNames a ++ fnNames b)
  | .ulog a => ['!'] :: fnNames a
def fnNamesL {K : Type} : List (Expr K) → List Str
  | [] => []
  | v :: vs => fnNames v ++ fnNamesL vs
end

/-- The calls are to known functions, none of which reduces an array to a number. -/
def Calls {K : Type} (R : Reg) (e : Expr K) : Prop :=
  ∀ f ∈ fnNames e, known R f ∧ f ≠ nVecSum ∧ f ≠ nVecMax ∧ f ≠ nVecMin

/-- The functions behind `exp`, `log`, `pow` and the operators compute what they are named after, wherever they do not
fail. -/
structure Std (R : Reg) : Prop where
  exp : ∀ x y, appl R ['e', 'x', 'p'] [x] = some y → y = Real.exp x
  log : ∀ x y, appl R ['l', 'o', 'g'] [x] = some y → y = Real.log x
  pow : ∀ a b y, appl R ['p', 'o', 'w'] [a, b] = some y → y = a ^ b
  blog : ∀ op a b y, appl R (opName op) [a, b] = some y → y = op.sem a b
  ulog : ∀ a y, appl R ['!'] [a] = some y → y = notSem a

/-- There are models of kind `k`. -/
def has (R : Reg) (k : Kind) : Prop := ∃ m, R.find k m ≠ none

/-- A region: arrays of the right length, and element edges that are edges of the region; a region
with models on the edges of triangles or tetrahedra has some. -/
structure Reg.Wf (R : Reg) : Prop where
  env : ∀ k, (R.env k).Wf
  ntri : (R.env .tri).n = 3 * R.ntri
  ntet : (R.env .tet).n = 6 * R.ntet
  triEdge : ∀ i, i < 3 * R.ntri → R.triEdge i < (R.env .edge).n
  tetEdge : ∀ i, i < 6 * R.ntet → R.tetEdge i < (R.env .edge).n
  hasTri : has R .tri → 0 < R.ntri
  hasTet : has R .tet → 0 < R.ntet

/-- Triangle edge models are for two dimensions, tetrahedron edge models for three (ModelCommands.cc:125-140,217-228).
In three dimensions no edge model may be a uniform value, unless there are as many triangles as tetrahedra: see
`uniform_edge_with_tetrahedra`. -/
def Elems (R : Reg) : Prop :=
  ¬ has R .tet ∨ (¬ has R .tri ∧ (R.ntri = R.ntet ∨ ∀ j, ((R.env .edge).models j).uniform = false))

/-- The points at which a model is to be evaluated: all of them, or those of the contact. -/
def Ctx.pt (cx : Ctx) (k : Kind) (i : Nat) : Prop := cx.indexes = [] ∨ (cx.etype = some k ∧ i ∈ cx.indexes)

/-- Contact models are node and edge models, and the indexes of a contact are sorted (NodeModel.cc:186) and distinct. -/
def Ctx.Wf (cx : Ctx) : Prop :=
  cx.indexes ≠ [] → (cx.etype = some .node ∨ cx.etype = some .edge) ∧ cx.indexes.Pairwise (· < ·)

/-- Values for the models in which the unknown ones are 0. -/
def Adm (R : Reg) (m : Str → ℝ) : Prop := ∀ s, resolve R s = none → m s = 0

/-- The value `v` is right for the quantity `g`, at the points of `cx`: a number is `g` whatever the models are, an
array holds `g` at each point where it is read. -/
def Denotes (R : Reg) (cx : Ctx) (g : (Str → ℝ) → ℝ) : Val → Prop
  | .invalid => True
  | .double x => ∀ m, Adm R m → g m = x
  | .data k s => s.Wf (R.env k) ∧ (k = .tri → has R .tri) ∧ (k = .tet → has R .tet) ∧
      (k = .edge → has R .tet → R.ntri ≠ R.ntet → s.isuniform = false) ∧
      ∀ k' i j, cx.pt k' i → i < (R.env k').n → loc R k k' i = some j →
        (denote (R.env k) s)[j]? = some (g (mval R k' i))

variable {K : Type}

/-- The class `P` of expressions in play: closed under subexpressions, and the text of an expression determines its value,
as the cache requires. `Verif.Sym.eval_of_str_eq` proves this of the engine in `src/adiff`, see `texts_wf`; the engine
devsim is linked with (`external/symdiff`) is not part of the checkout. -/
structure Texts (C : Cfg K) (P : Expr K → Prop) : Prop where
  det : ∀ a b, P a → P b → str C a = str C b → ∀ ρ, eval C ρ a = eval C ρ b
  add : ∀ vs, P (.add vs) → ∀ v ∈ vs, P v
  prod : ∀ vs, P (.prod vs) → ∀ v ∈ vs, P v
  exp : ∀ a, P (.exp a) → P a
  log : ∀ a, P (.log a) → P a
  pow : ∀ a b, P (.pow a b) → P a ∧ P b
  user : ∀ f as, P (.user f as) → ∀ v ∈ as, P v
  blog : ∀ op a b, P (.blog op a b) → P a ∧ P b
  ulog : ∀ a, P (.ulog a) → P a

/-- Every entry of the cache is right, at the points of `cx`, for an expression whose text is its key. -/
def CacheOK (C : Cfg K) (P : Expr K → Prop) (R : Reg) (cx : Ctx) (c : List (Str × Val)) : Prop :=
  ∀ p ∈ c, ∃ e, P e ∧ str C e = p.1 ∧ Denotes R cx (fun m => eval C (genv R m) e) p.2

end Verif.Eval
