import Verif.Sym.Expr

/-!
# The printed form of an expression

`stringValue()` of every class. The engine compares expressions by this text (when collecting like
terms, combining powers, substituting, differentiating), so it is part of the semantics.

The text is built in two steps: `ptree` says which pieces each `createStringValue` writes, `render`
writes them.
-/

namespace Verif.Sym

variable {K : Type}

/-! ### Scale and sign -/

/-- The constant factors of a product. -/
def consts : List (Expr K) → List K
  | [] => []
  | .con c :: vs => c :: consts vs
  | _ :: vs => consts vs

/-- The factors of a product that are not constants. -/
def nonconsts : List (Expr K) → List (Expr K)
  | [] => []
  | .con _ :: vs => nonconsts vs
  | v :: vs => v :: nonconsts vs

/-- The product of the constants `c, cs...` as `Product(tmp)->Simplify()` returns it: zero when one
of them is zero (`EquationObject.cc:587-588`), else folded from the left
(`Constant::CombineProduct`, `318-328`). -/
def foldConsts (C : Cfg K) : List K → K
  | [] => C.ofInt 1
  | c :: cs => if (c :: cs).any (C.eqInt · 0) then C.ofInt 0 else cs.foldl C.mul c

/-- `getScale` (`EquationObject.cc:263-266` and its siblings, `759-775` for products). -/
def scale (C : Cfg K) : Expr K → Expr K
  | .con c => .con c
  | .prod vs => .con (foldConsts C (consts vs))
  | _ => conI C 1

/-- `getUnscaledValue` (`EquationObject.cc:268-271`, `777-795`). -/
def unscaled (C : Cfg K) : Expr K → Expr K
  | .con _ => conI C 1
  | .prod vs => match nonconsts vs with
    | [] => conI C 1
    | [v] => v
    | us => mkProd C us
  | e => e

/-- `getSign() < 0` (`EquationObject.cc:273-277`, `797-829`): a product has a sign only when exactly
one of its factors is a constant. -/
def negSign (C : Cfg K) : Expr K → Bool
  | .con c => C.isNeg c
  | .prod vs => match consts vs with
    | [c] => C.isNeg c
    | _ => false
  | _ => false

mutual
/-- `clone`: sums and products are rebuilt with the sorting constructors
(`EquationObject.cc:903-914`, `1249-1260`). -/
def clone (C : Cfg K) : Expr K → Expr K
  | .con c => .con c
  | .var x => .var x
  | .model m => .model m
  | .add vs => mkAdd C (cloneL C vs)
  | .prod vs => mkProd C (cloneL C vs)
  | .exp a => .exp (clone C a)
  | .log a => .log (clone C a)
  | .pow b e => .pow (clone C b) (clone C e)
  | .user f as => .user f (cloneL C as)
  | .blog op a b => .blog op (clone C a) (clone C b)
  | .ulog a => .ulog (clone C a)
def cloneL (C : Cfg K) : List (Expr K) → List (Expr K)
  | [] => []
  | v :: vs => clone C v :: cloneL C vs
end

theorem cloneL_eq (C : Cfg K) : ∀ vs, cloneL C vs = vs.map (clone C)
  | [] => rfl
  | v :: vs => by simp only [cloneL, List.map_cons, cloneL_eq C vs]

/-- The branch of `Product::getUnsignedValue` for a product whose only constant factor is the
negative number `s` (`EquationObject.cc:840-898`). -/
def unsignedProd (C : Cfg K) (s : K) (u : Expr K) : Expr K :=
  match u with
  | .con c => if C.isNeg c then .con (C.neg c) else .con c
  | .prod us =>
    if C.eqInt s (-1) then .prod us else mkProd C (.con (C.neg s) :: cloneL C us)
  | u => if C.eqInt s (-1) then u else mul C (.con (C.neg s)) u

/-- `getUnsignedValue` (`EquationObject.cc:279-283`, `831-901`). -/
def unsigned (C : Cfg K) : Expr K → Expr K
  | .con c => if C.isNeg c then .con (C.neg c) else .con c
  | .prod vs => match consts vs with
    | [c] => if C.isNeg c then unsignedProd C c (unscaled C (.prod vs)) else .prod vs
    | _ => .prod vs
  | e => e

/-! ### A size that printing decreases -/

mutual
def size : Expr K → Nat
  | .con _ => 1
  | .var _ => 1
  | .model _ => 1
  | .add vs => 1 + sizeL vs
  | .prod vs => 1 + sizeL vs
  | .exp a => 1 + size a
  | .log a => 1 + size a
  | .pow b e => 1 + size b + size e
  | .user _ as => 1 + sizeL as
  | .blog _ a b => 1 + size a + size b
  | .ulog a => 1 + size a
def sizeL : List (Expr K) → Nat
  | [] => 0
  | v :: vs => size v + sizeL vs
end

theorem sizeL_eq : ∀ vs : List (Expr K), sizeL vs = (vs.map size).sum
  | [] => rfl
  | v :: vs => by simp only [sizeL, List.map_cons, List.sum_cons, sizeL_eq vs]

theorem size_pos (e : Expr K) : 0 < size e := by
  cases e <;> simp only [size] <;> omega

theorem size_le_sizeL {v : Expr K} {vs} (h : v ∈ vs) : size v ≤ sizeL vs := by
  induction vs with
  | nil => cases h
  | cons a vs ih =>
    simp only [sizeL]
    rcases List.mem_cons.1 h with rfl | h
    · omega
    · have := ih h; omega

theorem sizeL_perm {l l' : List (Expr K)} (h : l.Perm l') : sizeL l = sizeL l' := by
  rw [sizeL_eq, sizeL_eq]; exact (h.map _).sum_eq

theorem size_mkProd (C : Cfg K) (vs) : size (mkProd C vs) = 1 + sizeL vs := by
  simp only [mkProd, size, sizeL_perm (C.srt_perm vs)]

theorem size_mkAdd (C : Cfg K) (vs) : size (mkAdd C vs) = 1 + sizeL vs := by
  simp only [mkAdd, size, sizeL_perm (C.srt_perm vs)]

theorem size_clone (C : Cfg K) (e : Expr K) : size (clone C e) = size e := by
  induction e using Expr.ind with
  | hadd vs ih =>
    rw [clone, size_mkAdd, size, cloneL_eq, sizeL_eq, sizeL_eq, List.map_map]
    congr 2
    exact List.map_congr_left ih
  | hprod vs ih =>
    rw [clone, size_mkProd, size, cloneL_eq, sizeL_eq, sizeL_eq, List.map_map]
    congr 2
    exact List.map_congr_left ih
  | huser f vs ih =>
    rw [clone, size, size, cloneL_eq, sizeL_eq, sizeL_eq, List.map_map]
    congr 2
    exact List.map_congr_left ih
  | _ => simp_all [clone, size]

theorem sizeL_clone (C : Cfg K) (vs : List (Expr K)) : sizeL (cloneL C vs) = sizeL vs := by
  rw [cloneL_eq, sizeL_eq, sizeL_eq, List.map_map]
  congr 1
  exact List.map_congr_left fun v _ => size_clone C v

theorem sizeL_split : ∀ vs : List (Expr K),
    sizeL vs = (consts vs).length + sizeL (nonconsts vs)
  | [] => rfl
  | v :: vs => by
    have ih := sizeL_split vs
    cases v <;> simp only [sizeL, consts, nonconsts, List.length_cons, size] <;> omega

theorem size_unsignedProd (C : Cfg K) (s : K) (u : Expr K) :
    size (unsignedProd C s u) ≤ 2 + size u := by
  unfold unsignedProd
  split
  · split <;> simp only [size] <;> omega
  · split
    · simp only [size]; omega
    · rw [size_mkProd]; simp only [sizeL, size, sizeL_clone]; omega
  · rename_i hc hp
    split
    · omega
    · unfold mul
      have := size_pos u
      split
      · simp only [conI, size]; omega
      · split
        · omega
        · split
          · simp only [size]; omega
          · split
            · simp at *
            · simp at *
            · exact absurd rfl (hp _)
            · simp only [size, sizeL]; omega

theorem size_unsigned (C : Cfg K) (e : Expr K) : size (unsigned C e) ≤ size e := by
  unfold unsigned
  split
  · split <;> simp [size]
  · rename_i vs
    split
    · rename_i c hc
      split
      · have h := sizeL_split vs
        rw [hc] at h
        simp only [List.length_singleton] at h
        unfold unscaled
        dsimp only
        split
        · simp only [unsignedProd, conI, size]
          split <;> simp only [size] <;> omega
        · rename_i v hv
          rw [hv] at h
          simp only [sizeL] at h
          have := size_unsignedProd C c v
          simp only [size]; omega
        · simp only [unsignedProd, mkProd]
          split
          · simp only [size, sizeL_perm (C.srt_perm _)]; omega
          · simp only [size, sizeL_perm (C.srt_perm _), sizeL, sizeL_clone]; omega
      · omega
    · omega
  · omega

/-! ### Printing -/

/-- The sign or negation written in front of the first piece. -/
inductive UOp
  | none | neg | not
deriving DecidableEq

/-- The operators written between pieces. -/
inductive BOp
  | mul | plus | minus | logic (op : LOp)
deriving DecidableEq

mutual
/-- The pieces of a printed expression. -/
inductive PTree
  | num (s : Str)
  | name (s : Str)
  | unit
  | call (f : Str) (sep : Str) (args : PArgs)
  | paren (u : UOp) (hd : PTree) (tl : PItems)
inductive PArgs
  | nil
  | cons (t : PTree) (as : PArgs)
inductive PItems
  | nil
  | cons (op : BOp) (t : PTree) (is : PItems)
end

def PArgs.ofList : List PTree → PArgs
  | [] => .nil
  | t :: ts => .cons t (ofList ts)

def PItems.ofList : List (BOp × PTree) → PItems
  | [] => .nil
  | (o, t) :: ts => .cons o t (ofList ts)

/-- The text of a logical operator (the token text kept in `binaryOperator`). -/
def LOp.text : LOp → Str
  | .eq => ['=', '='] | .neq => ['!', '='] | .lt => ['<'] | .lte => ['<', '='] | .gt => ['>']
  | .gte => ['>', '='] | .and => ['&', '&'] | .or => ['|', '|']

def BOp.text : BOp → Str
  | .mul => ['*'] | .plus => ['+'] | .minus => ['-'] | .logic op => op.text

def UOp.text : UOp → Str
  | .none => [] | .neg => ['-'] | .not => ['!']

mutual
/-- The text written for the pieces. -/
def render : PTree → Str
  | .num s => s
  | .name s => s
  | .unit => ['(', ')']
  | .call f sep args => f ++ ['('] ++ renderArgs sep args ++ [')']
  | .paren u hd tl => ['('] ++ u.text ++ render hd ++ renderItems tl ++ [')']
def renderArgs (sep : Str) : PArgs → Str
  | .nil => []
  | .cons t .nil => render t
  | .cons t as => render t ++ sep ++ renderArgs sep as
def renderItems : PItems → Str
  | .nil => []
  | .cons op t is => [' '] ++ op.text ++ [' '] ++ render t ++ renderItems is
end

/-- The body of `Product::createStringValue` (`EquationObject.cc:390-432`), given the pieces of
the factors: a leading factor that prints as `(-1)` becomes a minus sign. -/
def prodTree : List PTree → PTree
  | [] => .unit
  | [t] => .paren .none t .nil
  | t :: t1 :: ts =>
    if render t = ['(', '-', '1', ')'] then .paren .neg t1 (.ofList (ts.map fun t => (.mul, t)))
    else .paren .none t (.ofList ((t1 :: ts).map fun t => (.mul, t)))

/-- The body of `Add::createStringValue` (`EquationObject.cc:1018-1039`), given for every term
whether it is negative and the pieces of its unsigned value. -/
def addTree : List (Bool × PTree) → PTree
  | [] => .unit
  | (s, t) :: ts => .paren (if s then .neg else .none) t
      (.ofList (ts.map fun st => (if st.1 then .minus else .plus, st.2)))

/-- `createStringValue` of every class: the pieces it writes. (`EquationObject.cc:194-197`,
`289-305`, `390-432`, `1018-1039`, `1325-1330`, `1436-1441`, `1563-1571`, `UserFunc.cc:69-86`,
`LogicalFunc.cc:20-27`, `122-129`, `mcModel.cc:56-59`.) -/
def ptree (C : Cfg K) (e : Expr K) : PTree :=
  match e with
  | .con c => if C.isNeg c then .paren .neg (.num (C.fmt (C.neg c))) .nil else .num (C.fmt c)
  | .var x => .name x
  | .model m => .name m
  | .add vs => addTree (vs.attach.map fun ⟨v, _⟩ =>
      if negSign C v then (true, ptree C (unsigned C v)) else (false, ptree C v))
  | .prod vs => prodTree (vs.attach.map fun ⟨v, _⟩ => ptree C v)
  | .exp a => .call ['e', 'x', 'p'] [] (.cons (ptree C a) .nil)
  | .log a => .call ['l', 'o', 'g'] [] (.cons (ptree C a) .nil)
  | .pow b e => .call ['p', 'o', 'w'] [','] (.cons (ptree C b) (.cons (ptree C e) .nil))
  | .user f as => .call f [',', ' '] (.ofList (as.attach.map fun ⟨v, _⟩ => ptree C v))
  | .blog op a b => .paren .none (ptree C a) (.cons (.logic op) (ptree C b) .nil)
  | .ulog a => .paren .not (ptree C a) .nil
termination_by size e
decreasing_by
  all_goals simp only [size]
  all_goals first
    | (have h := size_unsigned C v; have h2 := size_le_sizeL ‹v ∈ vs›; omega)
    | (have h2 := size_le_sizeL ‹v ∈ vs›; omega)
    | (have h2 := size_le_sizeL ‹v ∈ as›; omega)
    | omega

/-- `stringValue()`. -/
def str (C : Cfg K) (e : Expr K) : Str := render (ptree C e)

section PtreeLemmas
variable (C : Cfg K)

theorem attach_map_eq {α β : Type} (l : List α) (f : α → β) :
    (l.attach.map fun x => match x with | ⟨v, _⟩ => f v) = l.map f := by
  conv_rhs => rw [← List.attach_map_subtype_val l, List.map_map]
  rfl

theorem ptree_con (c) : ptree C (.con c) =
    if C.isNeg c then .paren .neg (.num (C.fmt (C.neg c))) .nil else .num (C.fmt c) := by
  rw [ptree]
theorem ptree_var (x) : ptree C (.var x) = .name x := by rw [ptree]
theorem ptree_model (x) : ptree C (.model x) = .name x := by rw [ptree]
theorem ptree_add (vs) : ptree C (.add vs) = addTree (vs.map fun v =>
      if negSign C v then (true, ptree C (unsigned C v)) else (false, ptree C v)) := by
  rw [ptree]
  rw [attach_map_eq vs (fun v =>
    if negSign C v then (true, ptree C (unsigned C v)) else (false, ptree C v))]
theorem ptree_prod (vs) : ptree C (.prod vs) = prodTree (vs.map (ptree C)) := by
  rw [ptree, attach_map_eq vs (ptree C)]
theorem ptree_exp (a) : ptree C (.exp a) =
    .call ['e', 'x', 'p'] [] (.cons (ptree C a) .nil) := by rw [ptree]
theorem ptree_log (a) : ptree C (.log a) =
    .call ['l', 'o', 'g'] [] (.cons (ptree C a) .nil) := by rw [ptree]
theorem ptree_pow (b e) : ptree C (.pow b e) =
    .call ['p', 'o', 'w'] [','] (.cons (ptree C b) (.cons (ptree C e) .nil)) := by rw [ptree]
theorem ptree_user (f as) : ptree C (.user f as) =
    .call f [',', ' '] (.ofList (as.map (ptree C))) := by
  rw [ptree, attach_map_eq as (ptree C)]
theorem ptree_blog (op a b) : ptree C (.blog op a b) =
    .paren .none (ptree C a) (.cons (.logic op) (ptree C b) .nil) := by rw [ptree]
theorem ptree_ulog (a) : ptree C (.ulog a) = .paren .not (ptree C a) .nil := by rw [ptree]

end PtreeLemmas

end Verif.Sym
