import Verif.Sym.Expand

/-!
# Simplification (`Simplify`, property C02): model
-/

namespace Verif.Sym

variable {K : Type}

/-- The loop that collects the objects of one type (`EquationObject.cc:506-535`, `1083-1118`): the
first object that is not done yet, with all later ones of its type. -/
def groupTy : List (Expr K) → List (Expr K × List (Expr K))
  | [] => []
  | v :: vs => (v, vs.filter fun w => w.ty == v.ty) :: groupTy (vs.filter fun w => w.ty != v.ty)
termination_by l => l.length
decreasing_by
  simp only [List.length_cons, List.length_unattach]
  exact Nat.lt_succ_of_le (le_trans (List.length_filter_le _ _) (by simp))

/-- The loop of `Pow::CombineProduct` that collects the exponents of one base
(`EquationObject.cc:1682-1704`): bases are compared by their text. -/
def groupBase (C : Cfg K) : List (Expr K × Expr K) → List (Expr K × List (Expr K))
  | [] => []
  | (b, e) :: r => (b, e :: (r.filter fun p => str C p.1 == str C b).map Prod.snd) ::
      groupBase C (r.filter fun p => str C p.1 != str C b)
termination_by l => l.length
decreasing_by
  simp only [List.length_cons, List.length_unattach]
  exact Nat.lt_succ_of_le (le_trans (List.length_filter_le _ _) (by simp))

/-- Base and exponent of a power. -/
def powPair : Expr K → List (Expr K × Expr K)
  | .pow b e => [(b, e)]
  | _ => []

/-- The power written for a collected base (`EquationObject.cc:1705-1708`). -/
def powItem (C : Cfg K) : Expr K × List (Expr K) → Expr K
  | (b, [e]) => .pow b e
  | (b, es) => .pow b (mkAdd C es)

/-- One object, or the product of several (`EquationObject.cc:604-608`, `626-630`, `691-695`,
`1710-1713`). -/
def single (C : Cfg K) : List (Expr K) → Expr K
  | [v] => v
  | l => mkProd C l

/-- The argument of an exponential. -/
def expArg : Expr K → List (Expr K)
  | .exp a => [a]
  | _ => []

/-- `h->CombineProduct(t)` for a non-empty list `t` of objects of the same type as `h`
(`EquationObject.cc:216-223`, `318-328`, `704-717`, `1225-1232`, `1361-1372`, `1487-1494`,
`1675-1714`, `UserFunc.cc:217-228`, `LogicalFunc.cc:48-55`, `150-157`, `mcModel.cc:102-109`). -/
def combineProd (C : Cfg K) (h : Expr K) (t : List (Expr K)) : Expr K :=
  match h with
  | .con c => .con ((consts t).foldl C.mul c)
  | .prod vs => mkProd C (vs ++ t.flatMap Expr.factors)
  | .exp a => .exp (mkAdd C (a :: t.flatMap expArg))
  | .pow b e => single C ((groupBase C (t.flatMap powPair ++ [(b, e)])).map (powItem C))
  | h => mkProd C (t ++ [h])

/-- `h->CombineAdd(t)` for a non-empty list `t` of objects of the same type as `h`
(`EquationObject.cc:225-232`, `330-345`, `719-727`, `1234-1247`, `1374-1381`, `1500-1507`,
`1716-1720`, `UserFunc.cc:204-215`, `LogicalFunc.cc:57-64`, `159-166`, `mcModel.cc:111-118`). -/
def combineAdd (C : Cfg K) (h : Expr K) (t : List (Expr K)) : Expr K :=
  match h with
  | .con c => .con ((consts t).foldl C.add (C.add (C.ofInt 0) c))
  | .add vs => mkAdd C (vs ++ t.flatMap Expr.terms)
  | .prod vs => mkAdd C (t ++ [mkProd C vs])
  | h => mkAdd C (t ++ [h])

/-- A variable as a power of one (`EquationObject.cc:496-502`). -/
def toPow (C : Cfg K) : Expr K → Expr K
  | .var x => .pow (.var x) (conI C 1)
  | e => e

/-- Anything but a power as a power of one (`EquationObject.cc:616-622`). -/
def asPow (C : Cfg K) : Expr K → Expr K
  | .pow b e => .pow b e
  | v => .pow v (conI C 1)

/-- `Product::ProductVecSimplify` (`EquationObject.cc:482-583`); `f` stands for the calls of
`Simplify`. -/
def prodVec (C : Cfg K) (f : Expr K → Option (Expr K)) (l : List (Expr K)) :
    Option (List (Expr K)) :=
  let l1 := (groupTy (l.map (toPow C))).map fun p => if p.2.isEmpty then p.1 else combineProd C p.1 p.2
  let l2 := l1.flatMap Expr.factors
  (mapO f (l2.filter fun v => !isOne C v)).map fun t =>
    if t.isEmpty && l2.any (isOne C) then [conI C 1] else t

/-- The loop `EquationObject.cc:684-689`: repeat while the list gets shorter. -/
def reduce (C : Cfg K) (f : Expr K → Option (Expr K)) : Nat → List (Expr K) → Option (List (Expr K))
  | 0, _ => none
  | k + 1, l => match prodVec C f l with
    | some t => if t.length < l.length then reduce C f k t else some t
    | none => none

/-- One object of the third attempt (`EquationObject.cc:644-681`): one factor is taken out of every
power. -/
def thirdItem (C : Cfg K) : Expr K → List (Expr K)
  | .pow b e => if isOne C e then [b] else b.factors ++ [.pow b (minus C e (conI C 1))]
  | v => [clone C v]

/-- The shorter text wins (`EquationObject.cc:632-634`, `696-697`). -/
def shorter (C : Cfg K) (out t : Expr K) : Expr K :=
  if (str C t).length < (str C out).length then t else out

/-- `Product::Simplify` (`EquationObject.cc:585-702`). -/
def prodSimp (C : Cfg K) (f : Expr K → Option (Expr K)) (vs : List (Expr K)) : Option (Expr K) :=
  if vs.any (isZero C) then some (conI C 0)
  else match vs with
    | [v] => f v
    | vs => match mapO f vs with
      | none => none
      | some t0 => match prodVec C f t0 with
        | none => none
        | some tv =>
          match (if 1 < tv.length then
              (prodVec C f (C.srt (tv.map (asPow C)))).map fun t => shorter C (single C tv) (single C t)
            else some (single C tv)) with
          | none => none
          | some out =>
            let l := tv.flatMap (thirdItem C)
            (reduce C f (l.length + 1) l).map fun t => shorter C out (single C t)

/-- The loop of `Add::Simplify` that collects terms with equal text up to a constant factor
(`EquationObject.cc:1163-1217`). No term is zero there (`1148-1160`). -/
def like (C : Cfg K) (f : Expr K → Option (Expr K)) : List (Expr K) → Option (List (Expr K))
  | [] => some []
  | t :: r =>
    match f (mkAdd C (scale C t ::
        (r.filter fun u => str C (unscaled C t) == str C (unscaled C u)).map (scale C))) with
    | none => none
    | some fact =>
      match (if isOne C fact then some (unscaled C t) else f (mul C fact (unscaled C t))),
          like C f (r.filter fun u => str C (unscaled C t) != str C (unscaled C u)) with
      | some v, some vs => some (v :: vs)
      | _, _ => none
termination_by l => l.length
decreasing_by
  simp only [List.length_cons, List.length_unattach]
  exact Nat.lt_succ_of_le (le_trans (List.length_filter_le _ _) (by simp))

/-- `Add::Simplify` (`EquationObject.cc:1067-1223`). -/
def addSimp (C : Cfg K) (f : Expr K → Option (Expr K)) (vs : List (Expr K)) : Option (Expr K) :=
  match vs with
  | [v] => f v
  | vs => match mapO f vs with
    | none => none
    | some t0 =>
      let l1 := (groupTy t0).map fun p => if p.2.isEmpty then p.1 else combineAdd C p.1 p.2
      match mapO f (l1.flatMap Expr.terms) with
      | none => none
      | some t3 => (like C f (t3.filter fun v => !isZero C v)).map fun l => match l with
        | [] => conI C 0
        | [v] => v
        | l => mkAdd C l

/-- `Simplify` of every class (`EquationObject.cc:207-210`, `313-316`, `585-702`, `1067-1223`,
`1344-1356`, `1458-1485`, `1628-1667`, `UserFunc.cc:150-159`, `LogicalFunc.cc:42-45`, `144-147`,
`mcModel.cc:93-96`), with at most `n` nested calls: `none` means that the recursion goes deeper. -/
def simp (C : Cfg K) : Nat → Expr K → Option (Expr K)
  | 0, _ => none
  | n + 1, e => match e with
    | .add vs => addSimp C (simp C n) vs
    | .prod vs => prodSimp C (simp C n) vs
    | .exp a => if isZero C a then some (conI C 1) else match a with
      | .log v => some v
      | a => (simp C n a).map .exp
    | .log a => if isOne C a then some (conI C 0) else match a with
      | .exp v => some v
      | .pow b e => some (mul C e (.log b))
      | a => (simp C n a).map .log
    | .pow b e => match simp C n b, simp C n e with
      | some b', some e' =>
        if isZero C e' then some (conI C 1)
        else if isOne C e' then some b
        else if isOne C b' then some (conI C 1)
        else if isZero C b' then some (conI C 0)
        else match b', e' with
          | .con x, .con y => some (.con (C.pow x y))
          | .pow y z, e' => (simp C n (mul C z e')).map (.pow y)
          | b', e' => some (.pow b' e')
      | _, _ => none
    | .user f as => (mapO (simp C n) as).map (.user f)
    | e => some e

/-- The function `Simplify(EqObjPtr)` of the command (`EquationObject.hh:733-743`): repeat until the text does
not change. The first result whose text equals that of its argument is returned. -/
def simpLoop (C : Cfg K) (n : Nat) : Nat → Expr K → Option (Expr K)
  | 0, _ => none
  | k + 1, e => match simp C n e with
    | some e' => if str C e = str C e' then some e' else simpLoop C n k e'
    | none => none

end Verif.Sym
