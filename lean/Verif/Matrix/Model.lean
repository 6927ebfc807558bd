import Mathlib.Algebra.Group.Defs
import Mathlib.Data.List.Sort
import Verif.Util.FMap
/-
Model of `dsMath::CompressedMatrix` (/repo/src/math/CompressedMatrix.cc, CompressedMatrix.hh).

* The entry type `R` only has `0`, `+` and a decidable equality test; the proofs use `x + 0 = x` and `0 + x = x` and nothing
  else (no commutativity or associativity), so the values reached are the ones obtained by adding in program order.
  Signed zeros and NaN of IEEE arithmetic are not modelled.
* An index outside a vector is undefined behaviour in the code (`std::vector::operator[]`); here the operation returns `none`.
  The debug-only assertions (`#ifndef NDEBUG`) are not modelled.
* `int`/`size_t` are unbounded naturals.
* The real and imaginary copies of the code (`AddEntryImpl`/`AddImagEntryImpl`, `Ax_`/`Az_`, `OutOfBandEntries_Real`/`_Imag`)
  are one definition with the flag `im`.
-/
namespace Verif.Matrix
open Verif

variable {R : Type} [AddZeroClass R] [DecidableEq R]

/-- The data members, CompressedMatrix.hh 108-122. `sym[c]` is `Symbolic_[c]` (row to position), `oob im` is
`OutOfBandEntries_Real`/`_Imag` (per row: column to value), `x false` is `Ax_` and `x true` is `Az_`. -/
structure Mat (R : Type) where
  n : Nat
  cpx : Bool
  crm : Bool
  sym : List (FMap Nat Nat)
  oob : Bool → List (FMap Nat R)
  ap : List Nat
  ai : List Nat
  x : Bool → List R
  compressed : Bool
  sameSym : Bool

/-- replace one of the two (real, imaginary) components -/
def upd {A : Type} (f : Bool → A) (im : Bool) (a : A) : Bool → A := fun q => if q = im then a else f q

/-- constructor, CompressedMatrix.cc 79-88 -/
def new (n : Nat) (cpx crm : Bool) : Mat R :=
  { n, cpx, crm, sym := List.replicate n [],
    oob := fun im => if im = true ∧ cpx = false then [] else List.replicate n [],
    ap := [], ai := [], x := fun _ => [], compressed := false, sameSym := false }

/-- `AddSymbolicImpl`, CompressedMatrix.cc 97-107: `insert` does nothing when the row is present -/
def addSymbolic (s : Mat R) (r c : Nat) : Option (Mat R) :=
  match s.sym[c]? with
  | none => none
  | some m => some { s with sym := s.sym.set c (if m.has r then m else m.set r 0) }

/-- the uncompressed branch shared by `AddEntryImpl` (CompressedMatrix.cc 289-295) and `AddImagEntryImpl` (341-346), after
the test of a zero value (266-269, 318-321) -/
def addU (s : Mat R) (im : Bool) (r c : Nat) (v : R) : Option (Mat R) :=
  if v = 0 then some s
  else
    match addSymbolic s r c with
    | none => none
    | some s =>
      match (s.oob im)[r]? with
      | none => none
      | some m => some { s with oob := upd s.oob im ((s.oob im).set r (m.set c ((m.get c).getD 0 + v))) }

/-- One column of `DecompressMatrix`, CompressedMatrix.cc 402-406 / 409-416: positions `j`, `k` of them -/
def decompressLine (im : Bool) (ai : List Nat) (xs : List R) (i : Nat) : Nat → Nat → Mat R → Option (Mat R)
  | _, 0, s => some s
  | j, k + 1, s =>
    match ai[j]?, xs[j]? with
    | some r, some v =>
      match addU s im r i v with
      | none => none
      | some s => decompressLine im ai xs i (j + 1) k s
    | _, _ => none

/-- The loop of `DecompressMatrix` over the columns, CompressedMatrix.cc 398-418; the list is what remains of `Ap_` -/
def decompressLoop (ai : List Nat) (x : Bool → List R) : List Nat → Nat → Mat R → Option (Mat R)
  | [], _, _ => none
  | [_], _, s => some s
  | b :: e :: rest, i, s =>
    match decompressLine false ai (x false) i b (e - b) s with
    | none => none
    | some s =>
      match (if s.cpx then decompressLine true ai (x true) i b (e - b) s else some s) with
      | none => none
      | some s => decompressLoop ai x (e :: rest) (i + 1) s

/-- `DecompressMatrix`, CompressedMatrix.cc 378-422. `Ap_` and `Symbolic_` are kept. -/
def decompress (s : Mat R) : Option (Mat R) :=
  if s.compressed = false then some s
  else
    match decompressLoop s.ai s.x s.ap 0 { s with compressed := false } with
    | none => none
    | some s => some { s with ai := [], x := fun _ => [] }

/-- `AddEntryImpl`, CompressedMatrix.cc 258-296 (`im = false`), and `AddImagEntryImpl`, 311-347 (`im = true`) -/
def addImpl (s : Mat R) (im : Bool) (r c : Nat) (v : R) : Option (Mat R) :=
  if v = 0 then some s
  else if s.compressed then
    match s.sym[c]? with
    | none => none
    | some m =>
      match m.get r with
      | some pos =>
        match (s.x im)[pos]? with
        | none => none
        | some a => some { s with x := upd s.x im ((s.x im).set pos (a + v)) }
      | none =>
        match decompress s with
        | none => none
        | some s => addU s im r c v
  else addU s im r c v

/-- `AddEntry(int,int,DoubleType)` and `AddImagEntry`, CompressedMatrix.cc 298-309, 349-360: compressed rows are stored as
the compressed columns of the transpose -/
def add (s : Mat R) (im : Bool) (r c : Nat) (v : R) : Option (Mat R) :=
  if s.crm then addImpl s im c r v else addImpl s im r c v

/-- `AddEntry(int,int,ComplexDouble_t)`, CompressedMatrix.cc 363-376 -/
def addComplex (s : Mat R) (r c : Nat) (re im : R) : Option (Mat R) :=
  match (if re = 0 then some s else add s false r c re) with
  | none => none
  | some s => if im = 0 then some s else add s true r c im

/-- the positions written into `Symbolic_[c]`, CompressedMatrix.cc 145-149: `rivec[Ai_[i]] = i` -/
def setPos (m : FMap Nat Nat) : List Nat → Nat → FMap Nat Nat
  | [], _ => m
  | r :: rows, i => setPos (m.set r i) rows (i + 1)

/-- The column loop of `CreateMatrix`, CompressedMatrix.cc 121-151: the new `Symbolic_`, `Ap_` and `Ai_`, starting at position
`r` -/
def createCols : List (FMap Nat Nat) → Nat → List (FMap Nat Nat) × List Nat × List Nat
  | [], r => ([], [r], [])
  | m :: ms, r =>
    let rows := m.keys.insertionSort (· ≤ ·)
    let rest := createCols ms (r + rows.length)
    (setPos m rows r :: rest.1, r :: rest.2.1, rows ++ rest.2.2)

/-- `CreateMatrix`, CompressedMatrix.cc 109-165 -/
def createMatrix (s : Mat R) : Mat R :=
  let t := createCols s.sym 0
  { s with sym := t.1, ap := t.2.1, ai := t.2.2,
           x := fun im => if im = true ∧ s.cpx = false then s.x im else List.replicate t.2.2.length 0,
           compressed := true }

/-- inner loop of `Finalize`, CompressedMatrix.cc 435-440 -/
def reAddRow (im : Bool) (i : Nat) : FMap Nat R → Mat R → Option (Mat R)
  | [], s => some s
  | (c, v) :: m, s =>
    match addImpl s im i c v with
    | none => none
    | some s => reAddRow im i m s

/-- outer loop of `Finalize`, CompressedMatrix.cc 432-441 / 448-456 -/
def reAdd (im : Bool) : Nat → List (FMap Nat R) → Mat R → Option (Mat R)
  | _, [], s => some s
  | i, m :: ms, s =>
    match reAddRow im i m s with
    | none => none
    | some s => reAdd im (i + 1) ms s

/-- `OutOfBandEntries.clear(); OutOfBandEntries.resize(k)` -/
def clearOob (s : Mat R) (im : Bool) (k : Nat) : Mat R := { s with oob := upd s.oob im (List.replicate k []) }

/-- `Finalize`, CompressedMatrix.cc 425-465 -/
def finalize (s : Mat R) : Option (Mat R) :=
  if s.compressed then some { s with sameSym := true }
  else
    match reAdd false 0 (s.oob false) (createMatrix { s with sameSym := false }) with
    | none => none
    | some t =>
      let t := clearOob t false t.n
      if t.cpx then
        match reAdd true 0 (t.oob true) t with
        | none => none
        | some t => some (clearOob t true t.n)
      else some t

/-- `ClearMatrix`, CompressedMatrix.cc 467-487: the out-of-band tables are resized to the number of stored values -/
def clear (s : Mat R) : Mat R :=
  let sz := (s.x false).length
  { s with x := fun im => if im = true ∧ s.cpx = false then s.x im else List.replicate sz 0,
           oob := fun im => if im = true ∧ s.cpx = false then s.oob im else List.replicate sz [] }

/-- the public operations that change a matrix -/
inductive Op (R : Type) where
  | add (im : Bool) (r c : Nat) (v : R)
  | addComplex (r c : Nat) (re im : R)
  | finalize
  | clear

def step (s : Mat R) : Op R → Option (Mat R)
  | .add im r c v => add s im r c v
  | .addComplex r c a b => addComplex s r c a b
  | .finalize => finalize s
  | .clear => some (clear s)

def run (s : Mat R) : List (Op R) → Option (Mat R)
  | [] => some s
  | o :: os =>
    match step s o with
    | none => none
    | some s => run s os

/-- inner loop of `ColScaleMultiply`, CompressedMatrix.cc 505-510; `vals`, `x`, `y` have any entry type -/
def colLine {T : Type} [Add T] [Mul T] (rows : List Nat) (vals : List T) (scale : T) : Nat → Nat → List T → Option (List T)
  | _, 0, y => some y
  | j, k + 1, y =>
    match rows[j]?, vals[j]? with
    | some r, some v =>
      match y[r]? with
      | none => none
      | some a => colLine rows vals scale (j + 1) k (y.set r (a + scale * v))
    | _, _ => none

/-- `ColScaleMultiply`, CompressedMatrix.cc 490-513, the loop over the columns; the list is what remains of `cols`. An empty
pointer array makes `cols.size() - 1` wrap around: undefined behaviour. -/
def colLoop {T : Type} [Add T] [Mul T] (rows : List Nat) (vals : List T) (x : List T) : List Nat → Nat → List T → Option (List T)
  | [], _, _ => none
  | [_], _, y => some y
  | b :: e :: rest, c, y =>
    match x[c]? with
    | none => none
    | some scale =>
      match colLine rows vals scale b (e - b) y with
      | none => none
      | some y => colLoop rows vals x (e :: rest) (c + 1) y

def colScaleMultiply {T : Type} [Zero T] [Add T] [Mul T] (cols rows : List Nat) (vals x : List T) : Option (List T) :=
  colLoop rows vals x cols 0 (List.replicate x.length 0)

/-- inner loop of `RowScaleMultiply`, CompressedMatrix.cc 532-538 -/
def rowLine {T : Type} [Add T] [Mul T] (cols : List Nat) (vals x : List T) : Nat → Nat → T → Option T
  | _, 0, out => some out
  | j, k + 1, out =>
    match cols[j]?, vals[j]? with
    | some c, some v =>
      match x[c]? with
      | none => none
      | some xv => rowLine cols vals x (j + 1) k (out + v * xv)
    | _, _ => none

/-- `RowScaleMultiply`, CompressedMatrix.cc 515-541, the loop over the rows -/
def rowLoop {T : Type} [Add T] [Mul T] (cols : List Nat) (vals : List T) (x : List T) : List Nat → Nat → List T → Option (List T)
  | [], _, _ => none
  | [_], _, y => some y
  | b :: e :: rest, r, y =>
    match y[r]? with
    | none => none
    | some out =>
      match rowLine cols vals x b (e - b) out with
      | none => none
      | some out => rowLoop cols vals x (e :: rest) (r + 1) (y.set r out)

def rowScaleMultiply {T : Type} [Zero T] [Add T] [Mul T] (rows cols : List Nat) (vals x : List T) : Option (List T) :=
  rowLoop cols vals x rows 0 (List.replicate x.length 0)

/-- `GetCols`, CompressedMatrix.cc 180-196 -/
def getCols (s : Mat R) : List Nat := if s.crm then s.ai else s.ap
/-- `GetRows`, CompressedMatrix.cc 198-213 -/
def getRows (s : Mat R) : List Nat := if s.crm then s.ap else s.ai

/-- `Multiply`, CompressedMatrix.cc 544-560 (and 583-599 for the complex case); `vals` is the result of `GetReal` or `GetComplex`.
The assertion `compressed` of the code is the test; it stops the program. -/
def multiply {T : Type} [Zero T] [Add T] [Mul T] (s : Mat R) (vals x : List T) : Option (List T) :=
  if s.compressed then
    if s.crm then rowScaleMultiply (getRows s) (getCols s) vals x
    else colScaleMultiply (getCols s) (getRows s) vals x
  else none

/-- `TransposeMultiply`, CompressedMatrix.cc 562-578, 601-617 -/
def transposeMultiply {T : Type} [Zero T] [Add T] [Mul T] (s : Mat R) (vals x : List T) : Option (List T) :=
  if s.compressed then
    if s.crm then colScaleMultiply (getCols s) (getRows s) vals x
    else rowScaleMultiply (getRows s) (getCols s) vals x
  else none

/-- `GetComplex`, CompressedMatrix.cc 232-254: `mk` builds the complex number; the sizes are asserted equal -/
def getComplex {T : Type} (mk : R → R → T) (s : Mat R) : List T := List.zipWith mk (s.x false) (s.x true)

end Verif.Matrix
