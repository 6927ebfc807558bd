
/-!
# Values from Python (`src/pythonapi/ObjectHolder.cc`)

A `double` is its bit pattern.  Python objects are reduced to what the functions below can observe.
-/

namespace Verif.PyArg

abbrev F64 := BitVec 64
abbrev Byte := BitVec 8

/-- Python objects.  `seq`: list or tuple; `arr`: `array.array` (`typecode` given) or a numpy vector (no attribute `typecode`), with the
size of an item, the bytes of `tobytes()` and the items as `PySequence_GetItem` gives them; `npInt`, `npFlt`: numpy scalars, which are not
exactly `int` (`float`) objects; `other`: neither number nor sequence (`None`, functions, …). -/
inductive Py where
  | bool (b : Bool)
  | int (n : Int)
  | flt (x : F64)
  | str (s : String)
  | bytes (b : List Byte)
  | seq (l : List Py)
  | arr (typecode : Option String) (itemsize : Nat) (b : List Byte) (items : List Py)
  | npInt (n : Int)
  | npFlt (x : F64)
  | other (truth : Bool)

/-- What is done by the Python library: `int(s)` for a text, `float(s)` for a text, and the number next to an integer (`none` if it is too
large); `str(obj)`; the text of bytes. -/
structure Lib where
  parseInt : String → Option Int
  parseFloat : String → Option F64
  ofInt : Int → Option F64
  text : List Byte → String
  repr : Py → String

/-- `long` and `int` of the platform -/
def LONG_MIN : Int := -9223372036854775808
def LONG_MAX : Int := 9223372036854775807
def INT_MIN : Int := -2147483648
def INT_MAX : Int := 2147483647

/-- `PyLong_AsLong`: −1 (and a pending exception) if the number does not fit -/
def asLong (n : Int) : Int := if LONG_MIN ≤ n ∧ n ≤ LONG_MAX then n else -1

/-- `GetLong`, `ObjectHolder.cc` 241-273 -/
def getLong (L : Lib) : Py → Bool × Int
  | .int n => (true, asLong n)
  | .str s => match L.parseInt s with
    | some n => (true, asLong n)
    | none => (false, 0)
  | .bytes b => match L.parseInt (L.text b) with
    | some n => (true, asLong n)
    | none => (false, 0)
  | _ => (false, 0)

/-- `GetInteger`, `ObjectHolder.cc` 215-239: `ok` starts as `true` -/
def getInteger (L : Lib) (o : Py) : Bool × Int :=
  let lent := getLong L o
  if lent.1 then
    if INT_MIN ≤ lent.2 ∧ lent.2 ≤ INT_MAX then (true, lent.2) else (false, 0)
  else (true, 0)

/-- `GetDouble`, `ObjectHolder.cc` 161-190: `PyNumber_Float` of anything that is not exactly a `float` -/
def getDouble (L : Lib) : Py → Bool × F64
  | .flt x => (true, x)
  | .npFlt x => (true, x)
  | .int n => match L.ofInt n with
    | some x => (true, x)
    | none => (false, 0)
  | .npInt n => match L.ofInt n with
    | some x => (true, x)
    | none => (false, 0)
  | .bool b => match L.ofInt (if b then 1 else 0) with
    | some x => (true, x)
    | none => (false, 0)
  | .str s => match L.parseFloat s with
    | some x => (true, x)
    | none => (false, 0)
  | .bytes b => match L.parseFloat (L.text b) with
    | some x => (true, x)
    | none => (false, 0)
  | _ => (false, 0)

/-- `PyObject_IsTrue`; `GetBoolean`, `ObjectHolder.cc` 192-212. A vector of more than one item has no truth value (numpy). -/
def getBoolean : Py → Bool × Bool
  | .bool b => (true, b)
  | .int n => (true, n ≠ 0)
  | .npInt n => (true, n ≠ 0)
  | .flt x => (true, x &&& 0x7fffffffffffffff#64 ≠ 0)
  | .npFlt x => (true, x &&& 0x7fffffffffffffff#64 ≠ 0)
  | .str s => (true, s ≠ "")
  | .bytes b => (true, b ≠ [])
  | .seq l => (true, ¬ l.isEmpty)
  | .arr (some _) _ _ items => (true, ¬ items.isEmpty)
  | .arr none _ _ _ => (false, false)
  | .other t => (true, t)

/-- `GetString`, `ObjectHolder.cc` 139-158 -/
def getString (L : Lib) (o : Py) : String :=
  match o with
  | .str s => if s = "" then L.repr o else s
  | .bytes b => if L.text b = "" then L.repr o else L.text b
  | _ => L.repr o

/-- `PySequence_Check`, `PySequence_GetItem`: `GetListOfObjects`, `ObjectHolder.cc` 305-327, and `IsList` -/
def listOf : Py → Option (List Py)
  | .seq l => some l
  | .arr _ _ _ items => some items
  | .str s => some (s.toList.map fun c => .str (String.singleton c))
  | .bytes b => some (b.map fun x => .int x.toNat)
  | _ => none

/-- `GetFromList`, `ObjectHolder.cc` 365-394 -/
def fromList {T : Type} (get : Py → Bool × T) (o : Py) : Option (List T) :=
  match listOf o with
  | none => none
  | some l => l.mapM fun x => if (get x).1 then some (get x).2 else none

/-- `GetArrayInfo`, `ObjectHolder.cc` 396-443: the type code (empty if there is none), the size of an item, the bytes -/
def arrayInfo : Py → Option (String × Nat × List Byte)
  | .bytes b => some ("", 0, b)
  | .arr tc size b _ => some (tc.getD "", size, b)
  | _ => none

/-- `std::copy_n(reinterpret_cast<T *>(data), length / sizeof(T))`, `ObjectHolder.cc` 445-460, for an item of `size` bytes -/
def chunks (size : Nat) (b : List Byte) : List (List Byte) :=
  (List.range (b.length / size)).map fun i => (b.drop (i * size)).take size

/-- an item of eight bytes as a bit pattern, least significant byte first (x86-64, aarch64) -/
def le : List Byte → Nat
  | [] => 0
  | x :: xs => x.toNat + 256 * le xs

/-- `GetArrayFromBytes`, `ObjectHolder.cc` 462-489; the result is the vector, which is used if it is not empty -/
def fromBytes (codes : List String) (size : Nat) (o : Py) : List (List Byte) :=
  match arrayInfo o with
  | none => []
  | some (tc, isz, b) =>
    let found := tc ≠ "" ∧ tc ∈ codes
    if (tc = "" ∧ isz = 0) ∨ (found ∧ isz = size) ∨ (tc = "" ∧ isz = size) then chunks size b else []

/-- `GetDoubleList`, `ObjectHolder.cc` 500-507 -/
def getDoubleList (L : Lib) (o : Py) : Option (List F64) :=
  let v := fromBytes ["d"] 8 o
  if v ≠ [] then some (v.map fun c => BitVec.ofNat 64 (le c)) else fromList (getDouble L) o

/-- eight bytes as a `ptrdiff_t` -/
def i64 (c : List Byte) : Int := (BitVec.ofNat 64 (le c)).toInt

/-- `GetLongList`, `ObjectHolder.cc` 533-551 (Linux) -/
def getLongList (L : Lib) (o : Py) : Option (List Int) :=
  let v := fromBytes ["l", "L", "q", "Q"] 8 o
  if v ≠ [] then some (v.map i64) else fromList (getLong L) o

/-- `convert_to_unsigned`: `size_t` of a `ptrdiff_t` -/
def toSize (n : Int) : Nat := (BitVec.ofInt 64 n).toNat

/-- `GetUnsignedLongList`, `ObjectHolder.cc` 553-571 -/
def getUnsignedLongList (L : Lib) (o : Py) : Option (List Nat) := (getLongList L o).map (·.map toSize)

end Verif.PyArg
