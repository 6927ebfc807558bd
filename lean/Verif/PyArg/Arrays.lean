import Verif.PyArg.Model
import Mathlib.Data.List.Forall2
import Mathlib.Tactic.Ring
import Mathlib.Tactic.NormNum

/-!
# C65: vectors of numbers given by the script

`set_node_values`, `create_gmsh_mesh`, `create_contact_from_interface`-like commands and `set_rhs…` read vectors with `GetDoubleList` and
`GetUnsignedLongList`.
-/

namespace Verif.PyArg

/-! ### Specification: vectors as a user has them -/

/-- `n` in `k` bytes, least significant first -/
def enc : Nat → Nat → List Byte
  | 0, _ => []
  | k + 1, n => BitVec.ofNat 8 n :: enc k (n / 256)

/-- The contents of a vector of machine numbers. -/
inductive Vec where
  | f64 (xs : List F64)
  | f32 (xs : List (BitVec 32))
  | i64 (ns : List (BitVec 64))
  | i32 (ns : List (BitVec 32))

/-- how the items look: exact Python objects in an `array.array`, numpy scalars in a numpy vector; `widen` is the conversion of `float` to
`double` -/
def Vec.items (widen : BitVec 32 → F64) (np : Bool) : Vec → List Py
  | .f64 xs => xs.map fun x => if np then .npFlt x else .flt x
  | .f32 xs => xs.map fun x => if np then .npFlt (widen x) else .flt (widen x)
  | .i64 ns => ns.map fun n => if np then .npInt n.toInt else .int n.toInt
  | .i32 ns => ns.map fun n => if np then .npInt n.toInt else .int n.toInt

def Vec.code : Vec → String
  | .f64 _ => "d" | .f32 _ => "f" | .i64 _ => "q" | .i32 _ => "i"
def Vec.size : Vec → Nat
  | .f64 _ => 8 | .f32 _ => 4 | .i64 _ => 8 | .i32 _ => 4
def Vec.raw : Vec → List Byte
  | .f64 xs => xs.flatMap fun x => enc 8 x.toNat
  | .f32 xs => xs.flatMap fun x => enc 4 x.toNat
  | .i64 ns => ns.flatMap fun n => enc 8 n.toNat
  | .i32 ns => ns.flatMap fun n => enc 4 n.toNat

/-- `array.array(code, values)` -/
def Vec.array (widen : BitVec 32 → F64) (v : Vec) : Py := .arr (some v.code) v.size v.raw (v.items widen false)
/-- a numpy vector -/
def Vec.numpy (widen : BitVec 32 → F64) (v : Vec) : Py := .arr none v.size v.raw (v.items widen true)

/-- the numbers in it, as doubles -/
def Vec.doubles (L : Lib) (widen : BitVec 32 → F64) : Vec → Option (List F64)
  | .f64 xs => some xs
  | .f32 xs => some (xs.map widen)
  | .i64 ns => ns.mapM fun n => L.ofInt n.toInt
  | .i32 ns => ns.mapM fun n => L.ofInt n.toInt
/-- the numbers in it, if they are integers -/
def Vec.ints : Vec → Option (List Int)
  | .i64 ns => some (ns.map (·.toInt))
  | .i32 ns => some (ns.map (·.toInt))
  | _ => none

/-! ### Proofs -/

theorem enc_length (k n : Nat) : (enc k n).length = k := by
  induction k generalizing n with
  | zero => rfl
  | succ k ih => simp [enc, ih]

theorem le_enc (k n : Nat) : le (enc k n) = n % 256 ^ k := by
  induction k generalizing n with
  | zero => simp [enc, le, Nat.mod_one]
  | succ k ih =>
    simp only [enc, le, ih, BitVec.toNat_ofNat]
    have h : (256 : Nat) ^ (k + 1) = 256 * 256 ^ k := by rw [Nat.pow_succ, Nat.mul_comm]
    rw [h, Nat.mod_mul]

theorem chunks_flatMap (k : Nat) (hk : 0 < k) (l : List (List Byte)) (h : ∀ c ∈ l, c.length = k) : chunks k l.flatten = l := by
  have hlen : ∀ l : List (List Byte), (∀ c ∈ l, c.length = k) → l.flatten.length = l.length * k := by
    intro l
    induction l with
    | nil => simp
    | cons c l ih =>
      intro h
      rw [List.flatten_cons, List.length_append, h c (by simp), ih fun c hc => h c (by simp [hc]), List.length_cons]
      ring_nf
  have hget : ∀ (l : List (List Byte)), (∀ c ∈ l, c.length = k) → ∀ i, (hi : i < l.length) →
      (l.flatten.drop (i * k)).take k = l[i] := by
    intro l
    induction l with
    | nil => intro _ i hi; simp at hi
    | cons c l ih =>
      intro h i hi
      have hc := h c (by simp)
      cases i with
      | zero => simp [← hc]
      | succ i =>
        have := ih (fun c hc => h c (by simp [hc])) i (by simpa using hi)
        rw [List.flatten_cons, show (i + 1) * k = c.length + i * k by rw [hc]; ring_nf, ← List.drop_drop, List.drop_left, this]
        simp
  unfold chunks
  rw [hlen l h, Nat.mul_div_cancel _ hk]
  refine List.ext_getElem (by simp) fun i h1 h2 => ?_
  simp only [List.getElem_map, List.getElem_range]
  exact hget l h i h2

theorem chunks_raw (k : Nat) (hk : 0 < k) (ns : List Nat) : chunks k (ns.flatMap (enc k)) = ns.map (enc k) := by
  rw [List.flatMap_def]
  exact chunks_flatMap k hk _ (by simp [enc_length])

theorem raw64 (xs : List (BitVec 64)) : chunks 8 (xs.flatMap fun x => enc 8 x.toNat) = xs.map fun x => enc 8 x.toNat := by
  have := chunks_raw 8 (by decide) (xs.map (·.toNat))
  simpa [List.flatMap_map, Function.comp_def] using this

theorem dec64 (x : BitVec 64) : BitVec.ofNat 64 (le (enc 8 x.toNat)) = x := by
  rw [le_enc]
  apply BitVec.eq_of_toNat_eq
  rw [BitVec.toNat_ofNat]
  have := x.isLt
  have h : (256 : Nat) ^ 8 = 2 ^ 64 := by norm_num
  rw [h, Nat.mod_eq_of_lt this, Nat.mod_eq_of_lt this]

theorem mapM_some {A B : Type} (l : List A) (f : A → Option B) (g : A → B) (h : ∀ a ∈ l, f a = some (g a)) :
    l.mapM f = some (l.map g) := by
  induction l with
  | nil => rfl
  | cons a l ih =>
    rw [List.mapM_cons, h a (by simp), ih fun a ha => h a (by simp [ha])]
    rfl

theorem mapM_congr_mem {A B : Type} (l : List A) (f g : A → Option B) (h : ∀ a ∈ l, f a = g a) : l.mapM f = l.mapM g := by
  induction l with
  | nil => rfl
  | cons a l ih => rw [List.mapM_cons, List.mapM_cons, h a (by simp), ih fun a ha => h a (by simp [ha])]

theorem mapM_map {A B C : Type} (l : List A) (f : A → B) (g : B → Option C) : (l.map f).mapM g = l.mapM fun a => g (f a) := by
  induction l with
  | nil => rfl
  | cons a l ih => rw [List.map_cons, List.mapM_cons, List.mapM_cons, ih]

theorem mapM_none {A B : Type} (l : List A) (f : A → Option B) (a : A) (ha : a ∈ l) (h : f a = none) : l.mapM f = none := by
  induction l with
  | nil => simp at ha
  | cons b l ih =>
    rw [List.mapM_cons]
    rcases List.mem_cons.1 ha with rfl | ha
    · rw [h]; rfl
    · rw [ih ha]; cases f b <;> rfl

/-- reading one number as a double -/
def readDouble (L : Lib) (o : Py) : Option F64 := if (getDouble L o).1 then some (getDouble L o).2 else none
def readLong (L : Lib) (o : Py) : Option Int := if (getLong L o).1 then some (getLong L o).2 else none

theorem readDouble_int (L : Lib) (n : Int) : readDouble L (.int n) = L.ofInt n ∧ readDouble L (.npInt n) = L.ofInt n := by
  constructor
  · have : getDouble L (.int n) = match L.ofInt n with
      | some x => (true, x)
      | none => (false, 0) := rfl
    unfold readDouble
    rw [this]
    split <;> simp [*]
  · have : getDouble L (.npInt n) = match L.ofInt n with
      | some x => (true, x)
      | none => (false, 0) := rfl
    unfold readDouble
    rw [this]
    split <;> simp [*]

theorem fromList_double (L : Lib) (widen : BitVec 32 → F64) (np : Bool) (v : Vec) (tc : Option String) (b : List Byte) (k : Nat) :
    fromList (getDouble L) (.arr tc k b (v.items widen np)) = v.doubles L widen := by
  show List.mapM (readDouble L) _ = _
  cases v with
  | f64 xs =>
    simp only [Vec.items, Vec.doubles, mapM_map]
    rw [mapM_some xs _ id]
    · simp
    · intro x _; cases np <;> rfl
  | f32 xs =>
    simp only [Vec.items, Vec.doubles, mapM_map]
    rw [mapM_some xs _ widen]
    intro x _; cases np <;> rfl
  | i64 ns =>
    simp only [Vec.items, Vec.doubles, mapM_map]
    exact mapM_congr_mem _ _ _ fun n _ => by cases np; exact (readDouble_int L _).1; exact (readDouble_int L _).2
  | i32 ns =>
    simp only [Vec.items, Vec.doubles, mapM_map]
    exact mapM_congr_mem _ _ _ fun n _ => by cases np; exact (readDouble_int L _).1; exact (readDouble_int L _).2

/-- **C65 (partial)** A vector given as `array.array` of any type, or as a numpy vector of floating point numbers or of 32 bit integers, is
received as exactly the numbers in it (and refused exactly if one of them has no `double`).  Missing: numpy vectors of 64 bit integers
(`numpy_int64_counterexample`). -/
theorem doubles_partial (L : Lib) (widen : BitVec 32 → F64) (v : Vec) :
    getDoubleList L (v.array widen) = v.doubles L widen ∧
    ((∀ ns, v ≠ .i64 ns) → getDoubleList L (v.numpy widen) = v.doubles L widen) := by
  have hempty : ∀ (o : Py) (w : List F64), fromBytes ["d"] 8 o = w.map (fun x => enc 8 x.toNat) → fromList (getDouble L) o = some w →
      getDoubleList L o = some w := by
    intro o w h1 h2
    unfold getDoubleList
    simp only [h1]
    split
    · simp only [List.map_map, Option.some.injEq]
      simp only [Function.comp_def, dec64, List.map_id']
    · exact h2
  have hno : ∀ o : Py, fromBytes ["d"] 8 o = [] → getDoubleList L o = fromList (getDouble L) o := by
    intro o h
    unfold getDoubleList
    simp [h]
  constructor
  · cases v with
    | f64 xs =>
      refine hempty _ xs ?_ (fromList_double L widen false (.f64 xs) _ _ _)
      simp [Vec.array, fromBytes, arrayInfo, Vec.code, Vec.size, Vec.raw, raw64]
    | f32 xs => rw [hno _ (by simp [Vec.array, fromBytes, arrayInfo, Vec.code, Vec.size])]; exact fromList_double L widen false _ _ _ _
    | i64 xs => rw [hno _ (by simp [Vec.array, fromBytes, arrayInfo, Vec.code, Vec.size])]; exact fromList_double L widen false _ _ _ _
    | i32 xs => rw [hno _ (by simp [Vec.array, fromBytes, arrayInfo, Vec.code, Vec.size])]; exact fromList_double L widen false _ _ _ _
  · intro hv
    cases v with
    | f64 xs =>
      refine hempty _ xs ?_ (fromList_double L widen true (.f64 xs) _ _ _)
      simp [Vec.numpy, fromBytes, arrayInfo, Vec.size, Vec.raw, raw64]
    | f32 xs => rw [hno _ (by simp [Vec.numpy, fromBytes, arrayInfo, Vec.size])]; exact fromList_double L widen true _ _ _ _
    | i64 xs => exact absurd rfl (hv xs)
    | i32 xs => rw [hno _ (by simp [Vec.numpy, fromBytes, arrayInfo, Vec.size])]; exact fromList_double L widen true _ _ _ _

/-- **C65, refuted part**: of a numpy vector of 64 bit integers the bytes are taken for doubles: whatever the integers are, the values are
their bit patterns. -/
theorem numpy_int64_counterexample (L : Lib) (widen : BitVec 32 → F64) (ns : List (BitVec 64)) (h : ns ≠ []) :
    getDoubleList L ((Vec.i64 ns).numpy widen) = some ns := by
  unfold getDoubleList
  have : fromBytes ["d"] 8 ((Vec.i64 ns).numpy widen) = ns.map fun x => enc 8 x.toNat := by
    simp [Vec.numpy, fromBytes, arrayInfo, Vec.size, Vec.raw, raw64]
  simp only [this]
  rw [if_pos (by simpa using h)]
  simp only [List.map_map, Option.some.injEq]
  simp only [Function.comp_def, dec64, List.map_id']

/-- 1 is not received as the double 1.0 -/
example (L : Lib) (widen : BitVec 32 → F64) :
    getDoubleList L ((Vec.i64 [1#64]).numpy widen) = some [1#64] ∧ (1#64 : F64) ≠ 0x3ff0000000000000#64 :=
  ⟨numpy_int64_counterexample L widen _ (by simp), by decide⟩

/-- **C65** A list or tuple of numbers is received as these numbers; if one item is not a number, it is refused. -/
theorem double_list (L : Lib) (l : List Py) :
    (∀ xs, List.Forall₂ (fun o x => o = .flt x ∨ o = .npFlt x ∨ ∃ n, (o = .int n ∨ o = .npInt n) ∧ L.ofInt n = some x) l xs →
      getDoubleList L (.seq l) = some xs) ∧
    ((∃ o ∈ l, ∃ t m, o = .other t ∨ o = .seq m) → getDoubleList L (.seq l) = none) := by
  have h0 : getDoubleList L (.seq l) = l.mapM (readDouble L) := rfl
  constructor
  · intro xs h
    rw [h0]
    induction h with
    | nil => rfl
    | @cons o x l xs hox _ ih =>
      have : readDouble L o = some x := by
        rcases hox with rfl | rfl | ⟨n, rfl | rfl, hn⟩
        · rfl
        · rfl
        · rw [(readDouble_int L n).1, hn]
        · rw [(readDouble_int L n).2, hn]
      rw [List.mapM_cons, this, ih rfl]
      rfl
  · rintro ⟨o, ho, t, m, rfl | rfl⟩
    · rw [h0]; exact mapM_none l _ _ ho rfl
    · rw [h0]; exact mapM_none l _ _ ho rfl

theorem toInt_long (n : BitVec 64) : asLong n.toInt = n.toInt := by
  unfold asLong
  rw [if_pos]
  have h1 := n.toInt_lt
  have h2 := n.le_toInt
  unfold LONG_MIN LONG_MAX
  norm_num at h1 h2
  omega

theorem toInt_long32 (n : BitVec 32) : asLong n.toInt = n.toInt := by
  unfold asLong
  rw [if_pos]
  have h1 := n.toInt_lt
  have h2 := n.le_toInt
  unfold LONG_MIN LONG_MAX
  norm_num at h1 h2
  omega

theorem i64_enc (n : BitVec 64) : i64 (enc 8 n.toNat) = n.toInt := by
  unfold i64; rw [dec64]

/-- **C65 (partial)** A vector of integers given as `array.array`, or as a numpy vector of 64 bit integers, is received as these integers;
an `array.array` of floating point numbers and numpy vectors of 32 bit numbers that are not empty are refused.  Missing: numpy vectors of
doubles (`numpy_float64_counterexample`). -/
theorem longs_partial (L : Lib) (widen : BitVec 32 → F64) (v : Vec) :
    (∀ ns, v.ints = some ns → getLongList L (v.array widen) = some ns) ∧
    (v.ints = none → v.items widen false ≠ [] → getLongList L (v.array widen) = none) ∧
    (∀ ns, v = .i64 ns → getLongList L (v.numpy widen) = some (ns.map (·.toInt))) ∧
    (v.size = 4 → v.items widen true ≠ [] → getLongList L (v.numpy widen) = none) := by
  have hno : ∀ o : Py, fromBytes ["l", "L", "q", "Q"] 8 o = [] → getLongList L o = fromList (getLong L) o := by
    intro o h
    unfold getLongList
    simp [h]
  have hyes : ∀ (o : Py) (w : List (BitVec 64)), fromBytes ["l", "L", "q", "Q"] 8 o = w.map (fun x => enc 8 x.toNat) →
      (w = [] → fromList (getLong L) o = some []) → getLongList L o = some (w.map (·.toInt)) := by
    intro o w h1 h2
    unfold getLongList
    simp only [h1]
    split
    · simp only [List.map_map, Option.some.injEq]
      simp only [Function.comp_def, i64_enc]
    · rename_i h
      have hw : w = [] := by simpa using h
      rw [h2 hw, hw]; rfl
  have hnone : ∀ (items : List Py) (tc : Option String) (k : Nat) (b : List Byte), items ≠ [] → (∀ o ∈ items, readLong L o = none) →
      fromList (getLong L) (.arr tc k b items) = none := by
    intro items tc k b h1 h2
    obtain ⟨o, l, rfl⟩ := List.exists_cons_of_ne_nil h1
    show List.mapM (readLong L) _ = none
    exact mapM_none _ _ o (by simp) (h2 o (by simp))
  refine ⟨?_, ?_, ?_, ?_⟩
  · intro ns hns
    cases v with
    | f64 xs => simp [Vec.ints] at hns
    | f32 xs => simp [Vec.ints] at hns
    | i64 xs =>
      simp only [Vec.ints, Option.some.injEq] at hns
      rw [← hns]
      refine hyes _ xs ?_ ?_
      · simp [Vec.array, fromBytes, arrayInfo, Vec.code, Vec.size, Vec.raw, raw64]
      · rintro rfl; rfl
    | i32 xs =>
      simp only [Vec.ints, Option.some.injEq] at hns
      rw [← hns, hno _ (by simp [Vec.array, fromBytes, arrayInfo, Vec.code, Vec.size])]
      show List.mapM (readLong L) _ = _
      simp only [Vec.items, mapM_map]
      refine mapM_some xs _ _ fun n _ => ?_
      simp [readLong, getLong, toInt_long32]
  · intro hi hne
    cases v with
    | f64 xs =>
      rw [hno _ (by simp [Vec.array, fromBytes, arrayInfo, Vec.code, Vec.size])]
      refine hnone _ _ _ _ hne ?_
      intro o ho
      simp only [Vec.items, List.mem_map] at ho
      obtain ⟨x, _, rfl⟩ := ho
      rfl
    | f32 xs =>
      rw [hno _ (by simp [Vec.array, fromBytes, arrayInfo, Vec.code, Vec.size])]
      refine hnone _ _ _ _ hne ?_
      intro o ho
      simp only [Vec.items, List.mem_map] at ho
      obtain ⟨x, _, rfl⟩ := ho
      rfl
    | i64 xs => simp [Vec.ints] at hi
    | i32 xs => simp [Vec.ints] at hi
  · rintro ns rfl
    refine hyes _ ns ?_ ?_
    · simp [Vec.numpy, fromBytes, arrayInfo, Vec.size, Vec.raw, raw64]
    · rintro rfl; rfl
  · intro hs hne
    cases v with
    | f64 xs => simp [Vec.size] at hs
    | i64 xs => simp [Vec.size] at hs
    | f32 xs =>
      rw [hno _ (by simp [Vec.numpy, fromBytes, arrayInfo, Vec.size])]
      refine hnone _ _ _ _ hne ?_
      intro o ho
      simp only [Vec.items, List.mem_map] at ho
      obtain ⟨x, _, rfl⟩ := ho
      rfl
    | i32 xs =>
      rw [hno _ (by simp [Vec.numpy, fromBytes, arrayInfo, Vec.size])]
      refine hnone _ _ _ _ hne ?_
      intro o ho
      simp only [Vec.items, List.mem_map] at ho
      obtain ⟨x, _, rfl⟩ := ho
      rfl

/-- **C65, refuted part**: of a numpy vector of doubles given for integers the bit patterns are taken. -/
theorem numpy_float64_counterexample (L : Lib) (widen : BitVec 32 → F64) (xs : List F64) (h : xs ≠ []) :
    getLongList L ((Vec.f64 xs).numpy widen) = some (xs.map (·.toInt)) := by
  unfold getLongList
  have : fromBytes ["l", "L", "q", "Q"] 8 ((Vec.f64 xs).numpy widen) = xs.map fun x => enc 8 x.toNat := by
    simp [Vec.numpy, fromBytes, arrayInfo, Vec.size, Vec.raw, raw64]
  simp only [this]
  rw [if_pos (by simpa using h)]
  simp only [List.map_map, Option.some.injEq]
  simp only [Function.comp_def, i64_enc]

/-- **C65** A list of integers that fit into 64 bits is received exactly, a list with an item that is no integer (or text of one) is
refused. -/
theorem long_list (L : Lib) (l : List Py) :
    (∀ ns : List Int, (∀ n ∈ ns, LONG_MIN ≤ n ∧ n ≤ LONG_MAX) → l = ns.map .int → getLongList L (.seq l) = some ns) ∧
    ((∃ o ∈ l, ∀ n, o ≠ .int n ∧ (∀ s, o ≠ .str s) ∧ ∀ b, o ≠ .bytes b) → getLongList L (.seq l) = none) := by
  have h0 : getLongList L (.seq l) = l.mapM (readLong L) := rfl
  constructor
  · rintro ns hr rfl
    rw [h0, mapM_map]
    conv_rhs => rw [← List.map_id ns]
    refine mapM_some ns _ _ fun n hn => ?_
    simp [readLong, getLong, asLong, hr n hn]
  · rintro ⟨o, ho, h⟩
    rw [h0]
    refine mapM_none l _ _ ho ?_
    cases o with
    | int n => exact absurd rfl (h n).1
    | str s => exact absurd rfl ((h 0).2.1 s)
    | bytes b => exact absurd rfl ((h 0).2.2 b)
    | _ => rfl

/-- **C65, refuted part**: an integer that does not fit is received as −1, for `size_t` as 2⁶⁴ − 1. -/
theorem long_overflow_counterexample (L : Lib) (n : Int) (h : LONG_MAX < n) :
    getLongList L (.seq [.int n]) = some [-1] ∧ getUnsignedLongList L (.seq [.int n]) = some [18446744073709551615] := by
  have h1 : getLongList L (.seq [.int n]) = some [-1] := by
    have : asLong n = -1 := by
      unfold asLong
      rw [if_neg]
      omega
    show List.mapM (readLong L) _ = _
    simp [readLong, getLong, this]
  refine ⟨h1, ?_⟩
  unfold getUnsignedLongList
  rw [h1]
  decide

end Verif.PyArg
