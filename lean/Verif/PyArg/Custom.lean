import Verif.PyArg.Model
import Verif.SmallSignal.System

/-!
# C63: custom equations (`Newton.cc` 1352-1490)

A script returns `[matrix, rhs, permuted]`; `matrix` is a flat list of row, column, value, `rhs` one of row, value.  A `double` is
interpreted as a real number by `val`.
-/

namespace Verif.PyArg
open Verif.Assembly

noncomputable section

/-- `dsMathEnum::WhatToLoad` -/
inductive What where
  | permutationsOnly | matrixOnly | rhs | matrixAndRhs
deriving DecidableEq

/-- groups of `k` of the flat list; the length is a multiple of `k` -/
def readRhs (L : Lib) (val : F64 → ℝ) : List Py → Option (List (Int × ℝ))
  | r :: v :: l =>
    if (getInteger L r).1 ∧ (getDouble L v).1 then
      (readRhs L val l).map (((getInteger L r).2, val (getDouble L v).2) :: ·)
    else none
  | _ => some []

def readMat (L : Lib) (val : F64 → ℝ) : List Py → Option (List (Int × Int × ℝ))
  | r :: c :: v :: l =>
    if (getInteger L r).1 ∧ (getInteger L c).1 ∧ (getDouble L v).1 then
      (readMat L val l).map (((getInteger L r).2, (getInteger L c).2, val (getDouble L v).2) :: ·)
    else none
  | _ => some []

/-- `AssembleTclEquation`, `Newton.cc` 1352-1425: `none` is the error that ends the solution (`FATAL`) -/
def assembleOne (L : Lib) (val : F64 → ℝ) (w : What) (mat rhs : Py) : Option (List (Int × Int × ℝ) × List (Int × ℝ)) :=
  let r := if w = .matrixOnly then some [] else
    match listOf rhs with
    | some l => if l.length % 2 = 0 then readRhs L val l else none
    | none => none
  let m := if w = .rhs then some [] else
    match listOf mat with
    | some l => if l.length % 3 = 0 then readMat L val l else none
    | none => none
  match r, m with
  | some r, some m => some (m, r)
  | _, _ => none

/-- entries with `int` rows -/
abbrev Entries := List (Int × Int × ℝ) × List (Int × ℝ)

/-- `AssembleTclEquations`, `Newton.cc` 1427-1490: the scripts in the order of their names; `none` of a script is an exception in it.
The result: entries that are loaded directly, entries that are loaded through the permutation. -/
def assembleCustom (L : Lib) (val : F64 → ℝ) (w : What) : List (What → Option Py) → Option (Entries × Entries)
  | [] => some (([], []), ([], []))
  | script :: scripts =>
    match script w with
    | none => none
    | some result =>
      match listOf result with
      | some [mat, rhs, perm] =>
        if (getBoolean perm).1 then
          match assembleOne L val w mat rhs, assembleCustom L val w scripts with
          | some e, some (d, p) => if (getBoolean perm).2 then some (d, (e.1 ++ p.1, e.2 ++ p.2)) else some ((e.1 ++ d.1, e.2 ++ d.2), p)
          | _, _ => none
        else none
      | _ => none

/-! ### Specification -/

/-- What a script says, with mathematical numbers. -/
structure Contribution where
  mat : List (Nat × Nat × ℝ)
  rhs : List (Nat × ℝ)
  permuted : Bool

/-- `o` is the number `x`: a `float`, a numpy `float`, or an integer whose `double` is `x` -/
def IsReal (L : Lib) (val : F64 → ℝ) (o : Py) (x : ℝ) : Prop :=
  ∃ b, val b = x ∧ (o = .flt b ∨ o = .npFlt b ∨ ∃ n, (o = .int n ∨ o = .npInt n) ∧ L.ofInt n = some b)

/-- `o` is an equation number: exactly a Python `int` -/
def IsRow (o : Py) (n : Nat) : Prop := o = .int n ∧ (n : Int) ≤ INT_MAX

/-- the flat lists -/
inductive FlatRhs (L : Lib) (val : F64 → ℝ) : List Py → List (Nat × ℝ) → Prop
  | nil : FlatRhs L val [] []
  | cons {r v l n x es} : IsRow r n → IsReal L val v x → FlatRhs L val l es → FlatRhs L val (r :: v :: l) ((n, x) :: es)
inductive FlatMat (L : Lib) (val : F64 → ℝ) : List Py → List (Nat × Nat × ℝ) → Prop
  | nil : FlatMat L val [] []
  | cons {r c v l n m x es} : IsRow r n → IsRow c m → IsReal L val v x → FlatMat L val l es →
      FlatMat L val (r :: c :: v :: l) ((n, m, x) :: es)

/-- The result of the script describes the contribution, as far as it was asked for (`w`); for what was not asked for anything may be
returned. -/
def Describes (L : Lib) (val : F64 → ℝ) (w : What) (result : Py) (k : Contribution) : Prop :=
  ∃ mat rhs perm, (result = .seq [mat, rhs, perm]) ∧ perm = .bool k.permuted ∧
    (if w = .rhs then k.mat = [] else ∃ l, mat = .seq l ∧ FlatMat L val l k.mat) ∧
    (if w = .matrixOnly then k.rhs = [] else ∃ l, rhs = .seq l ∧ FlatRhs L val l k.rhs)

/-- entries with natural rows -/
def direct (ks : List Contribution) : List (MEntry ℝ) × List (VEntry ℝ) :=
  ((ks.filter fun k => !k.permuted).flatMap (·.mat), (ks.filter fun k => !k.permuted).flatMap (·.rhs))
def permuted (ks : List Contribution) : List (MEntry ℝ) × List (VEntry ℝ) :=
  ((ks.filter (·.permuted)).flatMap (·.mat), (ks.filter (·.permuted)).flatMap (·.rhs))

def liftInt (e : List (MEntry ℝ) × List (VEntry ℝ)) : Entries :=
  (e.1.map fun x => ((x.1 : Int), (x.2.1 : Int), x.2.2), e.2.map fun x => ((x.1 : Int), x.2))

/-! ### Proofs -/

theorem getInteger_row (L : Lib) {o : Py} {n : Nat} (h : IsRow o n) : getInteger L o = (true, (n : Int)) := by
  obtain ⟨rfl, h⟩ := h
  have h1 : INT_MIN ≤ (n : Int) := by unfold INT_MIN; omega
  have h2 : LONG_MIN ≤ (n : Int) ∧ (n : Int) ≤ LONG_MAX := by unfold INT_MAX at h; unfold LONG_MIN LONG_MAX; omega
  simp [getInteger, getLong, asLong, h1, h2, h]

theorem getDouble_real (L : Lib) (val : F64 → ℝ) {o : Py} {x : ℝ} (h : IsReal L val o x) :
    (getDouble L o).1 = true ∧ val (getDouble L o).2 = x := by
  obtain ⟨b, hb, rfl | rfl | ⟨n, rfl | rfl, hn⟩⟩ := h
  · exact ⟨rfl, hb⟩
  · exact ⟨rfl, hb⟩
  · have : getDouble L (.int n) = (true, b) := by simp only [getDouble, hn]
    rw [this]; exact ⟨rfl, hb⟩
  · have : getDouble L (.npInt n) = (true, b) := by simp only [getDouble, hn]
    rw [this]; exact ⟨rfl, hb⟩

theorem readRhs_flat (L : Lib) (val : F64 → ℝ) {l : List Py} {es : List (Nat × ℝ)} (h : FlatRhs L val l es) :
    l.length % 2 = 0 ∧ readRhs L val l = some (es.map fun x => ((x.1 : Int), x.2)) := by
  induction h with
  | nil => exact ⟨rfl, rfl⟩
  | cons hr hv _ ih =>
    refine ⟨by simp only [List.length_cons]; omega, ?_⟩
    have h1 := getInteger_row L hr
    have h2 := getDouble_real L val hv
    simp only [readRhs, h1, h2.1, h2.2, ih.2, and_self, if_true, Option.map_some, List.map_cons]

theorem readMat_flat (L : Lib) (val : F64 → ℝ) {l : List Py} {es : List (Nat × Nat × ℝ)} (h : FlatMat L val l es) :
    l.length % 3 = 0 ∧ readMat L val l = some (es.map fun x => ((x.1 : Int), (x.2.1 : Int), x.2.2)) := by
  induction h with
  | nil => exact ⟨rfl, rfl⟩
  | cons hr hc hv _ ih =>
    refine ⟨by simp only [List.length_cons]; omega, ?_⟩
    have h1 := getInteger_row L hr
    have h2 := getInteger_row L hc
    have h3 := getDouble_real L val hv
    simp only [readMat, h1, h2, h3.1, h3.2, ih.2, and_self, if_true, Option.map_some, List.map_cons]

theorem assembleOne_describes (L : Lib) (val : F64 → ℝ) (w : What) (mat rhs : Py) (m : List (Nat × Nat × ℝ)) (r : List (Nat × ℝ))
    (hm : if w = .rhs then m = [] else ∃ l, mat = .seq l ∧ FlatMat L val l m)
    (hr : if w = .matrixOnly then r = [] else ∃ l, rhs = .seq l ∧ FlatRhs L val l r) :
    assembleOne L val w mat rhs = some (liftInt (m, r)) := by
  have e1 : (if w = .matrixOnly then some [] else
    match listOf rhs with
    | some l => if l.length % 2 = 0 then readRhs L val l else none
    | none => none) = some (r.map fun x => ((x.1 : Int), x.2)) := by
    by_cases h : w = .matrixOnly
    · simp only [h, if_true] at hr ⊢
      rw [hr]; rfl
    · simp only [h, if_false] at hr ⊢
      obtain ⟨l, rfl, hf⟩ := hr
      obtain ⟨a, b⟩ := readRhs_flat L val hf
      simp only [listOf, a, b, if_true]
  have e2 : (if w = .rhs then some [] else
    match listOf mat with
    | some l => if l.length % 3 = 0 then readMat L val l else none
    | none => none) = some (m.map fun x => ((x.1 : Int), (x.2.1 : Int), x.2.2)) := by
    by_cases h : w = .rhs
    · simp only [h, if_true] at hm ⊢
      rw [hm]; rfl
    · simp only [h, if_false] at hm ⊢
      obtain ⟨l, rfl, hf⟩ := hm
      obtain ⟨a, b⟩ := readMat_flat L val hf
      simp only [listOf, a, b, if_true]
  unfold assembleOne
  simp only [e1, e2]
  rfl

/-- **C63 (partial)** If the result of every custom equation describes a contribution — rows and columns being exactly `int` objects —
exactly these contributions are assembled: those that asked for the permutation with it, the others without.  Missing: rows of other types
(`row_counterexample`). -/
theorem custom_assembled_partial (L : Lib) (val : F64 → ℝ) (w : What) (scripts : List (What → Option Py)) (ks : List Contribution)
    (h : List.Forall₂ (fun s k => ∃ o, s w = some o ∧ Describes L val w o k) scripts ks) :
    assembleCustom L val w scripts = some (liftInt (direct ks), liftInt (permuted ks)) := by
  induction h with
  | nil => rfl
  | @cons s k ss ks hsk _ ih =>
    obtain ⟨o, ho, mat, rhs, perm, rfl, rfl, hm, hr⟩ := hsk
    have e := assembleOne_describes L val w mat rhs k.mat k.rhs hm hr
    have hl : listOf (.seq [mat, rhs, .bool k.permuted]) = some [mat, rhs, .bool k.permuted] := rfl
    simp only [assembleCustom, ho, hl, e, ih, getBoolean, if_true]
    cases hk : k.permuted with
    | true => simp [direct, permuted, hk, liftInt]
    | false => simp [direct, permuted, hk, liftInt]

/-- **C63** A script that fails, a result that is not a list of three, or lists of the wrong length end the solution with an error. -/
theorem custom_refused (L : Lib) (val : F64 → ℝ) (w : What) (scripts : List (What → Option Py)) (s : What → Option Py) (hs : s ∈ scripts)
    (hbad : s w = none ∨ ∃ o, s w = some o ∧ (listOf o = none ∨ (∃ l, listOf o = some l ∧ l.length ≠ 3) ∨
      ∃ mat rhs perm, listOf o = some [mat, rhs, perm] ∧
        (w ≠ .matrixOnly ∧ (listOf rhs = none ∨ ∃ l, listOf rhs = some l ∧ l.length % 2 ≠ 0) ∨
         w ≠ .rhs ∧ (listOf mat = none ∨ ∃ l, listOf mat = some l ∧ l.length % 3 ≠ 0)))) :
    assembleCustom L val w scripts = none := by
  induction scripts with
  | nil => simp at hs
  | cons t ts ih =>
    rcases List.mem_cons.1 hs with rfl | hs
    · rcases hbad with h | ⟨o, ho, h⟩
      · simp only [assembleCustom, h]
      · rcases h with h | ⟨l, h, hl⟩ | ⟨mat, rhs, perm, h, hh⟩
        · simp only [assembleCustom, ho, h]
        · simp only [assembleCustom, ho, h]
          match l, hl with
          | [], _ => rfl
          | [_], _ => rfl
          | [_, _], _ => rfl
          | [_, _, _], hl => exact absurd rfl hl
          | _ :: _ :: _ :: _ :: _, _ => rfl
        · have e : assembleOne L val w mat rhs = none := by
            unfold assembleOne
            rcases hh with ⟨hw, hh⟩ | ⟨hw, hh⟩
            · rcases hh with hh | ⟨l, hh, hl⟩
              · simp only [hw, if_false, hh]
              · simp only [hw, if_false, hh, hl]
            · rcases hh with hh | ⟨l, hh, hl⟩
              · simp only [hw, if_false, hh]
                split <;> first | rfl | simp_all
              · simp only [hw, if_false, hh, hl]
                split <;> first | rfl | simp_all
          simp only [assembleCustom, ho, h, e]
          split <;> rfl
    · have e := ih hs
      simp only [assembleCustom]
      split
      · rfl
      · split
        · split
          · rw [e]
            split
            · rename_i h2; simp at h2
            · rfl
          · rfl
        · rfl

/-- **C63** A value that is no number ends the solution with an error. -/
theorem custom_value_refused (L : Lib) (val : F64 → ℝ) (pre l : List Py) (r v : Py) (hpre : pre.length % 2 = 0)
    (hv : (getDouble L v).1 = false) : readRhs L val (pre ++ r :: v :: l) = none := by
  match pre, hpre with
  | [], _ => simp [readRhs, hv]
  | [_], h => simp at h
  | a :: b :: pre, h =>
    have := custom_value_refused L val pre l r v (by simp only [List.length_cons] at h; omega) hv
    simp only [List.cons_append, readRhs, this, Option.map_none, ite_self]

theorem custom_matrix_value_refused (L : Lib) (val : F64 → ℝ) (pre l : List Py) (r c v : Py) (hpre : pre.length % 3 = 0)
    (hv : (getDouble L v).1 = false) : readMat L val (pre ++ r :: c :: v :: l) = none := by
  match pre, hpre with
  | [], _ => simp [readMat, hv]
  | [_], h => simp at h
  | [_, _], h => simp at h
  | a :: b :: d :: pre, h =>
    have := custom_matrix_value_refused L val pre l r c v (by simp only [List.length_cons] at h; omega) hv
    simp only [List.cons_append, readMat, this, Option.map_none, ite_self]

/-- **C63, refuted part**: a row that is a numpy integer (or a float) is taken for row 0, without any error. -/
theorem row_counterexample (L : Lib) (val : F64 → ℝ) (n : Int) (x : F64) :
    assembleCustom L val .rhs [fun _ => some (.seq [.seq [], .seq [.npInt n, .flt x], .bool false])] =
      some (([], [(0, val x)]), ([], [])) ∧
    assembleCustom L val .rhs [fun _ => some (.seq [.seq [], .seq [.flt x, .flt x], .bool false])] =
      some (([], [(0, val x)]), ([], [])) := by
  constructor <;>
  simp [assembleCustom, assembleOne, listOf, getBoolean, readRhs, getInteger, getLong, getDouble]

theorem matVec_flatMap {A : Type} (ks : List A) (g : A → List (MEntry ℝ)) (x : Nat → ℝ) (r : Nat) :
    matVec (ks.flatMap g) x r = (ks.map fun k => matVec (g k) x r).sum := by
  induction ks with
  | nil => simp [matVec]
  | cons k ks ih => rw [List.flatMap_cons, matVec_append, ih]; rfl

theorem rowSum_flatMap {A : Type} (ks : List A) (g : A → List (VEntry ℝ)) (r : Nat) :
    rowSum (ks.flatMap g) r = (ks.map fun k => rowSum (g k) r).sum := by
  induction ks with
  | nil => simp [rowSum]
  | cons k ks ih => rw [List.flatMap_cons, rowSum_append, ih]; rfl

/-- what a contribution adds to row `r` of a vector `F` (its own, by `G`) -/
def Contribution.row (p : Nat → PermEntry) (N : Nat) (F : Nat → ℝ) (k : Contribution) (r : Nat) : ℝ :=
  if k.permuted then permRow p N F r else F r

theorem permRow_sum {A : Type} (p : Nat → PermEntry) (N : Nat) (ks : List A) (F : A → Nat → ℝ) (r : Nat) :
    permRow p N (fun o => (ks.map fun k => F k o).sum) r = (ks.map fun k => permRow p N (F k) r).sum := by
  induction ks with
  | nil => simp [permRow]
  | cons k ks ih =>
    simp only [List.map_cons, List.sum_cons, ← ih]
    unfold permRow
    rw [← List.sum_map_add]
    congr 1
    refine List.map_congr_left fun o _ => ?_
    ring

theorem rows_split (p : Nat → PermEntry) (N : Nat) (ks : List Contribution) (F : Contribution → Nat → ℝ) (r : Nat) :
    deviceRow p N (fun o => ((ks.filter fun k => !k.permuted).map fun k => F k o).sum)
      (fun o => ((ks.filter (·.permuted)).map fun k => F k o).sum) r = (ks.map fun k => k.row p N (F k) r).sum := by
  unfold deviceRow
  rw [permRow_sum]
  induction ks with
  | nil => simp
  | cons k ks ih =>
    rw [List.map_cons, List.sum_cons, ← ih]
    cases hk : k.permuted with
    | true => simp [hk, Contribution.row]; ring
    | false => simp [hk, Contribution.row]; ring

/-- **C63, C25** The system that is solved, with custom equations: besides devices and circuit, row `r` of the residual (of the Jacobian
applied to `x`) gets the sum over all custom equations of what their lists say for row `r` — through the row operator of the bulk for those
that asked for it. -/
theorem custom_rows (p : Nat → PermEntry) (N : Nat) (scl : ℝ) (devs : List (Pieces ℝ)) (hN : ∀ d ∈ devs, InRange N d)
    (circuit : List (MEntry ℝ) × List (VEntry ℝ)) (offset : Nat) (ks : List Contribution)
    (hk : InRange N (direct ks, permuted ks)) (s : List (MEntry ℝ) × (Nat → ℝ)) :
    (∀ r, (SmallSignal.loadAll p scl devs circuit offset (direct ks, permuted ks) s).2 r = s.2 r - scl *
      ((devs.map fun d => deviceRow p N (rowSum d.1.2) (rowSum d.2.2) r).sum + rowSum (shiftV offset circuit.2) r +
        (ks.map fun k => k.row p N (rowSum k.rhs) r).sum)) ∧
    (∀ x r, matVec (SmallSignal.loadAll p scl devs circuit offset (direct ks, permuted ks) s).1 x r = matVec s.1 x r + scl *
      ((devs.map fun d => deviceRow p N (matVec d.1.1 x) (matVec d.2.1 x) r).sum + matVec (shiftM offset circuit.1) x r +
        (ks.map fun k => k.row p N (matVec k.mat x) r).sum)) := by
  obtain ⟨h1, h2⟩ := SmallSignal.loadAll_rows p N scl devs hN circuit offset (direct ks, permuted ks) hk s
  constructor
  · intro r
    rw [h1 r, SmallSignal.systemRes, ← rows_split]
    simp only [direct, permuted]
    have e1 : (rowSum ((ks.filter fun k => !k.permuted).flatMap (·.rhs))) =
        fun o => ((ks.filter fun k => !k.permuted).map fun k => rowSum k.rhs o).sum := by funext o; exact rowSum_flatMap _ _ _
    have e2 : (rowSum ((ks.filter (·.permuted)).flatMap (·.rhs))) =
        fun o => ((ks.filter (·.permuted)).map fun k => rowSum k.rhs o).sum := by funext o; exact rowSum_flatMap _ _ _
    rw [e1, e2]
  · intro x r
    rw [h2 x r, SmallSignal.systemRow, ← rows_split]
    simp only [direct, permuted]
    have e1 : (matVec ((ks.filter fun k => !k.permuted).flatMap (·.mat)) x) =
        fun o => ((ks.filter fun k => !k.permuted).map fun k => matVec k.mat x o).sum := by funext o; exact matVec_flatMap _ _ _ _
    have e2 : (matVec ((ks.filter (·.permuted)).flatMap (·.mat)) x) =
        fun o => ((ks.filter (·.permuted)).map fun k => matVec k.mat x o).sum := by funext o; exact matVec_flatMap _ _ _ _
    rw [e1, e2]

/-- a script that adds 1·x₂ − 3 to row 2, and what it describes -/
example (L : Lib) (val : F64 → ℝ) (a b : F64) :
    Describes L val .matrixAndRhs (.seq [.seq [.int 2, .int 2, .flt a], .seq [.int 2, .flt b], .bool true])
      ⟨[(2, 2, val a)], [(2, val b)], true⟩ := by
  refine ⟨_, _, _, rfl, rfl, ?_, ?_⟩
  · rw [if_neg (by decide)]
    exact ⟨_, rfl, .cons ⟨rfl, by decide⟩ ⟨rfl, by decide⟩ ⟨a, rfl, .inl rfl⟩ .nil⟩
  · rw [if_neg (by decide)]
    exact ⟨_, rfl, .cons ⟨rfl, by decide⟩ ⟨b, rfl, .inl rfl⟩ .nil⟩

end
end Verif.PyArg
