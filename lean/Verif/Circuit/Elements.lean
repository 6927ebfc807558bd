import Verif.Util.FMap
import Mathlib.Algebra.Field.Basic
import Mathlib.Algebra.BigOperators.Group.List.Basic
import Mathlib.Tactic.Ring
import Mathlib.Tactic.LinearCombination
/-
C35: the equations that the circuit elements assemble.  Models the `assembleDC_impl`/`assembleTran_impl` functions of the five
elements and the loops of InstanceKeeper.

A terminal is `none` for ground and `some row` otherwise (`isGROUND()` and `getNumber()`); the branch unknown of a source or
inductor is a row.  `F` is a field standing for `double`.  The solution is a function of the row.
-/
namespace Verif.Elements
variable {F : Type} [Field F]

/-- an element with the rows of its nodes and its parameter -/
inductive Elem (F : Type)
  | resistor (top bot : Option Nat) (R : F)
  | capacitor (top bot : Option Nat) (C : F)
  | inductor (top bot : Option Nat) (branch : Nat) (L : F)
  | voltage (p m : Option Nat) (branch : Nat) (V : F)
  | current (p m : Option Nat) (I : F)

/-- one matrix entry: row, column, value (`RealRowColVal`) -/
abbrev Entry (F : Type) := Nat × Nat × F

/-- `is_gnd ? 0.0 : sol[num]` -/
def volt (sol : Nat → F) : Option Nat → F
  | none => 0
  | some i => sol i

/-- `if (!is_gnd) rhs.push_back(make_pair(num, v))` -/
def push1 (r : Option Nat) (v : F) : List (Nat × F) :=
  match r with
  | none => []
  | some i => [(i, v)]

/-- `if (!is_gnd_r && !is_gnd_c) mat.push_back(RealRowColVal(r, c, v))` -/
def push2 (r c : Option Nat) (v : F) : List (Entry F) :=
  match r, c with
  | some i, some j => [(i, j, v)]
  | _, _ => []

/-- the right hand side of `assembleDC_impl`: IdealResistor.cc:14-33, IdealCapacitor.cc:14-16, IdealInductor.cc:15-38,
IdealVoltage.cc:84-119, IdealCurrent.cc:38-54 -/
def dcRhs (sol : Nat → F) : Elem F → List (Nat × F)
  | .resistor top bot R =>
    let G := R⁻¹
    let ir := (volt sol top - volt sol bot) * G
    push1 bot (-ir) ++ push1 top ir
  | .capacitor _ _ _ => []
  | .inductor top bot b _ =>
    let I := sol b
    let vdiff := volt sol bot - volt sol top
    [(b, vdiff)] ++ push1 bot (-I) ++ push1 top I
  | .voltage p m b v =>
    let V := -v + volt sol p - volt sol m
    let I := sol b
    push1 p I ++ push1 m (-I) ++ [(b, V)]
  | .current p m i => push1 p (-i) ++ push1 m i

/-- the matrix entries of `assembleDC_impl`: IdealResistor.cc:34-51, IdealInductor.cc:39-60, IdealVoltage.cc:104-117 -/
def dcMat (_sol : Nat → F) : Elem F → List (Entry F)
  | .resistor top bot R =>
    let G := R⁻¹
    let d_top := G
    let d_bot := -G
    push2 bot top (-d_top) ++ push2 bot bot (-d_bot) ++ push2 top top d_top ++ push2 top bot d_bot
  | .capacitor _ _ _ => []
  | .inductor top bot b _ =>
    push2 (some b) top (-1) ++ push2 (some b) bot 1 ++ push2 bot (some b) (-1) ++ push2 top (some b) 1
  | .voltage p m b _ =>
    push2 p (some b) 1 ++ push2 (some b) p 1 ++ push2 m (some b) (-1) ++ push2 (some b) m (-1)
  | .current _ _ _ => []

/-- the right hand side of `assembleTran_impl`: IdealCapacitor.cc:18-34, IdealInductor.cc:66-77 (the other elements add nothing) -/
def tranRhs (scl : F) (sol : Nat → F) : Elem F → List (Nat × F)
  | .capacitor top bot C =>
    let iq := C * (volt sol top - volt sol bot)
    push1 bot (scl * (-iq)) ++ push1 top (scl * iq)
  | .inductor _ _ b L => [(b, scl * (sol b * L))]
  | _ => []

/-- the matrix entries of `assembleTran_impl`: IdealCapacitor.cc:37-56, IdealInductor.cc:80-87 -/
def tranMat (scl : F) (_sol : Nat → F) : Elem F → List (Entry F)
  | .capacitor top bot C =>
    push2 bot top (scl * (-C)) ++ push2 bot bot (scl * (-(-C))) ++ push2 top top (scl * C) ++ push2 top bot (scl * (-C))
  | .inductor _ _ b L => [(b, b, scl * L)]
  | _ => []

/-- the loops of InstanceKeeper::AssembleDCMatrix / AssembleTRMatrix, InstanceKeeper.cc:73-97 -/
def assembleDC (els : List (Elem F)) (sol : Nat → F) : List (Entry F) × List (Nat × F) :=
  (els.flatMap (dcMat sol), els.flatMap (dcRhs sol))
def assembleTran (scl : F) (els : List (Elem F)) (sol : Nat → F) : List (Entry F) × List (Nat × F) :=
  (els.flatMap (tranMat scl sol), els.flatMap (tranRhs scl sol))

/-! ### specification -/
/-- the residual of row `r`: the sum of the contributions to that row -/
def rowSum (r : Nat) (l : List (Nat × F)) : F := (l.map (fun e => if e.1 = r then e.2 else 0)).sum
/-- row `r` of the assembled matrix times the vector `v` -/
def rowMul (r : Nat) (l : List (Entry F)) (v : Nat → F) : F :=
  (l.map (fun e => if e.1 = r then e.2.2 * v e.2.1 else 0)).sum

theorem rowSum_append (r : Nat) (l m : List (Nat × F)) : rowSum r (l ++ m) = rowSum r l + rowSum r m := by
  simp [rowSum]
theorem rowMul_append (r : Nat) (l m : List (Entry F)) (v : Nat → F) :
    rowMul r (l ++ m) v = rowMul r l v + rowMul r m v := by
  simp [rowMul]
theorem rowSum_push1 (r : Nat) (t : Option Nat) (v : F) : rowSum r (push1 t v) = if t = some r then v else 0 := by
  cases t <;> simp [rowSum, push1]
theorem rowMul_push2 (r : Nat) (t c : Option Nat) (x : F) (v : Nat → F) :
    rowMul r (push2 t c x) v = if t = some r then x * volt v c else 0 := by
  cases t <;> cases c <;> simp [rowMul, push2, volt]
theorem rowSum_one (r b : Nat) (v : F) : rowSum r [(b, v)] = if b = r then v else 0 := by simp [rowSum]
theorem rowMul_one (r b c : Nat) (x : F) (v : Nat → F) : rowMul r [(b, c, x)] v = if b = r then x * v c else 0 := by
  simp [rowMul]
theorem volt_sub (x y : Nat → F) (t : Option Nat) : volt (fun i => x i - y i) t = volt x t - volt y t := by
  cases t <;> simp [volt]

theorem rowSum_flatMap {A : Type} (r : Nat) (l : List A) (f : A → List (Nat × F)) :
    rowSum r (l.flatMap f) = (l.map (fun a => rowSum r (f a))).sum := by
  induction l with
  | nil => simp [rowSum]
  | cons a l ih => rw [List.flatMap_cons, rowSum_append, ih]; simp
theorem rowMul_flatMap {A : Type} (r : Nat) (l : List A) (f : A → List (Entry F)) (v : Nat → F) :
    rowMul r (l.flatMap f) v = (l.map (fun a => rowMul r (f a) v)).sum := by
  induction l with
  | nil => simp [rowMul]
  | cons a l ih => rw [List.flatMap_cons, rowMul_append, ih]; simp
theorem sum_sub {A : Type} (l : List A) (f g h : A → F) (hfg : ∀ a ∈ l, f a - g a = h a) :
    (l.map f).sum - (l.map g).sum = (l.map h).sum := by
  induction l with
  | nil => simp
  | cons a l ih =>
    simp only [List.map_cons, List.sum_cons]
    rw [← ih (fun b hb => hfg b (by simp [hb])), ← hfg a (by simp)]
    ring

theorem elem_dc (e : Elem F) (x y : Nat → F) (r : Nat) :
    rowSum r (dcRhs x e) - rowSum r (dcRhs y e) = rowMul r (dcMat x e) (fun i => x i - y i) := by
  cases e with
  | resistor top bot R =>
    simp only [dcRhs, dcMat, rowSum_append, rowMul_append, rowSum_push1, rowMul_push2, volt_sub]
    split_ifs <;> ring
  | capacitor => simp [dcRhs, dcMat, rowSum, rowMul]
  | inductor top bot b L =>
    simp only [dcRhs, dcMat, rowSum_append, rowMul_append, rowSum_push1, rowMul_push2, rowSum_one, volt_sub,
      Option.some.injEq]
    simp only [volt]
    split_ifs <;> ring
  | voltage p m b v =>
    simp only [dcRhs, dcMat, rowSum_append, rowMul_append, rowSum_push1, rowMul_push2, rowSum_one, volt_sub,
      Option.some.injEq]
    simp only [volt]
    split_ifs <;> ring
  | current p m i =>
    simp [dcRhs, dcMat, rowSum_append, rowSum_push1, rowMul]

theorem elem_tran (scl : F) (e : Elem F) (x y : Nat → F) (r : Nat) :
    rowSum r (tranRhs scl x e) - rowSum r (tranRhs scl y e) = rowMul r (tranMat scl x e) (fun i => x i - y i) := by
  cases e with
  | capacitor top bot C =>
    simp only [tranRhs, tranMat, rowSum_append, rowMul_append, rowSum_push1, rowMul_push2, volt_sub]
    split_ifs <;> ring
  | inductor top bot b L =>
    simp only [tranRhs, tranMat, rowSum_one, rowMul_one]
    split_ifs <;> ring
  | resistor => simp [tranRhs, tranMat, rowSum, rowMul]
  | voltage => simp [tranRhs, tranMat, rowSum, rowMul]
  | current => simp [tranRhs, tranMat, rowSum, rowMul]

/-- C35: for every circuit, the assembled static matrix is the exact Jacobian of the assembled residual: for any two solutions the
difference of the residuals in every row is the matrix row times the difference of the solutions. -/
theorem dc_jacobian_exact (els : List (Elem F)) (x y : Nat → F) (r : Nat) :
    rowSum r (assembleDC els x).2 - rowSum r (assembleDC els y).2 =
      rowMul r (assembleDC els x).1 (fun i => x i - y i) := by
  unfold assembleDC
  rw [rowSum_flatMap, rowSum_flatMap, rowMul_flatMap]
  exact sum_sub els _ _ _ (fun e _ => elem_dc e x y r)

/-- C35: the same for the charge terms, with any scale factor. -/
theorem tran_jacobian_exact (scl : F) (els : List (Elem F)) (x y : Nat → F) (r : Nat) :
    rowSum r (assembleTran scl els x).2 - rowSum r (assembleTran scl els y).2 =
      rowMul r (assembleTran scl els x).1 (fun i => x i - y i) := by
  unfold assembleTran
  rw [rowSum_flatMap, rowSum_flatMap, rowMul_flatMap]
  exact sum_sub els _ _ _ (fun e _ => elem_tran scl e x y r)

/-- the terminals and the branch row of an element -/
def terminals : Elem F → List (Option Nat)
  | .resistor a b _ => [a, b]
  | .capacitor a b _ => [a, b]
  | .inductor a b _ _ => [a, b]
  | .voltage a b _ _ => [a, b]
  | .current a b _ => [a, b]
def branch : Elem F → Option Nat
  | .inductor _ _ b _ => some b
  | .voltage _ _ b _ => some b
  | _ => none

/-- the total of the contributions to the rows selected by `p` -/
def totalOn (p : Nat → Bool) (l : List (Nat × F)) : F := (l.map (fun e => if p e.1 then e.2 else 0)).sum

theorem totalOn_append (p : Nat → Bool) (l m : List (Nat × F)) : totalOn p (l ++ m) = totalOn p l + totalOn p m := by
  simp [totalOn]
theorem totalOn_flatMap {A : Type} (p : Nat → Bool) (l : List A) (f : A → List (Nat × F)) :
    totalOn p (l.flatMap f) = (l.map (fun a => totalOn p (f a))).sum := by
  induction l with
  | nil => simp [totalOn]
  | cons a l ih => rw [List.flatMap_cons, totalOn_append, ih]; simp

/-- C35, Kirchhoff's current law: in a circuit part without ground terminals, the currents and charges that all elements together
put into the node rows add up to zero, for every solution (`isNodeRow` separates the node rows from the branch rows). -/
theorem currents_conserved (els : List (Elem F)) (scl : F) (x : Nat → F) (isNodeRow : Nat → Bool)
    (hterm : ∀ e ∈ els, ∀ t ∈ terminals e, ∃ i, t = some i ∧ isNodeRow i = true)
    (hbranch : ∀ e ∈ els, ∀ b, branch e = some b → isNodeRow b = false) :
    totalOn isNodeRow (assembleDC els x).2 = 0 ∧ totalOn isNodeRow (assembleTran scl els x).2 = 0 := by
  unfold assembleDC assembleTran
  rw [totalOn_flatMap, totalOn_flatMap]
  constructor
  · apply List.sum_eq_zero
    intro v hv
    obtain ⟨e, he, rfl⟩ := List.mem_map.mp hv
    have ht := hterm e he
    have hb := hbranch e he
    cases e with
    | resistor a b R =>
      obtain ⟨i, rfl, hi⟩ := ht a (by simp [terminals]); obtain ⟨j, rfl, hj⟩ := ht b (by simp [terminals])
      simp [totalOn, dcRhs, push1, hi, hj]
    | capacitor => simp [totalOn, dcRhs]
    | inductor a b c L =>
      obtain ⟨i, rfl, hi⟩ := ht a (by simp [terminals]); obtain ⟨j, rfl, hj⟩ := ht b (by simp [terminals])
      simp [totalOn, dcRhs, push1, hi, hj, hb c rfl]
    | voltage a b c L =>
      obtain ⟨i, rfl, hi⟩ := ht a (by simp [terminals]); obtain ⟨j, rfl, hj⟩ := ht b (by simp [terminals])
      simp [totalOn, dcRhs, push1, hi, hj, hb c rfl]
    | current a b c =>
      obtain ⟨i, rfl, hi⟩ := ht a (by simp [terminals]); obtain ⟨j, rfl, hj⟩ := ht b (by simp [terminals])
      simp [totalOn, dcRhs, push1, hi, hj]
  · apply List.sum_eq_zero
    intro v hv
    obtain ⟨e, he, rfl⟩ := List.mem_map.mp hv
    have ht := hterm e he
    have hb := hbranch e he
    cases e with
    | capacitor a b R =>
      obtain ⟨i, rfl, hi⟩ := ht a (by simp [terminals]); obtain ⟨j, rfl, hj⟩ := ht b (by simp [terminals])
      simp [totalOn, tranRhs, push1, hi, hj]
    | inductor a b c L => simp [totalOn, tranRhs, hb c rfl]
    | resistor => simp [totalOn, tranRhs]
    | voltage => simp [totalOn, tranRhs]
    | current => simp [totalOn, tranRhs]

/-- specification: the current that leaves node `i` into element `e` (Ohm's law, the branch current of a source or inductor, the
value of a current source, which flows from its second to its first terminal) -/
def currentOut (x : Nat → F) (i : Nat) : Elem F → F
  | .resistor a b R => (if a = some i then (volt x a - volt x b) / R else 0) + (if b = some i then (volt x b - volt x a) / R else 0)
  | .capacitor _ _ _ => 0
  | .inductor a b c _ => (if a = some i then x c else 0) - (if b = some i then x c else 0)
  | .voltage a b c _ => (if a = some i then x c else 0) - (if b = some i then x c else 0)
  | .current a b I => (if b = some i then I else 0) - (if a = some i then I else 0)

/-- C35: what a static solution means.  If the residual vanishes in every row, then at every node that is not a branch unknown
the currents of the elements add up to zero, and across every voltage source whose branch row is not shared the
potential difference is the source voltage; across every inductor it is zero. -/
theorem dc_solution_laws (els : List (Elem F)) (x : Nat → F) (h : ∀ r, rowSum r (assembleDC els x).2 = 0) :
    (∀ i, (∀ e ∈ els, branch e ≠ some i) → (els.map (currentOut x i)).sum = 0) ∧
    (∀ pre e post c, els = pre ++ e :: post → branch e = some c →
      (∀ e' ∈ pre ++ post, branch e' ≠ some c) → (∀ e' ∈ els, some c ∉ terminals e') →
      (∀ a b v, e = .voltage a b c v → volt x a - volt x b = v) ∧
      (∀ a b L, e = .inductor a b c L → volt x a - volt x b = 0)) := by
  have key : ∀ r, (els.map (fun e => rowSum r (dcRhs x e))).sum = 0 := by
    intro r; rw [← rowSum_flatMap]; exact h r
  constructor
  · intro i hi
    rw [← key i]
    congr 1
    apply List.map_congr_left
    intro e he
    have hb := hi e he
    cases e with
    | resistor a b R =>
      simp only [currentOut, dcRhs, rowSum_append, rowSum_push1]
      split_ifs <;> ring
    | capacitor => simp [currentOut, dcRhs, rowSum]
    | inductor a b c L =>
      have : c ≠ i := by simpa [branch] using hb
      simp only [currentOut, dcRhs, rowSum_append, rowSum_push1, rowSum_one]
      split_ifs <;> first | ring | (rename_i h; exact absurd h this) | (simp_all)
    | voltage a b c L =>
      have : c ≠ i := by simpa [branch] using hb
      simp only [currentOut, dcRhs, rowSum_append, rowSum_push1, rowSum_one]
      split_ifs <;> first | ring | (rename_i h; exact absurd h this) | (simp_all)
    | current a b c =>
      simp only [currentOut, dcRhs, rowSum_append, rowSum_push1]
      split_ifs <;> ring
  · intro pre e post c hsplit hc hother hnt
    have hz : ∀ e' ∈ pre ++ post, rowSum c (dcRhs x e') = 0 := by
      intro e' he'
      have hb := hother e' he'
      have ht := hnt e' (by rw [hsplit]; simp only [List.mem_append, List.mem_cons] at he' ⊢; tauto)
      cases e' with
      | resistor a b R =>
        simp only [terminals, List.mem_cons, List.not_mem_nil, or_false, not_or] at ht
        simp only [dcRhs, rowSum_append, rowSum_push1]
        have h1 := Ne.symm ht.1; have h2 := Ne.symm ht.2
        simp [h1, h2]
      | capacitor => simp [dcRhs, rowSum]
      | inductor a b d L =>
        simp only [terminals, List.mem_cons, List.not_mem_nil, or_false, not_or] at ht
        have hd : d ≠ c := by simpa [branch] using hb
        simp only [dcRhs, rowSum_append, rowSum_push1, rowSum_one]
        have h1 := Ne.symm ht.1; have h2 := Ne.symm ht.2
        simp [h1, h2, hd]
      | voltage a b d L =>
        simp only [terminals, List.mem_cons, List.not_mem_nil, or_false, not_or] at ht
        have hd : d ≠ c := by simpa [branch] using hb
        simp only [dcRhs, rowSum_append, rowSum_push1, rowSum_one]
        have h1 := Ne.symm ht.1; have h2 := Ne.symm ht.2
        simp [h1, h2, hd]
      | current a b d =>
        simp only [terminals, List.mem_cons, List.not_mem_nil, or_false, not_or] at ht
        simp only [dcRhs, rowSum_append, rowSum_push1]
        have h1 := Ne.symm ht.1; have h2 := Ne.symm ht.2
        simp [h1, h2]
    have hk := key c
    rw [hsplit, List.map_append, List.map_cons, List.sum_append, List.sum_cons,
      List.sum_eq_zero (l := pre.map _) (by
        intro v hv; obtain ⟨e', he', rfl⟩ := List.mem_map.mp hv; exact hz e' (by simp [he'])),
      List.sum_eq_zero (l := post.map _) (by
        intro v hv; obtain ⟨e', he', rfl⟩ := List.mem_map.mp hv; exact hz e' (by simp [he']))] at hk
    simp only [zero_add, add_zero] at hk
    have ht := hnt e (by rw [hsplit]; simp)
    constructor
    · rintro a b v rfl
      simp only [terminals, List.mem_cons, List.not_mem_nil, or_false, not_or] at ht
      simp only [dcRhs, rowSum_append, rowSum_push1, rowSum_one] at hk
      have h1 := Ne.symm ht.1; have h2 := Ne.symm ht.2
      simp only [h1, h2, if_false, if_true, zero_add, add_zero] at hk
      linear_combination hk
    · rintro a b L rfl
      simp only [terminals, List.mem_cons, List.not_mem_nil, or_false, not_or] at ht
      simp only [dcRhs, rowSum_append, rowSum_push1, rowSum_one] at hk
      have h1 := Ne.symm ht.1; have h2 := Ne.symm ht.2
      simp only [h1, h2, if_false, if_true, zero_add, add_zero] at hk
      linear_combination -hk

/-! a concrete circuit: a 6 V source (rows 0 and branch 2) over resistors 1 and 2 in series (nodes 0 and 1); the solution -/
def divider : List (Elem ℚ) := [.voltage (some 0) none 2 6, .resistor (some 0) (some 1) 1, .resistor (some 1) none 2]
def dividerSol : Nat → ℚ := fun i => if i = 0 then 6 else if i = 1 then 4 else if i = 2 then -2 else 0

example : ∀ r, rowSum r (assembleDC divider dividerSol).2 = 0 := by
  intro r
  have : r = 0 ∨ r = 1 ∨ r = 2 ∨ (r ≠ 0 ∧ r ≠ 1 ∧ r ≠ 2) := by omega
  rcases this with rfl | rfl | rfl | ⟨h0, h1, h2⟩
  · norm_num [assembleDC, divider, dividerSol, dcRhs, rowSum, push1, volt]
  · norm_num [assembleDC, divider, dividerSol, dcRhs, rowSum, push1, volt]
  · norm_num [assembleDC, divider, dividerSol, dcRhs, rowSum, push1, volt]
  · simp [assembleDC, divider, dividerSol, dcRhs, rowSum, push1, volt, h0.symm, h1.symm, h2.symm, Ne.symm]

end Verif.Elements
