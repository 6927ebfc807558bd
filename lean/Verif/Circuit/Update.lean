import Verif.Circuit.Props
import Mathlib.Analysis.SpecialFunctions.Log.Basic
import Mathlib.Analysis.SpecialFunctions.Log.Deriv
import Mathlib.Analysis.SpecificLimits.Basic
import Mathlib.Algebra.BigOperators.Intervals
import Mathlib.Analysis.Complex.ExponentialBounds
/-
C21: NodeKeeper::UpdateSolution (NodeKeeper.cc:308-368) over the real numbers.

`double` is ℝ; the solution vector and the right hand side are functions of the index (the indices used are the node
numbers, which are below the length by `rows_after_analysis`).  The `while` loop is a big-step relation, so that
"terminates" is "is related to some result".
-/
namespace Verif.Circuit
open Verif

/-- the halving loop, NodeKeeper.cc:343-347: `while ((upd + oval) <= 0.0) upd /= 2.0;` -/
inductive Halve (oval : ℝ) : ℝ → ℝ → Prop
  | stop (upd : ℝ) : ¬ (upd + oval ≤ 0) → Halve oval upd upd
  | again (upd r : ℝ) : upd + oval ≤ 0 → Halve oval (upd / 2) r → Halve oval upd r

/-- the log damping, NodeKeeper.cc:333-341 -/
noncomputable def logDamp (upd : ℝ) : ℝ :=
  if |upd| > 0.0259 then (if upd > 0 then 1 else -1) * 0.0259 * Real.log (1 + |upd| / 0.0259) else upd

/-- the update of one node, NodeKeeper.cc:330-352 -/
inductive Damp : UpdateType → ℝ → ℝ → ℝ → Prop
  | default (oval upd : ℝ) : Damp .default oval upd upd
  | logdamp (oval upd : ℝ) : Damp .logdamp oval upd (logDamp upd)
  | positive (oval upd r : ℝ) : Halve oval upd r → Damp .positive oval upd r

/-- NodeKeeper.cc:317 -/
noncomputable def minError : ℝ := 1e-10

/-- the state of the loop: solution, aerr, rerr -/
structure Acc where
  sol : Nat → ℝ
  aerr : ℝ
  rerr : ℝ

/-- the body of the loop after the update `upd` of a node with number `i` has been computed, NodeKeeper.cc:354-365 -/
noncomputable def accumulate (a : Acc) (i : Nat) (upd : ℝ) : Acc :=
  let nval := upd + a.sol i
  let n1 := |upd|
  let n2 := |nval|
  let nr := n1 / (n2 + minError)
  ⟨Function.update a.sol i nval, a.aerr + n1, if nr > a.rerr then nr else a.rerr⟩

/-- the loop over `NodeTable_`, NodeKeeper.cc:322-366 -/
inductive UpdateLoop {N : Type} (minEq : Nat) (rhs : Nat → ℝ) : FMap N Node → Acc → Acc → Prop
  | nil (a : Acc) : UpdateLoop minEq rhs [] a a
  | ground (n : N) (d : Node) (t : FMap N Node) (a b : Acc) : d.ty = .ground → UpdateLoop minEq rhs t a b →
      UpdateLoop minEq rhs ((n, d) :: t) a b
  | node (n : N) (d : Node) (t : FMap N Node) (i : Nat) (upd : ℝ) (a b : Acc) : d.ty ≠ .ground → d.number = some i →
      Damp d.ut (a.sol i) (rhs (i + minEq)) upd → UpdateLoop minEq rhs t (accumulate a i upd) b →
      UpdateLoop minEq rhs ((n, d) :: t) a b

/-- NodeKeeper::UpdateSolution: both errors start from 0 -/
def UpdateSolution {N : Type} (minEq : Nat) (rhs : Nat → ℝ) (t : FMap N Node) (sol : Nat → ℝ) (b : Acc) : Prop :=
  UpdateLoop minEq rhs t ⟨sol, 0, 0⟩ b

/-! ### the halving loop -/

theorem halve_pos {oval : ℝ} (ho : 0 < oval) (upd : ℝ) : ∃ r, Halve oval upd r := by
  -- |upd| / 2^k is eventually below oval
  obtain ⟨k, hk⟩ : ∃ k : Nat, |upd| * (1 / 2) ^ k < oval := by
    have : Filter.Tendsto (fun k : Nat => |upd| * (1 / 2 : ℝ) ^ k) Filter.atTop (nhds (|upd| * 0)) :=
      (tendsto_pow_atTop_nhds_zero_of_lt_one (by norm_num) (by norm_num)).const_mul _
    rw [mul_zero] at this
    exact (this.eventually (gt_mem_nhds ho)).exists
  induction k generalizing upd with
  | zero =>
    refine ⟨upd, .stop upd ?_⟩
    simp only [pow_zero, mul_one] at hk
    have := neg_abs_le upd
    linarith
  | succ k ih =>
    by_cases h : upd + oval ≤ 0
    · obtain ⟨r, hr⟩ := ih (upd / 2) (by
        rw [abs_div, abs_two]
        rw [pow_succ] at hk
        linarith)
      exact ⟨r, .again _ _ h hr⟩
    · exact ⟨upd, .stop _ h⟩

theorem halve_spec {oval upd r : ℝ} (h : Halve oval upd r) :
    0 < r + oval ∧ ∃ k : Nat, r = upd / 2 ^ k ∧ ∀ j < k, upd / 2 ^ j + oval ≤ 0 := by
  induction h with
  | stop u hu => exact ⟨by linarith [not_le.mp hu], 0, by simp, fun j hj => absurd hj (Nat.not_lt_zero j)⟩
  | again u r hu _ ih =>
    obtain ⟨h1, k, h2, h3⟩ := ih
    refine ⟨h1, k + 1, by rw [h2, pow_succ]; field_simp, ?_⟩
    intro j hj
    cases j with
    | zero => simpa using hu
    | succ j =>
      have := h3 j (by omega)
      rw [pow_succ]
      have e : u / 2 / 2 ^ j = u / (2 ^ j * 2) := by field_simp
      rwa [e] at this

theorem halve_det {oval upd r s : ℝ} (h : Halve oval upd r) (g : Halve oval upd s) : r = s := by
  induction h with
  | stop u hu =>
    cases g with
    | stop _ _ => rfl
    | again _ _ h _ => exact absurd h hu
  | again u r hu _ ih =>
    cases g with
    | stop _ h => exact absurd hu h
    | again _ _ _ g => exact ih g

/-- C21 fails in general: if the current value is not positive and the update is not positive, the loop never ends (for
instance at the initial value 0 with update 0). -/
theorem halve_diverges {oval upd : ℝ} (ho : oval ≤ 0) (hu : upd ≤ 0) : ¬ ∃ r, Halve oval upd r := by
  rintro ⟨r, h⟩
  induction h with
  | stop u h => exact h (by linarith)
  | again u r _ _ ih => exact ih (by linarith)

example : ¬ ∃ r, Halve 0 0 r := halve_diverges le_rfl le_rfl
example : ∃ r, Halve 1 (-5) r := halve_pos one_pos _

/-! ### log damping -/

/-- C21: a log-damped update never exceeds the requested update, keeps its sign, vanishes only with it, and grows at most
logarithmically. -/
theorem logDamp_spec (u : ℝ) : |logDamp u| ≤ |u| ∧ 0 ≤ logDamp u * u ∧ (logDamp u = 0 ↔ u = 0) ∧
    |logDamp u| ≤ 0.0259 * (1 + Real.log (1 + |u| / 0.0259)) := by
  unfold logDamp
  have habs := abs_nonneg u
  split
  · rename_i h
    have hpos : 0 < |u| := lt_trans (by norm_num) h
    have hx : 0 < |u| / 0.0259 := div_pos hpos (by norm_num)
    have hlog : 0 < Real.log (1 + |u| / 0.0259) := Real.log_pos (by linarith)
    have hle : Real.log (1 + |u| / 0.0259) ≤ |u| / 0.0259 := by
      have := Real.log_le_sub_one_of_pos (show (0:ℝ) < 1 + |u| / 0.0259 by linarith)
      linarith
    have hbound : 0.0259 * Real.log (1 + |u| / 0.0259) ≤ |u| := by
      have := mul_le_mul_of_nonneg_left hle (show (0:ℝ) ≤ 0.0259 by norm_num)
      have e : (0.0259:ℝ) * (|u| / 0.0259) = |u| := by field_simp
      linarith
    have hp : (0:ℝ) < 0.0259 * Real.log (1 + |u| / 0.0259) := mul_pos (by norm_num) hlog
    have hne : u ≠ 0 := abs_pos.mp hpos
    split
    · rename_i hu
      rw [one_mul, abs_of_pos hp]
      refine ⟨hbound, (mul_pos hp hu).le, ⟨fun h => absurd h hp.ne', fun h => absurd h hne⟩, by linarith⟩
    · rename_i hu
      have hu' : u < 0 := lt_of_le_of_ne (not_lt.mp hu) hne
      have e : (-1:ℝ) * 0.0259 * Real.log (1 + |u| / 0.0259) = -(0.0259 * Real.log (1 + |u| / 0.0259)) := by ring
      rw [e, abs_neg, abs_of_pos hp]
      refine ⟨hbound, ?_, ⟨fun h => absurd (neg_eq_zero.mp h) hp.ne', fun h => absurd h hne⟩, by linarith⟩
      have := mul_pos_of_neg_of_neg (neg_neg_of_pos hp) hu'
      exact this.le
  · rename_i h
    have hlog : 0 ≤ Real.log (1 + |u| / 0.0259) := by
      apply Real.log_nonneg
      have : 0 ≤ |u| / 0.0259 := div_nonneg habs (by norm_num)
      linarith
    refine ⟨le_rfl, mul_self_nonneg u, Iff.rfl, ?_⟩
    have := not_lt.mp h
    nlinarith

/-- the damping is not monotone: just above the threshold a larger requested update gives a smaller applied update -/
theorem logDamp_not_monotone : ∃ u v : ℝ, 0 < u ∧ u < v ∧ logDamp v < logDamp u := by
  -- at u = 0.0259 the update is not damped; at v = 1.1 * 0.0259 it is 0.0259 * log 2.1
  refine ⟨0.0259, 1.1 * 0.0259, by norm_num, by norm_num, ?_⟩
  have e1 : logDamp 0.0259 = 0.0259 := by
    unfold logDamp; rw [if_neg]; rw [abs_of_pos (by norm_num)]; norm_num
  have e2 : logDamp (1.1 * 0.0259) = 0.0259 * Real.log 2.1 := by
    unfold logDamp
    rw [if_pos (by rw [abs_of_pos (by norm_num)]; norm_num), if_pos (by norm_num), abs_of_pos (by norm_num)]
    norm_num
  rw [e1, e2]
  have : Real.log 2.1 < 1 := by
    rw [Real.log_lt_iff_lt_exp (by norm_num)]
    have := Real.exp_one_gt_d9
    linarith
  nlinarith

/-! ### the whole update -/

/-- what the update of a node of each type guarantees, in terms of the old value, the requested and the applied update -/
def Guarantee : UpdateType → ℝ → ℝ → ℝ → Prop
  | .default, _, req, app => app = req
  | .logdamp, _, req, app => |app| ≤ |req| ∧ 0 ≤ app * req ∧ |app| ≤ 0.0259 * (1 + Real.log (1 + |req| / 0.0259)) ∧
      (|req| ≤ 0.0259 → app = req)
  | .positive, old, req, app => 0 < old + app ∧ ∃ k : Nat, app = req / 2 ^ k ∧ ∀ j < k, old + req / 2 ^ j ≤ 0

theorem damp_guarantee {ut : UpdateType} {o u r : ℝ} (h : Damp ut o u r) : Guarantee ut o u r := by
  cases h with
  | default => exact rfl
  | logdamp =>
    obtain ⟨h1, h2, _, h4⟩ := logDamp_spec u
    refine ⟨h1, h2, h4, fun hle => ?_⟩
    unfold logDamp; rw [if_neg (not_lt.mpr hle)]
  | positive _ _ _ h =>
    obtain ⟨h1, k, h2, h3⟩ := halve_spec h
    exact ⟨by linarith, k, h2, fun j hj => by linarith [h3 j hj]⟩

theorem damp_exists (ut : UpdateType) (o u : ℝ) (h : ut = .positive → 0 < o) : ∃ r, Damp ut o u r := by
  cases ut with
  | default => exact ⟨_, .default _ _⟩
  | logdamp => exact ⟨_, .logdamp _ _⟩
  | positive => obtain ⟨r, hr⟩ := halve_pos (h rfl) u; exact ⟨r, .positive _ _ _ hr⟩

theorem damp_det {ut : UpdateType} {o u r s : ℝ} (h : Damp ut o u r) (g : Damp ut o u s) : r = s := by
  cases h with
  | default => cases g; rfl
  | logdamp => cases g; rfl
  | positive _ _ _ h => cases g with | positive _ _ _ g => exact halve_det h g

theorem updateLoop_det {N : Type} {minEq : Nat} {rhs : Nat → ℝ} {t : FMap N Node} {a b c : Acc}
    (h : UpdateLoop minEq rhs t a b) (g : UpdateLoop minEq rhs t a c) : b = c := by
  induction h with
  | nil a => cases g; rfl
  | ground n d t a b hd _ ih =>
    cases g with
    | ground _ _ _ _ _ _ g => exact ih g
    | node _ _ _ _ _ _ _ hd' => exact absurd hd hd'
  | node n d t i u a b hd hi hu _ ih =>
    cases g with
    | ground _ _ _ _ _ hd' => exact absurd hd' hd
    | node _ _ _ i' u' _ _ _ hi' hu' g =>
      rw [hi] at hi'; cases hi'
      cases damp_det hu hu'
      exact ih g

theorem updateLoop_spec {N : Type} [DecidableEq N] (minEq : Nat) (rhs : Nat → ℝ) :
    ∀ (t : FMap N Node) (i n : Nat) (a : Acc), numberLoop i t = (t, n) →
    (∀ x d j, (x, d) ∈ t → d.number = some j → d.ut = .positive → 0 < a.sol j) →
    i ≤ n ∧ ∃ (b : Acc) (δ : Nat → ℝ), UpdateLoop minEq rhs t a b ∧
      (∀ x d j, (x, d) ∈ t → d.number = some j → i ≤ j ∧ j < n ∧ Guarantee d.ut (a.sol j) (rhs (j + minEq)) (δ j)) ∧
      (∀ j, i ≤ j → j < n → b.sol j = a.sol j + δ j) ∧ (∀ j, ¬ (i ≤ j ∧ j < n) → b.sol j = a.sol j) ∧
      b.aerr = a.aerr + ∑ j ∈ Finset.Ico i n, |δ j| ∧
      a.rerr ≤ b.rerr ∧ (∀ j, i ≤ j → j < n → |δ j| / (|b.sol j| + minError) ≤ b.rerr) ∧
      (b.rerr = a.rerr ∨ ∃ j, i ≤ j ∧ j < n ∧ b.rerr = |δ j| / (|b.sol j| + minError)) := by
  intro t
  induction t with
  | nil =>
    intro i n a h _
    have : i = n := by simpa [numberLoop] using h
    subst this
    refine ⟨le_rfl, a, fun _ => 0, .nil a, ?_, ?_, fun _ _ => rfl, by simp, le_rfl, ?_, .inl rfl⟩
    · intro x d j hx; cases hx
    · intro j h1 h2; omega
    · intro j h1 h2; omega
  | cons p t ih =>
    obtain ⟨x, d⟩ := p
    intro i n a h hpos
    by_cases hd : d.ty = .ground
    · simp only [numberLoop, hd, if_pos, Prod.mk.injEq, List.cons.injEq, true_and] at h
      obtain ⟨⟨h0, h1⟩, h2⟩ := h
      have hnum : d.number = none := by rw [← h0]
      obtain ⟨hin, b, δ, g1, g2, g3⟩ := ih i n a (Prod.ext h1 h2) (fun y e j hy => hpos y e j (List.mem_cons_of_mem _ hy))
      refine ⟨hin, b, δ, .ground x d t a b hd g1, ?_, g3⟩
      intro y e j hy hj
      rcases List.mem_cons.mp hy with hy | hy
      · cases hy; rw [hnum] at hj; cases hj
      · exact g2 y e j hy hj
    · simp only [numberLoop, hd, if_false, Prod.mk.injEq, List.cons.injEq, true_and] at h
      obtain ⟨⟨h0, h1⟩, h2⟩ := h
      have hnum : d.number = some i := by rw [← h0]
      obtain ⟨u, hu⟩ := damp_exists d.ut (a.sol i) (rhs (i + minEq)) (hpos x d i (by simp) hnum)
      have hsolne : ∀ j, j ≠ i → (accumulate a i u).sol j = a.sol j := by
        intro j hj; simp only [accumulate]; exact Function.update_of_ne hj _ _
      have hin1 : i + 1 ≤ n := by
        have := (numberLoop_lt t (i + 1)).1
        rw [h2] at this; exact this
      -- later numbers are above i
      have hlater : ∀ y e j, (y, e) ∈ t → e.number = some j → i + 1 ≤ j := by
        have aux : ∀ (t : FMap N Node) i y e j, (y, e) ∈ (numberLoop i t).1 → e.number = some j → i ≤ j := by
          intro t
          induction t with
          | nil => intro i y e j hy; cases hy
          | cons q t ih2 =>
            obtain ⟨z, f⟩ := q
            intro i y e j hy hj
            by_cases hf : f.ty = .ground
            · simp only [numberLoop, hf, if_pos] at hy
              rcases List.mem_cons.mp hy with hy | hy
              · cases hy; cases hj
              · exact ih2 i y e j hy hj
            · simp only [numberLoop, hf, if_false] at hy
              rcases List.mem_cons.mp hy with hy | hy
              · cases hy; cases hj; exact le_rfl
              · have := ih2 (i + 1) y e j hy hj; omega
        intro y e j hy hj
        exact aux t (i + 1) y e j (by rw [h1]; exact hy) hj
      obtain ⟨hin, b, δ, g1, g2, g3, g4, g5, g6, g7, g8⟩ := ih (i + 1) n (accumulate a i u) (Prod.ext h1 h2) (by
        intro y e j hy hj hp
        have := hlater y e j hy hj
        rw [hsolne j (by omega)]
        exact hpos y e j (List.mem_cons_of_mem _ hy) hj hp)
      have hbi : b.sol i = a.sol i + u := by
        rw [g4 i (by omega)]
        simp only [accumulate, Function.update_self]; ring
      have hri : |u| / (|b.sol i| + minError) ≤ (accumulate a i u).rerr ∧ a.rerr ≤ (accumulate a i u).rerr ∧
          ((accumulate a i u).rerr = a.rerr ∨ (accumulate a i u).rerr = |u| / (|b.sol i| + minError)) := by
        rw [hbi]
        simp only [accumulate]
        rw [add_comm (a.sol i) u]
        split
        · rename_i h; exact ⟨le_rfl, le_of_lt h, .inr rfl⟩
        · rename_i h; exact ⟨not_lt.mp h, le_rfl, .inl rfl⟩
      refine ⟨by omega, b, Function.update δ i u, .node x d t i u a b hd hnum hu g1, ?_, ?_, ?_, ?_, hri.2.1.trans g6, ?_, ?_⟩
      · intro y e j hy hj
        rcases List.mem_cons.mp hy with hy | hy
        · cases hy
          rw [hnum] at hj; cases hj
          refine ⟨le_rfl, by omega, ?_⟩
          rw [Function.update_self]; exact damp_guarantee hu
        · obtain ⟨k1, k2, k3⟩ := g2 y e j hy hj
          refine ⟨by omega, k2, ?_⟩
          rw [Function.update_of_ne (by omega)]
          rwa [hsolne j (by omega)] at k3
      · intro j hj1 hj2
        by_cases hji : j = i
        · subst hji; rw [Function.update_self]; exact hbi
        · rw [Function.update_of_ne hji, g3 j (by omega) hj2, hsolne j hji]
      · intro j hj
        rw [g4 j (by omega), hsolne j (by omega)]
      · rw [g5, Finset.sum_eq_sum_Ico_succ_bot (show i < n by omega), Function.update_self]
        have e : ∑ k ∈ Finset.Ico (i + 1) n, |Function.update δ i u k| = ∑ k ∈ Finset.Ico (i + 1) n, |δ k| := by
          apply Finset.sum_congr rfl
          intro k hk
          rw [Function.update_of_ne (by have := Finset.mem_Ico.mp hk; omega)]
        rw [e]
        simp only [accumulate]; ring
      · intro j hj1 hj2
        by_cases hji : j = i
        · subst hji; rw [Function.update_self]; exact hri.1.trans g6
        · rw [Function.update_of_ne hji]; exact g7 j (by omega) hj2
      · rcases g8 with g8 | ⟨j, j1, j2, j3⟩
        · rcases hri.2.2 with h | h
          · exact .inl (g8.trans h)
          · refine .inr ⟨i, le_rfl, by omega, ?_⟩
            rw [Function.update_self]; exact g8.trans h
        · refine .inr ⟨j, by omega, j2, ?_⟩
          rw [Function.update_of_ne (by omega)]; exact j3

/-- C21: in an analysed circuit (`numberLoop 0 t = (t, n)`, which `rows_after_analysis` shows for every session) whose
positive-type nodes have positive values, the update terminates with one result.  Every node moves by an amount within the
guarantee of its type, nothing else changes, the absolute error is the sum of the moves, and the relative error is the largest
`|move| / (|new value| + 1e-10)` (0 if there is no node).
Partial with respect to C21: the termination needs positive current values (`halve_diverges`), and no command can make a
node of type log_damp or positive (`update_type_ignored`). -/
theorem updateSolution_partial {N : Type} [DecidableEq N] (minEq : Nat) (rhs sol : Nat → ℝ) (t : FMap N Node) (n : Nat)
    (hnum : numberLoop 0 t = (t, n))
    (hpos : ∀ x d j, (x, d) ∈ t → d.number = some j → d.ut = .positive → 0 < sol j) :
    ∃ (b : Acc) (δ : Nat → ℝ), (∀ c, UpdateSolution minEq rhs t sol c ↔ c = b) ∧
      (∀ x d j, (x, d) ∈ t → d.number = some j → j < n ∧ Guarantee d.ut (sol j) (rhs (j + minEq)) (δ j)) ∧
      (∀ j, j < n → b.sol j = sol j + δ j) ∧ (∀ j, n ≤ j → b.sol j = sol j) ∧
      b.aerr = ∑ j ∈ Finset.range n, |δ j| ∧
      (∀ j, j < n → |δ j| / (|b.sol j| + minError) ≤ b.rerr) ∧
      ((b.rerr = 0 ∧ n = 0) ∨ ∃ j < n, b.rerr = |δ j| / (|b.sol j| + minError)) := by
  obtain ⟨_, b, δ, g1, g2, g3, g4, g5, g6, g7, g8⟩ := updateLoop_spec minEq rhs t 0 n ⟨sol, 0, 0⟩ hnum hpos
  refine ⟨b, δ, ?_, ?_, ?_, ?_, ?_, ?_, ?_⟩
  · intro c
    constructor
    · intro h; exact updateLoop_det h g1
    · rintro rfl; exact g1
  · intro x d j hx hj; exact (g2 x d j hx hj).2
  · intro j hj; exact g3 j (Nat.zero_le _) hj
  · intro j hj; exact g4 j (by omega)
  · rw [g5]; simp
  · intro j hj; exact g7 j (Nat.zero_le _) hj
  · rcases g8 with g8 | ⟨j, _, h2, h3⟩
    · by_cases hn : n = 0
      · exact .inl ⟨g8, hn⟩
      · refine .inr ⟨0, by omega, ?_⟩
        have h := g7 0 le_rfl (by omega)
        have g8 : b.rerr = 0 := g8
        rw [g8] at h ⊢
        have : 0 ≤ |δ 0| / (|b.sol 0| + minError) :=
          div_nonneg (abs_nonneg _) (add_nonneg (abs_nonneg _) (by unfold minError; norm_num))
        linarith
    · exact .inr ⟨j, h2, h3⟩

/-- a table that meets the hypotheses: ground, a positive-type node with value 1 and a default node -/
example : numberLoop 0 [((0 : Nat), (⟨.ground, .default, none⟩ : Node)), (5, ⟨.default, .positive, some 0⟩),
    (6, ⟨.default, .default, some 1⟩)] = ([((0 : Nat), (⟨.ground, .default, none⟩ : Node)), (5, ⟨.default, .positive, some 0⟩),
    (6, ⟨.default, .default, some 1⟩)], 2) := by decide

/-- C21 for sessions: the update of every reachable analysed circuit terminates, because every node has the default type; it is
the undamped Newton update. -/
theorem session_update {N K : Type} [DecidableEq N] [DecidableEq K] (nm : Names N) (cs : List (Cmd N K ℝ)) (start : Nat)
    (ks : List (K × (Nat → ℝ))) (rhs sol : Nat → ℝ) :
    let st := run nm (St.init : St N K ℝ) (cs ++ [.solve start ks])
    ∃ b, (∀ c, UpdateSolution st.minEq rhs st.table sol c ↔ c = b) ∧
      ∀ x d j, (x, d) ∈ st.table → d.number = some j → b.sol j = sol j + rhs (j + st.minEq) := by
  intro st
  have hi0 := run_inv nm cs (St.init : St N K ℝ) (Inv.init nm)
  have hi := run_inv nm (cs ++ [.solve start ks]) (St.init : St N K ℝ) (Inv.init nm)
  have hst : st = (solveCmd (run nm St.init cs) start ks).1 := by
    show run nm St.init (cs ++ [.solve start ks]) = _
    rw [run_append]; rfl
  have hnum : numberLoop 0 st.table = (st.table, (numberLoop 0 st.table).2) := by
    by_cases ht : (run nm (St.init : St N K ℝ) cs).table = []
    · have : st.table = [] := by rw [hst]; unfold solveCmd; rw [if_pos ht]; exact ht
      rw [this]; rfl
    · have := (solveCmd_ok ⟨hi0, Ext.refl _⟩ start ks).2 ht
      rw [hst, this.1, numberLoop_idem]
  have hut : ∀ x d, (x, d) ∈ st.table → d.ut = .default := by
    intro x d hx
    have aux : ∀ (t : FMap N Node), FMap.WF t → (x, d) ∈ t → FMap.get t x = some d := by
      intro t
      induction t with
      | nil => intro _ h; cases h
      | cons q t ih =>
        obtain ⟨y, e⟩ := q
        intro hwf hm
        have hwf' : y ∉ FMap.keys t ∧ FMap.WF t := by simpa [FMap.WF, FMap.keys] using hwf
        rcases List.mem_cons.mp hm with hm | hm
        · cases hm; simp [FMap.get]
        · have hne : y ≠ x := by
            rintro rfl
            exact hwf'.1 (List.mem_map.mpr ⟨(y, d), hm, rfl⟩)
          simp only [FMap.get]; rw [if_neg hne]; exact ih hwf'.2 hm
    exact hi.ut x d (aux _ hi.wf hx)
  obtain ⟨b, δ, h1, h2, h3, _⟩ := updateSolution_partial st.minEq rhs sol st.table _ hnum (by
    intro x d j hx _ hp; rw [hut x d hx] at hp; cases hp)
  refine ⟨b, h1, ?_⟩
  intro x d j hx hj
  obtain ⟨h4, h5⟩ := h2 x d j hx hj
  rw [hut x d hx] at h5
  rw [h3 j h4, h5]

end Verif.Circuit
