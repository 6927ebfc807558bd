import Verif.Iter.Gmres
import Mathlib.Tactic.Module
import Mathlib.Tactic.LinearCombination
import Mathlib.Tactic.FieldSimp
import Mathlib.Algebra.BigOperators.Intervals

/-!
# One cycle of `GMRES`

The vectors `cur` and `pv` are the basis in which the rotated columns have their coordinates.
-/

open scoped InnerProductSpace
open Finset

namespace Verif.Iter

variable {E : Type} [NormedAddCommGroup E] [InnerProductSpace ℝ E]

/-- The vectors of the array, 0 where there is none. -/
def St.u (st : St E) (k : ℕ) : E := (st.v k).getD 0

def cur (u : ℕ → E) (cs sn : ℕ → ℝ) : ℕ → E
  | 0 => u 0
  | k + 1 => (-sn k) • cur u cs sn k + cs k • u (k + 1)

def pv (u : ℕ → E) (cs sn : ℕ → ℝ) (k : ℕ) : E := cs k • cur u cs sn k + sn k • u (k + 1)

theorem cur_congr {u u' : ℕ → E} {cs cs' sn sn' : ℕ → ℝ} {n : ℕ} (hu : ∀ k ≤ n, u k = u' k)
    (hc : ∀ k < n, cs k = cs' k ∧ sn k = sn' k) : cur u cs sn n = cur u' cs' sn' n := by
  induction n with
  | zero => exact hu 0 le_rfl
  | succ n ih =>
    simp only [cur]
    rw [ih (fun k hk => hu k (by omega)) (fun k hk => hc k (by omega)), (hc n (by omega)).1, (hc n (by omega)).2,
      hu (n + 1) le_rfl]

theorem pv_congr {u u' : ℕ → E} {cs cs' sn sn' : ℕ → ℝ} {n k : ℕ} (hk : k < n) (hu : ∀ k ≤ n, u k = u' k)
    (hc : ∀ k < n, cs k = cs' k ∧ sn k = sn' k) : pv u cs sn k = pv u' cs' sn' k := by
  simp only [pv]
  rw [cur_congr (fun l hl => hu l (by omega)) (fun l hl => hc l (by omega)), (hc k hk).1, (hc k hk).2,
    hu (k + 1) hk]

theorem rot_pair (u : ℕ → E) (cs sn : ℕ → ℝ) (n : ℕ) (a b : ℝ) (h : cs n ^ 2 + sn n ^ 2 = 1) :
    (cs n * a + sn n * b) • pv u cs sn n + (-sn n * a + cs n * b) • cur u cs sn (n + 1) =
      a • cur u cs sn n + b • u (n + 1) := by
  simp only [pv, cur]
  have e1 : (cs n * a + sn n * b) * cs n + (-sn n * a + cs n * b) * (-sn n) = a := by linear_combination a * h
  have e2 : (cs n * a + sn n * b) * sn n + (-sn n * a + cs n * b) * cs n = b := by linear_combination b * h
  calc _ = ((cs n * a + sn n * b) * cs n + (-sn n * a + cs n * b) * (-sn n)) • cur u cs sn n +
        ((cs n * a + sn n * b) * sn n + (-sn n * a + cs n * b) * cs n) • u (n + 1) := by module
    _ = _ := by rw [e1, e2]

theorem rotAt_lt {h : ℕ → ℝ} {i k : ℕ} {c s : ℝ} (hk : k < i) : rotAt h i c s k = h k := by
  simp only [rotAt]
  rw [Function.update_of_ne (by omega), Function.update_of_ne (by omega)]

theorem rotAt_gt {h : ℕ → ℝ} {i k : ℕ} {c s : ℝ} (hk : i + 1 < k) : rotAt h i c s k = h k := by
  simp only [rotAt]
  rw [Function.update_of_ne (by omega), Function.update_of_ne (by omega)]

theorem rotAt_fst {h : ℕ → ℝ} {i : ℕ} {c s : ℝ} : rotAt h i c s i = c * h i + s * h (i + 1) := by
  simp only [rotAt]
  rw [Function.update_of_ne (by omega), Function.update_self]

theorem rotAt_snd {h : ℕ → ℝ} {i : ℕ} {c s : ℝ} : rotAt h i c s (i + 1) = -s * h i + c * h (i + 1) := by
  simp only [rotAt]
  rw [Function.update_self]

/-- The rotated coordinates are coordinates in the rotated basis. -/
theorem applyRots_sum (u : ℕ → E) (cs sn : ℕ → ℝ) (h : ℕ → ℝ) (n : ℕ) (hu : ∀ k < n, cs k ^ 2 + sn k ^ 2 = 1) :
    (∑ k ∈ range (n + 1), h k • u k =
      ∑ k ∈ range n, applyRots cs sn n h k • pv u cs sn k + applyRots cs sn n h n • cur u cs sn n) ∧
    ∀ k, n < k → applyRots cs sn n h k = h k := by
  induction n with
  | zero => exact ⟨by simp [applyRots, cur], fun _ _ => rfl⟩
  | succ n ih =>
    obtain ⟨h1, h2⟩ := ih fun k hk => hu k (by omega)
    constructor
    · rw [sum_range_succ, h1, sum_range_succ]
      simp only [applyRots]
      have e : ∑ k ∈ range n, rotAt (applyRots cs sn n h) n (cs n) (sn n) k • pv u cs sn k =
          ∑ k ∈ range n, applyRots cs sn n h k • pv u cs sn k :=
        sum_congr rfl fun k hk => by rw [rotAt_lt (mem_range.1 hk)]
      rw [e, rotAt_fst, rotAt_snd, add_assoc, add_assoc, rot_pair u cs sn n _ _ (hu n (by omega)), h2 (n + 1) (by omega)]
    · intro k hk
      simp only [applyRots]
      rw [rotAt_gt hk, h2 k (by omega)]

/-- What is known when `n` columns are done. `S` is any increasing sequence of spaces that contains the
vectors. -/
structure Mid (T : E →ₗ[ℝ] E) (S : ℕ → Submodule ℝ E) (r0 : E) (n : ℕ) (st : St E) : Prop where
  some : ∀ k < n, (st.v k).isSome
  orth : ∀ k < n, ∀ l < n, ⟪st.u k, st.u l⟫_ℝ = if k = l then 1 else 0
  last : ((st.v n).isSome ∧ ⟪st.u n, st.u n⟫_ℝ = 1 ∧ ∀ k < n, ⟪st.u n, st.u k⟫_ℝ = 0) ∨ (st.v n = none ∧ st.s n = 0)
  unit : ∀ k < n, st.cs k ^ 2 + st.sn k ^ 2 = 1
  cols : ∀ j < n, T (st.u j) = ∑ k ∈ range (j + 1), st.H j k • pv st.u st.cs st.sn k
  diag : ∀ j < n, st.H j j ≠ 0
  res : r0 = ∑ k ∈ range n, st.s k • pv st.u st.cs st.sn k + st.s n • cur st.u st.cs st.sn n
  zero : ∀ k, n < k → st.s k = 0
  mono : |st.s n| ≤ ‖r0‖
  kry : ∀ k ≤ n, st.u k ∈ S k
  start : r0 = ‖r0‖ • st.u 0

section
variable {T : E →ₗ[ℝ] E} {S : ℕ → Submodule ℝ E} {r0 : E} {n : ℕ} {st : St E}

theorem Mid.orth' (h : Mid T S r0 n st) (hs : (st.v n).isSome) :
    ∀ k ≤ n, ∀ l ≤ n, ⟪st.u k, st.u l⟫_ℝ = if k = l then 1 else 0 := by
  rcases h.last with ⟨-, h1, h2⟩ | ⟨h1, -⟩
  · intro k hk l hl
    rcases Nat.lt_or_eq_of_le hk with hk | rfl
    · rcases Nat.lt_or_eq_of_le hl with hl | rfl
      · exact h.orth k hk l hl
      · rw [if_neg (by omega), real_inner_comm]; exact h2 k hk
    · rcases Nat.lt_or_eq_of_le hl with hl | rfl
      · rw [if_neg (by omega)]; exact h2 l hl
      · rw [if_pos rfl]; exact h1
  · rw [h1] at hs; simp at hs

theorem cur_orth {u : ℕ → E} {cs sn : ℕ → ℝ} {n : ℕ} (ho : ∀ k ≤ n, ∀ l ≤ n, ⟪u k, u l⟫_ℝ = if k = l then 1 else 0)
    (hu : ∀ k < n, cs k ^ 2 + sn k ^ 2 = 1) : ∀ k ≤ n, ⟪cur u cs sn k, cur u cs sn k⟫_ℝ = 1 ∧
      ∀ l ≤ n, k < l → ⟪cur u cs sn k, u l⟫_ℝ = 0 := by
  intro k
  induction k with
  | zero =>
    intro hk
    simp only [cur]
    exact ⟨by rw [ho 0 hk 0 hk, if_pos rfl], fun l hl h0 => by rw [ho 0 hk l hl, if_neg (by omega)]⟩
  | succ k ih =>
    intro hk
    obtain ⟨h1, h2⟩ := ih (by omega)
    have h3 := h2 (k + 1) hk (by omega)
    have h4 := ho (k + 1) hk (k + 1) hk
    rw [if_pos rfl] at h4
    simp only [cur]
    constructor
    · simp only [inner_add_left, inner_add_right, inner_smul_left, inner_smul_right, h1, h3, h4, real_inner_comm (u (k + 1))]
      have := hu k (by omega)
      simp only [conj_trivial]
      rw [real_inner_comm, h3]
      linear_combination this
    · intro l hl hkl
      rw [inner_add_left, inner_smul_left, inner_smul_left, h2 l hl (by omega), ho (k + 1) hk l hl, if_neg (by omega)]
      simp

theorem ortho_spec {v : ℕ → Option E} {u : ℕ → E} (n : ℕ) (hv : ∀ k < n, v k = some (u k))
    (ho : ∀ k < n, ∀ l < n, ⟪u k, u l⟫_ℝ = if k = l then 1 else 0) (w0 : E) (h0 : ℕ → ℝ) :
    ∃ w h, ortho v n (w0, h0) = some (w, h) ∧ w0 = w + ∑ k ∈ range n, h k • u k ∧ ∀ k < n, ⟪w, u k⟫_ℝ = 0 := by
  induction n with
  | zero => exact ⟨w0, h0, rfl, by simp, by simp⟩
  | succ n ih =>
    obtain ⟨w, h, h1, h2, h3⟩ := ih (fun k hk => hv k (by omega)) (fun k hk l hl => ho k (by omega) l (by omega))
    refine ⟨w - ⟪w, u n⟫_ℝ • u n, Function.update h n ⟪w, u n⟫_ℝ, ?_, ?_, ?_⟩
    · simp [ortho, h1, hv n (by omega)]
    · rw [sum_range_succ, Function.update_self]
      have e : ∑ k ∈ range n, Function.update h n ⟪w, u n⟫_ℝ k • u k = ∑ k ∈ range n, h k • u k :=
        sum_congr rfl fun k hk => by
          rw [Function.update_of_ne (by have := mem_range.1 hk; omega)]
      rw [e]
      conv_lhs => rw [h2]
      abel
    · intro k hk
      rw [inner_sub_left, inner_smul_left, ho n (by omega) k hk]
      rcases Nat.lt_succ_iff_lt_or_eq.1 hk with hk | rfl
      · rw [h3 k hk, if_neg (by omega)]; simp
      · simp

/-- The rotated vectors are images. -/
theorem preimages (hd : ∀ j < n, st.H j j ≠ 0) (hc : ∀ j < n, T (st.u j) = ∑ k ∈ range (j + 1), st.H j k • pv st.u st.cs st.sn k)
    (ho : ∀ k ≤ n, ∀ l ≤ n, ⟪st.u k, st.u l⟫_ℝ = if k = l then 1 else 0) :
    ∃ z : ℕ → E, ∀ k < n, T (z k) = pv st.u st.cs st.sn k ∧ ∀ l ≤ n, k < l → ⟪z k, st.u l⟫_ℝ = 0 := by
  have key : ∀ m ≤ n, ∃ z : ℕ → E, ∀ k < m, T (z k) = pv st.u st.cs st.sn k ∧ ∀ l ≤ n, k < l → ⟪z k, st.u l⟫_ℝ = 0 := by
    intro m
    induction m with
    | zero => intro _; exact ⟨fun _ => 0, by simp⟩
    | succ m ih =>
      intro hm
      obtain ⟨z, hz⟩ := ih (by omega)
      refine ⟨Function.update z m ((1 / st.H m m) • (st.u m - ∑ l ∈ range m, st.H m l • z l)), ?_⟩
      intro k hk
      rcases Nat.lt_succ_iff_lt_or_eq.1 hk with hk | rfl
      · rw [Function.update_of_ne (by omega)]; exact hz k hk
      · rw [Function.update_self]
        constructor
        · rw [map_smul, map_sub, hc k (by omega), map_sum, sum_range_succ]
          have e : ∑ x ∈ range k, T (st.H k x • z x) = ∑ x ∈ range k, st.H k x • pv st.u st.cs st.sn x :=
            sum_congr rfl fun x hx => by rw [map_smul, (hz x (mem_range.1 hx)).1]
          rw [e, add_sub_cancel_left, smul_smul, one_div, inv_mul_cancel₀ (hd k (by omega)), one_smul]
        · intro l hl hkl
          rw [inner_smul_left, inner_sub_left, ho k (by omega) l hl, if_neg (by omega), sum_inner]
          have e : ∑ i ∈ range k, ⟪st.H k i • z i, st.u l⟫_ℝ = 0 := sum_eq_zero fun i hi => by
            rw [inner_smul_left, (hz i (mem_range.1 hi)).2 l hl (by have := mem_range.1 hi; omega), mul_zero]
          rw [e]
          simp
  exact key n le_rfl

theorem getD_update (v : ℕ → Option E) (i : ℕ) (x : Option E) (k : ℕ) (hk : k ≠ i) :
    (Function.update v i x k).getD 0 = (v k).getD 0 := by rw [Function.update_of_ne hk]

/-- **One step**: when a vector is there, the step succeeds, and keeps all this. -/
theorem step_mid {g : Rotg} (hg : RotgOK g) (hT : Function.Injective T) (hS : Monotone S) (hTS : ∀ z ∈ S n, T z ∈ S (n + 1))
    (h : Mid T S r0 n st) (hs : (st.v n).isSome) :
    ∃ st', step g T n st = some st' ∧ Mid T S r0 (n + 1) st' := by
  have ho := h.orth' hs
  have hv : ∀ k < n + 1, st.v k = some (st.u k) := by
    intro k hk
    have : (st.v k).isSome := by
      rcases Nat.lt_succ_iff_lt_or_eq.1 hk with hk | rfl
      · exact h.some k hk
      · exact hs
    obtain ⟨x, hx⟩ := Option.isSome_iff_exists.1 this
    simp [St.u, hx]
  obtain ⟨w, hh, e1, e2, e3⟩ := ortho_spec (u := st.u) (n + 1) hv (fun k hk l hl => ho k (by omega) l (by omega))
    (T (st.u n)) (st.H n)
  have hun : st.v n = some (st.u n) := hv n (by omega)
  -- the column, step by step
  set h2 : ℕ → ℝ := Function.update hh (n + 1) ‖w‖ with h2def
  set v' : ℕ → Option E := Function.update st.v (n + 1) (if ‖w‖ = 0 then none else some ((1 / ‖w‖) • w)) with v'def
  set h3 : ℕ → ℝ := applyRots st.cs st.sn n h2 with h3def
  set c : ℝ := (g (h3 n) (h3 (n + 1))).1 with cdef
  set s : ℝ := (g (h3 n) (h3 (n + 1))).2 with sdef
  set cs' : ℕ → ℝ := Function.update st.cs n c with cs'def
  set sn' : ℕ → ℝ := Function.update st.sn n s with sn'def
  set h4 : ℕ → ℝ := rotAt h3 n c s with h4def
  let st' : St E := { H := Function.update st.H n h4, cs := cs', sn := sn', s := rotAt st.s n c s, v := v' }
  have hstep : step g T n st = some st' := by
    unfold step
    rw [hun]
    simp only [Option.bind_eq_bind, Option.bind_some, e1, st', cs'def, sn'def, Function.update_self, ← h2def, ← h3def, ← cdef, ← sdef, ← h4def, ← v'def]
  refine ⟨st', hstep, ?_⟩
  obtain ⟨g1, g2⟩ := hg (h3 n) (h3 (n + 1))
  rw [← cdef, ← sdef] at g1 g2
  have hu' : ∀ k ≤ n, st'.u k = st.u k := fun k hk => getD_update _ _ _ _ (by omega)
  have hcs : ∀ k < n, st'.cs k = st.cs k ∧ st'.sn k = st.sn k := fun k hk =>
    ⟨Function.update_of_ne (by omega) _ _, Function.update_of_ne (by omega) _ _⟩
  have hcn : st'.cs n = c := Function.update_self _ _ _
  have hsn : st'.sn n = s := Function.update_self _ _ _
  have hpv : ∀ k < n, pv st'.u st'.cs st'.sn k = pv st.u st.cs st.sn k := fun k hk => pv_congr hk hu' hcs
  have hcur : cur st'.u st'.cs st'.sn n = cur st.u st.cs st.sn n := cur_congr hu' hcs
  have hunit : ∀ k < n + 1, st'.cs k ^ 2 + st'.sn k ^ 2 = 1 := by
    intro k hk
    rcases Nat.lt_succ_iff_lt_or_eq.1 hk with hk | rfl
    · rw [(hcs k hk).1, (hcs k hk).2]; exact h.unit k hk
    · rw [hcn, hsn]; exact g1
  have hwu : w = ‖w‖ • st'.u (n + 1) := by
    have e : st'.u (n + 1) = (if ‖w‖ = 0 then none else some ((1 / ‖w‖) • w) : Option E).getD 0 := by
      show (v' (n + 1)).getD 0 = _
      rw [v'def, Function.update_self]
    rw [e]
    by_cases hw : ‖w‖ = 0
    · simp [norm_eq_zero.1 hw]
    · rw [if_neg hw, Option.getD_some, smul_smul, mul_one_div_cancel hw, one_smul]
  have h2n : ∀ k ≤ n, h2 k = hh k := fun k hk => Function.update_of_ne (by omega) _ _
  have h2l : h2 (n + 1) = ‖w‖ := Function.update_self _ _ _
  obtain ⟨r1, r2⟩ := applyRots_sum st.u st.cs st.sn h2 n h.unit
  rw [← h3def] at r1 r2
  have h3l : h3 (n + 1) = ‖w‖ := by rw [r2 (n + 1) (by omega), h2l]
  have hcol : T (st.u n) = ∑ k ∈ range (n + 1), h4 k • pv st'.u st'.cs st'.sn k := by
    have f1 : T (st.u n) = (∑ k ∈ range (n + 1), h2 k • st.u k) + h3 (n + 1) • st'.u (n + 1) := by
      rw [e2, h3l, ← hwu, add_comm]
      congr 1
      exact sum_congr rfl fun k hk => by rw [h2n k (by have := mem_range.1 hk; omega)]
    have f2 := rot_pair st'.u st'.cs st'.sn n (h3 n) (h3 (n + 1)) (hunit n (by omega))
    rw [hcn, hsn] at f2
    have f3 : -s * h3 n + c * h3 (n + 1) = 0 := by linear_combination g2
    rw [f3, zero_smul, add_zero, hcur] at f2
    rw [f1, r1, add_assoc, ← f2, sum_range_succ, h4def, rotAt_fst]
    congr 1
    exact sum_congr rfl fun k hk => by rw [rotAt_lt (mem_range.1 hk), hpv k (mem_range.1 hk)]
  have hdiag : h4 n ≠ 0 := by
    intro h0
    obtain ⟨z, hz⟩ := preimages h.diag h.cols ho
    rw [sum_range_succ, h0, zero_smul, add_zero] at hcol
    have f1 : T (st.u n) = T (∑ k ∈ range n, h4 k • z k) := by
      rw [hcol, map_sum]
      exact sum_congr rfl fun k hk => by rw [map_smul, (hz k (mem_range.1 hk)).1, hpv k (mem_range.1 hk)]
    have f2 := hT f1
    have f3 := ho n le_rfl n le_rfl
    rw [if_pos rfl] at f3
    conv_lhs at f3 => arg 2; rw [f2]
    rw [sum_inner, sum_eq_zero] at f3
    · simp at f3
    · intro k hk
      rw [inner_smul_left, (hz k (mem_range.1 hk)).2 n le_rfl (mem_range.1 hk), mul_zero]
  have hs1 : st'.s (n + 1) = -s * st.s n := by
    show rotAt st.s n c s (n + 1) = _
    rw [rotAt_snd, h.zero (n + 1) (by omega), mul_zero, add_zero]
  have hTn : T (st.u n) ∈ S (n + 1) := hTS _ (h.kry n le_rfl)
  have hwS : w ∈ S (n + 1) := by
    have : w = T (st.u n) - ∑ k ∈ range (n + 1), hh k • st.u k := by rw [e2]; abel
    rw [this]
    refine (S (n + 1)).sub_mem hTn ((S (n + 1)).sum_mem fun k hk => (S (n + 1)).smul_mem _ ?_)
    have hk' := mem_range.1 hk
    exact hS (by omega) (h.kry k (by omega))
  exact
    { some := fun k hk => by
        show (v' k).isSome
        rw [v'def, Function.update_of_ne (by omega), hv k hk]; rfl
      orth := fun k hk l hl => by rw [hu' k (by omega), hu' l (by omega)]; exact ho k (by omega) l (by omega)
      last := by
        by_cases hw : ‖w‖ = 0
        · right
          constructor
          · show v' (n + 1) = none
            rw [v'def, Function.update_self, if_pos hw]
          · have f1 : h4 n = c * h3 n := by rw [h4def, rotAt_fst, h3l, hw, mul_zero, add_zero]
            have f2 : h3 n ≠ 0 := by
              intro h0; rw [f1, h0, mul_zero] at hdiag; exact hdiag rfl
            rw [h3l, hw, mul_zero] at g2
            have f3 : s = 0 := by
              rcases mul_eq_zero.1 g2.symm with h | h
              · exact h
              · exact absurd h f2
            rw [hs1, f3]; simp
        · left
          have f1 : st'.u (n + 1) = (1 / ‖w‖) • w := by
            show (v' (n + 1)).getD 0 = _
            rw [v'def, Function.update_self, if_neg hw]; rfl
          refine ⟨?_, ?_, ?_⟩
          · show (v' (n + 1)).isSome
            rw [v'def, Function.update_self, if_neg hw]; rfl
          · rw [f1, inner_smul_left, inner_smul_right, real_inner_self_eq_norm_sq]
            simp only [conj_trivial]
            field_simp
          · intro k hk
            rw [f1, hu' k (by omega), inner_smul_left, e3 k hk, mul_zero]
      unit := hunit
      cols := by
        intro j hj
        rcases Nat.lt_succ_iff_lt_or_eq.1 hj with hj | rfl
        · rw [hu' j (by omega), h.cols j hj]
          refine sum_congr rfl fun k hk => ?_
          have hk' := mem_range.1 hk
          rw [hpv k (by omega)]
          show st.H j k • _ = Function.update st.H n h4 j k • _
          rw [Function.update_of_ne (by omega)]
        · rw [hu' j le_rfl, hcol]
          show _ = ∑ k ∈ range (j + 1), Function.update st.H j h4 j k • _
          rw [Function.update_self]
      diag := by
        intro j hj
        rcases Nat.lt_succ_iff_lt_or_eq.1 hj with hj | rfl
        · show Function.update st.H n h4 j j ≠ 0
          rw [Function.update_of_ne (by omega)]; exact h.diag j hj
        · show Function.update st.H j h4 j j ≠ 0
          rw [Function.update_self]; exact hdiag
      res := by
        have f2 := rot_pair st'.u st'.cs st'.sn n (st.s n) (st.s (n + 1)) (hunit n (by omega))
        rw [hcn, hsn, hcur, h.zero (n + 1) (by omega), zero_smul, add_zero] at f2
        conv_lhs => rw [h.res, ← f2]
        rw [sum_range_succ, add_assoc]
        congr 1
        · refine sum_congr rfl fun k hk => ?_
          show _ = rotAt st.s n c s k • _
          rw [rotAt_lt (mem_range.1 hk), hpv k (mem_range.1 hk)]
        · show _ = rotAt st.s n c s n • _ + rotAt st.s n c s (n + 1) • _
          rw [rotAt_fst, rotAt_snd, h.zero (n + 1) (by omega)]
      zero := by
        intro k hk
        show rotAt st.s n c s k = 0
        rw [rotAt_gt hk]; exact h.zero k (by omega)
      mono := by
        rw [hs1, abs_mul, abs_neg]
        have f1 : |s| ≤ 1 := by
          rw [← sq_le_one_iff_abs_le_one]; nlinarith [sq_nonneg c]
        calc |s| * |st.s n| ≤ 1 * |st.s n| := mul_le_mul_of_nonneg_right f1 (abs_nonneg _)
          _ ≤ ‖r0‖ := by rw [one_mul]; exact h.mono
      kry := by
        intro k hk
        rcases Nat.lt_or_eq_of_le hk with hk | rfl
        · rw [hu' k (by omega)]; exact h.kry k (by omega)
        · show (v' (n + 1)).getD 0 ∈ _
          rw [v'def, Function.update_self]
          split
          · exact (S (n + 1)).zero_mem
          · exact (S (n + 1)).smul_mem _ hwS
      start := by rw [hu' 0 (by omega)]; exact h.start }

end

end Verif.Iter
