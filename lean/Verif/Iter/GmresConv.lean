import Verif.Iter.GmresStep
import Mathlib.Analysis.InnerProductSpace.Orthonormal
import Mathlib.LinearAlgebra.FiniteDimensional.Lemmas

/-!
# `GMRES` returns what it promises
-/

open scoped InnerProductSpace
open Finset

namespace Verif.Iter

variable {E : Type} [NormedAddCommGroup E] [InnerProductSpace ℝ E]

theorem rotgRef_ok : RotgOK rotgRef := by
  intro a b
  unfold rotgRef
  by_cases h : a = 0 ∧ b = 0
  · rw [if_pos h]; simp [h.1, h.2]
  · rw [if_neg h]
    have hp : 0 < a ^ 2 + b ^ 2 := by
      by_contra hc
      have ha := sq_nonneg a
      have hb := sq_nonneg b
      have ha' : a ^ 2 = 0 := by linarith
      have hb' : b ^ 2 = 0 := by linarith
      exact h ⟨by simpa using ha', by simpa using hb'⟩
    set q := Real.sqrt (a ^ 2 + b ^ 2) with hq
    have hqp : 0 < q := Real.sqrt_pos.2 hp
    have hq2 : q ^ 2 = a ^ 2 + b ^ 2 := Real.sq_sqrt hp.le
    dsimp only
    generalize (if |a| > |b| then a else b) = roe
    have key : ∀ r : ℝ, r ≠ 0 → r ^ 2 = a ^ 2 + b ^ 2 → (a / r) ^ 2 + (b / r) ^ 2 = 1 ∧ a / r * b = b / r * a := by
      intro r hr h2
      constructor
      · rw [div_pow, div_pow, ← add_div, ← h2, div_self (pow_ne_zero 2 hr)]
      · ring
    by_cases hs : roe < 0
    · rw [if_pos hs]; exact key _ (neg_ne_zero.2 hqp.ne') (by rw [neg_sq]; exact hq2)
    · rw [if_neg hs]; exact key _ hqp.ne' hq2

theorem backsolve_spec (H : ℕ → ℕ → ℝ) : ∀ (n : ℕ) (y : ℕ → ℝ), (∀ k < n, H k k ≠ 0) →
    ∃ z, backsolve H n y = some z ∧ (∀ k < n, ∑ j ∈ Ico k n, H j k * z j = y k) ∧ ∀ j, n ≤ j → z j = y j
  | 0, y, _ => ⟨y, rfl, by simp, fun _ _ => rfl⟩
  | n + 1, y, hd => by
    have hn := hd n (by omega)
    obtain ⟨z, h1, h2, h3⟩ := backsolve_spec H n
      (fun j => if j < n then y j - H n j * (y n / H n n) else if j = n then y n / H n n else y j)
      fun k hk => hd k (by omega)
    refine ⟨z, ?_, ?_, ?_⟩
    · simp only [backsolve]
      rw [if_neg hn]
      exact h1
    · have hz : z n = y n / H n n := by
        rw [h3 n le_rfl, if_neg (by omega), if_pos rfl]
      intro k hk
      rcases Nat.lt_succ_iff_lt_or_eq.1 hk with hk | rfl
      · rw [sum_Ico_succ_top (by omega), h2 k hk, if_pos hk, hz]; ring
      · rw [Nat.Ico_succ_singleton, sum_singleton, hz, mul_div_cancel₀ _ hn]
    · intro j hj
      rw [h3 j (by omega), if_neg (by omega), if_neg (by omega)]

theorem addVecs_spec {st : St E} (y : ℕ → ℝ) (x : E) : ∀ n, (∀ k < n, (st.v k).isSome) →
    addVecs st.v y n x = some (x + ∑ k ∈ range n, y k • st.u k)
  | 0, _ => by simp [addVecs]
  | n + 1, h => by
    obtain ⟨u, hu⟩ := Option.isSome_iff_exists.1 (h n (by omega))
    have hu' : st.u n = u := by simp [St.u, hu]
    simp only [addVecs]
    rw [addVecs_spec y x n fun k hk => h k (by omega), hu, sum_range_succ, hu']
    simp [add_assoc]

section
variable {T : E →ₗ[ℝ] E} {S : ℕ → Submodule ℝ E} {r0 : E} {n : ℕ} {st : St E}

theorem Mid.norm_res (h : Mid T S r0 n st) : ‖st.s n • cur st.u st.cs st.sn n‖ = |st.s n| := by
  rcases h.last with ⟨hs, -⟩ | ⟨-, h0⟩
  · have h1 := (cur_orth (h.orth' hs) h.unit n le_rfl).1
    rw [real_inner_self_eq_norm_sq] at h1
    have h2 : ‖cur st.u st.cs st.sn n‖ = 1 := by
      have := norm_nonneg (cur st.u st.cs st.sn n)
      nlinarith
    rw [norm_smul, h2, mul_one, Real.norm_eq_abs]
  · rw [h0]; simp

/-- **`Update`** finds the combination of the vectors whose residual is the last entry of `s`. -/
theorem update_mid (h : Mid T S r0 n st) (hS : Monotone S) (x : E) :
    ∃ d, update st n x = some (x + d) ∧ r0 - T d = st.s n • cur st.u st.cs st.sn n ∧ ‖r0 - T d‖ = |st.s n| ∧
      (∀ k, n ≤ k + 1 → d ∈ S k) ∧ d ∈ Submodule.span ℝ (st.u '' Set.Iio n) := by
  obtain ⟨y, h1, h2, -⟩ := backsolve_spec st.H n st.s h.diag
  refine ⟨∑ k ∈ range n, y k • st.u k, ?_, ?_⟩
  · unfold update
    rw [h1]
    exact addVecs_spec y x n h.some
  · have e : T (∑ k ∈ range n, y k • st.u k) = ∑ k ∈ range n, st.s k • pv st.u st.cs st.sn k := by
      calc T (∑ j ∈ range n, y j • st.u j)
          = ∑ j ∈ range n, ∑ k ∈ range (j + 1), (st.H j k * y j) • pv st.u st.cs st.sn k := by
            rw [map_sum]
            refine sum_congr rfl fun j hj => ?_
            rw [map_smul, h.cols j (mem_range.1 hj), smul_sum]
            exact sum_congr rfl fun k _ => by rw [smul_smul, mul_comm]
        _ = ∑ k ∈ range n, ∑ j ∈ Ico k n, (st.H j k * y j) • pv st.u st.cs st.sn k := by
            refine sum_comm' fun j k => ?_
            simp only [mem_range, mem_Ico]
            omega
        _ = _ := sum_congr rfl fun k hk => by rw [← sum_smul, h2 k (mem_range.1 hk)]
    have e2 : r0 - T (∑ k ∈ range n, y k • st.u k) = st.s n • cur st.u st.cs st.sn n := by
      rw [e]; conv_lhs => rw [h.res]
      rw [add_sub_cancel_left]
    refine ⟨e2, by rw [e2]; exact h.norm_res, fun k hk => ?_, Submodule.sum_mem _ fun l hl =>
      Submodule.smul_mem _ _ (Submodule.subset_span ⟨l, by simpa using hl, rfl⟩)⟩
    exact (S k).sum_mem fun l hl => (S k).smul_mem _ (hS (by have := mem_range.1 hl; omega) (h.kry l (by have := mem_range.1 hl; omega)))

/-- The space of the vectors `r`, `T r`, ..., `n` of them. -/
def Krylov (T : E →ₗ[ℝ] E) (r : E) (n : ℕ) : Submodule ℝ E := Submodule.span ℝ {v | ∃ k < n, v = (T ^ k) r}

theorem cur_mem (u : ℕ → E) (cs sn : ℕ → ℝ) (k : ℕ) : cur u cs sn k ∈ Submodule.span ℝ (u '' Set.Iic k) := by
  induction k with
  | zero => exact Submodule.subset_span ⟨0, by simp, rfl⟩
  | succ k ih =>
    simp only [cur]
    refine Submodule.add_mem _ (Submodule.smul_mem _ _ ?_) (Submodule.smul_mem _ _ (Submodule.subset_span ⟨k + 1, by simp, rfl⟩))
    exact Submodule.span_mono (Set.image_mono (Set.Iic_subset_Iic.2 (by omega))) ih

theorem pv_mem (u : ℕ → E) (cs sn : ℕ → ℝ) (k : ℕ) : pv u cs sn k ∈ Submodule.span ℝ (u '' Set.Iic (k + 1)) := by
  simp only [pv]
  refine Submodule.add_mem _ (Submodule.smul_mem _ _ ?_) (Submodule.smul_mem _ _ (Submodule.subset_span ⟨k + 1, by simp, rfl⟩))
  exact Submodule.span_mono (Set.image_mono (Set.Iic_subset_Iic.2 (by omega))) (cur_mem u cs sn k)

theorem Mid.krylov (h : Mid T S r0 n st) : ∀ k < n, (T ^ k) r0 ∈ Submodule.span ℝ (st.u '' Set.Iic k) := by
  intro k
  induction k with
  | zero =>
    intro _
    rw [pow_zero, Module.End.one_apply, h.start]
    exact Submodule.smul_mem _ _ (Submodule.subset_span ⟨0, by simp, rfl⟩)
  | succ k ih =>
    intro hk
    rw [pow_succ', Module.End.mul_apply]
    have h1 : ∀ z ∈ Submodule.span ℝ (st.u '' Set.Iic k), T z ∈ Submodule.span ℝ (st.u '' Set.Iic (k + 1)) := by
      intro z hz
      induction hz using Submodule.span_induction with
      | mem x hx =>
        obtain ⟨j, hj, rfl⟩ := hx
        have hj' : j ≤ k := hj
        rw [h.cols j (by omega)]
        refine Submodule.sum_mem _ fun l hl => Submodule.smul_mem _ _ ?_
        have hl' := mem_range.1 hl
        exact Submodule.span_mono (Set.image_mono (Set.Iic_subset_Iic.2 (by omega))) (pv_mem _ _ _ l)
      | zero => simp
      | add a b _ _ ha hb => rw [map_add]; exact Submodule.add_mem _ ha hb
      | smul c a _ ha => rw [map_smul]; exact Submodule.smul_mem _ _ ha
    exact h1 _ (ih (by omega))

/-- The current vector is orthogonal to the finished ones. -/
theorem cur_pv {u : ℕ → E} {cs sn : ℕ → ℝ} {n : ℕ} (ho : ∀ k ≤ n, ∀ l ≤ n, ⟪u k, u l⟫_ℝ = if k = l then 1 else 0)
    (hu : ∀ k < n, cs k ^ 2 + sn k ^ 2 = 1) (k : ℕ) : ∀ l, k < l → l ≤ n → ⟪cur u cs sn l, pv u cs sn k⟫_ℝ = 0 := by
  intro l
  induction l with
  | zero => intro h; omega
  | succ l ih =>
    intro hk hl
    have hc := cur_orth ho hu
    simp only [cur]
    rw [inner_add_left, inner_smul_left, inner_smul_left]
    simp only [conj_trivial]
    rcases Nat.lt_succ_iff_lt_or_eq.1 hk with hk | rfl
    · rw [ih hk (by omega)]
      simp only [pv]
      rw [inner_add_right, inner_smul_right, inner_smul_right, real_inner_comm, (hc k (by omega)).2 (l + 1) hl (by omega),
        ho (l + 1) hl (k + 1) (by omega), if_neg (by omega)]
      simp
    · simp only [pv]
      rw [inner_add_right, inner_smul_right, inner_smul_right, inner_add_right, inner_smul_right, inner_smul_right,
        (hc k (by omega)).1, (hc k (by omega)).2 (k + 1) hl (by omega), real_inner_comm,
        (hc k (by omega)).2 (k + 1) hl (by omega), ho (k + 1) hl (k + 1) hl, if_pos rfl]
      ring

/-- **The residual is the smallest** that vectors of the Krylov space can give. -/
theorem Mid.minimal (h : Mid T S r0 n st) {d : E} (hd : r0 - T d = st.s n • cur st.u st.cs st.sn n)
    (hdu : d ∈ Submodule.span ℝ (st.u '' Set.Iio n)) : ∀ z ∈ Krylov T r0 n, ‖r0 - T d‖ ≤ ‖r0 - T z‖ := by
  intro z hz
  have hzu : z ∈ Submodule.span ℝ (st.u '' Set.Iio n) := by
    refine (Submodule.span_le.2 ?_) hz
    rintro _ ⟨k, hk, rfl⟩
    refine Submodule.span_mono (Set.image_mono ?_) (h.krylov k hk)
    intro l hl
    have : l ≤ k := hl
    exact Set.mem_Iio.2 (by omega)
  have horth : ∀ y ∈ Submodule.span ℝ (st.u '' Set.Iio n), ⟪r0 - T d, T y⟫_ℝ = 0 := by
    intro y hy
    rw [hd]
    rcases h.last with ⟨hs, -⟩ | ⟨-, h0⟩
    · induction hy using Submodule.span_induction with
      | mem x hx =>
        obtain ⟨j, hj, rfl⟩ := hx
        have hj' : j < n := hj
        rw [h.cols j hj', inner_sum]
        refine sum_eq_zero fun k hk => ?_
        have hk' := mem_range.1 hk
        rw [inner_smul_left, inner_smul_right, cur_pv (h.orth' hs) h.unit k n (by omega) le_rfl]
        simp
      | zero => simp
      | add a b _ _ ha hb => rw [map_add, inner_add_right, ha, hb, add_zero]
      | smul c a _ ha => rw [map_smul, inner_smul_right, ha, mul_zero]
    · rw [h0]; simp
  have e : r0 - T z = (r0 - T d) + T (d - z) := by rw [map_sub]; abel
  have h1 : ‖r0 - T z‖ ^ 2 = ‖r0 - T d‖ ^ 2 + ‖T (d - z)‖ ^ 2 := by
    rw [e, ← real_inner_self_eq_norm_sq, ← real_inner_self_eq_norm_sq, ← real_inner_self_eq_norm_sq,
      inner_add_left, inner_add_right, inner_add_right, real_inner_comm (r0 - T d) (T (d - z)),
      horth _ (Submodule.sub_mem _ hdu hzu)]
    ring
  have h2 := sq_nonneg ‖T (d - z)‖
  by_contra hc
  push Not at hc
  have := pow_lt_pow_left₀ hc (norm_nonneg _) two_ne_zero
  linarith

/-- The state at the start of a cycle. -/
theorem mid_start (hr : r0 ≠ 0) (h0 : r0 ∈ S 0) (st : St E) :
    Mid T S r0 0 { st with v := Function.update st.v 0 (some ((1 / ‖r0‖) • r0)), s := Function.update (fun _ => 0) 0 ‖r0‖ } := by
  have hn : ‖r0‖ ≠ 0 := norm_ne_zero_iff.2 hr
  refine ⟨by simp, by simp, .inl ⟨by simp, ?_, by simp⟩, by simp, by simp, by simp, ?_, ?_, by simp, ?_, ?_⟩
  · simp only [St.u, Function.update_self, Option.getD_some]
    rw [inner_smul_left, inner_smul_right, real_inner_self_eq_norm_sq]
    simp only [conj_trivial]
    field_simp
  · simp [cur, St.u, smul_smul, hn]
  · intro k hk
    show Function.update (fun _ : ℕ => (0 : ℝ)) 0 ‖r0‖ k = 0
    rw [Function.update_of_ne (by omega)]
  · intro k hk
    obtain rfl : k = 0 := by omega
    simp only [St.u, Function.update_self, Option.getD_some]
    exact (S 0).smul_mem _ h0
  · simp [St.u, smul_smul, hn]

/-- The number of orthonormal vectors is at most the dimension. -/
theorem Mid.lt_finrank [FiniteDimensional ℝ E] (h : Mid T S r0 n st) (hs : (st.v n).isSome) : n < Module.finrank ℝ E := by
  have ho := h.orth' hs
  have : Orthonormal ℝ (fun k : Fin (n + 1) => st.u k) := by
    rw [orthonormal_iff_ite]
    intro i j
    rw [ho i (by omega) j (by omega)]
    simp [Fin.ext_iff]
  have := this.linearIndependent.fintype_card_le_finrank
  simpa using this

/-! ### The inner loop -/

/-- **The inner loop**: it ends with a solution whose residual is the one that it reports, below the tolerance
and below that at the start; or it ends after all steps. -/
theorem inner_spec {g : Rotg} (hg : RotgOK g) (hT : Function.Injective T) (hS : Monotone S) {N maxIter : ℕ}
    (hTS : ∀ k < N, ∀ z ∈ S k, T z ∈ S (k + 1)) {tol normb : ℝ} (htol : 0 < tol) (hb : 0 < normb) (x : E) :
    ∀ (f i j : ℕ) (resid : ℝ) (st : St E), Mid T S r0 i st → (st.v i).isSome → j + f ≤ maxIter + 1 → i + f ≤ N →
      (∃ d resid' j' n', inner g T maxIter tol normb x f i j resid st = .conv (x + d) resid' j' ∧
        ‖r0 - T d‖ / normb = resid' ∧ resid' < tol ∧ ‖r0 - T d‖ ≤ ‖r0‖ ∧ j ≤ j' ∧ j' < j + f ∧ j' - j = n' - i ∧
        i ≤ n' ∧ d ∈ S n' ∧ n' < i + f ∧ ∀ z ∈ Krylov T r0 (n' + 1), ‖r0 - T d‖ ≤ ‖r0 - T z‖) ∨
      ∃ st' resid', inner g T maxIter tol normb x f i j resid st = .full st' resid' (j + f) ∧ Mid T S r0 (i + f) st' ∧
        (st'.v (i + f)).isSome := by
  intro f
  induction f with
  | zero => intro i j resid st h hs _ _; exact .inr ⟨st, resid, rfl, h, hs⟩
  | succ f ih =>
    intro i j resid st h hs hj hN
    obtain ⟨st', e1, h1⟩ := step_mid hg hT hS (hTS i (by omega)) h hs
    simp only [inner]
    rw [if_pos (by omega), e1]
    dsimp only
    by_cases hr : |st'.s (i + 1)| / normb < tol
    · left
      obtain ⟨d, e2, e3, h2, h3, h4⟩ := update_mid h1 hS x
      rw [if_pos hr, e2]
      exact ⟨d, _, j, i, rfl, by rw [h2], hr, by rw [h2]; exact h1.mono, le_rfl, by omega, by omega, le_rfl,
        h3 i (by omega), by omega, h1.minimal e3 h4⟩
    · rw [if_neg hr]
      have hs' : (st'.v (i + 1)).isSome := by
        rcases h1.last with h | ⟨-, h⟩
        · exact h.1
        · rw [h] at hr; simp [htol] at hr
      rcases ih (i + 1) (j + 1) (|st'.s (i + 1)| / normb) st' h1 hs' (by omega) (by omega) with
        ⟨d, resid', j', n', a1, a2, a3, a4, a5, a6, a7, a8, a9, a10, a11⟩ | ⟨st2, resid', a1, a2, a3⟩
      · exact .inl ⟨d, resid', j', n', a1, a2, a3, a4, by omega, by omega, by omega, by omega, a9, by omega, a11⟩
      · refine .inr ⟨st2, resid', ?_, ?_, ?_⟩
        · rw [a1]; congr 1; omega
        · rwa [show i + (f + 1) = i + 1 + f by omega]
        · rwa [show i + (f + 1) = i + 1 + f by omega]

end

/-! ### The whole -/

/-- What a return of `GMRES` means. -/
structure Good (A M : E →ₗ[ℝ] E) (b : E) (tol normb : ℝ) (r0 : E) (maxIter : ℕ) (code : ℕ) (x : E) (resid : ℝ) (iter : ℕ) : Prop where
  code_le : code ≤ 1
  /-- the returned tolerance is the relative residual of the returned solution -/
  resid_eq : resid = ‖M (b - A x)‖ / normb
  /-- code 0 exactly if it is below the tolerance -/
  conv : code = 0 ↔ resid < tol
  /-- the residual does not grow -/
  mono : ‖M (b - A x)‖ ≤ ‖r0‖
  iter_le : iter ≤ maxIter + 1

section
variable {A M : E →ₗ[ℝ] E} {g : Rotg} {b : E} {tol normb : ℝ}

theorem outer_spec (hg : RotgOK g) (hT : Function.Injective (M ∘ₗ A)) {m c : ℕ} (hm : 0 < m) (htol : 0 < tol) (hb : 0 < normb) :
    ∀ (f q : ℕ) (resid : ℝ) (st : St E) (x r : E), q ≤ c → c + 1 ≤ q + f → r = M (b - A x) → tol ≤ ‖r‖ / normb →
      resid = ‖r‖ / normb →
      ∃ code x' resid' iter, outer g A M b m (c * m) tol normb f (q * m + 1) resid st x r = .ret code x' resid' iter ∧
        Good A M b tol normb r (c * m) code x' resid' iter := by
  intro f
  induction f with
  | zero => intro q resid st x r hq hf; omega
  | succ f ih =>
    intro q resid st x r hq hf hr ht hres
    have hrn : ‖r‖ ≠ 0 := by
      intro h0; rw [h0, zero_div] at ht; linarith
    have hr0 : r ≠ 0 := norm_ne_zero_iff.1 hrn
    simp only [outer]
    by_cases hj : q * m + 1 ≤ c * m
    · rw [if_pos hj, if_neg hrn]
      have hqc : q + 1 ≤ c := by
        by_contra hc
        have : q = c := by omega
        subst this; omega
      have hmul : (q + 1) * m ≤ c * m := Nat.mul_le_mul_right m hqc
      have hs0 := mid_start (T := M ∘ₗ A) (S := fun _ => ⊤) hr0 trivial st
      have hx : ∀ d, M (b - A (x + d)) = r - (M ∘ₗ A) d := by
        intro d
        rw [hr, map_add, ← sub_sub, map_sub, LinearMap.comp_apply]
      have heq : (fun y => M (A y)) = ⇑(M ∘ₗ A) := rfl
      rw [heq]
      rcases inner_spec hg hT (S := fun _ => (⊤ : Submodule ℝ E)) monotone_const (N := m) (maxIter := c * m)
          (fun _ _ _ _ => trivial) htol hb x m 0 (q * m + 1) resid _ hs0 (by simp) (by rw [add_mul] at hmul; omega) (by omega) with
        ⟨d, resid', j', n', a1, a2, a3, a4, a5, a6, -⟩ | ⟨st', resid', a1, a2, a3⟩
      · rw [a1]
        refine ⟨0, x + d, resid', j', rfl, by omega, ?_, ?_, ?_, ?_⟩
        · rw [hx, a2]
        · exact ⟨fun _ => a3, fun _ => rfl⟩
        · rw [hx]; exact a4
        · rw [add_mul] at hmul; omega
      · rw [a1]
        rw [zero_add] at a2 a3
        obtain ⟨d, e2, -, h2, -⟩ := update_mid a2 monotone_const x
        dsimp only
        rw [e2]
        dsimp only
        have hle : ‖M (b - A (x + d))‖ ≤ ‖r‖ := by rw [hx, h2]; exact a2.mono
        by_cases hlt : ‖M (b - A (x + d))‖ / normb < tol
        · rw [if_pos hlt]
          refine ⟨0, x + d, _, _, rfl, by omega, rfl, ⟨fun _ => hlt, fun _ => rfl⟩, hle, ?_⟩
          rw [add_mul] at hmul; omega
        · rw [if_neg hlt]
          have hj' : q * m + 1 + m = (q + 1) * m + 1 := by ring
          rw [hj']
          obtain ⟨code, x', rs, it, b1, b2⟩ := ih (q + 1) (‖M (b - A (x + d))‖ / normb) st' (x + d) (M (b - A (x + d)))
            hqc (by omega) rfl (not_lt.1 hlt) rfl
          exact ⟨code, x', rs, it, b1, { b2 with mono := b2.mono.trans hle }⟩
    · rw [if_neg hj]
      refine ⟨1, x, resid, c * m, rfl, le_rfl, by rw [hres, hr], ?_, by rw [hr], by omega⟩
      rw [hres]
      exact ⟨fun h => by omega, fun h => absurd h (not_lt.2 ht)⟩

/-- The norm that residuals are divided by. -/
noncomputable def refNorm (M : E →ₗ[ℝ] E) (b : E) : ℝ := if ‖M b‖ = 0 then 1 else ‖M b‖

theorem refNorm_pos : 0 < refNorm M b := by
  unfold refNorm
  split
  · exact one_pos
  · exact lt_of_le_of_ne (norm_nonneg _) (Ne.symm ‹_›)

/-- **`GMRES` keeps its promise** for every nonsingular system, when the number of iterations is a multiple of the
restart length: no operation is undefined and the loops end; the reported tolerance is the relative
preconditioned residual of the solution that is returned; the code is 0 only if it is at most the
requested tolerance, and 1 only if it is not below; the residual is never larger than that of the
first guess. -/
theorem gmres_spec (hg : RotgOK g) (hT : Function.Injective (M ∘ₗ A)) {m c : ℕ} (hm : 0 < m) (htol : 0 < tol) (x : E) :
    ∃ code x' resid iter, gmres g A M b m (c * m) tol x = .ret code x' resid iter ∧
      resid = ‖M (b - A x')‖ / refNorm M b ∧ (code = 0 → resid ≤ tol) ∧ (code ≠ 0 → code = 1 ∧ tol ≤ resid) ∧
      ‖M (b - A x')‖ ≤ ‖M (b - A x)‖ ∧ iter ≤ c * m + 1 := by
  unfold gmres
  dsimp only
  have hn : (if ‖M b‖ = 0 then 1 else ‖M b‖) = refNorm M b := rfl
  rw [hn]
  by_cases h : ‖M (b - A x)‖ / refNorm M b ≤ tol
  · rw [if_pos h]
    exact ⟨0, x, _, 0, rfl, rfl, fun _ => h, by simp, le_rfl, by omega⟩
  · rw [if_neg h]
    have hf : c + 1 ≤ 0 + (c * m + 1) := by
      have := Nat.le_mul_of_pos_right c hm
      omega
    obtain ⟨code, x', resid, iter, h1, h2⟩ := outer_spec (c := c) hg hT hm htol (refNorm_pos (M := M) (b := b)) (c * m + 1) 0
      (‖M (b - A x)‖ / refNorm M b) {} x (M (b - A x)) (by omega) hf rfl (not_le.1 h).le rfl
    rw [Nat.zero_mul, Nat.zero_add] at h1
    refine ⟨code, x', resid, iter, h1, h2.resid_eq, fun hc => (h2.conv.1 hc).le, fun hc => ?_, h2.mono, h2.iter_le⟩
    have := h2.code_le
    exact ⟨by omega, not_lt.1 fun hlt => hc (h2.conv.2 hlt)⟩

/-- **Small systems are solved**: with no more unknowns than the restart length and the number of
iterations, `GMRES` returns 0, after no more iterations than there are unknowns. -/
theorem gmres_small [FiniteDimensional ℝ E] (hg : RotgOK g) (hT : Function.Injective (M ∘ₗ A)) {m maxIter : ℕ}
    (h1 : Module.finrank ℝ E ≤ m) (h2 : Module.finrank ℝ E ≤ maxIter) (htol : 0 < tol) (x : E) :
    ∃ x' resid iter, gmres g A M b m maxIter tol x = .ret 0 x' resid iter ∧ resid = ‖M (b - A x')‖ / refNorm M b ∧
      resid ≤ tol ∧ iter ≤ Module.finrank ℝ E := by
  unfold gmres
  dsimp only
  have hn : (if ‖M b‖ = 0 then 1 else ‖M b‖) = refNorm M b := rfl
  rw [hn]
  by_cases h : ‖M (b - A x)‖ / refNorm M b ≤ tol
  · rw [if_pos h]
    exact ⟨x, _, 0, rfl, rfl, h, by omega⟩
  · rw [if_neg h]
    have hrn : ‖M (b - A x)‖ ≠ 0 := by
      intro h0; rw [h0, zero_div] at h; exact h htol.le
    have hr0 : M (b - A x) ≠ 0 := norm_ne_zero_iff.1 hrn
    have hpos : 0 < Module.finrank ℝ E := by
      have : Nontrivial E := ⟨_, _, hr0⟩
      exact Module.finrank_pos
    simp only [outer]
    rw [if_pos (by omega), if_neg hrn]
    have hs0 := mid_start (T := M ∘ₗ A) (S := fun _ => ⊤) hr0 trivial ({} : St E)
    have heq : (fun y => M (A y)) = ⇑(M ∘ₗ A) := rfl
    rw [heq]
    -- the loop cannot do all steps: there are not so many orthonormal vectors
    have key : ∀ (f i j : ℕ) (resid : ℝ) (st : St E), Mid (M ∘ₗ A) (fun _ => ⊤) (M (b - A x)) i st → (st.v i).isSome →
        j = i + 1 → Module.finrank ℝ E ≤ i + f →
        ∃ d resid' j', inner g (M ∘ₗ A) maxIter tol (refNorm M b) x f i j resid st = .conv (x + d) resid' j' ∧
          ‖M (b - A x) - (M ∘ₗ A) d‖ / refNorm M b = resid' ∧ resid' < tol ∧ j' ≤ Module.finrank ℝ E := by
      intro f
      induction f with
      | zero =>
        intro i j resid st hi hs _ hf
        have := hi.lt_finrank hs
        omega
      | succ f ih =>
        intro i j resid st hi hs hj hf
        have hlt := hi.lt_finrank hs
        obtain ⟨st', e1, h1⟩ := step_mid hg hT (S := fun _ => (⊤ : Submodule ℝ E)) monotone_const (fun _ _ => trivial) hi hs
        simp only [inner]
        rw [if_pos (by omega), e1]
        dsimp only
        by_cases hr : |st'.s (i + 1)| / refNorm M b < tol
        · obtain ⟨d, e2, -, h2, -⟩ := update_mid h1 monotone_const x
          rw [if_pos hr, e2]
          exact ⟨d, _, j, rfl, by rw [h2], hr, by omega⟩
        · rw [if_neg hr]
          have hs' : (st'.v (i + 1)).isSome := by
            rcases h1.last with h | ⟨-, h⟩
            · exact h.1
            · rw [h] at hr; simp [htol] at hr
          exact ih (i + 1) (j + 1) _ st' h1 hs' (by omega) (by omega)
    obtain ⟨d, resid', j', a1, a2, a3, a4⟩ := key m 0 1 (‖M (b - A x)‖ / refNorm M b) _ hs0 (by simp) rfl (by omega)
    rw [a1]
    refine ⟨x + d, resid', j', rfl, ?_, a3.le, a4⟩
    rw [← a2, map_add, ← sub_sub, LinearMap.comp_apply]
    simp only [map_sub]

end

end Verif.Iter
