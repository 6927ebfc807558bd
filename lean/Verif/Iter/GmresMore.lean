import Verif.Iter.GmresConv
import Mathlib.Analysis.InnerProductSpace.PiL2
import Mathlib.LinearAlgebra.Matrix.ToLin
import Mathlib.Logic.Equiv.Fin.Rotate

/-!
# Minimal residual, stagnation, and what `solve` is told
-/

open scoped InnerProductSpace
open Finset

namespace Verif.Iter

variable {E : Type} [NormedAddCommGroup E] [InnerProductSpace ℝ E]

section
variable {A M : E →ₗ[ℝ] E} {g : Rotg} {b : E} {tol : ℝ}

/-- **The smallest residual**: when there is one cycle, the solution has the smallest preconditioned residual of all
vectors `x + z` with `z` in the Krylov space of the iterations that were done. -/
theorem gmres_minimal (hg : RotgOK g) (hT : Function.Injective (M ∘ₗ A)) {m : ℕ} (hm : 0 < m) (htol : 0 < tol) (x : E) :
    ∃ code x' resid iter, gmres g A M b m m tol x = .ret code x' resid iter ∧
      ∀ z ∈ Krylov (M ∘ₗ A) (M (b - A x)) (min iter m), ‖M (b - A x')‖ ≤ ‖M (b - A (x + z))‖ := by
  unfold gmres
  dsimp only
  have hn : (if ‖M b‖ = 0 then 1 else ‖M b‖) = refNorm M b := rfl
  rw [hn]
  by_cases h : ‖M (b - A x)‖ / refNorm M b ≤ tol
  · rw [if_pos h]
    refine ⟨0, x, _, 0, rfl, fun z hz => ?_⟩
    have h0 : z = 0 := by
      have : Krylov (M ∘ₗ A) (M (b - A x)) (min 0 m) = ⊥ := by simp [Krylov]
      rw [this] at hz
      simpa using hz
    rw [h0, add_zero]
  · rw [if_neg h]
    have hrn : ‖M (b - A x)‖ ≠ 0 := by
      intro h0; rw [h0, zero_div] at h; exact h htol.le
    have hr0 : M (b - A x) ≠ 0 := norm_ne_zero_iff.1 hrn
    have hs0 := mid_start (T := M ∘ₗ A) (S := fun _ => ⊤) hr0 trivial ({} : St E)
    have heq : (fun y => M (A y)) = ⇑(M ∘ₗ A) := rfl
    have hx : ∀ d, M (b - A (x + d)) = M (b - A x) - (M ∘ₗ A) d := by
      intro d
      rw [map_add, ← sub_sub, map_sub, LinearMap.comp_apply]
    obtain ⟨f, rfl⟩ : ∃ f, m = f + 1 := ⟨m - 1, by omega⟩
    rw [outer, if_pos (by omega), if_neg hrn]
    dsimp only
    rw [heq]
    rcases inner_spec hg hT (S := fun _ => (⊤ : Submodule ℝ E)) monotone_const (N := f + 1) (maxIter := f + 1)
        (fun _ _ _ _ => trivial) htol (refNorm_pos (M := M) (b := b)) x (f + 1) 0 1 _ _ hs0 (by simp) (by omega) (by omega) with
      ⟨d, resid', j', n', a1, a2, a3, a4, a5, a6, a7, a8, a9, a10, a11⟩ | ⟨st', resid', a1, a2, a3⟩
    · rw [a1]
      refine ⟨0, x + d, resid', j', rfl, fun z hz => ?_⟩
      rw [hx, hx]
      rw [show min j' (f + 1) = n' + 1 by omega] at hz
      exact a11 z hz
    · rw [a1]
      rw [zero_add] at a2 a3
      obtain ⟨d, e2, e3, h2, -, h4⟩ := update_mid a2 monotone_const x
      dsimp only
      rw [e2]
      dsimp only
      have hmin := a2.minimal e3 h4
      by_cases hlt : ‖M (b - A (x + d))‖ / refNorm M b < tol
      · rw [if_pos hlt]
        refine ⟨0, x + d, _, _, rfl, fun z hz => ?_⟩
        rw [hx, hx]
        rw [show min (1 + (f + 1)) (f + 1) = f + 1 by omega] at hz
        exact hmin z hz
      · rw [if_neg hlt, outer, if_neg (by omega)]
        refine ⟨1, x + d, _, _, rfl, fun z hz => ?_⟩
        rw [hx, hx]
        rw [min_self] at hz
        exact hmin z hz

/-! ### Stagnation -/

/-- A chain of vectors that the system moves on by one, the first of which is orthogonal to the others. -/
structure Chain (T : E →ₗ[ℝ] E) (e : ℕ → E) (N : ℕ) : Prop where
  unit : ⟪e 0, e 0⟫_ℝ = 1
  orth : ∀ k, 0 < k → k ≤ N → ⟪e 0, e k⟫_ℝ = 0
  next : ∀ k < N, T (e k) = e (k + 1)

def chainS (e : ℕ → E) (q : ℕ) (k : ℕ) : Submodule ℝ E := Submodule.span ℝ (e '' Set.Iic (q + k))

theorem chainS_mono (e : ℕ → E) (q : ℕ) : Monotone (chainS e q) := fun _ _ h =>
  Submodule.span_mono (Set.image_mono (Set.Iic_subset_Iic.2 (by omega)))

theorem Chain.step {T : E →ₗ[ℝ] E} {e : ℕ → E} {N q k : ℕ} (h : Chain T e N) (hk : q + k < N) :
    ∀ z ∈ chainS e q k, T z ∈ chainS e q (k + 1) ∧ ⟪e 0, T z⟫_ℝ = 0 := by
  intro z hz
  unfold chainS at hz
  induction hz using Submodule.span_induction with
  | mem x hx =>
    obtain ⟨j, hj, rfl⟩ := hx
    have hj' : j ≤ q + k := hj
    rw [h.next j (by omega)]
    exact ⟨Submodule.subset_span ⟨j + 1, by simp; omega, rfl⟩, h.orth _ (by omega) (by omega)⟩
  | zero => simp
  | add a b _ _ ha hb => rw [map_add, inner_add_right, ha.2, hb.2]; exact ⟨Submodule.add_mem _ ha.1 hb.1, by simp⟩
  | smul c a _ ha => rw [map_smul, inner_smul_right, ha.2]; exact ⟨Submodule.smul_mem _ _ ha.1, by simp⟩

theorem Chain.norm_ge {T : E →ₗ[ℝ] E} {e : ℕ → E} {N : ℕ} (h : Chain T e N) {r : E} (hr : ⟪e 0, r⟫_ℝ = 1) : 1 ≤ ‖r‖ := by
  have h1 := abs_real_inner_le_norm (e 0) r
  have h2 := h.unit
  rw [real_inner_self_eq_norm_sq] at h2
  have h3 : ‖e 0‖ = 1 := by
    have := norm_nonneg (e 0)
    nlinarith
  rw [hr, h3] at h1
  simpa using h1

theorem outer_chain (hg : RotgOK g) (hT : Function.Injective (M ∘ₗ A)) {m c : ℕ} (hm : 0 < m) (htol : 0 < tol) (htol1 : tol ≤ 1)
    {e : ℕ → E} {N : ℕ} (he : Chain (M ∘ₗ A) e N) (hN : c * m ≤ N) :
    ∀ (f q : ℕ) (resid : ℝ) (st : St E) (x r : E), q ≤ c → c + 1 ≤ q + f → r = M (b - A x) → ⟪e 0, r⟫_ℝ = 1 →
      r ∈ chainS e (q * m) 0 →
      ∃ x' resid' iter, outer g A M b m (c * m) tol 1 f (q * m + 1) resid st x r = .ret 1 x' resid' iter := by
  intro f
  induction f with
  | zero => intro q resid st x r hq hf; omega
  | succ f ih =>
    intro q resid st x r hq hf hr h1 hrS
    have hge := he.norm_ge h1
    have hrn : ‖r‖ ≠ 0 := by linarith [norm_nonneg r] |> fun h : 0 < ‖r‖ => h.ne'
    have hr0 : r ≠ 0 := norm_ne_zero_iff.1 hrn
    simp only [outer]
    by_cases hj : q * m + 1 ≤ c * m
    · rw [if_pos hj, if_neg hrn]
      have hqc : q + 1 ≤ c := by
        by_contra hc
        have : q = c := by omega
        subst this; omega
      have hmul : (q + 1) * m ≤ c * m := Nat.mul_le_mul_right m hqc
      have hmul' : q * m + m ≤ N := by rw [add_mul, one_mul] at hmul; omega
      have hs0 := mid_start (T := M ∘ₗ A) (S := chainS e (q * m)) hr0 hrS st
      have hx : ∀ d, M (b - A (x + d)) = r - (M ∘ₗ A) d := by
        intro d
        rw [hr, map_add, ← sub_sub, map_sub, LinearMap.comp_apply]
      have heq : (fun y => M (A y)) = ⇑(M ∘ₗ A) := rfl
      rw [heq]
      rcases inner_spec hg hT (chainS_mono e (q * m)) (N := m) (maxIter := c * m)
          (fun k hk z hz => (he.step (by omega) z hz).1) htol one_pos x m 0 (q * m + 1) resid _ hs0 (by simp)
          (by rw [add_mul] at hmul; omega) (by omega) with
        ⟨d, resid', j', n', a1, a2, a3, a4, a5, a6, a7, a8, a9, a10, a11⟩ | ⟨st', resid', a1, a2, a3⟩
      · exfalso
        have h2 := he.norm_ge (r := r - (M ∘ₗ A) d) (by
          rw [inner_sub_right, h1, (he.step (by omega) d a9).2, sub_zero])
        rw [div_one] at a2
        linarith
      · rw [a1]
        rw [zero_add] at a2 a3
        obtain ⟨d, e2, -, -, h3, -⟩ := update_mid a2 (chainS_mono e (q * m)) x
        have hd := h3 (m - 1) (by omega)
        have hd2 := he.step (by omega) d hd
        rw [show m - 1 + 1 = m by omega] at hd2
        dsimp only
        rw [e2]
        dsimp only
        have h4 : ⟪e 0, r - (M ∘ₗ A) d⟫_ℝ = 1 := by rw [inner_sub_right, h1, hd2.2, sub_zero]
        have h5 := he.norm_ge h4
        rw [if_neg (by rw [hx, div_one]; linarith)]
        have hj' : q * m + 1 + m = (q + 1) * m + 1 := by ring
        rw [hj']
        refine ih (q + 1) _ st' (x + d) _ hqc (by omega) rfl (by rw [hx]; exact h4) ?_
        rw [hx]
        have e3 : chainS e ((q + 1) * m) 0 = chainS e (q * m) m := by
          unfold chainS
          congr 3
          ring
        rw [e3]
        exact Submodule.sub_mem _ (chainS_mono e (q * m) (Nat.zero_le m) hrS) hd2.1
    · rw [if_neg hj]
      exact ⟨x, resid, c * m, rfl⟩

/-- `GMRES` returns 1 for such a system, started at 0. -/
theorem gmres_chain (hg : RotgOK g) (hT : Function.Injective (M ∘ₗ A)) {m c : ℕ} (hm : 0 < m) (htol : 0 < tol) (htol1 : tol < 1)
    {e : ℕ → E} {N : ℕ} (he : Chain (M ∘ₗ A) e N) (hN : c * m ≤ N) (hb : M b = e 0) :
    ∃ x' resid iter, gmres g A M b m (c * m) tol 0 = .ret 1 x' resid iter := by
  unfold gmres
  dsimp only
  have h2 := he.unit
  rw [real_inner_self_eq_norm_sq] at h2
  have h3 : ‖e 0‖ = 1 := by
    have := norm_nonneg (e 0)
    nlinarith
  rw [map_zero, sub_zero, hb, h3, if_neg one_ne_zero, div_one, if_neg (by linarith)]
  have hf : c + 1 ≤ 0 + (c * m + 1) := by
    have := Nat.le_mul_of_pos_right c hm
    omega
  have := outer_chain (b := b) hg hT hm htol htol1.le he hN (c * m + 1) 0 1 {} 0 (e 0) (by omega) hf
    (by rw [map_zero, sub_zero, hb]) he.unit (Submodule.subset_span ⟨0, by simp, rfl⟩)
  rwa [Nat.zero_mul, Nat.zero_add] at this

end

/-! ### The vectors of the code -/

/-- The cyclic shift. -/
noncomputable def shift (n : ℕ) : EuclideanSpace ℝ (Fin n) ≃ₗᵢ[ℝ] EuclideanSpace ℝ (Fin n) :=
  LinearIsometryEquiv.piLpCongrLeft 2 ℝ ℝ (finRotate n)

theorem shift_chain {n : ℕ} (hn : 0 < n) :
    Chain (LinearMap.id ∘ₗ (shift n).toLinearEquiv.toLinearMap)
      (fun k => if h : k < n then EuclideanSpace.single (⟨k, h⟩ : Fin n) (1 : ℝ) else 0) (n - 1) where
  unit := by
    rw [dif_pos hn]
    simp
  orth := by
    intro k hk hkn
    rw [dif_pos hn, dif_pos (by omega)]
    rw [EuclideanSpace.inner_single_left, EuclideanSpace.single_apply, if_neg (by simp only [Fin.ext_iff]; omega), mul_zero]
  next := by
    intro k hk
    obtain ⟨N, rfl⟩ : ∃ N, n = N + 1 := ⟨n - 1, by omega⟩
    rw [dif_pos (show k < N + 1 by omega), dif_pos (show k + 1 < N + 1 by omega)]
    have h1 : finRotate (N + 1) (⟨k, by omega⟩ : Fin (N + 1)) = ⟨k + 1, by omega⟩ :=
      finRotate_of_lt (by omega)
    show shift (N + 1) (EuclideanSpace.single _ _) = _
    unfold shift
    rw [← h1]
    exact LinearIsometryEquiv.piLpCongrLeft_single _ _ _

/-- **The claim "success means solved" is false**: for every number of unknowns above 100 there is a nonsingular
matrix, even an orthogonal one, with the identity as preconditioner, for which `GMRES` gives up, and the
solver reports success all the same. -/
theorem solveImpl_false_success {g : Rotg} (hg : RotgOK g) {n : ℕ} (hn : 101 ≤ n) :
    ∃ (A : EuclideanSpace ℝ (Fin n) ≃ₗᵢ[ℝ] EuclideanSpace ℝ (Fin n)) (b x' : EuclideanSpace ℝ (Fin n)) (resid : ℝ) (iter : ℕ),
      solveImpl g A (some id) b 0 = (true, some (.ret 1 x' resid iter)) := by
  have h := gmres_chain (A := (shift n).toLinearEquiv.toLinearMap) (M := LinearMap.id) (g := g) (tol := 1 / 10 ^ 20) (m := 50) (c := 2)
    (b := EuclideanSpace.single (⟨0, by omega⟩ : Fin n) (1 : ℝ)) hg
    (by intro a b hab; exact (shift n).injective hab) (by norm_num) (by positivity) (by norm_num) (shift_chain (by omega)) (by omega)
    (by rw [dif_pos (by omega)]; rfl)
  obtain ⟨x', resid, iter, hh⟩ := h
  exact ⟨shift n, _, x', resid, iter, congrArg (fun o => (true, some o)) hh⟩

/-- **What does hold for the solver**: it reports failure exactly when the factorization of the preconditioner
fails; otherwise, for a nonsingular matrix, the reported tolerance is the relative preconditioned residual of
the solution, which is at most that of the first guess; and with at most 50 unknowns it is at most
`1e-20`. -/
theorem solveImpl_partial {g : Rotg} (hg : RotgOK g) {n : ℕ} {A : EuclideanSpace ℝ (Fin n) →ₗ[ℝ] EuclideanSpace ℝ (Fin n)}
    (factor : Option (EuclideanSpace ℝ (Fin n) →ₗ[ℝ] EuclideanSpace ℝ (Fin n)))
    (hT : ∀ M ∈ factor, Function.Injective (M ∘ₗ A)) (b x : EuclideanSpace ℝ (Fin n)) :
    ((solveImpl g A (factor.map DFunLike.coe) b x).1 = false ↔ factor = none) ∧
    ∀ M ∈ factor, ∃ code x' resid iter, (solveImpl g A (factor.map DFunLike.coe) b x).2 = some (.ret code x' resid iter) ∧
      resid = ‖M (b - A x')‖ / refNorm M b ∧ (code = 0 → resid ≤ 1 / 10 ^ 20) ∧ ‖M (b - A x')‖ ≤ ‖M (b - A x)‖ ∧
      (n ≤ 50 → code = 0) := by
  constructor
  · cases factor <;> simp [solveImpl]
  · intro M hM
    obtain rfl : factor = some M := hM
    obtain ⟨code, x', resid, iter, h1, h2, h3, -, h5, -⟩ := gmres_spec (b := b) hg (hT M rfl) (m := 50) (c := 2) (by norm_num)
      (tol := 1 / 10 ^ 20) (by positivity) x
    refine ⟨code, x', resid, iter, congrArg some h1, h2, h3, h5, fun hn => ?_⟩
    obtain ⟨x2, r2, i2, h6, -⟩ := gmres_small (b := b) hg (hT M rfl) (m := 50) (maxIter := 2 * 50) (by simpa using hn)
      (by simp; omega) (tol := 1 / 10 ^ 20) (by positivity) x
    rw [h1] at h6
    injection h6

/-- The hypotheses are met: the shift with the reference rotation. -/
example : RotgOK rotgRef ∧ Function.Injective (LinearMap.id ∘ₗ (shift 3).toLinearEquiv.toLinearMap) :=
  ⟨rotgRef_ok, fun _ _ h => (shift 3).injective h⟩

end Verif.Iter
