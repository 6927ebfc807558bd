import Verif.MathFn.Fermi

/-!
# The loop of `Fermi`: it returns, the value is positive, and it is not the inverse of `InvFermi`
-/

namespace Verif.MathFn

open Real

theorem halve_mono {n m : ℕ} {r upd v : ℝ} (h : halve n r upd = some v) (hnm : n ≤ m) :
    halve m r upd = some v := by
  induction n generalizing m upd with
  | zero => simp [halve] at h
  | succ n ih =>
    obtain ⟨m, rfl⟩ : ∃ k, m = k + 1 := ⟨m - 1, by omega⟩
    rw [halve] at h ⊢
    split_ifs at h ⊢ with hc
    · exact ih h (by omega)
    · exact h

/-- What the inner loop returns: the update, halved some times, and the sum is positive. -/
theorem halve_spec {n : ℕ} {r upd v : ℝ} (h : halve n r upd = some v) :
    0 < v + r ∧ ∃ k : ℕ, v = upd * 0.5 ^ k := by
  induction n generalizing upd with
  | zero => simp [halve] at h
  | succ n ih =>
    rw [halve] at h
    split_ifs at h with hc
    · obtain ⟨h1, k, hk⟩ := ih h
      exact ⟨h1, k + 1, by rw [hk, pow_succ]; ring⟩
    · obtain rfl := Option.some.inj h
      exact ⟨not_le.1 hc, 0, by simp⟩

/-- The inner loop ends when the iterate is positive. -/
theorem halve_returns {r : ℝ} (hr : 0 < r) (upd : ℝ) : ∃ n v, halve n r upd = some v := by
  have key : ∀ k : ℕ, ∀ upd : ℝ, -upd * 0.5 ^ k < r → ∃ v, halve (k + 1) r upd = some v := by
    intro k
    induction k with
    | zero =>
      intro upd h
      refine ⟨upd, ?_⟩
      rw [halve, if_neg]
      simp at h
      linarith
    | succ k ih =>
      intro upd h
      rw [halve]
      split_ifs with hc
      · exact ih _ (by rw [pow_succ] at h; linarith [h, (by ring : -upd * (0.5 ^ k * 0.5) = -(upd * 0.5) * 0.5 ^ k)])
      · exact ⟨_, rfl⟩
  have ht : Filter.Tendsto (fun k : ℕ => -upd * (0.5 : ℝ) ^ k) Filter.atTop (nhds (-upd * 0)) :=
    (tendsto_pow_atTop_nhds_zero_of_lt_one (by norm_num) (by norm_num)).const_mul _
  rw [mul_zero] at ht
  obtain ⟨k, hk⟩ := (ht.eventually (gt_mem_nhds hr)).exists
  obtain ⟨v, hv⟩ := key k upd hk
  exact ⟨_, v, hv⟩

theorem fermiLoop_mono {f fp : ℝ → ℝ} {tol eta : ℝ} {n m : ℕ} (hnm : n ≤ m) :
    ∀ {k : ℕ} {r v : ℝ}, fermiLoop f fp tol eta n k r = some v →
      fermiLoop f fp tol eta m k r = some v := by
  intro k
  induction k with
  | zero => intro r v h; exact h
  | succ k ih =>
    intro r v h
    rw [fermiLoop] at h ⊢
    obtain ⟨upd, hu, h⟩ := Option.bind_eq_some_iff.1 h
    rw [halve_mono hu hnm]
    simp only [Option.bind_some]
    simp only at h
    split_ifs at h ⊢ with hc
    · exact ih h
    · exact h

theorem fermiLoop_pos {f fp : ℝ → ℝ} {tol eta : ℝ} {n : ℕ} :
    ∀ {k : ℕ} {r v : ℝ}, 0 < r → fermiLoop f fp tol eta n k r = some v → 0 < v := by
  intro k
  induction k with
  | zero => intro r v hr h; obtain rfl := Option.some.inj h; exact hr
  | succ k ih =>
    intro r v hr h
    rw [fermiLoop] at h
    obtain ⟨upd, hu, h⟩ := Option.bind_eq_some_iff.1 h
    have hp := (halve_spec hu).1
    simp only at h
    split_ifs at h with hc
    · exact ih (by linarith) h
    · obtain rfl := Option.some.inj h; linarith

theorem fermiLoop_returns (f fp : ℝ → ℝ) (tol eta : ℝ) :
    ∀ (k : ℕ) {r : ℝ}, 0 < r → ∃ n v, fermiLoop f fp tol eta n k r = some v := by
  intro k
  induction k with
  | zero => intro r _; exact ⟨0, r, rfl⟩
  | succ k ih =>
    intro r hr
    obtain ⟨n, upd, hu⟩ := halve_returns hr (-(f r - eta) / fp r)
    have hp := (halve_spec hu).1
    obtain ⟨m, v, hv⟩ := ih (r := r + upd) (by linarith)
    refine ⟨max n m, if |upd| / (|r + upd| + tol) > tol ∧ 0 < k then v else r + upd, ?_⟩
    rw [fermiLoop, halve_mono hu (le_max_left n m)]
    simp only [Option.bind_some]
    split_ifs with hc
    · exact fermiLoop_mono (le_max_right n m) hv
    · rfl

/-- **C56.** `Fermi` returns for every argument, and what it returns is positive. -/
theorem fermi_returns (eta : ℝ) :
    ∃ v, 0 < v ∧ ∃ n, ∀ m, n ≤ m → fermi m eta = some v := by
  obtain ⟨n, v, h⟩ := fermiLoop_returns invFermi dInvFermidx goodRel eta 20 (exp_pos eta)
  exact ⟨v, fermiLoop_pos (exp_pos eta) h, n, fun m hm => fermiLoop_mono hm h⟩

/-- **C56.** So does `dFermidx`. -/
theorem dFermidx_returns (eta : ℝ) :
    ∃ d, 0 < d ∧ ∃ n, ∀ m, n ≤ m → dFermidx m eta = some d := by
  obtain ⟨v, hv, n, h⟩ := fermi_returns eta
  refine ⟨1 / dInvFermidx v, ?_, n, fun m hm => by simp [dFermidx, h m hm]⟩
  have := dInvFermidx_pos hv
  positivity

/-- **C56**, the counterexample: for every argument between `4.3` and `7`, the value that `Fermi`
returns is not mapped back to the argument by `InvFermi`; the distance is positive whatever the
number of iterations. -/
theorem fermi_not_inverse {eta : ℝ} (h1 : 4.3 ≤ eta) (h2 : eta ≤ 7) {n : ℕ} {v : ℝ}
    (h : fermi n eta = some v) : invFermi v ≠ eta := by
  have hv : 0 < v := fermiLoop_pos (exp_pos eta) h
  intro he
  rcases invFermi_skips hv with h' | h'
  · rw [he] at h'; linarith
  · rw [he] at h'; linarith

/-- In the middle of that range the error is at least `1.35`. -/
theorem fermi_error_large {n : ℕ} {v : ℝ} (h : fermi n 5.65 = some v) :
    1.35 ≤ |invFermi v - 5.65| := by
  have hv : 0 < v := fermiLoop_pos (exp_pos _) h
  rcases invFermi_skips hv with h' | h'
  · rw [abs_of_neg (by norm_num at *; linarith)]; norm_num at *; linarith
  · rw [abs_of_pos (by norm_num at *; linarith)]; norm_num at *; linarith

/-- `r'` is the iterate number `k` of Newton's method (with halving) started from `r`. -/
def Iterate (f fp : ℝ → ℝ) (eta : ℝ) (n : ℕ) : ℕ → ℝ → ℝ → Prop
  | 0, r, r' => r' = r
  | k + 1, r, r' => ∃ upd, halve n r (-(f r - eta) / fp r) = some upd ∧
      Iterate f fp eta n k (r + upd) r'

/-- How the loop ends: after the last allowed iteration, or with a relative change of at most the
tolerance in the last iteration, whose update solved the linearised equation (up to halvings). -/
theorem fermiLoop_stop {f fp : ℝ → ℝ} {tol eta : ℝ} {n : ℕ} :
    ∀ {k : ℕ} {r v : ℝ}, 0 < r → fermiLoop f fp tol eta n (k + 1) r = some v →
      ∃ r0 upd, 0 < r0 ∧ halve n r0 (-(f r0 - eta) / fp r0) = some upd ∧ v = r0 + upd ∧
        (|upd| / (|v| + tol) ≤ tol ∨
          Iterate f fp eta n k r r0) := by
  intro k
  induction k with
  | zero =>
    intro r v hr h
    rw [fermiLoop] at h
    obtain ⟨upd, hu, h⟩ := Option.bind_eq_some_iff.1 h
    simp only [lt_irrefl, and_false, if_false] at h
    obtain rfl := Option.some.inj h
    exact ⟨r, upd, hr, hu, rfl, Or.inr rfl⟩
  | succ k ih =>
    intro r v hr h
    rw [fermiLoop] at h
    obtain ⟨upd, hu, h⟩ := Option.bind_eq_some_iff.1 h
    simp only at h
    have hp := (halve_spec hu).1
    split_ifs at h with hc
    · obtain ⟨r0, u0, a1, a2, a3, a4⟩ := ih (by linarith) h
      exact ⟨r0, u0, a1, a2, a3, a4.imp id fun b => ⟨upd, hu, b⟩⟩
    · obtain rfl := Option.some.inj h
      refine ⟨r, upd, hr, hu, rfl, Or.inl ?_⟩
      by_contra hgt
      exact hc ⟨not_le.1 hgt, by omega⟩

/-- **C56.** Unless the result is the twentieth iterate, the last
iterate moved by a relative `10^-12` at most and, if the update was not halved, that iterate solved
`InvFermi r = eta` up to that move times the slope. -/
theorem fermi_stop_partial {eta v : ℝ} {n : ℕ} (h : fermi n eta = some v) :
    ∃ r0 upd, 0 < r0 ∧ v = r0 + upd ∧
      (∃ k : ℕ, (invFermi r0 - eta) * 0.5 ^ k = -upd * dInvFermidx r0) ∧
      (|upd| ≤ goodRel * (|v| + goodRel) ∨
        Iterate invFermi dInvFermidx eta n 19 (exp eta) r0) := by
  obtain ⟨r0, upd, h1, h2, h3, h4⟩ := fermiLoop_stop (exp_pos eta) h
  obtain ⟨_, k, hk⟩ := halve_spec h2
  have hfp := dInvFermidx_pos h1
  refine ⟨r0, upd, h1, h3, ⟨k, ?_⟩, h4.imp ?_ id⟩
  · rw [hk]; field_simp
  · intro h'
    have : 0 < |v| + goodRel := by unfold goodRel; positivity
    rwa [div_le_iff₀ this] at h'

/-- **C56.** Below the break point `dFermidx` is the derivative of the inverse of `InvFermi`: for
every function `g` that inverts `InvFermi` near the point that the returned value solves. -/
theorem dFermidx_is_derivative_partial {eta v d : ℝ} {n : ℕ} (h : fermi n eta = some v)
    (hd : dFermidx n eta = some d) (hb : v < fBreak) {g : ℝ → ℝ}
    (hg : ContinuousAt g (invFermi v)) (hgv : g (invFermi v) = v)
    (hinv : ∀ᶠ y in nhds (invFermi v), invFermi (g y) = y) :
    HasDerivAt g d (invFermi v) := by
  have hv : 0 < v := fermiLoop_pos (exp_pos eta) h
  have hd' : d = (dInvFermidx v)⁻¹ := by
    simp only [dFermidx, h, Option.map_some, Option.some.injEq] at hd
    rw [← hd, one_div]
  rw [hd']
  refine HasDerivAt.of_local_left_inverse hg ?_ (dInvFermidx_pos hv).ne' hinv
  rw [hgv]
  exact dInvFermidx_below hv hb

end Verif.MathFn
