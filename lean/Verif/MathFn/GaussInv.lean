import Verif.MathFn.GaussDeriv

/-!
# `igfi` and `digfidx`: `/repo/src/MathEval/GaussFermi.cc:170-237`
-/

namespace Verif.MathFn

open Real

/-- The loop of igfi, GaussFermi.cc:217-228; `k` counts the iterations left. -/
noncomputable def igfiLoop (f fp : ℝ → ℝ) (tol g : ℝ) : ℕ → ℝ → ℝ
  | 0, x => x
  | k + 1, x =>
    let upd := -(f x - g) / fp x
    let x' := x + upd
    let rerr := |upd| / (|x'| + tol)
    if rerr > tol ∧ 0 < k then igfiLoop f fp tol g k x' else x'

/-- The argument of the inverse error function, GaussFermi.cc:183-195; `bound` is line 185. -/
noncomputable def igfiArg (bound g : ℝ) : ℝ :=
  let arg := 1 - 2 * g
  if arg ≤ -1 then -bound else if 1 ≤ arg then bound else arg

/-- igfi, GaussFermi.cc:170-230 (`tol` is good_relerror, `eps` the machine epsilon). -/
noncomputable def InvErf.igfi (L : InvErf) (tol eps g s : ℝ) : ℝ :=
  let H := L.hOf s
  let x0 := -s * √2 * L.erfInv (igfiArg (1 - eps) g) / H
  igfiLoop (fun x => gfiH H x s) (fun x => dgfidxH H x s) tol g 200 x0

/-- digfidx, GaussFermi.cc:233-237. -/
noncomputable def InvErf.digfidx (L : InvErf) (tol eps g s : ℝ) : ℝ :=
  1 / dgfidxH (L.hOf s) (L.igfi tol eps g s) s

/-- **C57.** The argument of the inverse error function is always inside its domain. -/
theorem igfiArg_inside {eps : ℝ} (h0 : 0 < eps) (h1 : eps < 1) (g : ℝ) :
    -1 < igfiArg (1 - eps) g ∧ igfiArg (1 - eps) g < 1 := by
  unfold igfiArg
  simp only
  split_ifs with h2 h3
  · constructor <;> linarith
  · constructor <;> linarith
  · exact ⟨not_le.1 h2, not_le.1 h3⟩

/-- A solution is kept by the loop. -/
theorem igfiLoop_root {f fp : ℝ → ℝ} {tol g x : ℝ} (htol : 0 < tol) (hx : f x = g) (k : ℕ) :
    igfiLoop f fp tol g k x = x := by
  cases k with
  | zero => rfl
  | succ k =>
    rw [igfiLoop]
    simp only [hx, sub_self, neg_zero, zero_div, add_zero, abs_zero]
    rw [if_neg (by intro h; linarith [h.1])]

section
variable {L : InvErf} (hL : L.Correct) {s : ℝ} (hs : s ≠ 0)
include hL hs

/-- The value where the formula changes. -/
theorem gfi_at_break : gfiH (L.hOf s) (-(s * s)) s = exp (-0.5 * (s * s)) / 2 := by
  obtain ⟨h1, _⟩ := calcHImpl_eq hL hs
  have h2 : (0 : ℝ) < √2 := by positivity
  unfold gfiH
  simp only [lt_irrefl, if_false]
  have e1 : - -(s * s) / (s * √2) * L.hOf s = s * L.hOf s / √2 := by field_simp
  rw [e1, h1]
  norm_num
  ring

/-- **C57.** From the value at the change of formula on (the degenerate range), `igfi` is the
inverse of `gfi`. -/
theorem igfi_inverse_degenerate_partial {tol eps g : ℝ} (htol : 0 < tol)
    (h1 : exp (-0.5 * (s * s)) / 2 ≤ g) (h2 : g < 1) :
    gfiH (L.hOf s) (L.igfi tol eps g s) s = g := by
  have hg0 : 0 < g := lt_of_lt_of_le (by have := exp_pos (-0.5 * (s * s)); positivity) h1
  obtain ⟨_, hH⟩ := calcHImpl_eq hL hs
  have hHne : L.hOf s ≠ 0 := by
    intro h
    have : L.calcHImpl s (s * s) = 0 := h
    rw [this] at hH; simp at hH
  have hsq : (0 : ℝ) < √2 := by positivity
  have harg : igfiArg (1 - eps) g = 1 - 2 * g := by
    unfold igfiArg
    simp only
    rw [if_neg (by linarith), if_neg (by linarith)]
  set x0 := -s * √2 * L.erfInv (1 - 2 * g) / L.hOf s with hx0
  have hval : gHigh (L.hOf s) s x0 = g := by
    unfold gHigh erfc
    have e : -x0 / (s * √2) * L.hOf s = L.erfInv (1 - 2 * g) := by rw [hx0]; field_simp
    rw [e, hL.erf _ (by linarith) (by linarith)]
    norm_num
    ring
  have hbreak := gfi_at_break hL hs
  have hbreak' : gHigh (L.hOf s) s (-(s * s)) = exp (-0.5 * (s * s)) / 2 := by
    rw [← hbreak]; simp only [gfiH, lt_irrefl, if_false]; rfl
  have hmono : StrictMono (gHigh (L.hOf s) s) :=
    strictMono_of_deriv_pos fun z => by
      rw [(gHigh_hasDerivAt hs z).deriv]
      unfold dgHigh
      have hp : 0 < √(2 * π) := Real.sqrt_pos.2 (by have := Real.pi_pos; positivity)
      have e : 1 / √(2 * π) * L.hOf s / s = 1 / √(2 * π) * (L.hOf s / s) := by ring
      rw [e]
      have := exp_pos (-0.5 * (L.hOf s * z) ^ 2 / (s * s))
      positivity
  have hx : -(s * s) ≤ x0 := by
    rw [← hmono.le_iff_le, hval, hbreak']; exact h1
  have hroot : gfiH (L.hOf s) x0 s = g := by
    rw [← hval]; simp only [gfiH, if_neg (not_lt.2 hx)]; rfl
  have : L.igfi tol eps g s = x0 := by
    unfold InvErf.igfi
    simp only
    rw [harg, ← hx0]
    exact igfiLoop_root (f := fun x => gfiH (L.hOf s) x s) htol hroot 200
  rw [this, hroot]

/-- **C57.** Outside `(0, 1)` there is nothing to return: no argument of `gfi` has such a value. -/
theorem igfi_no_root {g : ℝ} (h : g ≤ 0 ∨ 1 ≤ g) (z : ℝ) : gfiH (L.hOf s) z s ≠ g := by
  obtain ⟨h1, h2⟩ := gfi_range hL hs z
  rintro rfl
  rcases h with h | h <;> linarith

/-- **C57.** `digfidx` is the derivative of the inverse of `gfi` at the point that the value
returned by `igfi` solves, for every `g` and `s ≠ 0`. -/
theorem digfidx_is_derivative {tol eps g : ℝ} {i : ℝ → ℝ}
    (hi : ∀ z, i (gfiH (L.hOf s) z s) = z) :
    HasDerivAt i (L.digfidx tol eps g s) (gfiH (L.hOf s) (L.igfi tol eps g s) s) := by
  set v := L.igfi tol eps g s
  set F := fun z => gfiH (L.hOf s) z s with hF
  have hmono : StrictMono F := gfi_strictMono hL hs
  have hcont : Continuous F :=
    continuous_iff_continuousAt.2 fun z => (gfi_hasDerivAt hL hs z).continuousAt
  have hopen : Set.Ioo (F (v - 1)) (F (v + 1)) ∈ nhds (F v) :=
    Ioo_mem_nhds (hmono (by linarith)) (hmono (by linarith))
  have hsurj : ∀ y ∈ Set.Ioo (F (v - 1)) (F (v + 1)), F (i y) = y := by
    intro y hy
    obtain ⟨x, _, hx⟩ := intermediate_value_Icc (by linarith : v - 1 ≤ v + 1) hcont.continuousOn
      ⟨hy.1.le, hy.2.le⟩
    rw [← hx]
    have : i (F x) = x := hi x
    rw [this]
  have hic : ContinuousAt i (F v) := by
    have hm : StrictMonoOn i (Set.Ioo (F (v - 1)) (F (v + 1))) := by
      intro a ha b hb hab
      rw [← hmono.lt_iff_lt, hsurj a ha, hsurj b hb]
      exact hab
    refine hm.continuousAt_of_image_mem_nhds hopen ?_
    have himg : i '' Set.Ioo (F (v - 1)) (F (v + 1)) = Set.Ioo (v - 1) (v + 1) := by
      ext x
      constructor
      · rintro ⟨a, ha, rfl⟩
        constructor
        · rw [← hmono.lt_iff_lt, hsurj a ha]; exact ha.1
        · rw [← hmono.lt_iff_lt, hsurj a ha]; exact ha.2
      · intro hx
        exact ⟨F x, ⟨hmono hx.1, hmono hx.2⟩, hi x⟩
    rw [himg]
    have : i (F v) = v := hi v
    rw [this]
    exact Ioo_mem_nhds (by linarith) (by linarith)
  have e : L.digfidx tol eps g s = (dgfidxH (L.hOf s) v s)⁻¹ := by
    rw [InvErf.digfidx, one_div]
  rw [e]
  refine HasDerivAt.of_local_left_inverse (f := F) hic ?_ (dgfidx_pos hL hs v).ne' ?_
  · have : i (F v) = v := hi v
    rw [this]
    exact gfi_hasDerivAt hL hs v
  · filter_upwards [hopen] with y hy
    exact hsurj y hy

end

/-- Newton's method without a safeguard: `r'` is the iterate number `k`. -/
def NIterate (f fp : ℝ → ℝ) (g : ℝ) : ℕ → ℝ → ℝ → Prop
  | 0, x, x' => x' = x
  | k + 1, x, x' => NIterate f fp g k (x + -(f x - g) / fp x) x'

theorem igfiLoop_stop {f fp : ℝ → ℝ} {tol g : ℝ} : ∀ {k : ℕ} {x : ℝ},
    ∃ x0, igfiLoop f fp tol g (k + 1) x = x0 + -(f x0 - g) / fp x0 ∧
      (|-(f x0 - g) / fp x0| / (|igfiLoop f fp tol g (k + 1) x| + tol) ≤ tol ∨
        NIterate f fp g k x x0) := by
  intro k
  induction k with
  | zero =>
    intro x
    refine ⟨x, ?_, Or.inr rfl⟩
    rw [igfiLoop]
    simp
  | succ k ih =>
    intro x
    by_cases hc : |-(f x - g) / fp x| / (|x + -(f x - g) / fp x| + tol) > tol
    · obtain ⟨x0, h1, h2⟩ := ih (x := x + -(f x - g) / fp x)
      have e : igfiLoop f fp tol g (k + 1 + 1) x
          = igfiLoop f fp tol g (k + 1) (x + -(f x - g) / fp x) := by
        rw [igfiLoop]
        rw [if_pos ⟨hc, by omega⟩]
      rw [e]
      exact ⟨x0, h1, h2⟩
    · have e : igfiLoop f fp tol g (k + 1 + 1) x = x + -(f x - g) / fp x := by
        rw [igfiLoop]
        rw [if_neg (fun h => hc h.1)]
      rw [e]
      exact ⟨x, rfl, Or.inl (not_lt.1 hc)⟩

/-- **C57.** Unless the result is the two hundredth iterate, `igfi` stopped at a relative change of
at most the tolerance, and the last iterate solved `gfi(x, s) = g` up to that change times the
slope. -/
theorem igfi_stop_partial {L : InvErf} (hL : L.Correct) {s : ℝ} (hs : s ≠ 0) {tol eps g : ℝ}
    (htol : 0 < tol) :
    ∃ x0, (|L.igfi tol eps g s - x0| ≤ tol * (|L.igfi tol eps g s| + tol) ∧
        |gfiH (L.hOf s) x0 s - g|
          ≤ tol * (|L.igfi tol eps g s| + tol) * dgfidxH (L.hOf s) x0 s) ∨
      NIterate (fun x => gfiH (L.hOf s) x s) (fun x => dgfidxH (L.hOf s) x s) g 199
        (-s * √2 * L.erfInv (igfiArg (1 - eps) g) / L.hOf s) x0 := by
  obtain ⟨x0, h1, h2⟩ := igfiLoop_stop (f := fun x => gfiH (L.hOf s) x s)
    (fp := fun x => dgfidxH (L.hOf s) x s) (tol := tol) (g := g) (k := 199)
    (x := -s * √2 * L.erfInv (igfiArg (1 - eps) g) / L.hOf s)
  have he : igfiLoop (fun x => gfiH (L.hOf s) x s) (fun x => dgfidxH (L.hOf s) x s) tol g (199 + 1)
    (-s * √2 * L.erfInv (igfiArg (1 - eps) g) / L.hOf s) = L.igfi tol eps g s := rfl
  rw [he] at h1 h2
  refine ⟨x0, h2.imp ?_ id⟩
  intro h
  have hp : 0 < |L.igfi tol eps g s| + tol := by positivity
  rw [div_le_iff₀ hp] at h
  have hfp := dgfidx_pos hL hs x0
  constructor
  · have : L.igfi tol eps g s - x0 = -(gfiH (L.hOf s) x0 s - g) / dgfidxH (L.hOf s) x0 s := by
      rw [h1]; ring
    rw [this]; exact h
  · rw [abs_div, abs_neg, abs_of_pos hfp, div_le_iff₀ hfp] at h
    exact h

end Verif.MathFn
