import Verif.SmallSignal.AC

/-! # C60: the amplitudes are the sinusoidal steady state of the linearized equations -/

namespace Verif.SmallSignal
open Verif.Assembly

noncomputable section

/-- Row `r` of the static Jacobian / of the Jacobian of the charges, applied to a real vector. -/
def staticRowR (ld : Load) (w : World) (x : Nat → ℝ) (r : Nat) : ℝ :=
  systemRow ld.perm ld.N ld.static (circStatic w).1 (circBase w) ld.customStatic x r
def dynamicRowR (ld : Load) (w : World) (x : Nat → ℝ) (r : Nat) : ℝ :=
  systemRow ld.perm ld.N ld.dynamic (circDynamic w).1 (circBase w) ld.customDynamic x r

theorem matVec_mul_right {K : Type} [CommRing K] (m : List (MEntry K)) (x : Nat → K) (z : K) (r : Nat) :
    matVec m (fun c => x c * z) r = matVec m x r * z := by
  induction m with
  | nil => simp
  | cons e es ih => simp only [matVec_cons, ih]; split_ifs <;> ring

theorem permRow_mul_right {K : Type} [CommRing K] (p : Nat → PermEntry) (N : Nat) (F : Nat → K) (z : K) (r : Nat) :
    permRow p N (fun o => F o * z) r = permRow p N F r * z := by
  unfold permRow
  rw [← List.sum_map_mul_right]
  congr 1
  exact List.map_congr_left fun o _ => by ring

theorem deviceRow_mul_right {K : Type} [CommRing K] (p : Nat → PermEntry) (N : Nat) (d : Pieces K) (x : Nat → K) (z : K) (r : Nat) :
    deviceRow p N (matVec d.1.1 fun c => x c * z) (matVec d.2.1 fun c => x c * z) r =
      deviceRow p N (matVec d.1.1 x) (matVec d.2.1 x) r * z := by
  have : (matVec d.2.1 fun c => x c * z) = fun o => matVec d.2.1 x o * z := by
    funext o; exact matVec_mul_right _ _ _ _
  rw [deviceRow, this, permRow_mul_right, matVec_mul_right, deviceRow]
  ring

theorem systemRow_mul_right {K : Type} [CommRing K] (p : Nat → PermEntry) (N : Nat) (devs : List (Pieces K)) (circuit : List (MEntry K))
    (offset : Nat) (custom : Pieces K) (x : Nat → K) (z : K) (r : Nat) :
    systemRow p N devs circuit offset custom (fun c => x c * z) r =
      systemRow p N devs circuit offset custom x r * z := by
  simp only [systemRow, matVec_mul_right, deviceRow_mul_right, List.sum_map_mul_right]
  ring

theorem matVec_lift_re (m : List (MEntry ℝ)) (X : Nat → ℂ) (r : Nat) :
    (matVec (liftM m) X r).re = matVec m (fun c => (X c).re) r := by
  induction m with
  | nil => simp [liftM]
  | cons e es ih =>
    have : liftM (e :: es) = (e.1, e.2.1, (e.2.2 : ℂ)) :: liftM es := rfl
    rw [this, matVec_cons, matVec_cons, Complex.add_re, ih]
    congr 1
    split_ifs <;> simp

theorem permCoef_re (p : Nat → PermEntry) (r o : Nat) (z : ℂ) :
    (permCoef p r o * z).re = permCoef p r o * z.re := by
  have : (permCoef p r o : ℂ) = ((permCoef p r o : ℝ) : ℂ) := by
    unfold permCoef
    cases (p o).row with
    | none => simp
    | some row => dsimp only; push_cast; split_ifs <;> simp
  rw [this, Complex.re_ofReal_mul]

theorem list_sum_re {α : Type} (l : List α) (g : α → ℂ) : ((l.map g).sum).re = (l.map fun a => (g a).re).sum := by
  induction l with
  | nil => simp
  | cons a l ih => simp [ih]

theorem deviceRow_re (p : Nat → PermEntry) (N : Nat) (d : Pieces ℝ) (X : Nat → ℂ) (r : Nat) :
    (deviceRow p N (matVec (liftP d).1.1 X) (matVec (liftP d).2.1 X) r).re =
      deviceRow p N (matVec d.1.1 fun c => (X c).re) (matVec d.2.1 fun c => (X c).re) r := by
  simp only [deviceRow, liftP, permRow, Complex.add_re, matVec_lift_re, list_sum_re, permCoef_re]

theorem systemRow_re (p : Nat → PermEntry) (N : Nat) (devs : List (Pieces ℝ)) (circuit : List (MEntry ℝ))
    (offset : Nat) (custom : Pieces ℝ) (X : Nat → ℂ) (r : Nat) :
    (systemRow p N (devs.map liftP) (liftM circuit) offset (liftP custom) X r).re =
      systemRow p N devs circuit offset custom (fun c => (X c).re) r := by
  simp only [systemRow, Complex.add_re, List.map_map, list_sum_re, Function.comp_apply, deviceRow_re, shiftM_liftM,
    matVec_lift_re]

/-- **C60, meaning of the amplitudes.**  If `X` solves `J X + 2πi f C X = b`, then the real signals `Re (X e^{2πift})` satisfy the
linearized equations `J δ + d/dt (C δ) = Re (b e^{2πift})` at every time. -/
theorem ac_steady_state (ld : Load) (w : World) (f : ℝ) (X b : Nat → ℂ)
    (hX : ∀ r < ld.N, staticRow ld w X r + 2 * Real.pi * f * Complex.I * dynamicRow ld w X r = b r) (r : Nat)
    (hr : r < ld.N) (t : ℝ) :
    ∃ q : ℝ, HasDerivAt (fun s : ℝ => dynamicRowR ld w (fun c => (X c * Complex.exp (2 * Real.pi * f * Complex.I * s)).re) r) q t ∧
      staticRowR ld w (fun c => (X c * Complex.exp (2 * Real.pi * f * Complex.I * t)).re) r + q =
        (b r * Complex.exp (2 * Real.pi * f * Complex.I * t)).re := by
  set jw : ℂ := 2 * Real.pi * f * Complex.I with hjw
  have hS : ∀ s : ℝ, staticRowR ld w (fun c => (X c * Complex.exp (jw * s)).re) r =
      (staticRow ld w X r * Complex.exp (jw * s)).re := by
    intro s
    rw [staticRow, ← systemRow_mul_right, systemRow_re]
    rfl
  have hD : ∀ s : ℝ, dynamicRowR ld w (fun c => (X c * Complex.exp (jw * s)).re) r =
      (dynamicRow ld w X r * Complex.exp (jw * s)).re := by
    intro s
    rw [dynamicRow, ← systemRow_mul_right, systemRow_re]
    rfl
  refine ⟨(dynamicRow ld w X r * (Complex.exp (jw * t) * jw)).re, ?_, ?_⟩
  · have hfun : (fun s : ℝ => dynamicRowR ld w (fun c => (X c * Complex.exp (jw * s)).re) r) =
        fun s : ℝ => (dynamicRow ld w X r * Complex.exp (jw * s)).re := funext hD
    rw [hfun]
    have h1 : HasDerivAt (fun z : ℂ => jw * z) jw (t : ℂ) := by
      simpa using (hasDerivAt_id (t : ℂ)).const_mul jw
    have h2 := (h1.cexp).const_mul (dynamicRow ld w X r)
    exact h2.real_of_complex
  · rw [hS, ← hX r hr, ← Complex.add_re]
    congr 1
    ring

/-- **C60 and C39**: the linearized equations are those of the nonlinear model.  `F ε t` is row `r` of the static residual and
`Q ε t` row `r` of the charges when every unknown is moved by `ε` times the signal of the AC analysis; if the assembled matrices are
their Jacobians at the operating point (C39), then to first order in `ε` the equation `F + dQ/dt = ε Re (b e^{2πift})` holds. -/
theorem ac_first_order (ld : Load) (w : World) (f : ℝ) (X b : Nat → ℂ)
    (hX : ∀ r < ld.N, staticRow ld w X r + 2 * Real.pi * f * Complex.I * dynamicRow ld w X r = b r) (r : Nat)
    (hr : r < ld.N) (F Q : ℝ → ℝ → ℝ)
    (hF : ∀ t, HasDerivAt (fun ε => F ε t)
      (staticRowR ld w (fun c => (X c * Complex.exp (2 * Real.pi * f * Complex.I * t)).re) r) 0)
    (hQ : ∀ t, HasDerivAt (fun ε => Q ε t)
      (dynamicRowR ld w (fun c => (X c * Complex.exp (2 * Real.pi * f * Complex.I * t)).re) r) 0) (t : ℝ) :
    HasDerivAt (fun s => deriv (fun ε => Q ε s) 0)
      ((b r * Complex.exp (2 * Real.pi * f * Complex.I * t)).re - deriv (fun ε => F ε t) 0) t := by
  obtain ⟨q, h1, h2⟩ := ac_steady_state ld w f X b hX r hr t
  have e1 : (fun s => deriv (fun ε => Q ε s) 0) = fun s : ℝ =>
      dynamicRowR ld w (fun c => (X c * Complex.exp (2 * Real.pi * f * Complex.I * s)).re) r := by
    funext s; exact (hQ s).deriv
  rw [e1, (hF t).deriv, ← h2]
  have : staticRowR ld w (fun c => (X c * Complex.exp (2 * Real.pi * f * Complex.I * t)).re) r + q -
      staticRowR ld w (fun c => (X c * Complex.exp (2 * Real.pi * f * Complex.I * t)).re) r = q := by ring
  rw [this]
  exact h1

end
end Verif.SmallSignal
