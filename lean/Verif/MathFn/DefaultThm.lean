import Verif.MathFn.Default

/-!
# The declared derivatives are the derivatives (property C59)
-/

namespace Verif.MathFn
open Verif.Sym Real

variable {K : Type}

/-- The checks on one row: the texts are read as `raws`, the formal arguments are different plain
names. -/
def rowB (r : Row) (raws : List Raw) : Bool :=
  (r.formals.length == r.ders.length) && (r.formals.length == raws.length) &&
  (r.formals.map (·.toList)).all plainB && decide (r.formals.map (·.toList)).Nodup &&
  (List.zipWith (fun t x => reads t x && actsB x) r.ders raws).all id &&
  (match rows.find? (fun q => q.f.toList = r.f.toList) with
    | some q => q.f == r.f && q.formals == r.formals && q.ders == r.ders
    | none => false)

/-- The environment of the texts of the table. -/
noncomputable abbrev tenv (ρ : Env) (fs : List Str) (vs : List ℝ) : Env :=
  (ρ.binds (fs.map ('@' :: ·)) vs).binds fs vs

section
variable {C : Cfg K} (hC : C.Exact) (hF : C.DigitFirst) {read : Str → K} {ρ : Env}
include hC hF

theorem row_ok (r : Row) (raws : List Raw) (hB : rowB r raws = true) (as : List (Expr K))
    (hl : as.length = r.formals.length) (hfr : ∀ a ∈ as, NoReserved C a)
    (fx : Fin as.length → Bool)
    (hd : HasFDerivAt (fun w : Fin as.length → ℝ =>
        ρ.u r.f.toList (List.ofFn fun i => if fx i then eval C ρ as[i] else w i))
      (∑ i : Fin as.length, (if fx i then 0 else
        rv C defTables read (tenv ρ (r.formals.map (·.toList)) (as.map (eval C ρ)))
          (raws.getD i (.num []))) •
          ContinuousLinearMap.proj (R := ℝ) (φ := fun _ : Fin as.length => ℝ) i)
      (fun i => eval C ρ as[i])) :
    UserOK C (defTab C read) ρ r.f.toList as fx := by
  simp only [rowB, Bool.and_eq_true, beq_iff_eq, decide_eq_true_eq, List.all_eq_true] at hB
  obtain ⟨⟨⟨⟨⟨b1, b2⟩, b3⟩, b4⟩, b5⟩, b6⟩ := hB
  have hT : defTab C read r.f.toList = r.entry C read := by
    unfold defTab
    split at b6
    · rename_i q hq
      rw [hq]
      obtain ⟨⟨-, h2⟩, h3⟩ : (q.f = r.f ∧ q.formals = r.formals) ∧ q.ders = r.ders := by
        simpa using b6
      simp only [Row.entry, h2, h3]
    · cases b6
  have hlen : (r.entry C read).length = r.formals.length := by simp [Row.entry, b1]
  have hn1 : (r.entry C read).map (·.1) = (r.formals.map (·.toList)).map ('@' :: ·) := by
    unfold Row.entry
    apply List.ext_getElem
    · simp [b1]
    · intro i h1 h2; simp
  have hpl : ∀ x ∈ r.formals.map (·.toList), plainB x = true := b3
  refine ⟨by rw [hT, hlen, hl], ?_, ?_, ?_⟩
  · left
    intro p hp
    rw [hT] at hp
    have : p.1 ∈ (r.formals.map (·.toList)).map ('@' :: ·) := hn1 ▸ List.mem_map_of_mem hp
    obtain ⟨x, hx, h⟩ := List.mem_map.1 this
    rw [← h]
    exact (plainB_name (hpl x hx)).2.1
  · intro p hp _ a ha
    rw [hT] at hp
    have : p.1 ∈ (r.formals.map (·.toList)).map ('@' :: ·) := hn1 ▸ List.mem_map_of_mem hp
    obtain ⟨x, hx, h⟩ := List.mem_map.1 this
    rw [← h]
    exact hfr a ha x
  · rw [hT, hn1]
    refine hd.congr_fderiv ?_
    refine Finset.sum_congr rfl fun i _ => ?_
    congr 1
    split
    · rfl
    · have hi : (i : ℕ) < r.formals.length := hl ▸ i.2
      have hi' : (i : ℕ) < r.ders.length := b1 ▸ hi
      have hi'' : (i : ℕ) < raws.length := b2 ▸ hi
      have h2 : ((r.entry C read).map (·.2)).getD i none
          = (parse C defTables read (r.ders[(i : ℕ)]).toList).map
            (rename C (r.formals.map (·.toList))) := by
        simp [Row.entry, hi, hi']
      have h3 := b5 (reads r.ders[(i : ℕ)] raws[(i : ℕ)] && actsB raws[(i : ℕ)]) (by
        rw [List.mem_iff_getElem]
        exact ⟨i, by simpa using ⟨hi', hi''⟩, by simp⟩)
      simp only [id_eq, Bool.and_eq_true] at h3
      rw [h2, partial_eq hC hF h3.1 h3.2 _ _ _ hpl (by simp [hl]) b4]
      rw [List.getD_eq_getElem?_getD, List.getElem?_eq_getElem hi'', Option.getD_some]

/-- Functions of one argument. -/
theorem unary_ok (f : String) (t : String) (raw : Raw) (hB : rowB ⟨f, ["x"], [t]⟩ [raw] = true)
    {a : Expr K} (ha : NoReserved C a) {g : ℝ → ℝ} (hu : ∀ x, ρ.u f.toList [x] = g x)
    (hd : HasDerivAt g (rv C defTables read (tenv ρ [['x']] [eval C ρ a]) raw) (eval C ρ a)) :
    UserOK C (defTab C read) ρ f.toList [a] (fun _ => false) := by
  refine row_ok hC hF ⟨f, ["x"], [t]⟩ [raw] hB [a] rfl (by simpa using ha) _ ?_
  have h1 : (fun w : Fin [a].length → ℝ => ρ.u f.toList (List.ofFn fun i =>
      if false = true then eval C ρ [a][i] else w i)) = fun w => g (w 0) := by
    funext w
    rw [← hu]
    simp
  simp only [h1]
  have h2 : HasFDerivAt (fun w : Fin [a].length → ℝ => w 0)
      (ContinuousLinearMap.proj (R := ℝ) (φ := fun _ : Fin [a].length => ℝ) 0)
      (fun i => eval C ρ [a][i]) := hasFDerivAt_apply 0 _
  have h3 := HasDerivAt.comp_hasFDerivAt (f := fun w : Fin [a].length → ℝ => w 0)
    (fun i => eval C ρ [a][i]) hd h2
  refine h3.congr_fderiv ?_
  ext w
  simp

end

/-- A call of another function in the table. -/
theorem rv_call (C : Cfg K) (read : Str → K) (ρ : Env) (f : Str) (rs : List Raw)
    (h : decide (f ∉ [['e', 'x', 'p'], ['l', 'o', 'g'], ['p', 'o', 'w']]) = true) :
    rv C defTables read ρ (.call f rs) = ρ.u f (rs.map (rv C defTables read ρ)) := by
  have h := of_decide_eq_true h
  simp only [List.mem_cons, List.not_mem_nil, or_false, not_or] at h
  simp [rv, rvL_eq, rv.callVal, h.1, h.2.1, h.2.2]

theorem rv_name (C : Cfg K) (read : Str → K) (ρ : Env) (x : Str) :
    rv C defTables read ρ (.name x) = ρ.v x := by simp [rv, defTables]

theorem tenv_u (ρ : Env) (fs : List Str) (vs : List ℝ) : (tenv ρ fs vs).u = ρ.u := by
  rw [tenv, binds_u, binds_u]

theorem tenv_x (ρ : Env) (v : ℝ) : (tenv ρ [['x']] [v]).v ['x'] = v := by
  simp [tenv, Env.binds, Env.bind]

theorem tenv_xy (ρ : Env) (v w : ℝ) : (tenv ρ [['x'], ['y']] [v, w]).v ['x'] = v ∧
    (tenv ρ [['x'], ['y']] [v, w]).v ['y'] = w := by
  simp [tenv, Env.binds, Env.bind, Function.update]

/-! ### The derivatives -/

theorem rpow_neg_half {y : ℝ} (hy : 0 ≤ y) : y ^ (-1 / 2 : ℝ) = (√y)⁻¹ := by
  rw [show (-1 / 2 : ℝ) = -(1 / 2) by norm_num, Real.rpow_neg hy, Real.sqrt_eq_rpow]

theorem artanh_hasDerivAt {x : ℝ} (h1 : -1 < x) (h2 : x < 1) :
    HasDerivAt artanh ((1 - x ^ 2)⁻¹) x := by
  have hev : artanh =ᶠ[nhds x] fun y => 1 / 2 * Real.log ((1 + y) / (1 - y)) := by
    filter_upwards [Ioo_mem_nhds h1 h2] with y hy
    exact artanh_eq_half_log ⟨hy.1.le, hy.2.le⟩
  have ha : HasDerivAt (fun y : ℝ => 1 + y) 1 x := (hasDerivAt_id x).const_add 1
  have hb : HasDerivAt (fun y : ℝ => 1 - y) (-1) x := (hasDerivAt_id x).const_sub 1
  have hp : 0 < 1 + x := by linarith
  have hq : 0 < 1 - x := by linarith
  have hc := ((ha.fun_div hb hq.ne').log (by positivity)).const_mul (1 / 2)
  refine (hc.congr_of_eventuallyEq hev).congr_deriv ?_
  have : (1 : ℝ) - x ^ 2 = (1 + x) * (1 - x) := by ring
  rw [this]
  field_simp
  ring

theorem tanh_hasDerivAt (x : ℝ) : HasDerivAt tanh (1 - tanh x ^ 2) x := by
  have h := (Real.hasDerivAt_sinh x).fun_div (Real.hasDerivAt_cosh x) (Real.cosh_pos x).ne'
  have he : tanh = fun y => sinh y / cosh y := by funext y; exact Real.tanh_eq_sinh_div_cosh y
  rw [he]
  refine h.congr_deriv ?_
  have := (Real.cosh_pos x).ne'
  field_simp

theorem sgn_locally {x : ℝ} (h : x ≠ 0) : ∀ᶠ y in nhds x, sgnF y = sgnF x := by
  rcases lt_or_gt_of_ne h with h | h
  · filter_upwards [Iio_mem_nhds h] with y hy
    simp [sgnF, not_le.2 h, not_le.2 (show y < 0 from hy)]
  · filter_upwards [Ioi_mem_nhds h] with y hy
    simp [sgnF, h.le, (show 0 < y from hy).le]

theorem step_locally {x : ℝ} (h : x ≠ 0) : ∀ᶠ y in nhds x, stepF y = stepF x := by
  rcases lt_or_gt_of_ne h with h | h
  · filter_upwards [Iio_mem_nhds h] with y hy
    simp [stepF, not_le.2 h, not_le.2 (show y < 0 from hy)]
  · filter_upwards [Ioi_mem_nhds h] with y hy
    simp [stepF, h.le, (show 0 < y from hy).le]

theorem abs_hasDerivAt {x : ℝ} (h : x ≠ 0) : HasDerivAt (fun y => |y|) (sgnF x) x := by
  rcases lt_or_gt_of_ne h with h | h
  · have : HasDerivAt (fun y : ℝ => |y|) (-1) x := by
      refine (hasDerivAt_id x).neg.congr_of_eventuallyEq ?_
      filter_upwards [Iio_mem_nhds h] with y hy
      simp [abs_of_neg (show y < 0 from hy)]
    simpa [sgnF, not_le.2 h] using this
  · have : HasDerivAt (fun y : ℝ => |y|) 1 x := by
      refine (hasDerivAt_id x).congr_of_eventuallyEq ?_
      filter_upwards [Ioi_mem_nhds h] with y hy
      simp [abs_of_pos (show 0 < y from hy)]
    simpa [sgnF, h.le] using this

/-- A function that is only declared. -/
theorem declared_ok {C : Cfg K} {read : Str → K} {ρ : Env} (f : String) (n : ℕ)
    (hB : (match rows.find? (fun q => q.f.toList = f.toList),
        decls.find? (fun d => d.1.toList = f.toList) with
      | none, some d => d.2 == n
      | _, _ => false) = true) (as : List (Expr K)) (hl : as.length = n)
    (fx : Fin as.length → Bool)
    (hd : HasFDerivAt (fun w : Fin as.length → ℝ =>
      ρ.u f.toList (List.ofFn fun i => if fx i then eval C ρ as[i] else w i))
      (0 : (Fin as.length → ℝ) →L[ℝ] ℝ) (fun i => eval C ρ as[i])) :
    UserOK C (defTab C read) ρ f.toList as fx := by
  have hT : defTab C read f.toList = List.replicate n ([], none) := by
    unfold defTab
    split at hB
    · rename_i d h1 h2
      rw [h1, h2]
      simp only [beq_iff_eq] at hB
      simp [hB]
    · cases hB
  refine ⟨by simp [hT, hl], .inr ?_, ?_, ?_⟩
  · intro p hp
    rw [hT] at hp
    exact List.eq_of_mem_replicate hp
  · intro p hp h
    rw [hT] at hp
    exact absurd (by rw [List.eq_of_mem_replicate hp]) h
  · refine hd.congr_fderiv ?_
    symm
    refine Finset.sum_eq_zero fun i _ => ?_
    have : ((defTab C read f.toList).map (·.2)).getD i none = none := by
      rw [hT, List.map_replicate]
      rw [List.getD_eq_getElem?_getD, List.getElem?_replicate]
      split <;> rfl
    rw [this]
    simp [partialAt]

theorem hasFDerivAt_zero_of_locally {n : ℕ} {g : (Fin n → ℝ) → ℝ} {w : Fin n → ℝ}
    (h : ∀ᶠ v in nhds w, g v = g w) : HasFDerivAt g (0 : (Fin n → ℝ) →L[ℝ] ℝ) w :=
  (hasFDerivAt_const (g w) w).congr_of_eventuallyEq h

section
variable {C : Cfg K} (hC : C.Exact) (hF : C.DigitFirst) {read : Str → K} (hR : Reads C read)
  {L : InvErf} (hL : L.Correct) {ρ : Env} (hU : Std L ρ.u)
include hC hF hR hL hU

/-- **C59.** Wherever it is smooth, each of the functions that come with the program has the
derivatives the table gives. (So `deriv_correct` applies to all expressions with these
functions.) -/
theorem default_derivatives {f : String} {vals : List ℝ} {fx : List Bool} (hs : Smooth f vals fx)
    (as : List (Expr K)) (hv : as.map (eval C ρ) = vals) (hfr : ∀ a ∈ as, NoReserved C a) :
    UserOK C (defTab C read) ρ f.toList as (fun i => fx.getD i false) := by
  have one : ∀ {v : ℝ}, as.map (eval C ρ) = [v] → ∃ a, as = [a] ∧ eval C ρ a = v := by
    intro v h
    match as, h with
    | [a], h => exact ⟨a, rfl, by simpa using h⟩
  have two : ∀ {v w : ℝ}, as.map (eval C ρ) = [v, w] →
      ∃ a b, as = [a, b] ∧ eval C ρ a = v ∧ eval C ρ b = w := by
    intro v w h
    match as, h with
    | [a, b], h => exact ⟨a, b, rfl, by simpa using h⟩
  have three : ∀ {v w x : ℝ}, as.map (eval C ρ) = [v, w, x] →
      ∃ a b c, as = [a, b, c] ∧ eval C ρ a = v ∧ eval C ρ b = w ∧ eval C ρ c = x := by
    intro v w x h
    match as, h with
    | [a, b, c], h => exact ⟨a, b, c, rfl, by simpa using h⟩
  have four : ∀ {v w x y : ℝ}, as.map (eval C ρ) = [v, w, x, y] →
      ∃ a b c d, as = [a, b, c, d] ∧ eval C ρ a = v ∧ eval C ρ b = w ∧ eval C ρ c = x ∧
        eval C ρ d = y := by
    intro v w x y h
    match as, h with
    | [a, b, c, d], h => exact ⟨a, b, c, d, rfl, by simpa using h⟩
  have fx2 : ∀ a b : Expr K, (fun i : Fin [a, b].length => [false, false].getD i false)
      = fun _ => false := by
    intro a b; funext i; fin_cases i <;> rfl
  have fx3 : ∀ a b c : Expr K, (fun i : Fin [a, b, c].length => [false, false, false].getD i false)
      = fun _ => false := by
    intro a b c; funext i; fin_cases i <;> rfl
  have fx4 : ∀ a b c d : Expr K,
      (fun i : Fin [a, b, c, d].length => [false, false, false, false].getD i false)
      = fun _ => false := by
    intro a b c d; funext i; fin_cases i <;> rfl
  have h0 : ∀ (a b : Expr K) (i : Fin 2), HasFDerivAt (fun w : Fin 2 → ℝ => w i)
      (ContinuousLinearMap.proj (R := ℝ) (φ := fun _ : Fin 2 => ℝ) i)
      (fun i : Fin 2 => eval C ρ [a, b][i]) := fun a b i => hasFDerivAt_apply i _
  have tend : ∀ (a b : Expr K) (i : Fin 2), Filter.Tendsto (fun w : Fin 2 → ℝ => w i)
      (nhds fun i : Fin 2 => eval C ρ [a, b][i]) (nhds (eval C ρ [a, b][i])) :=
    fun a b i => (continuous_apply i).tendsto _
  have uSgn : ∀ x, ρ.u ['s', 'g', 'n'] [x] = sgnF x := hU.sgn
  have uStep : ∀ x, ρ.u ['s', 't', 'e', 'p'] [x] = stepF x := hU.step
  have uDot : ∀ a b c d, ρ.u ['d', 'o', 't', '2', 'd'] [a, b, c, d] = a * c + b * d := hU.dot2d
  have uMax : ∀ x y, ρ.u ['m', 'a', 'x'] [x, y] = maxF x y := hU.max
  have uMin : ∀ x y, ρ.u ['m', 'i', 'n'] [x, y] = minF x y := hU.min
  have uK3 : ∀ a b c, ρ.u ['k', 'a', 'h', 'a', 'n', '3'] [a, b, c] = a + b + c := hU.kahan3
  have uK4 : ∀ a b c d, ρ.u ['k', 'a', 'h', 'a', 'n', '4'] [a, b, c, d] = a + b + c + d :=
    hU.kahan4
  have uGfi : ∀ z s, ρ.u ['g', 'f', 'i'] [z, s] = gfiH (L.hOf s) z s := hU.gfi
  have fx1 : ∀ a : Expr K, (fun i : Fin [a].length => [false].getD i false) = fun _ => false := by
    intro a; funext i; fin_cases i; rfl
  have hun : ∀ {a : Expr K}, (∀ b ∈ [a], NoReserved C b) → NoReserved C a := fun h => h _ (by simp)
  have hx : ∀ v : ℝ, (tenv ρ [['x']] [v]).v ['x'] = v := tenv_x ρ
  cases hs with
  | B x =>
    obtain ⟨a, rfl, ha⟩ := one hv
    rw [fx1]
    refine unary_ok hC hF "B" "dBdx(x)" (.call "dBdx".toList [.name ['x']]) (by decide +kernel)
      (hun hfr) hU.B ?_
    rw [rv_call _ _ _ _ _ (by decide), tenv_u, List.map_singleton, rv_name, hx, hU.dBdx]
    exact bern_hasDerivAt _
  | abs x h =>
    obtain ⟨a, rfl, rfl⟩ := one hv
    rw [fx1]
    refine unary_ok hC hF "abs" "sgn(x)" (.call "sgn".toList [.name ['x']]) (by decide +kernel)
      (hun hfr) hU.abs ?_
    rw [rv_call _ _ _ _ _ (by decide), tenv_u, List.map_singleton, rv_name, hx, hU.sgn]
    exact abs_hasDerivAt h
  | sgn x h =>
    obtain ⟨a, rfl, rfl⟩ := one hv
    rw [fx1]
    refine declared_ok "sgn" 1 (by decide +kernel) [a] rfl _ ?_
    refine hasFDerivAt_zero_of_locally ?_
    have : Filter.Tendsto (fun w : Fin [a].length → ℝ => w 0)
        (nhds fun i => eval C ρ [a][i]) (nhds (eval C ρ a)) :=
      (continuous_apply (0 : Fin 1)).tendsto (fun i : Fin 1 => eval C ρ [a][i])
    filter_upwards [this.eventually (sgn_locally h)] with w hw
    simpa [uSgn] using hw
  | step x h =>
    obtain ⟨a, rfl, rfl⟩ := one hv
    rw [fx1]
    refine declared_ok "step" 1 (by decide +kernel) [a] rfl _ ?_
    refine hasFDerivAt_zero_of_locally ?_
    have : Filter.Tendsto (fun w : Fin [a].length → ℝ => w 0)
        (nhds fun i => eval C ρ [a][i]) (nhds (eval C ρ a)) :=
      (continuous_apply (0 : Fin 1)).tendsto (fun i : Fin 1 => eval C ρ [a][i])
    filter_upwards [this.eventually (step_locally h)] with w hw
    simpa [uStep] using hw
  | erf x =>
    obtain ⟨a, rfl, ha⟩ := one hv
    rw [fx1]
    refine unary_ok hC hF "erf" "derfdx(x)" (.call "derfdx".toList [.name ['x']])
      (by decide +kernel) (hun hfr) hU.erf ?_
    rw [rv_call _ _ _ _ _ (by decide), tenv_u, List.map_singleton, rv_name, hx, hU.derfdx]
    exact erf_hasDerivAt _
  | erfc x =>
    obtain ⟨a, rfl, ha⟩ := one hv
    rw [fx1]
    refine unary_ok hC hF "erfc" "derfcdx(x)" (.call "derfcdx".toList [.name ['x']])
      (by decide +kernel) (hun hfr) hU.erfc ?_
    rw [rv_call _ _ _ _ _ (by decide), tenv_u, List.map_singleton, rv_name, hx, hU.derfcdx]
    exact erfc_hasDerivAt _
  | erf_inv x h1 h2 =>
    obtain ⟨a, rfl, rfl⟩ := one hv
    rw [fx1]
    refine unary_ok hC hF "erf_inv" "derf_invdx(x)" (.call "derf_invdx".toList [.name ['x']])
      (by decide +kernel) (hun hfr) hU.erf_inv ?_
    rw [rv_call _ _ _ _ _ (by decide), tenv_u, List.map_singleton, rv_name, hx, hU.derf_invdx]
    exact erfInv_hasDerivAt hL h1 h2
  | erfc_inv x h1 h2 =>
    obtain ⟨a, rfl, rfl⟩ := one hv
    rw [fx1]
    refine unary_ok hC hF "erfc_inv" "derfc_invdx(x)" (.call "derfc_invdx".toList [.name ['x']])
      (by decide +kernel) (hun hfr) hU.erfc_inv ?_
    rw [rv_call _ _ _ _ _ (by decide), tenv_u, List.map_singleton, rv_name, hx, hU.derfc_invdx]
    exact erfcInv_hasDerivAt hL h1 h2
  | invFermi x h1 h2 =>
    obtain ⟨a, rfl, rfl⟩ := one hv
    rw [fx1]
    refine unary_ok hC hF "InvFermi" "dInvFermidx(x)" (.call "dInvFermidx".toList [.name ['x']])
      (by decide +kernel) (hun hfr) hU.invFermi ?_
    rw [rv_call _ _ _ _ _ (by decide), tenv_u, List.map_singleton, rv_name, hx, hU.dInvFermidx]
    exact dInvFermidx_below h1 h2
  | asinh x =>
    obtain ⟨a, rfl, ha⟩ := one hv
    rw [fx1]
    refine unary_ok hC hF "asinh" "((1 + (x^2))^(-1/2))"
      (.bin .pow (.bin .plus (.num ['1']) (.bin .pow (.name ['x']) (.num ['2'])))
        (.bin .div (.neg (.num ['1'])) (.num ['2']))) (by decide +kernel) (hun hfr) hU.asinh ?_
    simp only [rv, rv.binVal, hR.one, hR.two, defTables, Bool.false_eq_true, if_false, hx]
    rw [Real.rpow_two, rpow_neg_half (by positivity)]
    exact Real.hasDerivAt_arsinh _
  | acosh x h =>
    obtain ⟨a, rfl, rfl⟩ := one hv
    rw [fx1]
    refine unary_ok hC hF "acosh" "(((x^2) - 1)^(-1/2))"
      (.bin .pow (.bin .minus (.bin .pow (.name ['x']) (.num ['2'])) (.num ['1']))
        (.bin .div (.neg (.num ['1'])) (.num ['2']))) (by decide +kernel) (hun hfr) hU.acosh ?_
    simp only [rv, rv.binVal, hR.one, hR.two, defTables, Bool.false_eq_true, if_false, hx]
    rw [Real.rpow_two, rpow_neg_half (by nlinarith)]
    exact Real.hasDerivAt_arcosh h
  | atanh x h1 h2 =>
    obtain ⟨a, rfl, rfl⟩ := one hv
    rw [fx1]
    refine unary_ok hC hF "atanh" "((1 - (x^2))^(-1))"
      (.bin .pow (.bin .minus (.num ['1']) (.bin .pow (.name ['x']) (.num ['2'])))
        (.neg (.num ['1']))) (by decide +kernel) (hun hfr) hU.atanh ?_
    simp only [rv, rv.binVal, hR.one, hR.two, defTables, Bool.false_eq_true, if_false, hx]
    rw [Real.rpow_two, Real.rpow_neg_one]
    exact artanh_hasDerivAt h1 h2
  | sinh x =>
    obtain ⟨a, rfl, ha⟩ := one hv
    rw [fx1]
    refine unary_ok hC hF "sinh" "cosh(x)" (.call "cosh".toList [.name ['x']])
      (by decide +kernel) (hun hfr) hU.sinh ?_
    rw [rv_call _ _ _ _ _ (by decide), tenv_u, List.map_singleton, rv_name, hx, hU.cosh]
    exact Real.hasDerivAt_sinh _
  | cosh x =>
    obtain ⟨a, rfl, ha⟩ := one hv
    rw [fx1]
    refine unary_ok hC hF "cosh" "sinh(x)" (.call "sinh".toList [.name ['x']])
      (by decide +kernel) (hun hfr) hU.cosh ?_
    rw [rv_call _ _ _ _ _ (by decide), tenv_u, List.map_singleton, rv_name, hx, hU.sinh]
    exact Real.hasDerivAt_cosh _
  | tanh x =>
    obtain ⟨a, rfl, ha⟩ := one hv
    rw [fx1]
    refine unary_ok hC hF "tanh" "1 - pow(tanh(x), 2)"
      (.bin .minus (.num ['1']) (.call ['p', 'o', 'w']
        [.call "tanh".toList [.name ['x']], .num ['2']])) (by decide +kernel) (hun hfr) hU.tanh ?_
    have h1 : rv C defTables read (tenv ρ [['x']] [eval C ρ a]) (.call "tanh".toList [.name ['x']])
        = Real.tanh (eval C ρ a) := by
      rw [rv_call _ _ _ _ _ (by decide), tenv_u, List.map_singleton, rv_name, hx, hU.tanh]
    simp only [rv, rvL, rv.binVal, hR.one] at h1 ⊢
    rw [h1]
    simp only [rv.callVal, hR.two]
    have e1 : ¬(['p', 'o', 'w'] = ['e', 'x', 'p']) := by decide
    have e2 : ¬(['p', 'o', 'w'] = ['l', 'o', 'g']) := by decide
    rw [if_neg e1, if_neg e2, if_pos trivial]
    simp only [List.getD_cons_zero, List.getD_cons_succ]
    rw [Real.rpow_two]
    exact tanh_hasDerivAt _
  | dot2d a b c d =>
    obtain ⟨a, b, c, d, rfl, rfl, rfl, rfl, rfl⟩ := four hv
    rw [fx4]
    refine row_ok hC hF ⟨"dot2d", ["ax", "ay", "bx", "by"], ["bx", "by", "ax", "ay"]⟩
      [.name ['b', 'x'], .name ['b', 'y'], .name ['a', 'x'], .name ['a', 'y']]
      (by decide +kernel) [a, b, c, d] rfl hfr _ ?_
    have h0 : ∀ i : Fin 4, HasFDerivAt (fun w : Fin 4 → ℝ => w i)
        (ContinuousLinearMap.proj (R := ℝ) (φ := fun _ : Fin 4 => ℝ) i)
        (fun i : Fin 4 => eval C ρ [a, b, c, d][i]) := fun i => hasFDerivAt_apply i _
    have h1 := ((h0 0).mul (h0 2)).add ((h0 1).mul (h0 3))
    refine (h1.congr_of_eventuallyEq (Filter.Eventually.of_forall fun w => ?_)).congr_fderiv ?_
    · simp [uDot]
    · ext w
      simp [Fin.sum_univ_four, rv_name, tenv, Env.binds, Env.bind, Function.update]
      ring
  | max x y h =>
    obtain ⟨a, b, rfl, rfl, rfl⟩ := two hv
    rw [fx2]
    refine row_ok hC hF ⟨"max", ["x", "y"], ["x >= y", "x < y"]⟩
      [.bin (.logic .gte) (.name ['x']) (.name ['y']), .bin (.logic .lt) (.name ['x']) (.name ['y'])]
      (by decide +kernel) [a, b] rfl hfr _ ?_
    have t0 := tend a b 0
    have t1 := tend a b 1
    rcases lt_or_gt_of_ne h with h | h
    · refine ((h0 a b 1).congr_of_eventuallyEq ?_).congr_fderiv ?_
      · filter_upwards [t0.eventually_lt t1 h] with w hw
        simp [uMax, maxF, not_le.2 hw]
      · ext w
        simp [Fin.sum_univ_two, rv, rv.binVal, defTables, tenv, Env.binds, Env.bind,
          Function.update, LOp.sem, not_le.2 h, h]
    · refine ((h0 a b 0).congr_of_eventuallyEq ?_).congr_fderiv ?_
      · filter_upwards [t1.eventually_lt t0 h] with w hw
        simp [uMax, maxF, hw.le]
      · ext w
        simp [Fin.sum_univ_two, rv, rv.binVal, defTables, tenv, Env.binds, Env.bind,
          Function.update, LOp.sem, h.le, not_lt.2 h.le]
  | min x y h =>
    obtain ⟨a, b, rfl, rfl, rfl⟩ := two hv
    rw [fx2]
    refine row_ok hC hF ⟨"min", ["x", "y"], ["x <= y", "x > y"]⟩
      [.bin (.logic .lte) (.name ['x']) (.name ['y']), .bin (.logic .gt) (.name ['x']) (.name ['y'])]
      (by decide +kernel) [a, b] rfl hfr _ ?_
    have t0 := tend a b 0
    have t1 := tend a b 1
    rcases lt_or_gt_of_ne h with h | h
    · refine ((h0 a b 0).congr_of_eventuallyEq ?_).congr_fderiv ?_
      · filter_upwards [t0.eventually_lt t1 h] with w hw
        simp [uMin, minF, hw.le]
      · ext w
        simp [Fin.sum_univ_two, rv, rv.binVal, defTables, tenv, Env.binds, Env.bind,
          Function.update, LOp.sem, h.le, not_lt.2 h.le]
    · refine ((h0 a b 1).congr_of_eventuallyEq ?_).congr_fderiv ?_
      · filter_upwards [t1.eventually_lt t0 h] with w hw
        simp [uMin, minF, not_le.2 hw]
      · ext w
        simp [Fin.sum_univ_two, rv, rv.binVal, defTables, tenv, Env.binds, Env.bind,
          Function.update, LOp.sem, not_le.2 h, h]
  | kahan3 a b c =>
    obtain ⟨a, b, c, rfl, rfl, rfl, rfl⟩ := three hv
    rw [fx3]
    refine row_ok hC hF ⟨"kahan3", ["a", "b", "c"], ["1", "1", "1"]⟩
      [.num ['1'], .num ['1'], .num ['1']] (by decide +kernel) [a, b, c] rfl hfr _ ?_
    have h0 : ∀ i : Fin 3, HasFDerivAt (fun w : Fin 3 → ℝ => w i)
        (ContinuousLinearMap.proj (R := ℝ) (φ := fun _ : Fin 3 => ℝ) i)
        (fun i : Fin 3 => eval C ρ [a, b, c][i]) := fun i => hasFDerivAt_apply i _
    have h1 := ((h0 0).add (h0 1)).add (h0 2)
    refine (h1.congr_of_eventuallyEq (Filter.Eventually.of_forall fun w => ?_)).congr_fderiv ?_
    · simp [uK3]
    · ext w
      simp [Fin.sum_univ_three, rv, hR.one]
  | kahan4 a b c d =>
    obtain ⟨a, b, c, d, rfl, rfl, rfl, rfl, rfl⟩ := four hv
    rw [fx4]
    refine row_ok hC hF ⟨"kahan4", ["a", "b", "c", "d"], ["1", "1", "1", "1"]⟩
      [.num ['1'], .num ['1'], .num ['1'], .num ['1']] (by decide +kernel) [a, b, c, d] rfl hfr _ ?_
    have h0 : ∀ i : Fin 4, HasFDerivAt (fun w : Fin 4 → ℝ => w i)
        (ContinuousLinearMap.proj (R := ℝ) (φ := fun _ : Fin 4 => ℝ) i)
        (fun i : Fin 4 => eval C ρ [a, b, c, d][i]) := fun i => hasFDerivAt_apply i _
    have h1 := (((h0 0).add (h0 1)).add (h0 2)).add (h0 3)
    refine (h1.congr_of_eventuallyEq (Filter.Eventually.of_forall fun w => ?_)).congr_fderiv ?_
    · simp [uK4]
    · ext w
      simp [Fin.sum_univ_four, rv, hR.one]
  | gfi z s h =>
    obtain ⟨a, b, rfl, rfl, rfl⟩ := two hv
    refine row_ok hC hF ⟨"gfi", ["x", "y"], ["dgfidx(x,y)", "0"]⟩
      [.call "dgfidx".toList [.name ['x'], .name ['y']], .num ['0']]
      (by decide +kernel) [a, b] rfl hfr _ ?_
    have h3 := HasDerivAt.comp_hasFDerivAt (f := fun w : Fin 2 → ℝ => w 0)
      (fun i : Fin 2 => eval C ρ [a, b][i]) (gfi_hasDerivAt hL h (eval C ρ a)) (h0 a b 0)
    refine (h3.congr_of_eventuallyEq (Filter.Eventually.of_forall fun w => ?_)).congr_fderiv ?_
    · simp [uGfi]
    · have e : rv C defTables read (tenv ρ [['x'], ['y']] [eval C ρ a, eval C ρ b])
          (.call "dgfidx".toList [.name ['x'], .name ['y']])
          = dgfidxH (L.hOf (eval C ρ b)) (eval C ρ a) (eval C ρ b) := by
        rw [rv_call _ _ _ _ _ (by decide), tenv_u, List.map_cons, List.map_singleton, rv_name,
          rv_name, (tenv_xy ρ _ _).1, (tenv_xy ρ _ _).2, hU.dgfidx]
      ext w
      simpa [Fin.sum_univ_two] using .inl e.symm

end

end Verif.MathFn
