import Verif.Sym.Text

/-!
# Values of clones, scales and unsigned values
-/

namespace Verif.Sym

variable {K : Type}

section
variable {C : Cfg K} (hC : C.Exact) (ρ : Env)

theorem consts_nonconsts_prod : ∀ vs : List (Expr K),
    (vs.map (eval C ρ)).prod
      = ((consts vs).map C.val).prod * ((nonconsts vs).map (eval C ρ)).prod
  | [] => by simp [consts, nonconsts]
  | v :: vs => by
    have ih := consts_nonconsts_prod vs
    cases v <;> simp only [consts, nonconsts, List.map_cons, List.prod_cons, ih, eval_con] <;> ring

include hC

theorem eval_clone (e : Expr K) : eval C ρ (clone C e) = eval C ρ e := by
  induction e using Expr.ind with
  | hadd vs ih =>
    rw [clone, eval_mkAdd hC, eval_add, cloneL_eq, List.map_map]
    congr 1
    exact List.map_congr_left ih
  | hprod vs ih =>
    rw [clone, eval_mkProd hC, eval_prod, cloneL_eq, List.map_map]
    congr 1
    exact List.map_congr_left ih
  | huser f vs ih =>
    rw [clone, eval_user, eval_user, cloneL_eq, List.map_map]
    congr 1
    exact List.map_congr_left ih
  | _ => simp_all [clone]

theorem val_foldl_mul (c : K) (cs : List K) :
    C.val (cs.foldl C.mul c) = C.val c * (cs.map C.val).prod := by
  induction cs generalizing c with
  | nil => simp
  | cons d cs ih => rw [List.foldl_cons, ih, hC.mul, List.map_cons, List.prod_cons, mul_assoc]

theorem val_foldConsts (cs : List K) : C.val (foldConsts C cs) = (cs.map C.val).prod := by
  cases cs with
  | nil => simp [foldConsts, hC.ofInt]
  | cons c cs =>
    simp only [foldConsts]
    split
    · rename_i h
      rw [List.any_eq_true] at h
      obtain ⟨d, hd, hz⟩ := h
      have hz := (hC.eqInt _ _).1 hz
      rw [hC.ofInt, eq_comm, Int.cast_zero, List.prod_eq_zero_iff]
      exact List.mem_map.2 ⟨d, hd, by simpa using hz⟩
    · rw [val_foldl_mul hC, List.map_cons, List.prod_cons]

theorem eval_unscaled_prod (vs : List (Expr K)) :
    eval C ρ (unscaled C (.prod vs)) = ((nonconsts vs).map (eval C ρ)).prod := by
  unfold unscaled
  dsimp only
  split
  · rename_i h; simp [h, eval_conI hC]
  · rename_i v h; simp [h]
  · rw [eval_mkProd hC]

/-- An expression is its scale times its unscaled value. -/
theorem eval_scale_unscaled (e : Expr K) :
    eval C ρ (scale C e) * eval C ρ (unscaled C e) = eval C ρ e := by
  cases e with
  | prod vs =>
    rw [eval_unscaled_prod hC, scale, eval_con, val_foldConsts hC, eval_prod,
      consts_nonconsts_prod ρ vs]
  | _ => simp [scale, unscaled, eval_conI hC]

/-- The unsigned value of a negative object is its negation. A product that has the constant as its
only factor is excluded: the code answers 1 for it (`EquationObject.cc:843-856`). -/
theorem eval_unsigned (e : Expr K) (hs : negSign C e = true)
    (hp : ∀ vs, e = .prod vs → nonconsts vs ≠ []) :
    eval C ρ (unsigned C e) = - eval C ρ e := by
  cases e with
  | con c =>
    simp only [negSign] at hs
    simp [unsigned, hs, hC.neg]
  | prod vs =>
    simp only [negSign] at hs
    split at hs
    · rename_i c hc
      simp only [unsigned, hc]
      rw [if_pos hs]
      have hne := hp vs rfl
      have hu := eval_unscaled_prod hC ρ vs
      have hv : eval C ρ (.prod vs) = C.val c * eval C ρ (unscaled C (.prod vs)) := by
        rw [eval_prod, consts_nonconsts_prod, hc, hu]; simp
      have hnc : ∀ d, unscaled C (.prod vs) = .con d → False := by
        intro d hd
        unfold unscaled at hd
        dsimp only at hd
        split at hd
        · rename_i h; exact hne h
        · rename_i v h
          have : ∀ ws : List (Expr K), ∀ v ∈ nonconsts ws, ∀ d, v ≠ .con d := by
            intro ws
            induction ws with
            | nil => intro v hv; cases hv
            | cons w ws ih =>
              intro v hv
              cases w <;> simp only [nonconsts, List.mem_cons] at hv <;>
                first
                  | exact ih v hv
                  | (rcases hv with rfl | hv
                     · intro d hd; cases hd
                     · exact ih v hv)
          exact this vs v (by rw [h]; simp) d hd
        · cases hd
      rw [hv]
      generalize unscaled C (.prod vs) = u at *
      unfold unsignedProd
      split
      · exact absurd rfl (hnc _)
      · split
        · rename_i h; have h := (hC.eqInt _ _).1 h; rw [h]; push_cast; ring
        · rw [eval_mkProd hC, cloneL_eq, List.map_cons, List.prod_cons, List.map_map, eval_con,
            hC.neg, eval_prod]
          have : (List.map (eval C ρ ∘ clone C) ‹List (Expr K)›)
              = List.map (eval C ρ) ‹List (Expr K)› :=
            List.map_congr_left fun v _ => eval_clone hC ρ v
          rw [this]; ring
      · split
        · rename_i h; have h := (hC.eqInt _ _).1 h; rw [h]; push_cast; ring
        · rw [eval_mul hC, eval_con, hC.neg]; ring
    · cases hs
  | _ => simp [negSign] at hs

end

end Verif.Sym
