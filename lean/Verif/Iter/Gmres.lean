import Mathlib.Analysis.InnerProductSpace.Basic
import Mathlib.Algebra.BigOperators.Group.Finset.Basic

/-!
# `GMRES` (`gmres.cc`)

Numbers are real numbers and vectors are those of a real inner product space; for the vectors of the code it is
`EuclideanSpace ℝ (Fin n)`. A division by zero, and a read of a vector that was not assigned or was made by a
division by zero, gives the outcome `undef`.
-/

open scoped InnerProductSpace

namespace Verif.Iter

variable {E : Type} [NormedAddCommGroup E] [InnerProductSpace ℝ E]

/-- The cosine and sine that `drotg` computes; called by `GeneratePlaneRotation` (`gmres.cc:58-64`). -/
abbrev Rotg := ℝ → ℝ → ℝ × ℝ

/-- What the rotation is for. -/
def RotgOK (g : Rotg) : Prop := ∀ a b, (g a b).1 ^ 2 + (g a b).2 ^ 2 = 1 ∧ (g a b).1 * b = (g a b).2 * a

/-- `drotg` of the reference BLAS. -/
noncomputable def rotgRef : Rotg := fun a b =>
  if a = 0 ∧ b = 0 then (1, 0)
  else
    let roe := if |a| > |b| then a else b
    let r := if roe < 0 then -Real.sqrt (a ^ 2 + b ^ 2) else Real.sqrt (a ^ 2 + b ^ 2)
    (a / r, b / r)

/-- `ApplyPlaneRotation` (`gmres.cc:77-83`) on the entries `i` and `i + 1` of a vector. -/
def rotAt (h : ℕ → ℝ) (i : ℕ) (c s : ℝ) : ℕ → ℝ :=
  Function.update (Function.update h i (c * h i + s * h (i + 1))) (i + 1) (-s * h i + c * h (i + 1))

/-- The variables of the loops (`gmres.cc:272-292`): the columns of `H` (`H i k` is `H(k, i)`), `cs`, `sn`, `s`
and the array `v`, whose vectors are empty at first. -/
structure St (E : Type) where
  H : ℕ → ℕ → ℝ := fun _ _ => 0
  cs : ℕ → ℝ := fun _ => 0
  sn : ℕ → ℝ := fun _ => 0
  s : ℕ → ℝ := fun _ => 0
  v : ℕ → Option E := fun _ => none

/-- The loop over `k <= i` with `n = i + 1` (`gmres.cc:299-302`): products with the earlier vectors. -/
noncomputable def ortho (v : ℕ → Option E) : ℕ → E × (ℕ → ℝ) → Option (E × (ℕ → ℝ))
  | 0, p => some p
  | n + 1, p => do
    let (w, h) ← ortho v n p
    let u ← v n
    let d := ⟪w, u⟫_ℝ
    some (w - d • u, Function.update h n d)

/-- The loop over `k < i` with `n = i` (`gmres.cc:306-307`). -/
def applyRots (cs sn : ℕ → ℝ) : ℕ → (ℕ → ℝ) → ℕ → ℝ
  | 0, h => h
  | n + 1, h => rotAt (applyRots cs sn n h) n (cs n) (sn n)

/-- The body of the inner loop up to the test (`gmres.cc:298-311`). `T` is `M.solve(A * ·)`. -/
noncomputable def step (g : Rotg) (T : E → E) (i : ℕ) (st : St E) : Option (St E) := do
  let u ← st.v i
  let (w, h) ← ortho st.v (i + 1) (T u, st.H i)
  let h := Function.update h (i + 1) ‖w‖
  let v := Function.update st.v (i + 1) (if ‖w‖ = 0 then none else some ((1 / ‖w‖) • w))
  let h := applyRots st.cs st.sn i h
  let cs := Function.update st.cs i (g (h i) (h (i + 1))).1
  let sn := Function.update st.sn i (g (h i) (h (i + 1))).2
  let h := rotAt h i (cs i) (sn i)
  some { H := Function.update st.H i h, cs := cs, sn := sn, s := rotAt st.s i (cs i) (sn i), v := v }

/-- The first loop of `Update` (`gmres.cc:22-26`), for the indices below `n`, from above. -/
noncomputable def backsolve (H : ℕ → ℕ → ℝ) : ℕ → (ℕ → ℝ) → Option (ℕ → ℝ)
  | 0, y => some y
  | n + 1, y =>
    if H n n = 0 then none
    else
      let yn := y n / H n n
      backsolve H n fun j => if j < n then y j - H n j * yn else if j = n then yn else y j

/-- The second loop of `Update` (`gmres.cc:28-29`), for the indices below `n`. -/
noncomputable def addVecs (v : ℕ → Option E) (y : ℕ → ℝ) : ℕ → E → Option E
  | 0, x => some x
  | n + 1, x => do
    let x ← addVecs v y n x
    let u ← v n
    some (x + y n • u)

/-- `Update(x, n - 1, H, s, v)` (`gmres.cc:17-30`) -/
noncomputable def update (st : St E) (n : ℕ) (x : E) : Option E := do
  let y ← backsolve st.H n st.s
  addVecs st.v y n x

/-- How the inner loop ends: with a solution, a relative residual and the number of the iteration; or at its
end. -/
inductive InnerOut (E : Type)
  | conv (x : E) (resid : ℝ) (j : ℕ)
  | full (st : St E) (resid : ℝ) (j : ℕ)
  | undef

/-- The inner loop (`gmres.cc:297-320`); the first argument is `m - i`. -/
noncomputable def inner (g : Rotg) (T : E → E) (maxIter : ℕ) (tol normb : ℝ) (x : E) :
    ℕ → ℕ → ℕ → ℝ → St E → InnerOut E
  | 0, _, j, resid, st => .full st resid j
  | f + 1, i, j, resid, st =>
    if j ≤ maxIter then
      match step g T i st with
      | none => .undef
      | some st' =>
        let resid := |st'.s (i + 1)| / normb
        if resid < tol then
          match update st' (i + 1) x with
          | none => .undef
          | some x' => .conv x' resid j
        else inner g T maxIter tol normb x f (i + 1) (j + 1) resid st'
    else .full st resid j

/-- What `GMRES` returns: the value 0 or 1, with `x`, `tol` and `max_iter` as they are at the end. -/
inductive Out (E : Type)
  | ret (code : ℕ) (x : E) (tol : ℝ) (iter : ℕ)
  | undef
  /-- the loop does not end -/
  | loop

/-- The outer loop (`gmres.cc:292-334`); the first argument bounds the number of cycles. -/
noncomputable def outer (g : Rotg) (A M : E → E) (b : E) (m maxIter : ℕ) (tol normb : ℝ) :
    ℕ → ℕ → ℝ → St E → E → E → Out E
  | 0, _, _, _, _, _ => .loop
  | f + 1, j, resid, st, x, r =>
    if j ≤ maxIter then
      if ‖r‖ = 0 then .undef
      else
        let st := { st with v := Function.update st.v 0 (some ((1 / ‖r‖) • r))
                            s := Function.update (fun _ => 0) 0 ‖r‖ }
        match inner g (fun y => M (A y)) maxIter tol normb x m 0 j resid st with
        | .undef => .undef
        | .conv x' resid j => .ret 0 x' resid j
        | .full st _ j =>
          match update st m x with
          | none => .undef
          | some x =>
            let r := M (b - A x)
            let resid := ‖r‖ / normb
            if resid < tol then .ret 0 x resid j
            else outer g A M b m maxIter tol normb f j resid st x r
    else .ret 1 x resid maxIter

/-- `GMRES` (`gmres.cc:264-338`): `A` is the product with the matrix, `M` is `solve` of the preconditioner. -/
noncomputable def gmres (g : Rotg) (A M : E → E) (b : E) (m maxIter : ℕ) (tol : ℝ) (x : E) : Out E :=
  let normb := if ‖M b‖ = 0 then 1 else ‖M b‖
  let r := M (b - A x)
  let resid := ‖r‖ / normb
  if resid ≤ tol then .ret 0 x resid 0
  else outer g A M b m maxIter tol normb (maxIter + 1) 1 resid {} x r

/-- `IterativeLinearSolver<double>::SolveImpl` (`IterativeLinearSolver.cc:27-64`): whether the solve succeeded,
and the solution. `factor` is `none` when the factorization of the preconditioner fails, and its `solve`
otherwise. The inner `ret` of line 42 shadows that of line 30. -/
noncomputable def solveImpl (g : Rotg) (A : E → E) (factor : Option (E → E)) (b x : E) : Bool × Option (Out E) :=
  match factor with
  | none => (false, none)
  | some M => (true, some (gmres g A M b 50 100 (1 / 10 ^ 20) x))

end Verif.Iter
