import Verif.ExtSolver.Props
import Verif.Newton.Model

/-!
What a solution of zeros does in the nonlinear solver (`Verif.Newton`).
-/

namespace Verif.ExtSolver
open Verif Verif.PyArg Verif.Newton Classical

theorem foldl_zero (f : Nat → ℝ) (hf : ∀ i, f i = 0) (l : List Nat) :
    l.foldl (fun acc i => if f i > acc then f i else acc) 0 = 0 := by
  induction l with
  | nil => rfl
  | cons a l ih =>
    simp only [List.foldl_cons]
    rw [if_neg (by rw [hf]; exact lt_irrefl _)]
    exact ih

/-- a step of zero is possible: for the update type "positive" the values must be positive -/
def Still (e : Eqn) (n : Nat) (old : Nat → ℝ) : Prop := e.utype = .positive → ∀ i, i < n → 0 < old i

theorem damp_zero (ut : UpdateType) (old : ℝ) (h : ut = .positive → 0 < old) : damp ut old 0 = some (0, old) := by
  cases ut with
  | default => simp [damp]
  | logdamp =>
    simp only [damp, abs_zero]
    rw [if_neg (by norm_num)]
    simp
  | positive =>
    have := h rfl
    simp only [damp, zero_add]
    rw [if_pos this, if_neg (not_le.2 this)]

theorem update_zero (e : Eqn) (n base : Nat) (old : Nat → ℝ) (h : Still e n old) :
    e.update n base old (fun _ => 0) = some (old, 0, 0) := by
  have hd : ∀ i, i < n → damp e.utype (old i) 0 = some (0, old i) := fun i hi => damp_zero _ _ fun hp => h hp i hi
  unfold Eqn.update
  dsimp only
  rw [if_pos (fun i hi => by rw [hd i hi]; rfl)]
  have hu : ∀ i, |((damp e.utype (old i) 0).getD (0, 0)).1| = 0 := by
    intro i
    rw [abs_eq_zero]
    cases hc : e.utype with
    | default => simp [damp]
    | logdamp =>
      simp only [damp, abs_zero]
      rw [if_neg (by norm_num)]
      rfl
    | positive =>
      simp only [damp, zero_add]
      by_cases hp : old i > 0
      · rw [if_pos hp, if_neg (not_le.2 hp)]
        rfl
      · rw [if_neg hp]
        rfl
  simp only [Option.some.injEq, Prod.mk.injEq]
  refine ⟨?_, foldl_zero _ hu _, foldl_zero _ (fun i => by rw [hu i, zero_div]) _⟩
  funext i
  by_cases hi : i < n
  · rw [if_pos hi, hd i hi]
    rfl
  · rw [if_neg hi]

/-- every equation of the region has a solution as its variable, and a step of zero is possible -/
def RegionStill (r : Region) : Prop := ∀ e ∈ r.eqs, ∃ v, r.models e.var = some (.solution v) ∧ Still e r.numNodes v

theorem updEqs_zero (n base : Nat) : ∀ (es : List Eqn) (ms : Models) (acc : ℝ × ℝ),
    (∀ e ∈ es, ∃ v, ms e.var = some (.solution v) ∧ Still e n v) → updEqs n base (fun _ => 0) es ms acc = (ms, some acc)
  | [], ms, acc, _ => rfl
  | e :: es, ms, acc, h => by
    obtain ⟨v, hv, hs⟩ := h e List.mem_cons_self
    have hset : ms.set e.var v = ms := by
      unfold Models.set
      rw [← hv]
      exact Function.update_eq_self _ _
    simp only [updEqs, hv, update_zero e n base v hs, hset, add_zero]
    exact updEqs_zero n base es ms acc fun e' he' => h e' (List.mem_cons_of_mem _ he')

theorem updDevice_zero : ∀ (d : List Region) (acc : ℝ × ℝ), 0 ≤ acc.1 → (∀ r ∈ d, RegionStill r) →
    updDevice (fun _ => 0) d acc = (d, some acc)
  | [], acc, _, _ => rfl
  | r :: rs, acc, ha, h => by
    simp only [updDevice, updEqs_zero _ _ _ _ _ (h r List.mem_cons_self)]
    rw [if_neg (not_lt.2 ha), add_zero, updDevice_zero rs acc ha fun r' hr' => h r' (List.mem_cons_of_mem _ hr')]

theorem updDevices_zero : ∀ ds : List (List Region), (∀ d ∈ ds, ∀ r ∈ d, RegionStill r) →
    updDevices (fun _ => 0) ds = (ds, some (ds.map fun _ => (0, 0)))
  | [], _ => rfl
  | d :: ds, h => by
    simp only [updDevices, updDevice_zero d (0, 0) le_rfl (h d List.mem_cons_self),
      updDevices_zero ds fun d' hd' => h d' (List.mem_cons_of_mem _ hd')]
    rfl

/-- the errors of an iteration are all zero -/
def NoError (info : IterInfo) : Prop := (∀ e ∈ info.devices, e = (0, 0)) ∧ ∀ e, info.circuit = some e → e = (0, 0)

theorem updWorld_zero (w : World) (h : ∀ d ∈ w.devices, ∀ r ∈ d, RegionStill r) (hc : ∀ c, w.circuit = some c → c.dcop.isSome) :
    ∃ info, updWorld (fun _ => 0) w = (w, some info) ∧ NoError info := by
  unfold updWorld
  rw [updDevices_zero w.devices h]
  have h1 : ∀ e ∈ w.devices.map (fun _ => ((0, 0) : ℝ × ℝ)), e = (0, 0) := by
    intro e he
    obtain ⟨_, _, rfl⟩ := List.mem_map.1 he
    rfl
  cases w with
  | mk ds cir hist =>
    cases cir with
    | none => exact ⟨_, rfl, h1, by simp⟩
    | some c =>
      obtain ⟨old, ho⟩ := Option.isSome_iff_exists.1 (hc c rfl)
      dsimp only at *
      rw [ho]
      dsimp only
      have hnew : (c.update (fun _ => 0) old) = (old, 0, 0) := by
        unfold Circuit.update
        simp only [zero_add, abs_zero, zero_div, ite_self, Prod.mk.injEq]
        refine ⟨trivial, ?_, foldl_zero _ (fun _ => rfl) _⟩
        induction List.range c.size with
        | nil => rfl
        | cons a l ih => simp
      rw [hnew]
      refine ⟨⟨ds.map fun _ => (0, 0), some (0, 0)⟩, ?_, h1, ?_⟩
      · simp only [Prod.mk.injEq, World.mk.injEq, true_and, and_true, Option.some.injEq]
        cases c
        simp only at ho
        rw [ho]
      · intro e he
        simpa using he.symm

theorem judge_zero (lim : Limits) (hr : 0 < lim.rel) (ha : 0 < lim.abs) (s : St) (info : IterInfo) (h : NoError info) :
    (judge lim s info).conv = true ∧ (judge lim s info).log = s.log ++ [info] ∧ (judge lim s info).w = s.w := by
  have hd : ∀ (es : List (ℝ × ℝ)) (s : St), (∀ e ∈ es, e = (0, 0)) → s.conv = true →
      (es.foldl (judgeDevice lim) s).conv = true ∧ (es.foldl (judgeDevice lim) s).w = s.w := by
    intro es
    induction es with
    | nil => intro s _ h; exact ⟨h, rfl⟩
    | cons e es ih =>
      intro s he hs
      simp only [List.foldl_cons]
      have h0 := he e List.mem_cons_self
      subst h0
      have := ih (judgeDevice lim s (0, 0)) (fun e' h' => he e' (List.mem_cons_of_mem _ h')) (by
        unfold judgeDevice
        simp [hs, hr, ha])
      exact ⟨this.1, this.2.trans rfl⟩
  obtain ⟨a, b⟩ := hd info.devices { s with conv := true } h.1 rfl
  unfold judge
  dsimp only
  cases hc : info.circuit with
  | none => exact ⟨a, rfl, b⟩
  | some e =>
    have h0 := h.2 e hc
    subst h0
    exact ⟨by simp [a, hr, ha], rfl, b⟩

/-- If the first linear solution is zero, `solve` reports convergence, and nothing has changed but the backup of the solutions. -/
theorem zero_converges (P : Problem) (lim : Limits) (t : TimeParams) (w w1 : World) (ht : t.method = .dcOnly)
    (hr : 0 < lim.rel) (ha : 0 < lim.abs) (hi : 0 < lim.maxIter) (hdv : 0 < lim.maxDiv)
    (hb : backup { w with circuit := w.circuit.map Circuit.init } = (w1, true))
    (hstill : ∀ d ∈ w1.devices, ∀ r ∈ d, RegionStill r) (hc : ∀ c, w1.circuit = some c → c.dcop.isSome)
    (hcon : P.contacts w1 = true) (hlin : P.lin 0 w1 (List.replicate P.numEqns 0) = .ok fun _ => 0) :
    ∃ info, NoError info ∧ Newton.solve P lim t w = (w1, .returned true [info]) := by
  obtain ⟨info, hu, hn⟩ := updWorld_zero w1 hstill hc
  refine ⟨info, hn, ?_⟩
  unfold Newton.solve
  dsimp only
  rw [hb]
  dsimp only
  have hdc : t.isDCMethod = true := by simp [TimeParams.isDCMethod, ht]
  have htr : t.isTransient = false := by simp [TimeParams.isTransient, ht]
  unfold rhsConstant
  rw [if_pos hdc]
  dsimp only
  obtain ⟨k, hk⟩ : ∃ k, lim.maxIter = k + 1 := ⟨lim.maxIter - 1, by omega⟩
  rw [hk, iterate, if_neg (by simp [St.start, hdv]), if_neg (by simp [St.start])]
  have hst : (St.start w1).w = w1 := rfl
  rw [hst, hlin]
  dsimp only
  rw [hu]
  dsimp only
  obtain ⟨j1, j2, j3⟩ := judge_zero lim hr ha { St.start w1 with w := w1 } info hn
  have hit : iterate P lim (List.replicate P.numEqns 0) k (0 + 1) (judge lim { St.start w1 with w := w1 } info) =
      (judge lim { St.start w1 with w := w1 } info, false) := by
    cases k with
    | zero => rfl
    | succ k => rw [iterate, if_pos (.inl j1)]
  rw [hit]
  dsimp only
  unfold finish finishConverged
  rw [htr, j1, j2, j3]
  simp [hcon, St.start]

/-- what the nonlinear solver gets from the linear solver -/
def toLin : Res (List ℝ) → Lin
  | .threw => .threw
  | .failed => .failed
  | .ok x => .ok fun i => (x[i]?).getD 0

/-- **C85, what is missing**: a solver whose function does not return a dictionary when asked to solve (for example one that has no `return` for
this action and gives `None`) makes `solve` report convergence in the first iteration, with errors of zero, whatever the system is.  The
solutions are what they were. -/
theorem none_converges (P : Problem) (lim : Limits) (t : TimeParams) (w w1 : World) (ht : t.method = .dcOnly)
    (hr : 0 < lim.rel) (ha : 0 < lim.abs) (hi : 0 < lim.maxIter) (hdv : 0 < lim.maxDiv)
    (hb : backup { w with circuit := w.circuit.map Circuit.init } = (w1, true))
    (hstill : ∀ d ∈ w1.devices, ∀ r ∈ d, RegionStill r) (hc : ∀ c, w1.circuit = some c → c.dcop.isSome)
    (hcon : P.contacts w1 = true)
    (L : Lib) (C : Conv ℝ) (cb : Callback) (p : Pre) (m : Matrix.Mat ℝ) (b : List ℝ) (h : List Msg) (o : Py)
    (hacc : (luFactor L C cb p m h).2 = .ok ())
    (hcb : cb (h ++ [factorMsg C p m, .solve p.obj false (b.map C.toD)]) = (.value o, false))
    (hlin : P.lin 0 w1 (List.replicate P.numEqns 0) = toLin (directSolve L C cb p m (List.replicate p.n 0) b h).2) :
    ∃ info, NoError info ∧ Newton.solve P lim t w = (w1, .returned true [info]) := by
  refine zero_converges P lim t w w1 ht hr ha hi hdv hb hstill hc hcon ?_
  rw [hlin, not_a_dictionary L C cb p m b h o hacc hcb]
  simp only [toLin, Lin.ok.injEq]
  funext i
  rw [List.getElem?_replicate]
  split <;> rfl

end Verif.ExtSolver
