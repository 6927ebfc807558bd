import Verif.Solve.Lemmas
import Verif.Newton.History

/-!
# C90: the dictionary tells what the iterations did
-/

namespace Verif.Solve

open Classical
open Verif.Newton

/-- the errors of an iteration that decide about convergence -/
def errs (i : IterRep) : IterInfo := errors (i.devices, i.circuit)

theorem below_iff (lim : Limits) (i : IterRep) : Below lim i ↔ Within lim (errs i) := by
  unfold Below Within errs errors
  simp only [List.mem_map, forall_exists_index, and_imp, forall_apply_eq_imp_iff₂, Option.map_eq_some_iff]

/-! ### The iteration with the dictionary is the iteration -/

theorem iterateI_spec (P : Problem) (lim : Limits) (rhsc : List ℝ) (nm : Names) : ∀ (fuel k : Nat) (s : St) (rep : List IterRep),
    s.log = rep.map errs →
    iterate P lim rhsc fuel k s = ((iterateI P lim rhsc nm fuel k s rep).1.1, (iterateI P lim rhsc nm fuel k s rep).2) ∧
    (iterateI P lim rhsc nm fuel k s rep).1.1.log = (iterateI P lim rhsc nm fuel k s rep).1.2.map errs := by
  intro fuel
  induction fuel with
  | zero => intro k s rep h; exact ⟨rfl, h⟩
  | succ fuel ih =>
    intro k s rep h
    rw [iterate, iterateI]
    by_cases h1 : s.conv = true ∨ ¬ s.div < lim.maxDiv
    · rw [if_pos h1, if_pos h1]; exact ⟨rfl, h⟩
    rw [if_neg h1, if_neg h1]
    by_cases h2 : s.maxHit = true
    · rw [if_pos h2, if_pos h2]; exact ⟨rfl, h⟩
    rw [if_neg h2, if_neg h2]
    cases P.lin k s.w rhsc with
    | threw => exact ⟨rfl, h⟩
    | failed => exact ⟨rfl, h⟩
    | ok x =>
      dsimp only
      rw [updWorldI_spec x nm s.w]
      cases hu : updWorldI x nm s.w with
      | mk w' o =>
        cases o with
        | none => exact ⟨rfl, h⟩
        | some p =>
          simp only [Option.map_some]
          refine ih _ _ _ ?_
          rw [judge_log, List.map_append, ← h]
          rfl

/-- what is left of the outcome without the dictionary -/
def outcome : OutcomeI → Outcome
  | .raised => .raised
  | .returned d => .returned d.converged (d.iterations.map errs)

theorem finishI_spec (P : Problem) (lim : Limits) (t : TimeParams) (s : St) (rep : List IterRep) (h : s.log = rep.map errs) :
    finish P lim t s = ((finishI P lim t s rep).1, outcome (finishI P lim t s rep).2) := by
  unfold finishI
  cases hf : finish P lim t s with
  | mk w o =>
    cases o with
    | raised => rfl
    | returned c log =>
      obtain ⟨h1, _, _⟩ := finish_log hf
      simp only [outcome]
      rw [h1, h]

/-- **C90** Asking for the dictionary changes nothing: the call does to the program what it does without (so that everything that is proved
about `solve`, C27 to C30 and C42, holds with it). -/
theorem info_changes_nothing (P : Problem) (lim : Limits) (t : TimeParams) (nm : Names) (w : World) :
    solve P lim t w = ((solveI P lim t nm w).1, outcome (solveI P lim t nm w).2) := by
  unfold solve solveI
  dsimp only
  cases hb : backup { w with circuit := w.circuit.map Circuit.init } with
  | mk w1 b =>
    cases b with
    | false => rfl
    | true =>
      dsimp only
      cases hr : rhsConstant w1.hist t P.numEqns with
      | none => rfl
      | some rhsc =>
        dsimp only
        obtain ⟨h1, h2⟩ := iterateI_spec P lim rhsc nm lim.maxIter 0 (St.start w1) [] rfl
        rw [h1]
        cases hi : iterateI P lim rhsc nm lim.maxIter 0 (St.start w1) [] with
        | mk p b =>
          obtain ⟨s, rep⟩ := p
          rw [hi] at h2
          cases b with
          | true => rfl
          | false => exact finishI_spec P lim t s rep h2

/-! ### The iterations are told -/

/-- no two equations of a region have the same variable -/
def OneEach (w : World) : Prop := ∀ d ∈ w.devices, ∀ r ∈ d, OneEquationPerVar r

theorem oneEach_shape {ds ds' : List (List Region)} (h : shape ds' = shape ds)
    (hg : ∀ d ∈ ds, ∀ r ∈ d, OneEquationPerVar r) : ∀ d ∈ ds', ∀ r ∈ d, OneEquationPerVar r := by
  intro d hd r hr
  have h1 : d.map static ∈ shape ds' := List.mem_map.2 ⟨d, hd, rfl⟩
  rw [h] at h1
  obtain ⟨d0, hd0, h2⟩ := List.mem_map.1 h1
  have h3 : static r ∈ d.map static := List.mem_map.2 ⟨r, hr, rfl⟩
  rw [← h2] at h3
  obtain ⟨r0, hr0, h4⟩ := List.mem_map.1 h3
  have he : r0.eqs = r.eqs := congrArg (fun t => t.2.2.1) h4
  have := hg d0 hd0 r0 hr0
  unfold OneEquationPerVar at this ⊢
  rw [← he]; exact this

theorem iterateI_trail (P : Problem) (lim : Limits) (rhsc : List ℝ) (nm : Names) : ∀ (fuel k : Nat) (s s' : St) (rep rep' : List IterRep),
    OneEach s.w → iterateI P lim rhsc nm fuel k s rep = ((s', rep'), false) →
    ∃ is, rep' = rep ++ is ∧ is.length ≤ fuel ∧ Trail P rhsc nm k s.w is s'.w ∧ s'.w.hist = s.w.hist := by
  intro fuel
  induction fuel with
  | zero =>
    intro k s s' rep rep' _ h
    simp only [iterateI, Prod.mk.injEq, and_true] at h
    obtain ⟨rfl, rfl⟩ := h
    exact ⟨[], by simp, by simp, .nil _ _, rfl⟩
  | succ fuel ih =>
    intro k s s' rep rep' hone h
    rw [iterateI] at h
    split at h
    · simp only [Prod.mk.injEq, and_true] at h
      obtain ⟨rfl, rfl⟩ := h
      exact ⟨[], by simp, by simp, .nil _ _, rfl⟩
    split at h
    · simp only [Prod.mk.injEq, and_true] at h
      obtain ⟨rfl, rfl⟩ := h
      exact ⟨[], by simp, by simp, .nil _ _, rfl⟩
    split at h
    · simp at h
    · simp only [Prod.mk.injEq, and_true] at h
      obtain ⟨rfl, rfl⟩ := h
      exact ⟨[], by simp, by simp, .nil _ _, rfl⟩
    · rename_i x hl
      split at h
      · simp at h
      · rename_i w' p hu
        have hup := updWorldI_spec x nm s.w
        rw [hu] at hup
        simp only [Option.map_some] at hup
        obtain ⟨g1, g2, _, _⟩ := iteration_updates x s.w w' _ hone hup
        have hsh := updWorld_shape x s.w
        rw [hup] at hsh
        obtain ⟨is, e1, e2, e3, e4⟩ := ih _ _ _ _ _ (by
          rw [OneEach, judge_w]
          exact oneEach_shape hsh hone) h
        rw [judge_w] at e3 e4
        exact ⟨⟨k, p.1, p.2⟩ :: is, by rw [e1]; simp, by simpa using e2,
          .cons k s.w w' s'.w x _ is hl rfl g1 (updWorldI_tells hone hu k) e3, e4.trans g2⟩

theorem chargeError_tells {h : History} {t : TimeParams} {newQ : List ℝ} {q : ℝ} (hq : chargeError h t newQ = some q) :
    ChargeTells h t newQ q := by
  unfold chargeError at hq
  simp only [Option.bind_eq_bind, Option.bind_eq_some_iff, Option.pure_def, Option.some.injEq] at hq
  obtain ⟨p1, h1, p2, h2, rfl⟩ := hq
  have g1 : p1.length = newQ.length ∧ ∀ r < newQ.length, p1.getD r 0 = -t.tdelta * h.i0.getD r 0 := by
    unfold assembleAt at h1
    split at h1
    · simp at h1
    · rename_i hne
      rw [not_or, not_not, List.length_replicate] at hne
      simp only [Option.some.injEq] at h1
      subst h1
      refine ⟨by simp [hne.2], fun r hr => ?_⟩
      have hr2 : r < h.i0.length := by rw [hne.2]; exact hr
      simp [List.getD_eq_getElem?_getD, List.getElem?_zipWith, hr, hr2]
  have g2 : p2.length = p1.length ∧ ∀ r < p1.length, p2.getD r 0 = p1.getD r 0 + h.q0.getD r 0 := by
    unfold assembleAt at h2
    split at h2
    · simp at h2
    · rename_i hne
      rw [not_or, not_not] at hne
      simp only [Option.some.injEq] at h2
      subst h2
      refine ⟨by simp [hne.2], fun r hr => ?_⟩
      have hr2 : r < h.q0.length := by rw [hne.2]; exact hr
      simp [List.getD_eq_getElem?_getD, List.getElem?_zipWith, hr, hr2]
  have key : ∀ k < newQ.length, p2.getD k 0 = h.q0.getD k 0 - t.tdelta * h.i0.getD k 0 := by
    intro k hk
    rw [g2.2 k (by omega), g1.2 k hk]
    ring
  refine ⟨maxUp_nonneg _ _, ?_, ?_⟩
  · intro k hk hne
    have := maxUp_le (fun i => if newQ.getD i 0 = 0 then 0 else
      |newQ.getD i 0 - p2.getD i 0| / (1e-20 + |newQ.getD i 0| + |p2.getD i 0|)) newQ.length k hk
    simp only [hne, if_false] at this
    rw [key k hk] at this
    exact this
  · rcases maxUp_at (fun i => if newQ.getD i 0 = 0 then 0 else
      |newQ.getD i 0 - p2.getD i 0| / (1e-20 + |newQ.getD i 0| + |p2.getD i 0|)) newQ.length with h0 | ⟨k, hk, h0⟩
    · exact .inl h0
    · by_cases hne : newQ.getD k 0 = 0
      · left
        rw [← h0]; simp only [hne, if_true]
      · right
        refine ⟨k, hk, hne, ?_⟩
        rw [← h0]
        simp only [hne, if_false]
        rw [key k hk]

theorem projection_error (h : History) (t : TimeParams) (lim : Limits) (newQ : List ℝ) :
    checkProjection h t lim newQ = (chargeError h t newQ).map fun q => !decide (q > lim.qrel) := by
  unfold checkProjection chargeError
  cases assembleAt h.i0 (-t.tdelta) (List.replicate newQ.length 0) with
  | none => rfl
  | some p =>
    simp only [Option.bind_eq_bind, Option.bind_some]
    cases assembleAt h.q0 1 p with
    | none => rfl
    | some p' => rfl

theorem integration_transient {t : TimeParams} (h : t.isIntegration = true) : t.isTransient = true := by
  unfold TimeParams.isIntegration at h
  unfold TimeParams.isTransient
  cases hm : t.method <;> simp [hm] at h ⊢

/-- what `finish` says about convergence and the charge error -/
theorem finishI_charge {P : Problem} {lim : Limits} {t : TimeParams} {s : St} {rep : List IterRep} {w' : World} {d : Dict}
    (h : finishI P lim t s rep = (w', .returned d)) :
    d.equations = P.numEqns ∧ d.iterations = rep ∧
    (d.converged = true → w'.devices = s.w.devices ∧ w'.circuit = s.w.circuit) ∧
    (d.chargeError.isSome = true ↔ t.isIntegration = true ∧ s.conv = true) ∧
    (∀ q, d.chargeError = some q → ∃ newQ, P.charge s.w = some newQ ∧ chargeError s.w.hist t newQ = some q) ∧
    (d.converged = true ↔ s.conv = true ∧ (t.isIntegration = true → ∃ q, d.chargeError = some q ∧ q ≤ lim.qrel)) := by
  unfold finishI at h
  split at h
  · simp at h
  rename_i w2 c log hf
  simp only [Prod.mk.injEq, OutcomeI.returned.injEq] at h
  obtain ⟨rfl, rfl⟩ := h
  obtain ⟨_, hl2, hl3⟩ := finish_log hf
  refine ⟨rfl, rfl, fun hc => (hl2 hc).2, ?_⟩
  dsimp only
  by_cases hi : s.conv = true ∧ t.isIntegration = true
  · rw [if_pos hi]
    unfold finish at hf
    rw [if_pos (integration_transient hi.2)] at hf
    split at hf
    · simp at hf
    rename_i newQ hQ
    rw [if_pos (by simp [hi.1, hi.2])] at hf
    rw [projection_error] at hf
    cases hce : chargeError s.w.hist t newQ with
    | none => rw [hce] at hf; simp at hf
    | some q =>
      rw [hce] at hf
      simp only [Option.map_some] at hf
      rw [hQ]
      simp only [Option.bind_some, hce, Option.isSome_some, Option.some.injEq]
      refine ⟨by simp [hi.1, hi.2], fun q' hq' => ⟨newQ, rfl, by rw [hce, hq']⟩, ?_⟩
      by_cases hle : q ≤ lim.qrel
      · rw [if_pos (by simp [hle])] at hf
        obtain ⟨rfl, _⟩ := finishConverged_log hf
        simp [hi.1, hle]
      · rw [if_neg (by simpa using hle)] at hf
        obtain ⟨rfl, _⟩ := finishFailed_log hf
        simp only [Bool.false_eq_true, false_iff, not_and]
        intro _ hh
        obtain ⟨q', rfl, hq'⟩ := hh hi.2
        exact hle hq'
  · rw [if_neg hi]
    refine ⟨by simpa using fun h1 h2 => hi ⟨h2, h1⟩, by simp, ?_⟩
    constructor
    · intro hc
      have := (hl2 hc).1
      exact ⟨this, fun ht => absurd ⟨this, ht⟩ hi⟩
    · rintro ⟨h1, _⟩
      exact hl3 (by simpa using fun ht => hi ⟨h1, ht⟩) h1

/-- If the call returns, the loop ended normally. -/
theorem solveI_returned {P : Problem} {lim : Limits} {t : TimeParams} {nm : Names} {w w' : World} {d : Dict}
    (h : solveI P lim t nm w = (w', .returned d)) :
    ∃ w1 rhsc s rep, backup { w with circuit := w.circuit.map Circuit.init } = (w1, true) ∧
      rhsConstant w1.hist t P.numEqns = some rhsc ∧
      iterateI P lim rhsc nm lim.maxIter 0 (St.start w1) [] = ((s, rep), false) ∧ finishI P lim t s rep = (w', .returned d) := by
  unfold solveI at h
  dsimp only at h
  split at h
  · simp at h
  rename_i w1 hb
  split at h
  · simp at h
  rename_i rhsc hr
  split at h
  · simp at h
  rename_i s rep hs
  exact ⟨w1, rhsc, s, rep, hb, hr, hs, h⟩

theorem conv_iff {P : Problem} {lim : Limits} {rhsc : List ℝ} {nm : Names} {w1 : World} {s : St} {rep : List IterRep} {b : Bool}
    (h : iterateI P lim rhsc nm lim.maxIter 0 (St.start w1) [] = ((s, rep), b)) :
    s.conv = true ↔ ∃ last, rep.getLast? = some last ∧ Below lim last := by
  obtain ⟨h1, h2⟩ := iterateI_spec P lim rhsc nm lim.maxIter 0 (St.start w1) [] rfl
  rw [h] at h1 h2
  obtain ⟨k, _, hinv⟩ := iterate_inv P lim rhsc lim.maxIter 0 _ (start_inv lim w1)
  rw [h1] at hinv
  dsimp only at hinv h2
  rw [hinv.conv, h2, List.getLast?_map]
  constructor
  · rintro ⟨info, h3, h4⟩
    rw [Option.map_eq_some_iff] at h3
    obtain ⟨last, h5, rfl⟩ := h3
    exact ⟨last, h5, (below_iff lim last).mpr h4⟩
  · rintro ⟨last, h3, h4⟩
    exact ⟨_, by rw [h3]; rfl, (below_iff lim last).mp h4⟩

/-- **C90** What the dictionary says: the number of equations; the iterations, numbered from 0, each telling how the solution of its linear
system changed the devices and the circuit, from the state at the start (with the backup made) to the state at the end, which is left if it
converged; the charge error, exactly if the method integrates and the iteration met the limits. -/
theorem info_tells_partial (P : Problem) (lim : Limits) (t : TimeParams) (nm : Names) (w w' : World) (d : Dict) (hone : OneEach w)
    (h : solveI P lim t nm w = (w', .returned d)) :
    d.equations = P.numEqns ∧ d.iterations.length ≤ lim.maxIter ∧
    ∃ w1 rhsc w2, backup { w with circuit := w.circuit.map Circuit.init } = (w1, true) ∧ rhsConstant w.hist t P.numEqns = some rhsc ∧
      Trail P rhsc nm 0 w1 d.iterations w2 ∧
      (d.converged = true → w'.devices = w2.devices ∧ w'.circuit = w2.circuit) ∧
      (d.chargeError.isSome = true ↔ t.isIntegration = true ∧ ∃ last, d.iterations.getLast? = some last ∧ Below lim last) ∧
      (∀ q, d.chargeError = some q → ∃ newQ, P.charge w2 = some newQ ∧ ChargeTells w.hist t newQ q) := by
  obtain ⟨w1, rhsc, s, rep, hb, hr, hs, hf⟩ := solveI_returned h
  have hhist : w1.hist = w.hist := by
    have := backup_hist { w with circuit := w.circuit.map Circuit.init }
    rw [hb] at this
    exact this
  have hone1 : OneEach w1 := oneEach_shape (backup_shape hb) hone
  obtain ⟨is, e1, e2, e3, e4⟩ := iterateI_trail P lim rhsc nm _ _ _ _ _ _ hone1 hs
  obtain ⟨f1, f2, f3, f4, f5, _⟩ := finishI_charge hf
  rw [List.nil_append] at e1
  refine ⟨f1, by rw [f2, e1]; exact e2, w1, rhsc, s.w, hb, by rw [← hhist]; exact hr, by rw [f2, e1]; exact e3, f3, ?_, ?_⟩
  · rw [f4, conv_iff hs, f2]
  · intro q hq
    obtain ⟨newQ, g1, g2⟩ := f5 q hq
    refine ⟨newQ, g1, ?_⟩
    have := chargeError_tells g2
    rw [e4] at this
    exact hhist ▸ this

/-- **C90** `converged` can be checked with the dictionary alone: it is true exactly if the errors of the last iteration are below the limits
and, for an integrating method, the charge error is not above its limit; no iteration before the last met the limits. -/
theorem converged_iff (P : Problem) (lim : Limits) (t : TimeParams) (nm : Names) (w w' : World) (d : Dict)
    (h : solveI P lim t nm w = (w', .returned d)) :
    (d.converged = true ↔ (∃ last, d.iterations.getLast? = some last ∧ Below lim last) ∧
      (t.isIntegration = true → ∃ q, d.chargeError = some q ∧ q ≤ lim.qrel)) ∧
    (∀ i ∈ d.iterations.dropLast, ¬ Below lim i) := by
  obtain ⟨w1, rhsc, s, rep, hb, hr, hs, hf⟩ := solveI_returned h
  obtain ⟨_, f2, _, _, _, f6⟩ := finishI_charge hf
  refine ⟨by rw [f6, conv_iff hs, f2], ?_⟩
  intro i hi hbel
  have hso := info_changes_nothing P lim t nm w
  rw [h] at hso
  obtain ⟨_, _, g, _⟩ := solve_iterations P lim t w w' _ _ hso
  refine (g (errs i) ?_).1 ((below_iff lim i).mp hbel)
  rw [← List.map_dropLast]
  exact List.mem_map_of_mem hi

end Verif.Solve
