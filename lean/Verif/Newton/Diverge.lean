import Verif.Newton.Converge
import Verif.Newton.RestoreEx

/-!
# C42: the iteration stops when the errors run away
-/

namespace Verif.Newton
open Classical

/-! ### Specification -/

/-- The errors of the (only) device in iteration `k`. -/
def errAt (log : List IterInfo) (k : Nat) : ℝ × ℝ :=
  match log[k]? with
  | some ⟨[e], _⟩ => e
  | _ => (0, 0)

/-- Iteration `k` diverges: an error is above its limit and larger than in the iteration before (for the first one:
larger than 0). -/
def divergesAt (lim : Limits) (log : List IterInfo) (k : Nat) : Prop :=
  Diverges lim (if k = 0 then (0, 0) else errAt log (k - 1)) (errAt log k)

theorem errAt_append (log : List IterInfo) (info : IterInfo) (k : Nat) (hk : k < log.length) :
    errAt (log ++ [info]) k = errAt log k := by
  unfold errAt
  rw [List.getElem?_append_left hk]

theorem errAt_last (log : List IterInfo) (e : ℝ × ℝ) (c : Option (ℝ × ℝ)) :
    errAt (log ++ [⟨[e], c⟩]) log.length = e := by
  unfold errAt
  simp

theorem divergesAt_append (lim : Limits) (log : List IterInfo) (info : IterInfo) (k : Nat) (hk : k < log.length) :
    divergesAt lim (log ++ [info]) k ↔ divergesAt lim log k := by
  unfold divergesAt
  rw [errAt_append _ _ _ hk]
  by_cases h : k = 0
  · simp [h]
  · rw [if_neg h, if_neg h, errAt_append _ _ _ (by omega)]

theorem divergesAt_last (lim : Limits) (log : List IterInfo) (e : ℝ × ℝ) (c : Option (ℝ × ℝ)) :
    divergesAt lim (log ++ [⟨[e], c⟩]) log.length ↔
      Diverges lim (if log.length = 0 then (0, 0) else errAt log (log.length - 1)) e := by
  unfold divergesAt
  rw [errAt_last]
  by_cases h : log.length = 0
  · simp [h]
  · rw [if_neg h, if_neg h, errAt_append _ _ _ (by omega)]

/-- What the loop knows with one device. -/
structure DivInv (lim : Limits) (s : St) : Prop where
  last : (s.lastAbs, s.lastRel) = if s.log.length = 0 then (0, 0) else errAt s.log (s.log.length - 1)
  le : s.div ≤ s.log.length
  run : ∀ j < s.div, divergesAt lim s.log (s.log.length - 1 - j)
  maximal : s.div < s.log.length → ¬ divergesAt lim s.log (s.log.length - 1 - s.div)
  before : ∀ k, k + lim.maxDiv < s.log.length → ¬ ∀ j < lim.maxDiv, divergesAt lim s.log (k + j)

theorem judge_one (lim : Limits) (s : St) (e : ℝ × ℝ) (c : Option (ℝ × ℝ)) :
    (judge lim s ⟨[e], c⟩).div = (if Diverges lim (s.lastAbs, s.lastRel) e then s.div + 1 else 0) ∧
    (judge lim s ⟨[e], c⟩).lastAbs = e.1 ∧ (judge lim s ⟨[e], c⟩).lastRel = e.2 := by
  by_cases hd : Diverges lim (s.lastAbs, s.lastRel) e
  · rw [if_pos hd]
    simp only [Diverges] at hd
    unfold judge
    cases c <;> simp [judgeDevice, hd]
  · rw [if_neg hd]
    simp only [Diverges] at hd
    unfold judge
    cases c <;> simp only [judgeDevice, List.foldl_cons, List.foldl_nil, gt_iff_lt, hd, if_false, and_self]

theorem DivInv.next {lim : Limits} {s : St} (h : DivInv lim s) (hd : s.div < lim.maxDiv) (e : ℝ × ℝ)
    (c : Option (ℝ × ℝ)) (w' : World) : DivInv lim (judge lim { s with w := w' } ⟨[e], c⟩) := by
  obtain ⟨j1, j2, j3⟩ := judge_one lim { s with w := w' } e c
  dsimp only at j1
  rw [h.last] at j1
  have hlen : (judge lim { s with w := w' } ⟨[e], c⟩).log = s.log ++ [⟨[e], c⟩] := rfl
  have hl := divergesAt_last lim s.log e c
  rw [← hl] at j1
  refine ⟨?_, ?_, ?_, ?_, ?_⟩
  · rw [j2, j3, hlen]
    simp only [List.length_append, List.length_singleton, Nat.add_sub_cancel, errAt_last]
    rw [if_neg (by omega)]
  · rw [j1, hlen, List.length_append, List.length_singleton]
    have := h.le
    split <;> omega
  · rw [hlen, List.length_append, List.length_singleton, Nat.add_sub_cancel, j1]
    intro j hj
    split at hj
    · rename_i hdiv
      cases j with
      | zero => simpa using hdiv
      | succ j =>
        have hle := h.le
        rw [divergesAt_append _ _ _ _ (by omega)]
        have := h.run j (by omega)
        have e1 : s.log.length - (j + 1) = s.log.length - 1 - j := by omega
        rw [e1]; exact this
    · omega
  · rw [hlen, List.length_append, List.length_singleton, Nat.add_sub_cancel, j1]
    intro hj
    split at hj
    · rename_i hdiv
      rw [if_pos hdiv]
      rw [divergesAt_append _ _ _ _ (by omega)]
      have e1 : s.log.length - (s.div + 1) = s.log.length - 1 - s.div := by omega
      rw [e1]; exact h.maximal (by omega)
    · rename_i hdiv
      rw [if_neg hdiv, Nat.sub_zero]; exact hdiv
  · rw [hlen, List.length_append, List.length_singleton]
    intro k hk hall
    by_cases hk2 : k + lim.maxDiv < s.log.length
    · exact h.before k hk2 fun j hj => (divergesAt_append _ _ _ _ (by omega)).1 (hall j hj)
    · have hkl : k + lim.maxDiv = s.log.length := by omega
      have hlt : s.div < s.log.length := by omega
      refine h.maximal hlt ?_
      have := (divergesAt_append _ _ _ _ (by omega)).1 (hall (lim.maxDiv - 1 - s.div) (by omega))
      have e1 : k + (lim.maxDiv - 1 - s.div) = s.log.length - 1 - s.div := by omega
      rw [← e1]; exact this

theorem updDevices_length (x : Nat → ℝ) (ds : List (List Region)) : (updDevices x ds).1.length = ds.length := by
  have := congrArg List.length (updDevices_shape x ds)
  simpa [shape] using this

theorem updWorld_one {x : Nat → ℝ} {w w' : World} {info : IterInfo} (h1 : w.devices.length = 1)
    (h : updWorld x w = (w', some info)) : w'.devices.length = 1 ∧ ∃ e, info.devices = [e] := by
  obtain ⟨d, hd⟩ := List.length_eq_one_iff.1 h1
  have hs := congrArg List.length (updWorld_shape x w)
  rw [h] at hs
  simp only [shape, List.length_map] at hs
  refine ⟨by rw [hs, h1], ?_⟩
  unfold updWorld at h
  rw [hd] at h
  simp only [updDevices] at h
  cases hu : updDevice x d (0, 0) with
  | mk d' o =>
    rw [hu] at h
    cases o with
    | none => simp at h
    | some e =>
      dsimp only at h
      split at h
      · rename_i hh; simp at hh
      · rename_i ds es hh
        simp only [Option.map_some, Prod.mk.injEq, Option.some.injEq] at hh
        obtain ⟨rfl, rfl⟩ := hh
        split at h
        · simp only [Prod.mk.injEq, Option.some.injEq] at h
          exact ⟨e, by rw [← h.2]⟩
        · split at h
          · simp at h
          · simp only [Prod.mk.injEq, Option.some.injEq] at h
            exact ⟨e, by rw [← h.2]⟩

theorem iterate_div (P : Problem) (lim : Limits) (rhsc : List ℝ) :
    ∀ (fuel iter : Nat) (s : St), DivInv lim s → s.w.devices.length = 1 →
      (iterate P lim rhsc fuel iter s).2 = false → DivInv lim (iterate P lim rhsc fuel iter s).1 := by
  intro fuel
  induction fuel with
  | zero => intro iter s h _ _; exact h
  | succ fuel ih =>
    intro iter s h h1 hh
    rw [iterate] at hh ⊢
    split
    · exact h
    rename_i hc
    rw [if_neg hc] at hh
    rw [not_or, not_not] at hc
    split
    · exact h
    rename_i h2
    rw [if_neg h2] at hh
    cases hl : P.lin iter s.w rhsc with
    | threw => exact h
    | failed => exact h
    | ok x =>
      rw [hl] at hh
      dsimp only at hh ⊢
      cases hu : updWorld x s.w with
      | mk w' o =>
        rw [hu] at hh
        cases o with
        | none => simp at hh
        | some info =>
          dsimp only at hh ⊢
          obtain ⟨h3, e, he⟩ := updWorld_one h1 hu
          refine ih _ _ ?_ (by rw [judge_w]; exact h3) hh
          obtain ⟨dv, c⟩ := info
          dsimp only at he
          subst he
          exact h.next hc.2 e c w'

/-- **C42 (partial)**: with a single device, `solve` does not go on after `maximum_divergence` consecutive iterations
in which an error was above its limit and larger than in the iteration before.  With several devices this is false
(`divergence_two_devices_counterexample`): the counter and the errors of the iteration before are shared between the
devices, so that a device that behaves resets the counter. -/
theorem divergence_stops_partial (P : Problem) (lim : Limits) (t : TimeParams) (w w' : World) (c : Bool)
    (log : List IterInfo) (h1 : w.devices.length = 1) (h : solve P lim t w = (w', .returned c log))
    (k : Nat) (hk : k + lim.maxDiv ≤ log.length) (hall : ∀ j < lim.maxDiv, divergesAt lim log (k + j)) :
    k + lim.maxDiv = log.length := by
  obtain ⟨w1, rhsc, s, hb, _, hs, hf⟩ := solve_returned h
  have hlen : w1.devices.length = 1 := by
    have := congrArg List.length (backup_shape hb)
    simpa [shape, h1] using this
  have h0 : DivInv lim (St.start w1) := ⟨by simp [St.start], by simp [St.start], by simp [St.start], by simp [St.start],
    by simp [St.start]⟩
  have h2 := iterate_div P lim rhsc lim.maxIter 0 _ h0 hlen (by rw [hs])
  rw [hs] at h2
  obtain ⟨rfl, -, -⟩ := finish_log hf
  by_contra hne
  exact h2.before k (by dsimp only; omega) hall

/-! ### Counterexample with two devices -/

/-- The linear solver returns 1, 2, ... for the unknown of the first device and 0 for the one of the second. -/
def growing : Problem := ⟨2, fun k _ _ => .ok fun i => if i = 0 then k + 1 else 0, fun _ => some [], fun _ => some [],
  fun _ => true⟩

/-- Two devices with one region, one node, one variable each. -/
noncomputable def twoDevices : World :=
  ⟨[[⟨1, 0, [eqV "E" "A" 0 .default], ["A"], twoSol "A" "B" 0 0⟩], [⟨1, 1, [eqV "E" "A" 0 .default], ["A"], twoSol "A" "B" 0 0⟩]],
    none, ⟨[], [], [], [], [], []⟩⟩

/-- Two iterations, one diverging iteration allowed. -/
noncomputable def divLim : Limits := ⟨1e-3, 1e-3, 1e-3, 1e10, 2, 1⟩

/-- **C42 fails with two devices**: the absolute error of the first device is 1 and then 2, both above the limit and
growing; only one diverging iteration is allowed, and still there is a second iteration. -/
theorem divergence_two_devices_counterexample :
    ∃ w' log e1 e2, solve growing divLim dcOnly twoDevices = (w', .returned false log) ∧ log.length = 2 ∧
      (log.map fun i => i.devices.head?) = [some e1, some e2] ∧
      divLim.maxDiv = 1 ∧ Diverges divLim (0, 0) e1 ∧ Diverges divLim e1 e2 := by
  refine ⟨(solve growing divLim dcOnly twoDevices).1,
    [⟨[(1, 1 / (1 + 1e-10)), (0, 0)], none⟩, ⟨[(2, 2 / (3 + 1e-10)), (0, 0)], none⟩], (1, 1 / (1 + 1e-10)),
    (2, 2 / (3 + 1e-10)), ?_, rfl, rfl, rfl, ?_, ?_⟩
  · norm_num [twoDevices, growing, divLim, ne_A_prev_A, ne_A_A_prev, ne_A_prev_B, ne_B_A_prev, ne_A_B, ne_B_A, a_prev, solve, backup, loopDevices,
      loopRegions, loopVars, backupVar, twoSol, Models.set, value,
      rhsConstant, TimeParams.isDCMethod, dcOnly, iterate, St.start, finish, TimeParams.isTransient,
      finishFailed, restore, restoreVar, readSol, updWorld, updDevices, updDevice, updEqs, Eqn.update, eqV, damp, maxUp,
      judge, judgeDevice]
  · norm_num [Diverges, divLim]
  · norm_num [Diverges, divLim]

/-- Not vacuous: one device whose error grows; the solve stops after one iteration although two are allowed. -/
example : ∃ w' log, solve growing divLim dcOnly (oneRegion [eqV "E" "A" 0 .default] ["A"] (twoSol "A" "B" 0 0)) =
    (w', .returned false log) ∧ log.length = 1 ∧ ∀ j < divLim.maxDiv, divergesAt divLim log (0 + j) := by
  refine ⟨(solve growing divLim dcOnly (oneRegion [eqV "E" "A" 0 .default] ["A"] (twoSol "A" "B" 0 0))).1,
    [⟨[(1, 1 / (1 + 1e-10))], none⟩], ?_, rfl, ?_⟩
  · norm_num [oneRegion, growing, divLim, ne_A_prev_A, ne_A_A_prev, ne_A_prev_B, ne_B_A_prev, ne_A_B, ne_B_A, a_prev, solve, backup, loopDevices,
      loopRegions, loopVars, backupVar, twoSol, Models.set, value,
      rhsConstant, TimeParams.isDCMethod, dcOnly, iterate, St.start, finish, TimeParams.isTransient,
      finishFailed, restore, restoreVar, readSol, updWorld, updDevices, updDevice, updEqs, Eqn.update, eqV, damp, maxUp,
      judge, judgeDevice]
  · intro j hj
    have : j = 0 := by simp only [divLim] at hj; omega
    subst this
    norm_num [divergesAt, errAt, Diverges, divLim]

end Verif.Newton
