import Verif.Newton.Converge
import Verif.Newton.RestoreEx
import Verif.Assembly.Load

/-!
# C29: the transient history; C43: the equation that a time step solves
-/

namespace Verif.Newton
open Classical

/-! ### Sequences of calls -/

/-- Anything the user does between two solves (it cannot touch the history), then a call of `solve`. -/
structure Call where
  prepare : World → World
  P : Problem
  lim : Limits
  t : TimeParams

/-- The world just before the call of `solve`. -/
def Call.before (c : Call) (w : World) : World := { c.prepare w with hist := w.hist }

/-- `solve`. -/
noncomputable def Call.run (c : Call) (w : World) : World × Outcome := solve c.P c.lim c.t (c.before w)

/-- A session of solves. -/
noncomputable def runAll : List Call → World → World
  | [], w => w
  | c :: cs, w => runAll cs (c.run w).1

/-! ### Specification -/

/-- The call was a transient one and was accepted. -/
def Accepted (c : Call) (w : World) : Prop := c.t.isTransient = true ∧ ∃ log, (c.run w).2 = .returned true log

/-- Current and charge of the accepted solution. -/
noncomputable def solved (c : Call) (w : World) : List ℝ × List ℝ :=
  ((c.P.current { (c.run w).1 with hist := w.hist }).getD [], (c.P.charge { (c.run w).1 with hist := w.hist }).getD [])

/-- The accepted time points, newest first, since the last accepted `transient_dc`. -/
noncomputable def trail : List Call → World → List (List ℝ × List ℝ) → List (List ℝ × List ℝ)
  | [], _, past => past
  | c :: cs, w, past =>
    if Accepted c w then
      if c.t.method = .dc then trail cs (c.run w).1 [solved c w]
      else trail cs (c.run w).1 (solved c w :: past)
    else trail cs (c.run w).1 past

/-- The history shows the three newest accepted time points. -/
def Shows (h : History) (past : List (List ℝ × List ℝ)) : Prop :=
  h.i0 = (past.getD 0 ([], [])).1 ∧ h.q0 = (past.getD 0 ([], [])).2 ∧
  h.i1 = (past.getD 1 ([], [])).1 ∧ h.q1 = (past.getD 1 ([], [])).2 ∧
  h.i2 = (past.getD 2 ([], [])).1 ∧ h.q2 = (past.getD 2 ([], [])).2

/-! ### Proof -/

theorem updWorld_hist (x : Nat → ℝ) (w : World) : (updWorld x w).1.hist = w.hist := by
  unfold updWorld
  split
  · rfl
  · split
    · rfl
    · split <;> rfl

theorem iterate_hist (P : Problem) (lim : Limits) (rhsc : List ℝ) :
    ∀ (fuel iter : Nat) (s : St), (iterate P lim rhsc fuel iter s).1.w.hist = s.w.hist := by
  intro fuel
  induction fuel with
  | zero => intro iter s; rfl
  | succ fuel ih =>
    intro iter s
    rw [iterate]
    split
    · rfl
    split
    · rfl
    split
    · rfl
    · rfl
    · rename_i x _
      have h := updWorld_hist x s.w
      split
      · rename_i hw; rw [hw] at h; exact h
      · rename_i hw; rw [hw] at h; rw [ih, judge_w]; exact h

theorem backup_hist (w : World) : (backup w).1.hist = w.hist := by
  unfold backup; split <;> rfl

theorem finishFailed_hist (w : World) (log : List IterInfo) : (finishFailed w log).1.hist = w.hist := by
  have h : (restore w).1.hist = w.hist := by unfold restore; split <;> rfl
  unfold finishFailed
  split <;> (rename_i hr; rw [hr] at h; exact h)

theorem finishFailed_not_true (w : World) (log l : List IterInfo) : (finishFailed w log).2 ≠ .returned true l := by
  unfold finishFailed; split <;> simp

theorem finishConverged_hist (P : Problem) (t : TimeParams) (w : World) (q : List ℝ) (log : List IterInfo) :
    (∃ I l, P.current w = some I ∧ t.isTransient = true ∧
      finishConverged P t w q log = ({ w with hist := updateHistory w.hist t I q }, .returned true l)) ∨
    ((t.isTransient = true → ∀ l, (finishConverged P t w q log).2 ≠ .returned true l) ∧
      (finishConverged P t w q log).1.hist = w.hist) := by
  unfold finishConverged
  split
  · exact .inr ⟨by simp, rfl⟩
  split
  · rename_i ht
    split
    · exact .inr ⟨by simp, rfl⟩
    · rename_i I hI
      exact .inl ⟨I, log, hI, ht, rfl⟩
  · rename_i ht
    exact .inr ⟨fun h => absurd h ht, rfl⟩

theorem finish_hist (P : Problem) (lim : Limits) (t : TimeParams) (s : St) :
    (∃ I q l, P.current s.w = some I ∧ P.charge s.w = some q ∧ t.isTransient = true ∧
      finish P lim t s = ({ s.w with hist := updateHistory s.w.hist t I q }, .returned true l)) ∨
    ((t.isTransient = true → ∀ l, (finish P lim t s).2 ≠ .returned true l) ∧ (finish P lim t s).1.hist = s.w.hist) := by
  have conv : ∀ q, P.charge s.w = some q → finish P lim t s = finishConverged P t s.w q s.log →
      (∃ I q l, P.current s.w = some I ∧ P.charge s.w = some q ∧ t.isTransient = true ∧
      finish P lim t s = ({ s.w with hist := updateHistory s.w.hist t I q }, .returned true l)) ∨
      ((t.isTransient = true → ∀ l, (finish P lim t s).2 ≠ .returned true l) ∧
        (finish P lim t s).1.hist = s.w.hist) := by
    intro q hq he
    rw [he]
    rcases finishConverged_hist P t s.w q s.log with ⟨I, l, h1, h2, h3⟩ | h
    · exact .inl ⟨I, q, l, h1, hq, h2, h3⟩
    · exact .inr h
  have fail : finish P lim t s = finishFailed s.w s.log →
      (∃ I q l, P.current s.w = some I ∧ P.charge s.w = some q ∧ t.isTransient = true ∧
      finish P lim t s = ({ s.w with hist := updateHistory s.w.hist t I q }, .returned true l)) ∨
      ((t.isTransient = true → ∀ l, (finish P lim t s).2 ≠ .returned true l) ∧
        (finish P lim t s).1.hist = s.w.hist) := by
    intro he
    rw [he]
    exact .inr ⟨fun _ l => finishFailed_not_true _ _ l, finishFailed_hist _ _⟩
  by_cases ht : t.isTransient = true
  · cases hq : P.charge s.w with
    | none =>
      have : finish P lim t s = (s.w, .raised) := by unfold finish; rw [if_pos ht, hq]
      rw [this]; exact .inr ⟨by simp, rfl⟩
    | some q =>
      by_cases hi : (s.conv && t.isIntegration) = true
      · cases hp : checkProjection s.w.hist t lim q with
        | none =>
          have : finish P lim t s = (s.w, .raised) := by
            unfold finish; rw [if_pos ht, hq]; dsimp only; rw [if_pos hi, hp]
          rw [this]; exact .inr ⟨by simp, rfl⟩
        | some ok =>
          cases ok with
          | true =>
            rw [← hq]
            refine conv q hq ?_
            unfold finish; rw [if_pos ht, hq]; dsimp only; rw [if_pos hi, hp]; rfl
          | false =>
            rw [← hq]
            refine fail ?_
            unfold finish; rw [if_pos ht, hq]; dsimp only; rw [if_pos hi, hp]; rfl
      · by_cases hc : s.conv = true
        · rw [← hq]
          refine conv q hq ?_
          unfold finish; rw [if_pos ht, hq]; dsimp only; rw [if_neg hi, if_pos hc]
        · rw [← hq]
          refine fail ?_
          unfold finish; rw [if_pos ht, hq]; dsimp only; rw [if_neg hi, if_neg hc]
  · right
    refine ⟨fun h => absurd h ht, ?_⟩
    unfold finish
    rw [if_neg ht]
    split
    · rcases finishConverged_hist P t s.w [] s.log with ⟨I, l, h1, h2, h3⟩ | h
      · exact absurd h2 ht
      · exact h.2
    · exact finishFailed_hist _ _

/-- A call either is accepted, and then the history is advanced by the new current and charge, or leaves the history
alone. -/
theorem call_hist (c : Call) (w : World) :
    (Accepted c w ∧ (∃ I q, c.P.current { (c.run w).1 with hist := w.hist } = some I ∧
      c.P.charge { (c.run w).1 with hist := w.hist } = some q) ∧
      (c.run w).1.hist = updateHistory w.hist c.t (solved c w).1 (solved c w).2) ∨
    (¬ Accepted c w ∧ (c.run w).1.hist = w.hist) := by
  obtain ⟨w0, hw0, hrun⟩ : ∃ w0 : World, w0.hist = w.hist ∧ c.run w = solve c.P c.lim c.t w0 := ⟨c.before w, rfl, rfl⟩
  cases hb : backup { w0 with circuit := w0.circuit.map Circuit.init } with
  | mk w1 b =>
    have hh : w1.hist = w.hist := by
      have := backup_hist { w0 with circuit := w0.circuit.map Circuit.init }
      rw [hb] at this; exact this.trans hw0
    cases b with
    | false =>
      have hr : c.run w = (w1, .raised) := by rw [hrun]; unfold solve; dsimp only; rw [hb]
      exact .inr ⟨by simp [Accepted, hr], by rw [hr]; exact hh⟩
    | true =>
      cases hc : rhsConstant w1.hist c.t c.P.numEqns with
      | none =>
        have hr : c.run w = (w1, .raised) := by rw [hrun]; unfold solve; dsimp only; rw [hb]; dsimp only; rw [hc]
        exact .inr ⟨by simp [Accepted, hr], by rw [hr]; exact hh⟩
      | some rhsc =>
        have hih := iterate_hist c.P c.lim rhsc c.lim.maxIter 0 (St.start w1)
        cases hi : iterate c.P c.lim rhsc c.lim.maxIter 0 (St.start w1) with
        | mk s thr =>
          rw [hi] at hih
          have hsh : s.w.hist = w.hist := hih.trans hh
          cases thr with
          | true =>
            have hr : c.run w = (s.w, .raised) := by rw [hrun]; unfold solve; dsimp only; rw [hb]; dsimp only; rw [hc]; dsimp only; rw [hi]
            exact .inr ⟨by simp [Accepted, hr], by rw [hr]; exact hsh⟩
          | false =>
            have hr : c.run w = finish c.P c.lim c.t s := by
              rw [hrun]; unfold solve; dsimp only; rw [hb]; dsimp only; rw [hc]; dsimp only; rw [hi]
            rcases finish_hist c.P c.lim c.t s with ⟨I, q, l, h1, h2, h3, h4⟩ | ⟨h1, h2⟩
            · left
              rw [h4] at hr
              have hw : ({ (c.run w).1 with hist := w.hist } : World) = s.w := by rw [hr, ← hsh]
              refine ⟨⟨h3, l, by rw [hr]⟩, ⟨I, q, by rw [hw, h1], by rw [hw, h2]⟩, ?_⟩
              unfold solved
              rw [hw, h1, h2, hr, hsh]
              rfl
            · right
              refine ⟨?_, by rw [hr, h2, hsh]⟩
              rintro ⟨ht, l, hl⟩
              rw [hr] at hl
              exact h1 ht l hl

theorem updateHistory_shows {h : History} {past : List (List ℝ × List ℝ)} (hs : Shows h past)
    (hne : ∀ p ∈ past, p.1 ≠ [] ∧ p.2 ≠ []) (t : TimeParams) (ht : t.isDCMethod = false) (I q : List ℝ) :
    Shows (updateHistory h t I q) ((I, q) :: past) := by
  unfold updateHistory
  rw [ht]
  obtain ⟨s1, s2, s3, s4, s5, s6⟩ := hs
  match past, hne with
  | [], _ => simp_all [Shows]
  | [a], hne =>
    have := hne a (by simp)
    simp_all [Shows]
  | [a, b], hne =>
    have := hne a (by simp)
    have := hne b (by simp)
    simp_all [Shows]
  | a :: b :: d :: rest, hne =>
    have := hne a (by simp)
    have := hne b (by simp)
    simp_all [Shows]

/-- **C29** For every session of solves of all types, whatever happens between them and inside them: the stored history
is exactly the (up to three) newest accepted time points since the last accepted `transient_dc`, each with the current
and charge of its accepted solution.  In particular a failed step, a step that raises an error, and a `dc`, `ac` or
`noise` solve leave it unchanged.  (The assembled vectors have at least one row.) -/
theorem history_is_trail (cs : List Call) (w : World) (past : List (List ℝ × List ℝ)) (hs : Shows w.hist past)
    (hne : ∀ p ∈ past, p.1 ≠ [] ∧ p.2 ≠ [])
    (hP : ∀ c ∈ cs, ∀ w v, c.P.current w = some v ∨ c.P.charge w = some v → v ≠ []) :
    Shows (runAll cs w).hist (trail cs w past) := by
  induction cs generalizing w past with
  | nil => exact hs
  | cons c cs ih =>
    rw [runAll, trail]
    rcases call_hist c w with ⟨ha, ⟨I, q, hI, hq⟩, hh⟩ | ⟨hn, hh⟩
    · rw [if_pos ha]
      have hsne : (solved c w).1 ≠ [] ∧ (solved c w).2 ≠ [] := by
        unfold solved
        rw [hI, hq]
        exact ⟨hP c (by simp) _ _ (.inl hI), hP c (by simp) _ _ (.inr hq)⟩
      by_cases hm : c.t.method = .dc
      · rw [if_pos hm]
        refine ih _ _ ?_ (by simpa using hsne) (fun c hc => hP c (by simp [hc]))
        rw [hh]
        simp [updateHistory, TimeParams.isDCMethod, hm, Shows]
      · rw [if_neg hm]
        have hd : c.t.isDCMethod = false := by
          have h1 := ha.1
          simp only [TimeParams.isTransient, ne_eq, decide_eq_true_eq] at h1
          simp [TimeParams.isDCMethod, hm, h1]
        refine ih _ _ ?_ (by
          intro p hp
          rcases List.mem_cons.1 hp with rfl | hp
          · exact hsne
          · exact hne p hp) (fun c hc => hP c (by simp [hc]))
        rw [hh]
        exact updateHistory_shows hs hne c.t hd _ _
    · rw [if_neg hn]
      exact ih _ _ (by rw [hh]; exact hs) hne (fun c hc => hP c (by simp [hc]))

/-- Not vacuous: the empty history before the first transient solve. -/
example (ds : List (List Region)) (c : Option Circuit) : Shows (World.hist ⟨ds, c, ⟨[], [], [], [], [], []⟩⟩) [] := by
  simp [Shows]

/-! ### The constant part of the right hand side -/

theorem assembleIf_get {data v v' : List ℝ} {scale : ℝ} (h : assembleIf data scale v = some v') :
    v'.length = v.length ∧ ∀ r < v.length, v'.getD r 0 = v.getD r 0 + scale * data.getD r 0 := by
  unfold assembleIf at h
  split at h
  · rename_i hz
    simp only [Option.some.injEq] at h
    subst h
    exact ⟨rfl, fun r _ => by rw [hz]; ring⟩
  · unfold assembleAt at h
    split at h
    · simp at h
    · rename_i hne
      rw [not_or, not_not] at hne
      simp only [Option.some.injEq] at h
      subst h
      refine ⟨by simp [hne.2], fun r hr => ?_⟩
      have hr2 : r < data.length := by rw [hne.2]; exact hr
      simp [List.getD_eq_getElem?_getD, List.getElem?_zipWith, hr, hr2]

theorem rhsConstant_get {h : History} {t : TimeParams} {n : Nat} {v : List ℝ} (ht : t.isDCMethod = false)
    (hv : rhsConstant h t n = some v) :
    v.length = n ∧ ∀ r < n, v.getD r 0 =
      t.a1 * h.q0.getD r 0 + t.a2 * h.q1.getD r 0 + t.b1 * h.i0.getD r 0 + t.b2 * h.i1.getD r 0 := by
  unfold rhsConstant at hv
  rw [ht] at hv
  simp only [Bool.false_eq_true, if_false, Option.bind_eq_bind, Option.bind_eq_some_iff] at hv
  obtain ⟨v1, h1, v2, h2, v3, h3, h4⟩ := hv
  obtain ⟨l1, g1⟩ := assembleIf_get h1
  obtain ⟨l2, g2⟩ := assembleIf_get h2
  obtain ⟨l3, g3⟩ := assembleIf_get h3
  obtain ⟨l4, g4⟩ := assembleIf_get h4
  rw [List.length_replicate] at l1
  refine ⟨by omega, fun r hr => ?_⟩
  rw [g4 r (by omega), g3 r (by omega), g2 r (by omega), g1 r (by simpa using hr)]
  have : (List.replicate n (0 : ℝ)).getD r 0 = 0 := by simp [List.getD_eq_getElem?_getD, hr]
  rw [this]; ring

end Verif.Newton
