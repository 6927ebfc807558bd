import Verif.Newton.Restore

/-!
# C28: what convergence means; C42: when the iteration stops
-/

namespace Verif.Newton
open Classical

/-! ### Specification -/

/-- All errors of an iteration are below the limits. -/
def Within (lim : Limits) (info : IterInfo) : Prop :=
  (∀ e ∈ info.devices, e.1 < lim.abs ∧ e.2 < lim.rel) ∧ ∀ e, info.circuit = some e → e.1 < lim.abs ∧ e.2 < lim.rel

/-- An absolute error of the iteration is above the maximum error. -/
def Exceeds (lim : Limits) (info : IterInfo) : Prop :=
  (∃ e ∈ info.devices, lim.max < e.1) ∨ ∃ e, info.circuit = some e ∧ lim.max < e.1

/-- The errors of a device in an iteration are above the limits and larger than before. -/
def Diverges (lim : Limits) (before now : ℝ × ℝ) : Prop :=
  (lim.rel < now.2 ∧ before.2 < now.2) ∨ (lim.abs < now.1 ∧ before.1 < now.1)

/-! ### The error check -/

theorem judgeDevices_conv (lim : Limits) (es : List (ℝ × ℝ)) (s : St) :
    (es.foldl (judgeDevice lim) s).conv = true ↔ s.conv = true ∧ ∀ e ∈ es, e.1 < lim.abs ∧ e.2 < lim.rel := by
  induction es generalizing s with
  | nil => simp
  | cons e es ih =>
    rw [List.foldl_cons, ih]
    simp only [judgeDevice, Bool.and_eq_true, decide_eq_true_eq, List.mem_cons, forall_eq_or_imp]
    tauto

theorem judgeDevices_maxHit (lim : Limits) (es : List (ℝ × ℝ)) (s : St) :
    (es.foldl (judgeDevice lim) s).maxHit = true ↔ s.maxHit = true ∨ ∃ e ∈ es, lim.max < e.1 := by
  induction es generalizing s with
  | nil => simp
  | cons e es ih =>
    rw [List.foldl_cons, ih]
    simp only [judgeDevice, Bool.or_eq_true, decide_eq_true_eq, List.mem_cons, exists_eq_or_imp, gt_iff_lt]
    tauto

theorem judge_conv (lim : Limits) (s : St) (info : IterInfo) :
    (judge lim s info).conv = true ↔ Within lim info := by
  unfold judge Within
  cases hc : info.circuit with
  | none => simp [judgeDevices_conv]
  | some e =>
    simp only [Bool.and_eq_true, judgeDevices_conv, decide_eq_true_eq, Option.some.injEq, forall_eq', true_and]
    tauto

theorem judge_maxHit (lim : Limits) (s : St) (info : IterInfo) :
    (judge lim s info).maxHit = true ↔ s.maxHit = true ∨ Exceeds lim info := by
  unfold judge Exceeds
  cases hc : info.circuit with
  | none => simp [judgeDevices_maxHit]
  | some e =>
    simp only [Bool.or_eq_true, judgeDevices_maxHit, decide_eq_true_eq, Option.some.injEq, gt_iff_lt]
    constructor
    · rintro ((h | h) | h)
      · exact .inl h
      · exact .inr (.inl h)
      · exact .inr (.inr ⟨e, rfl, h⟩)
    · rintro (h | h | ⟨_, rfl, h⟩)
      · exact .inl (.inl h)
      · exact .inl (.inr h)
      · exact .inr h

theorem judge_log (lim : Limits) (s : St) (info : IterInfo) : (judge lim s info).log = s.log ++ [info] := rfl

/-- What the loop knows. -/
structure LoopInv (lim : Limits) (iter : Nat) (s : St) : Prop where
  length : s.log.length = iter
  conv : s.conv = true ↔ ∃ info, s.log.getLast? = some info ∧ Within lim info
  maxHit : s.maxHit = true ↔ ∃ info, s.log.getLast? = some info ∧ Exceeds lim info
  before : ∀ info ∈ s.log.dropLast, ¬ Within lim info ∧ ¬ Exceeds lim info

theorem start_inv (lim : Limits) (w : World) : LoopInv lim 0 (St.start w) :=
  ⟨rfl, by simp [St.start], by simp [St.start], by simp [St.start]⟩

theorem LoopInv.world {lim : Limits} {iter : Nat} {s : St} (h : LoopInv lim iter s) (w : World) :
    LoopInv lim iter { s with w := w } := ⟨h.length, h.conv, h.maxHit, h.before⟩

theorem LoopInv.next {lim : Limits} {iter : Nat} {s : St} (h : LoopInv lim iter s) (hc : ¬ s.conv = true)
    (hm : ¬ s.maxHit = true) (w' : World) (info : IterInfo) :
    LoopInv lim (iter + 1) (judge lim { s with w := w' } info) := by
  refine ⟨?_, ?_, ?_, ?_⟩
  · rw [judge_log, List.length_append]; simp [h.length]
  · rw [judge_conv, judge_log]; simp
  · rw [judge_maxHit, judge_log]; simp [hm]
  · rw [judge_log, List.dropLast_concat]
    intro i hi
    have hi : i ∈ s.log := hi
    rcases List.eq_nil_or_concat s.log with h0 | ⟨l, b, h0⟩
    · rw [h0] at hi; cases hi
    · rw [List.concat_eq_append] at h0
      rw [h0] at hi
      rw [List.mem_append, List.mem_singleton] at hi
      rcases hi with hi | rfl
      · exact h.before i (by rw [h0, List.dropLast_concat]; exact hi)
      · refine ⟨fun hw => hc (h.conv.2 ⟨i, ?_, hw⟩), fun hw => hm (h.maxHit.2 ⟨i, ?_, hw⟩)⟩ <;>
        · rw [h0]; simp

theorem iterate_inv (P : Problem) (lim : Limits) (rhsc : List ℝ) :
    ∀ (fuel iter : Nat) (s : St), LoopInv lim iter s →
      ∃ k, k ≤ iter + fuel ∧ LoopInv lim k (iterate P lim rhsc fuel iter s).1 := by
  intro fuel
  induction fuel with
  | zero => intro iter s h; exact ⟨iter, by omega, h⟩
  | succ fuel ih =>
    intro iter s h
    rw [iterate]
    split
    · exact ⟨iter, by omega, h⟩
    rename_i h1
    rw [not_or] at h1
    split
    · exact ⟨iter, by omega, h⟩
    rename_i h2
    split
    · exact ⟨iter, by omega, h⟩
    · exact ⟨iter, by omega, h⟩
    · split
      · exact ⟨iter, by omega, h.world _⟩
      · rename_i w' info _
        obtain ⟨k, hk, hh⟩ := ih (iter + 1) _ (h.next h1.1 h2 w' info)
        exact ⟨k, by omega, hh⟩

/-! ### How the call ends -/

theorem finishFailed_log {w w2 : World} {log log' : List IterInfo} {c : Bool}
    (hf : finishFailed w log = (w2, .returned c log')) : c = false ∧ log' = log := by
  unfold finishFailed at hf
  split at hf <;> simp at hf
  simp [hf]

theorem finishConverged_log {P : Problem} {t : TimeParams} {w w2 : World} {q : List ℝ} {log log' : List IterInfo}
    {c : Bool} (hf : finishConverged P t w q log = (w2, .returned c log')) :
    c = true ∧ log' = log ∧ w2.devices = w.devices ∧ w2.circuit = w.circuit := by
  unfold finishConverged at hf
  split at hf
  · simp at hf
  split at hf
  · split at hf
    · simp at hf
    · simp only [Prod.mk.injEq, Outcome.returned.injEq] at hf
      obtain ⟨rfl, rfl, rfl⟩ := hf
      simp
  · simp only [Prod.mk.injEq, Outcome.returned.injEq] at hf
    obtain ⟨rfl, rfl, rfl⟩ := hf
    simp

theorem finish_log {P : Problem} {lim : Limits} {t : TimeParams} {s : St} {w2 : World} {log : List IterInfo} {c : Bool}
    (hf : finish P lim t s = (w2, .returned c log)) :
    log = s.log ∧ (c = true → s.conv = true ∧ w2.devices = s.w.devices ∧ w2.circuit = s.w.circuit) ∧
      (t.isIntegration = false → s.conv = true → c = true) := by
  unfold finish at hf
  split at hf
  · split at hf
    · simp at hf
    split at hf
    · rename_i h1
      rw [Bool.and_eq_true] at h1
      split at hf
      · simp at hf
      · split at hf
        · obtain ⟨rfl, rfl, h⟩ := finishConverged_log hf
          exact ⟨rfl, fun _ => ⟨h1.1, h⟩, fun _ _ => rfl⟩
        · obtain ⟨rfl, rfl⟩ := finishFailed_log hf
          exact ⟨rfl, by simp, fun h => by rw [h1.2] at h; simp at h⟩
    · split at hf
      · rename_i h2
        obtain ⟨rfl, rfl, h⟩ := finishConverged_log hf
        exact ⟨rfl, fun _ => ⟨h2, h⟩, fun _ _ => rfl⟩
      · rename_i h2
        obtain ⟨rfl, rfl⟩ := finishFailed_log hf
        exact ⟨rfl, by simp, fun _ h => absurd h h2⟩
  · split at hf
    · rename_i h2
      obtain ⟨rfl, rfl, h⟩ := finishConverged_log hf
      exact ⟨rfl, fun _ => ⟨h2, h⟩, fun _ _ => rfl⟩
    · rename_i h2
      obtain ⟨rfl, rfl⟩ := finishFailed_log hf
      exact ⟨rfl, by simp, fun _ h => absurd h h2⟩

/-- If `solve` returns, the loop ended normally. -/
theorem solve_returned {P : Problem} {lim : Limits} {t : TimeParams} {w w' : World} {c : Bool} {log : List IterInfo}
    (h : solve P lim t w = (w', .returned c log)) :
    ∃ w1 rhsc s, backup { w with circuit := w.circuit.map Circuit.init } = (w1, true) ∧
      rhsConstant w1.hist t P.numEqns = some rhsc ∧
      iterate P lim rhsc lim.maxIter 0 (St.start w1) = (s, false) ∧ finish P lim t s = (w', .returned c log) := by
  rw [solve] at h
  split at h
  · simp at h
  rename_i w1 hb
  split at h
  · simp at h
  rename_i rhsc hr
  split at h
  · simp at h
  rename_i s hs
  exact ⟨w1, rhsc, s, hb, hr, hs, h⟩

/-- **C28** A solve that returns has performed at most `maximum_iterations` iterations; it reports convergence only if
at least one iteration was performed and in the last one the absolute and relative error of every device and of the
circuit were below the limits; it did not go on after an iteration that met the limits, or in which an absolute error
exceeded the maximum error; and for the non-integrating types (`dc`, `transient_dc`) it reports convergence whenever the
last iteration met the limits. -/
theorem solve_iterations (P : Problem) (lim : Limits) (t : TimeParams) (w w' : World) (c : Bool) (log : List IterInfo)
    (h : solve P lim t w = (w', .returned c log)) :
    log.length ≤ lim.maxIter ∧
    (c = true → ∃ info, log.getLast? = some info ∧ Within lim info) ∧
    (∀ info ∈ log.dropLast, ¬ Within lim info ∧ ¬ Exceeds lim info) ∧
    (t.isIntegration = false → ∀ info, log.getLast? = some info → Within lim info → c = true) := by
  obtain ⟨w1, rhsc, s, _, _, hs, hf⟩ := solve_returned h
  obtain ⟨k, hk, hinv⟩ := iterate_inv P lim rhsc lim.maxIter 0 _ (start_inv lim w1)
  rw [hs] at hinv
  obtain ⟨rfl, h1, h2⟩ := finish_log hf
  refine ⟨?_, ?_, hinv.before, ?_⟩
  · rw [hinv.length]; omega
  · intro hc
    exact hinv.conv.1 (h1 hc).1
  · intro ht info hi hw
    exact h2 ht (hinv.conv.2 ⟨info, hi, hw⟩)

/-! ### What the errors say about the solution -/

theorem maxUp_le (f : Nat → ℝ) (n : Nat) (i : Nat) (hi : i < n) : f i ≤ maxUp f n := by
  have key : ∀ (l : List Nat) (a : ℝ), a ≤ l.foldl (fun acc i => if f i > acc then f i else acc) a ∧
      ∀ i ∈ l, f i ≤ l.foldl (fun acc i => if f i > acc then f i else acc) a := by
    intro l
    induction l with
    | nil => intro a; simp
    | cons j l ih =>
      intro a
      rw [List.foldl_cons]
      obtain ⟨h1, h2⟩ := ih (if f j > a then f j else a)
      have hj : f j ≤ if f j > a then f j else a := by split <;> linarith
      have ha : a ≤ if f j > a then f j else a := by split <;> linarith
      refine ⟨ha.trans h1, ?_⟩
      intro i hi
      rcases List.mem_cons.1 hi with rfl | hi
      · exact hj.trans h1
      · exact h2 i hi
  exact (key (List.range n) 0).2 i (List.mem_range.2 hi)

theorem maxUp_nonneg (f : Nat → ℝ) (n : Nat) : 0 ≤ maxUp f n := by
  have key : ∀ (l : List Nat) (a : ℝ), a ≤ l.foldl (fun acc i => if f i > acc then f i else acc) a := by
    intro l
    induction l with
    | nil => intro a; simp
    | cons j l ih =>
      intro a
      rw [List.foldl_cons]
      refine le_trans ?_ (ih _)
      split <;> linarith
  exact key _ _

theorem damp_step {ut : UpdateType} {old upd u new : ℝ} (h : damp ut old upd = some (u, new)) : new - old = u := by
  cases ut with
  | default => simp only [damp, Option.some.injEq, Prod.mk.injEq] at h; rw [← h.1, ← h.2]; ring
  | logdamp =>
    simp only [damp, Option.some.injEq, Prod.mk.injEq] at h
    obtain ⟨h1, h2⟩ := h
    rw [← h2, h1]; ring
  | positive =>
    simp only [damp] at h
    split at h
    · split at h
      · simp only [Option.some.injEq, Prod.mk.injEq] at h
        obtain ⟨h1, h2⟩ := h
        rw [← h2, ← h1]
      · simp only [Option.some.injEq, Prod.mk.injEq] at h
        obtain ⟨h1, h2⟩ := h
        rw [← h2, ← h1]; ring
    · simp at h

theorem update_errors {e : Eqn} {n base : Nat} {old x new : Nat → ℝ} {a r : ℝ}
    (h : e.update n base old x = some (new, a, r)) :
    0 ≤ a ∧ 0 ≤ r ∧ ∀ i < n, |new i - old i| ≤ a ∧ |new i - old i| / (|new i| + e.minError) ≤ r := by
  unfold Eqn.update at h
  dsimp only at h
  split at h
  · rename_i hs
    simp only [Option.some.injEq, Prod.mk.injEq] at h
    obtain ⟨rfl, rfl, rfl⟩ := h
    refine ⟨maxUp_nonneg _ _, maxUp_nonneg _ _, fun i hi => ?_⟩
    obtain ⟨p, hp⟩ := Option.isSome_iff_exists.1 (hs i hi)
    have hd : p.2 - old i = p.1 := damp_step hp
    have e1 : |(if i < n then ((damp e.utype (old i) (x (base + e.index * n + i))).getD (0, 0)).2 else old i) - old i| =
        |((damp e.utype (old i) (x (base + e.index * n + i))).getD (0, 0)).1| := by
      rw [if_pos hi, hp]; simp [hd]
    rw [e1]
    exact ⟨maxUp_le (fun i => |((damp e.utype (old i) (x (base + e.index * n + i))).getD (0, 0)).1|) n i hi,
      maxUp_le (fun i => |((damp e.utype (old i) (x (base + e.index * n + i))).getD (0, 0)).1| /
        (|if i < n then ((damp e.utype (old i) (x (base + e.index * n + i))).getD (0, 0)).2 else old i| + e.minError))
        n i hi⟩
  · simp at h

/-- The solution of equation `e` moved by less than the limits at every node. -/
def SmallStep (lim : Limits) (n : Nat) (e : Eqn) (ms ms' : Models) : Prop :=
  ∃ old new, ms e.var = some (.solution old) ∧ ms' e.var = some (.solution new) ∧
    ∀ i < n, |new i - old i| < lim.abs ∧ |new i - old i| < lim.rel * (|new i| + e.minError)

theorem updEqs_others {n base : Nat} {x : Nat → ℝ} : ∀ (es : List Eqn) (ms ms' : Models) (acc : ℝ × ℝ) (o : Option (ℝ × ℝ)),
    updEqs n base x es ms acc = (ms', o) → ∀ y, y ∉ es.map (·.var) → ms' y = ms y := by
  intro es
  induction es with
  | nil => intro ms ms' acc o h y _; simp only [updEqs, Prod.mk.injEq] at h; rw [h.1]
  | cons e es ih =>
    intro ms ms' acc o h y hy
    rw [List.map_cons, List.mem_cons, not_or] at hy
    rw [updEqs] at h
    split at h
    · split at h
      · simp only [Prod.mk.injEq] at h; rw [h.1]
      · rw [ih _ _ _ _ h y hy.2, set_other _ _ hy.1]
    · simp only [Prod.mk.injEq] at h; rw [h.1]

theorem updEqs_errors {n base : Nat} {x : Nat → ℝ} : ∀ (es : List Eqn) (ms ms' : Models) (acc tot : ℝ × ℝ),
    (es.map (·.var)).Nodup → updEqs n base x es ms acc = (ms', some tot) →
    acc.1 ≤ tot.1 ∧ acc.2 ≤ tot.2 ∧ ∀ e ∈ es, ∃ old new, ms e.var = some (.solution old) ∧
      ms' e.var = some (.solution new) ∧
      ∀ i < n, |new i - old i| ≤ tot.1 - acc.1 ∧ |new i - old i| / (|new i| + e.minError) ≤ tot.2 - acc.2 := by
  intro es
  induction es with
  | nil => intro ms ms' acc tot _ h; simp only [updEqs, Prod.mk.injEq, Option.some.injEq] at h; simp [h.2]
  | cons e es ih =>
    intro ms ms' acc tot hnd h
    rw [List.map_cons, List.nodup_cons] at hnd
    rw [updEqs] at h
    split at h
    · rename_i old ho
      split at h
      · simp at h
      · rename_i new a r hu
        obtain ⟨ha, hr, hi⟩ := update_errors hu
        obtain ⟨h1, h2, h3⟩ := ih _ _ _ _ hnd.2 h
        dsimp only at h1 h2 h3
        refine ⟨by linarith, by linarith, ?_⟩
        intro e' he'
        rcases List.mem_cons.1 he' with rfl | he'
        · refine ⟨old, new, ho, ?_, fun i hin => ?_⟩
          · rw [updEqs_others _ _ _ _ _ h e'.var hnd.1, set_same]
          · obtain ⟨b1, b2⟩ := hi i hin
            exact ⟨by linarith, by linarith⟩
        · obtain ⟨o', n', q1, q2, q3⟩ := h3 e' he'
          refine ⟨o', n', ?_, q2, fun i hin => ?_⟩
          · rw [set_other] at q1
            · exact q1
            · intro hh
              exact hnd.1 (hh ▸ List.mem_map.2 ⟨e', he', rfl⟩)
          · obtain ⟨b1, b2⟩ := q3 i hin
            exact ⟨by linarith, by linarith⟩
    · simp at h

/-- The variables of the equations of a region are distinct (C18), and the error floors are positive. -/
def DistinctVars (r : Region) : Prop := (r.eqs.map (·.var)).Nodup ∧ ∀ e ∈ r.eqs, 0 < e.minError

/-- Every equation of the region made a small step. -/
def SmallRegion (lim : Limits) (r r' : Region) : Prop := ∀ e ∈ r.eqs, SmallStep lim r.numNodes e r.models r'.models

theorem updDevice_errors {lim : Limits} {x : Nat → ℝ} : ∀ (d d' : List Region) (acc tot : ℝ × ℝ),
    (∀ r ∈ d, DistinctVars r) → updDevice x d acc = (d', some tot) → 0 ≤ acc.1 → 0 ≤ acc.2 →
    acc.1 ≤ tot.1 ∧ acc.2 ≤ tot.2 ∧ (tot.1 < lim.abs → tot.2 < lim.rel → List.Forall₂ (SmallRegion lim) d d') := by
  intro d
  induction d with
  | nil =>
    intro d' acc tot _ h _ _
    simp only [updDevice, Prod.mk.injEq, Option.some.injEq] at h
    obtain ⟨rfl, rfl⟩ := h
    exact ⟨le_rfl, le_rfl, fun _ _ => .nil⟩
  | cons r rs ih =>
    intro d' acc tot hg h ha0 hr0
    rw [updDevice] at h
    split at h
    · simp at h
    · rename_i ms a e hu
      obtain ⟨u1, u2, u3⟩ := updEqs_errors _ _ _ _ _ (hg r (by simp)).1 hu
      dsimp only at u1 u2 u3
      simp only [sub_zero] at u3
      dsimp only at h
      cases ht : (updDevice x rs (if a > acc.1 then a else acc.1, acc.2 + e)) with
      | mk rs' o =>
        rw [ht] at h
        simp only [Prod.mk.injEq] at h
        obtain ⟨rfl, rfl⟩ := h
        have hmax : acc.1 ≤ (if a > acc.1 then a else acc.1) ∧ a ≤ (if a > acc.1 then a else acc.1) := by
          split <;> constructor <;> linarith
        obtain ⟨h1, h2, h3⟩ := ih rs' _ tot (fun r hr => hg r (by simp [hr])) ht (by dsimp only; linarith [hmax.1])
          (by dsimp only; linarith)
        dsimp only at h1 h2
        refine ⟨by linarith [hmax.1], by linarith, fun l1 l2 => .cons ?_ (h3 l1 l2)⟩
        intro e' he'
        obtain ⟨old, new, q1, q2, q3⟩ := u3 e' he'
        refine ⟨old, new, q1, q2, fun i hi => ?_⟩
        obtain ⟨b1, b2⟩ := q3 i hi
        have hpos : 0 < |new i| + e'.minError := by
          have := (hg r (by simp)).2 e' he'
          have := abs_nonneg (new i)
          linarith
        refine ⟨by linarith [hmax.2], ?_⟩
        rw [div_le_iff₀ hpos] at b2
        have : e * (|new i| + e'.minError) < lim.rel * (|new i| + e'.minError) :=
          mul_lt_mul_of_pos_right (by linarith) hpos
        linarith

theorem updDevices_errors {lim : Limits} {x : Nat → ℝ} : ∀ (ds ds' : List (List Region)) (es : List (ℝ × ℝ)),
    (∀ d ∈ ds, ∀ r ∈ d, DistinctVars r) → updDevices x ds = (ds', some es) →
    (∀ e ∈ es, e.1 < lim.abs ∧ e.2 < lim.rel) → List.Forall₂ (List.Forall₂ (SmallRegion lim)) ds ds' := by
  intro ds
  induction ds with
  | nil =>
    intro ds' es _ h _
    simp only [updDevices, Prod.mk.injEq] at h
    rw [← h.1]; exact .nil
  | cons d ds ih =>
    intro ds' es hg h he
    rw [updDevices] at h
    split at h
    · simp at h
    · rename_i d' e hd
      cases ht : updDevices x ds with
      | mk rs' o =>
        rw [ht] at h
        simp only [Prod.mk.injEq, Option.map_eq_some_iff] at h
        obtain ⟨rfl, es', rfl, rfl⟩ := h
        have h1 := (updDevice_errors (lim := lim) d d' (0, 0) e (hg d (by simp)) hd le_rfl le_rfl).2.2
          (he e (by simp)).1 (he e (by simp)).2
        exact .cons h1 (ih rs' es' (fun r hr => hg r (by simp [hr])) ht fun e hh => he e (by simp [hh]))

/-- The circuit nodes made a small step (the sum of their steps is below the absolute limit). -/
def SmallCircuit (lim : Limits) : Option Circuit → Option Circuit → Prop
  | none, none => True
  | some c, some c' => ∃ old new, c.dcop = some old ∧ c'.dcop = some new ∧
      ((List.range c.size).map fun i => |new i - old i|).sum < lim.abs ∧
      ∀ i < c.size, |new i - old i| < lim.rel * (|new i| + 1e-10)
  | _, _ => False

theorem updWorld_errors {lim : Limits} {x : Nat → ℝ} {w w' : World} {info : IterInfo}
    (hg : ∀ d ∈ w.devices, ∀ r ∈ d, DistinctVars r) (h : updWorld x w = (w', some info)) (hw : Within lim info) :
    List.Forall₂ (List.Forall₂ (SmallRegion lim)) w.devices w'.devices ∧ SmallCircuit lim w.circuit w'.circuit := by
  unfold updWorld at h
  split at h
  · simp at h
  · rename_i ds es hds
    split at h
    · rename_i hc
      simp only [Prod.mk.injEq, Option.some.injEq] at h
      obtain ⟨rfl, rfl⟩ := h
      refine ⟨updDevices_errors _ _ _ hg hds hw.1, ?_⟩
      simp only [hc, SmallCircuit]
    · rename_i c hc
      split at h
      · simp at h
      · rename_i old ho
        simp only [Prod.mk.injEq, Option.some.injEq] at h
        obtain ⟨rfl, rfl⟩ := h
        refine ⟨updDevices_errors _ _ _ hg hds hw.1, ?_⟩
        obtain ⟨w1, w2⟩ := hw.2 _ rfl
        simp only [hc, SmallCircuit]
        refine ⟨old, _, ho, rfl, ?_, ?_⟩
        · refine lt_of_eq_of_lt ?_ w1
          simp only [Circuit.update]
          congr 1
          refine List.map_congr_left fun i hi => ?_
          rw [if_pos (List.mem_range.1 hi)]
          congr 1; ring
        · intro i hi
          have hm := maxUp_le (fun i => |x (i + c.base)| / (|(c.update x old).1 i| + 1e-10)) c.size i hi
          have hpos : 0 < |(c.update x old).1 i| + 1e-10 := by
            have := abs_nonneg ((c.update x old).1 i)
            norm_num; linarith
          have hs : (c.update x old).1 i - old i = x (i + c.base) := by
            simp only [Circuit.update, if_pos hi]; ring
          rw [hs]
          rw [div_le_iff₀ hpos] at hm
          have : (c.update x old).2.2 * (|(c.update x old).1 i| + 1e-10) < lim.rel * (|(c.update x old).1 i| + 1e-10) :=
            mul_lt_mul_of_pos_right w2 hpos
          exact lt_of_le_of_lt hm this

/-! ### The shape of the world does not change -/

/-- Everything about a region but its models. -/
def static (r : Region) : Nat × Nat × List Eqn × List String := (r.numNodes, r.base, r.eqs, r.vars)

/-- The regions of the world, without their models. -/
def shape (ds : List (List Region)) := ds.map fun d => d.map static

theorem updDevice_shape (x : Nat → ℝ) : ∀ (d : List Region) (acc : ℝ × ℝ),
    (updDevice x d acc).1.map static = d.map static := by
  intro d
  induction d with
  | nil => intro acc; rfl
  | cons r rs ih =>
    intro acc
    rw [updDevice]
    split
    · simp [static]
    · simp only [List.map_cons, ih]; rfl

theorem updDevices_shape (x : Nat → ℝ) (ds : List (List Region)) : shape (updDevices x ds).1 = shape ds := by
  induction ds with
  | nil => rfl
  | cons d ds ih =>
    have h := updDevice_shape x d (0, 0)
    rw [updDevices]
    split
    · rename_i hd; rw [hd] at h; simp only [shape, List.map_cons, h]
    · rename_i hd; rw [hd] at h; simp only [shape, List.map_cons, h] at ih ⊢; rw [ih]

theorem updWorld_shape (x : Nat → ℝ) (w : World) : shape (updWorld x w).1.devices = shape w.devices := by
  have h := updDevices_shape x w.devices
  unfold updWorld
  split
  · rename_i hd; rw [hd] at h; exact h
  · rename_i hd; rw [hd] at h
    split
    · exact h
    · split <;> exact h

theorem loopRegions_shape (f : Models → String → Option Models) (d : List Region) :
    (loopRegions f d).1.map static = d.map static := by
  induction d with
  | nil => rfl
  | cons r rs ih =>
    rw [loopRegions]
    split
    · simp [static]
    · simp only [List.map_cons, ih]; rfl

theorem loopDevices_shape (f : Models → String → Option Models) (ds : List (List Region)) :
    shape (loopDevices f ds).1 = shape ds := by
  induction ds with
  | nil => rfl
  | cons d ds ih =>
    have h := loopRegions_shape f d
    rw [loopDevices]
    split
    · rename_i hd; rw [hd] at h; simp only [shape, List.map_cons, h]
    · rename_i hd; rw [hd] at h; simp only [shape, List.map_cons, h] at ih ⊢; rw [ih]

theorem backup_shape {w w1 : World} {b : Bool} (h : backup w = (w1, b)) : shape w1.devices = shape w.devices := by
  have hs := loopDevices_shape backupVar w.devices
  unfold backup at h
  split at h
  · rename_i hd; rw [hd] at hs; simp only [Prod.mk.injEq] at h; rw [← h.1]; exact hs
  · rename_i hd; rw [hd] at hs; simp only [Prod.mk.injEq] at h; rw [← h.1]; exact hs

theorem distinct_of_shape {ds ds' : List (List Region)} (h : shape ds' = shape ds)
    (hg : ∀ d ∈ ds, ∀ r ∈ d, DistinctVars r) : ∀ d ∈ ds', ∀ r ∈ d, DistinctVars r := by
  intro d hd r hr
  have h1 : d.map static ∈ shape ds' := List.mem_map.2 ⟨d, hd, rfl⟩
  rw [h] at h1
  obtain ⟨d0, hd0, h2⟩ := List.mem_map.1 h1
  have h3 : static r ∈ d.map static := List.mem_map.2 ⟨r, hr, rfl⟩
  rw [← h2] at h3
  obtain ⟨r0, hr0, h4⟩ := List.mem_map.1 h3
  have he : r0.eqs = r.eqs := congrArg (fun t => t.2.2.1) h4
  have := hg d0 hd0 r0 hr0
  unfold DistinctVars at this ⊢
  rw [← he]; exact this

/-- The last iteration, if it met the limits, made a small step. -/
structure LastSmall (lim : Limits) (ds0 : List (List Region)) (s : St) : Prop where
  same : shape s.w.devices = shape ds0
  last : s.conv = true → ∃ wp : World, shape wp.devices = shape ds0 ∧
    List.Forall₂ (List.Forall₂ (SmallRegion lim)) wp.devices s.w.devices ∧ SmallCircuit lim wp.circuit s.w.circuit

theorem iterate_small (P : Problem) (lim : Limits) (rhsc : List ℝ) (ds0 : List (List Region))
    (hg : ∀ d ∈ ds0, ∀ r ∈ d, DistinctVars r) :
    ∀ (fuel iter : Nat) (s : St), LastSmall lim ds0 s → (iterate P lim rhsc fuel iter s).2 = false →
      LastSmall lim ds0 (iterate P lim rhsc fuel iter s).1 := by
  intro fuel
  induction fuel with
  | zero => intro iter s h _; exact h
  | succ fuel ih =>
    intro iter s h hh
    rw [iterate] at hh ⊢
    split
    · exact h
    rename_i h1
    rw [if_neg h1] at hh
    split
    · exact h
    rename_i h2
    rw [if_neg h2] at hh
    cases hl : P.lin iter s.w rhsc with
    | threw => exact h
    | failed => exact h
    | ok x =>
      rw [hl] at hh
      dsimp only at hh ⊢
      cases hu : updWorld x s.w with
      | mk w' o =>
        rw [hu] at hh
        cases o with
        | none => simp at hh
        | some info =>
          dsimp only at hh ⊢
          refine ih _ _ ⟨?_, ?_⟩ hh
          · rw [judge_w]
            have := updWorld_shape x s.w
            rw [hu] at this
            exact this.trans h.same
          · intro hc
            rw [judge_w]
            rw [judge_conv] at hc
            exact ⟨s.w, h.same, updWorld_errors (distinct_of_shape h.same hg) hu hc⟩

/-- **C28, what is guaranteed about the solution.** When `solve` reports convergence, the last update changed the value
of the variable of every equation at every node by less than the absolute limit, and by less than the relative limit
times its size (plus the error floor); the same for the circuit, where even the sum of all changes is below the
absolute limit. -/
theorem converged_step_small (P : Problem) (lim : Limits) (t : TimeParams) (w w' : World) (log : List IterInfo)
    (hg : ∀ d ∈ w.devices, ∀ r ∈ d, DistinctVars r) (h : solve P lim t w = (w', .returned true log)) :
    ∃ before : World, shape before.devices = shape w.devices ∧
      List.Forall₂ (List.Forall₂ (SmallRegion lim)) before.devices w'.devices ∧
      SmallCircuit lim before.circuit w'.circuit := by
  obtain ⟨w1, rhsc, s, hb, _, hs, hf⟩ := solve_returned h
  have h0 : LastSmall lim w.devices (St.start w1) := ⟨by
    have := backup_shape hb
    exact this, by simp [St.start]⟩
  have h1 := iterate_small P lim rhsc w.devices hg lim.maxIter 0 _ h0 (by rw [hs])
  rw [hs] at h1
  obtain ⟨-, h2, -⟩ := finish_log hf
  obtain ⟨hc, hd, hci⟩ := h2 rfl
  obtain ⟨wp, p1, p2, p3⟩ := h1.last hc
  exact ⟨wp, p1, by rw [hd]; exact p2, by rw [hci]; exact p3⟩

end Verif.Newton
