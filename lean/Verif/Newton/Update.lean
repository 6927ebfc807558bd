import Verif.Newton.Converge
import Verif.Newton.RestoreEx

/-!
# C30: how an iteration changes the solutions of the devices
-/

namespace Verif.Newton
open Classical

/-! ### Specification -/

/-- What the update type says about old value, step and new value. -/
def NewValue : UpdateType → ℝ → ℝ → ℝ → Prop
  | .default, old, step, new => new = old + step
  | .logdamp, old, step, new =>
    |new - old| ≤ |step| ∧ 0 ≤ (new - old) * step ∧ (new = old ↔ step = 0) ∧
      (|step| ≤ 0.0259 → new = old + step) ∧
      (0.0259 < |step| → |new - old| = 0.0259 * Real.log (1 + |step| / 0.0259))
  | .positive, old, step, new =>
    0 < old ∧ 0 < new ∧ (0 < old + step → new = old + step) ∧ (old + step ≤ 0 → new = old / 1000)

/-- The region is updated with the steps of its rows: row `base + index * numNodes + i` for node `i` of the equation with
this index (C19), and nothing else of it changes. -/
structure Updated (x : Nat → ℝ) (r r' : Region) : Prop where
  numNodes : r'.numNodes = r.numNodes
  base : r'.base = r.base
  eqs : r'.eqs = r.eqs
  vars : r'.vars = r.vars
  new : ∀ e ∈ r.eqs, ∃ old new, r.models e.var = some (.solution old) ∧ r'.models e.var = some (.solution new) ∧
    ∀ i, if i < r.numNodes then NewValue e.utype (old i) (x (r.base + e.index * r.numNodes + i)) (new i)
      else new i = old i
  others : ∀ y, (∀ e ∈ r.eqs, y ≠ e.var) → r'.models y = r.models y

/-- No two equations of the region have the same variable (C18). -/
def OneEquationPerVar (r : Region) : Prop := (r.eqs.map Eqn.var).Nodup

/-- A variable with positive updates is not positive at some node. -/
def NotPositive (w : World) : Prop :=
  ∃ d ∈ w.devices, ∃ r ∈ d, ∃ e ∈ r.eqs, e.utype = .positive ∧ ∃ old, r.models e.var = some (.solution old) ∧
    ∃ i < r.numNodes, old i ≤ 0

/-- Variables with positive updates are positive at all nodes. -/
def Positive (w : World) : Prop :=
  ∀ d ∈ w.devices, ∀ r ∈ d, ∀ e ∈ r.eqs, e.utype = .positive → ∀ i < r.numNodes, 0 < solutions r.models e.var i

/-! ### Proof -/

theorem damp_spec {ut : UpdateType} {old upd u new : ℝ} (h : damp ut old upd = some (u, new)) :
    NewValue ut old upd new := by
  cases ut with
  | default =>
    simp only [damp, Option.some.injEq, Prod.mk.injEq] at h
    show new = old + upd
    linarith [h.2]
  | logdamp =>
    simp only [damp, Option.some.injEq, Prod.mk.injEq] at h
    obtain ⟨h1, h2⟩ := h
    have e : u = Verif.Circuit.logDamp upd := by rw [← h1]; rfl
    rw [h1] at h2
    have e2 : new - old = Verif.Circuit.logDamp upd := by rw [← e]; linarith
    obtain ⟨s1, s2, s3, s4⟩ := Verif.Circuit.logDamp_spec upd
    refine ⟨by rw [e2]; exact s1, by rw [e2]; exact s2, ?_, ?_, ?_⟩
    · rw [← s3, ← e2]; exact sub_eq_zero.symm
    · intro hle
      have : Verif.Circuit.logDamp upd = upd := by
        unfold Verif.Circuit.logDamp; rw [if_neg (not_lt.mpr hle)]
      linarith
    · intro hlt
      rw [e2]
      have hl : 0 ≤ Real.log (1 + |upd| / 0.0259) := Real.log_nonneg (by
        have : 0 ≤ |upd| / 0.0259 := div_nonneg (abs_nonneg _) (by norm_num)
        linarith)
      unfold Verif.Circuit.logDamp
      rw [if_pos hlt]
      split
      · rw [one_mul, abs_of_nonneg (mul_nonneg (by norm_num) hl)]
      · rw [show (-1 : ℝ) * 0.0259 * Real.log (1 + |upd| / 0.0259) = -(0.0259 * Real.log (1 + |upd| / 0.0259)) by ring,
          abs_neg, abs_of_nonneg (mul_nonneg (by norm_num) hl)]
  | positive =>
    unfold damp at h
    dsimp only at h
    split at h
    · rename_i ho
      split at h
      · rename_i hs
        have hn : ¬ (0.001 * old ≤ 0) := by
          rw [not_le]; exact mul_pos (by norm_num) ho
        rw [if_neg hn] at h
        simp only [Option.some.injEq, Prod.mk.injEq] at h
        have hnew : new = old / 1000 := by rw [← h.2]; ring
        refine ⟨ho, by rw [hnew]; linarith, fun hp => by linarith, fun _ => hnew⟩
      · rename_i hs
        simp only [Option.some.injEq, Prod.mk.injEq] at h
        rw [not_le] at hs
        refine ⟨ho, by linarith [h.2], fun _ => by linarith [h.2], fun hp => by linarith⟩
    · simp at h

theorem damp_none {ut : UpdateType} {old upd : ℝ} (h : damp ut old upd = none) : ut = .positive ∧ old ≤ 0 := by
  cases ut with
  | default => simp [damp] at h
  | logdamp => simp [damp] at h
  | positive =>
    refine ⟨rfl, ?_⟩
    unfold damp at h
    dsimp only at h
    split at h
    · split at h <;> simp at h
    · rename_i ho; exact not_lt.1 ho

theorem update_spec {e : Eqn} {n base : Nat} {old x new : Nat → ℝ} {a r : ℝ} (h : e.update n base old x = some (new, a, r))
    (i : Nat) : if i < n then NewValue e.utype (old i) (x (base + e.index * n + i)) (new i) else new i = old i := by
  unfold Eqn.update at h
  dsimp only at h
  split at h
  · rename_i hs
    simp only [Option.some.injEq, Prod.mk.injEq] at h
    rw [← h.1]
    by_cases hi : i < n
    · obtain ⟨p, hp⟩ := Option.isSome_iff_exists.1 (hs i hi)
      rw [if_pos hi]
      dsimp only
      rw [if_pos hi, hp, Option.getD_some]
      exact damp_spec (u := p.1) hp
    · rw [if_neg hi]
      dsimp only
      rw [if_neg hi]
  · simp at h

theorem update_none {e : Eqn} {n base : Nat} {old x : Nat → ℝ} (h : e.update n base old x = none) :
    e.utype = .positive ∧ ∃ i < n, old i ≤ 0 := by
  unfold Eqn.update at h
  dsimp only at h
  split at h
  · simp at h
  · rename_i hs
    simp only [not_forall] at hs
    obtain ⟨i, hi, hn⟩ := hs
    have := damp_none (Option.not_isSome_iff_eq_none.1 hn)
    exact ⟨this.1, i, hi, this.2⟩

theorem updEqs_spec (n base : Nat) (x : Nat → ℝ) (es : List Eqn) (ms : Models) (acc : ℝ × ℝ)
    (hnd : (es.map Eqn.var).Nodup) (ms' : Models) (err : ℝ × ℝ) (h : updEqs n base x es ms acc = (ms', some err)) :
    (∀ e ∈ es, ∃ old new, ms e.var = some (.solution old) ∧ ms' e.var = some (.solution new) ∧
      ∀ i, if i < n then NewValue e.utype (old i) (x (base + e.index * n + i)) (new i) else new i = old i) ∧
    (∀ y, (∀ e ∈ es, y ≠ e.var) → ms' y = ms y) := by
  induction es generalizing ms acc with
  | nil =>
    simp only [updEqs, Prod.mk.injEq] at h
    simp [h.1]
  | cons e es ih =>
    rw [List.map_cons, List.nodup_cons] at hnd
    rw [updEqs] at h
    split at h
    · rename_i old hold
      split at h
      · simp at h
      · rename_i new a r hu
        obtain ⟨h1, h2⟩ := ih _ _ hnd.2 h
        have hne : ∀ f ∈ es, e.var ≠ f.var := fun f hf he => hnd.1 (he ▸ List.mem_map_of_mem hf)
        constructor
        · intro f hf
          rcases List.mem_cons.1 hf with rfl | hf
          · exact ⟨old, new, hold, by rw [h2 _ hne, set_same], update_spec hu⟩
          · obtain ⟨o, nw, g1, g2, g3⟩ := h1 f hf
            rw [set_other _ _ (hne f hf).symm] at g1
            exact ⟨o, nw, g1, g2, g3⟩
        · intro y hy
          rw [h2 y (fun f hf => hy f (by simp [hf])), set_other _ _ (hy e (by simp))]
    · simp at h

theorem updEqs_none (n base : Nat) (x : Nat → ℝ) (es : List Eqn) (ms : Models) (acc : ℝ × ℝ)
    (hnd : (es.map Eqn.var).Nodup) (hsol : ∀ e ∈ es, ∃ v, ms e.var = some (.solution v)) (ms' : Models)
    (h : updEqs n base x es ms acc = (ms', none)) :
    ∃ e ∈ es, e.utype = .positive ∧ ∃ old, ms e.var = some (.solution old) ∧ ∃ i < n, old i ≤ 0 := by
  induction es generalizing ms acc with
  | nil => simp [updEqs] at h
  | cons e es ih =>
    rw [List.map_cons, List.nodup_cons] at hnd
    have hne : ∀ f ∈ es, f.var ≠ e.var := fun f hf he => hnd.1 (he ▸ List.mem_map_of_mem hf)
    rw [updEqs] at h
    split at h
    · rename_i old hold
      split at h
      · rename_i hu
        obtain ⟨h1, i, h2, h3⟩ := update_none hu
        exact ⟨e, by simp, h1, old, hold, i, h2, h3⟩
      · obtain ⟨f, hf, h1, o, h2, h3⟩ := ih _ _ hnd.2 (fun f hf => by
          rw [set_other _ _ (hne f hf)]; exact hsol f (by simp [hf])) h
        rw [set_other _ _ (hne f hf)] at h2
        exact ⟨f, by simp [hf], h1, o, h2, h3⟩
    · rename_i hno
      obtain ⟨v, hv⟩ := hsol e (by simp)
      exact absurd hv (hno v)

theorem updDevice_spec (x : Nat → ℝ) (d : List Region) (acc : ℝ × ℝ) (hnd : ∀ r ∈ d, OneEquationPerVar r)
    (d' : List Region) (err : ℝ × ℝ) (h : updDevice x d acc = (d', some err)) : List.Forall₂ (Updated x) d d' := by
  induction d generalizing acc d' with
  | nil => simp only [updDevice, Prod.mk.injEq] at h; rw [← h.1]; exact .nil
  | cons r rs ih =>
    rw [updDevice] at h
    split at h
    · simp at h
    · rename_i ms a e hu
      obtain ⟨h1, h2⟩ := updEqs_spec _ _ _ _ _ _ (hnd r (by simp)) _ _ hu
      dsimp only at h
      generalize ht : updDevice x rs (if a > acc.1 then a else acc.1, acc.2 + e) = t at h
      obtain ⟨t1, t2⟩ := t
      simp only [Prod.mk.injEq] at h
      rw [← h.1]
      rw [h.2] at ht
      exact .cons ⟨rfl, rfl, rfl, rfl, h1, h2⟩ (ih _ (fun r hr => hnd r (by simp [hr])) _ ht)

theorem updDevice_none (x : Nat → ℝ) (d : List Region) (acc : ℝ × ℝ) (hnd : ∀ r ∈ d, OneEquationPerVar r)
    (hsol : ∀ r ∈ d, ∀ e ∈ r.eqs, ∃ v, r.models e.var = some (.solution v))
    (d' : List Region) (h : updDevice x d acc = (d', none)) :
    ∃ r ∈ d, ∃ e ∈ r.eqs, e.utype = .positive ∧ ∃ old, r.models e.var = some (.solution old) ∧
      ∃ i < r.numNodes, old i ≤ 0 := by
  induction d generalizing acc d' with
  | nil => simp [updDevice] at h
  | cons r rs ih =>
    rw [updDevice] at h
    split at h
    · rename_i hu
      exact ⟨r, by simp, updEqs_none _ _ _ _ _ _ (hnd r (by simp)) (hsol r (by simp)) _ hu⟩
    · rename_i ms a e hu
      dsimp only at h
      generalize ht : updDevice x rs (if a > acc.1 then a else acc.1, acc.2 + e) = t at h
      obtain ⟨t1, t2⟩ := t
      simp only [Prod.mk.injEq] at h
      rw [h.2] at ht
      obtain ⟨r', hr', hh⟩ := ih _ (fun r hr => hnd r (by simp [hr])) (fun r hr => hsol r (by simp [hr])) _ ht
      exact ⟨r', by simp [hr'], hh⟩

theorem updDevices_spec (x : Nat → ℝ) (ds : List (List Region)) (hnd : ∀ d ∈ ds, ∀ r ∈ d, OneEquationPerVar r)
    (ds' : List (List Region)) (err : List (ℝ × ℝ)) (h : updDevices x ds = (ds', some err)) :
    List.Forall₂ (List.Forall₂ (Updated x)) ds ds' := by
  induction ds generalizing ds' err with
  | nil => simp only [updDevices, Prod.mk.injEq] at h; rw [← h.1]; exact .nil
  | cons d ds ih =>
    rw [updDevices] at h
    split at h
    · simp at h
    · rename_i d' e hu
      dsimp only at h
      generalize ht : updDevices x ds = t at h
      obtain ⟨t1, t2⟩ := t
      simp only [Prod.mk.injEq, Option.map_eq_some_iff] at h
      obtain ⟨h1, es, h2, h3⟩ := h
      rw [← h1]
      rw [h2] at ht
      exact .cons (updDevice_spec _ _ _ (hnd d (by simp)) _ _ hu) (ih (fun d hd => hnd d (by simp [hd])) _ _ ht)

theorem updDevices_none (x : Nat → ℝ) (ds : List (List Region)) (hnd : ∀ d ∈ ds, ∀ r ∈ d, OneEquationPerVar r)
    (hsol : ∀ d ∈ ds, ∀ r ∈ d, ∀ e ∈ r.eqs, ∃ v, r.models e.var = some (.solution v))
    (ds' : List (List Region)) (h : updDevices x ds = (ds', none)) :
    ∃ d ∈ ds, ∃ r ∈ d, ∃ e ∈ r.eqs, e.utype = .positive ∧ ∃ old, r.models e.var = some (.solution old) ∧
      ∃ i < r.numNodes, old i ≤ 0 := by
  induction ds generalizing ds' with
  | nil => simp [updDevices] at h
  | cons d ds ih =>
    rw [updDevices] at h
    split at h
    · rename_i hu
      exact ⟨d, by simp, updDevice_none _ _ _ (hnd d (by simp)) (hsol d (by simp)) _ hu⟩
    · rename_i d' e hu
      dsimp only at h
      generalize ht : updDevices x ds = t at h
      obtain ⟨t1, t2⟩ := t
      simp only [Prod.mk.injEq, Option.map_eq_none_iff] at h
      rw [h.2] at ht
      obtain ⟨d', hd', hh⟩ := ih (fun d hd => hnd d (by simp [hd])) (fun d hd => hsol d (by simp [hd])) _ ht
      exact ⟨d', by simp [hd'], hh⟩

/-- **C30** An iteration changes exactly the solution variables of the equations, each node by the step of its row, in
the way the update type of the equation says; circuit unknowns by the step exactly. -/
theorem iteration_updates (x : Nat → ℝ) (w w' : World) (info : IterInfo)
    (hnd : ∀ d ∈ w.devices, ∀ r ∈ d, OneEquationPerVar r) (h : updWorld x w = (w', some info)) :
    List.Forall₂ (List.Forall₂ (Updated x)) w.devices w'.devices ∧ w'.hist = w.hist ∧
    (w.circuit = none → w'.circuit = none) ∧
    (∀ c, w.circuit = some c → ∃ old new, c.dcop = some old ∧ w'.circuit = some { c with dcop := some new } ∧
      ∀ i, new i = if i < c.size then old i + x (i + c.base) else old i) := by
  unfold updWorld at h
  split at h
  · simp at h
  rename_i ds es hu
  have hd := updDevices_spec x w.devices hnd _ _ hu
  split at h
  · rename_i hc
    simp only [Prod.mk.injEq] at h
    obtain ⟨rfl, _⟩ := h
    exact ⟨hd, rfl, fun _ => hc, fun c h => by rw [hc] at h; simp at h⟩
  · rename_i c hc
    split at h
    · simp at h
    · rename_i old ho
      simp only [Prod.mk.injEq] at h
      obtain ⟨rfl, _⟩ := h
      refine ⟨hd, rfl, fun h => by rw [hc] at h; simp at h, fun c' h => ?_⟩
      rw [hc, Option.some.injEq] at h
      subst h
      refine ⟨old, _, ho, rfl, fun i => ?_⟩
      simp only [Circuit.update]
      split
      · rw [add_comm]
      · rfl

/-- **C30** An iteration raises an error only because of a variable with positive updates that is not positive. -/
theorem iteration_raises (x : Nat → ℝ) (w w' : World) (hnd : ∀ d ∈ w.devices, ∀ r ∈ d, OneEquationPerVar r)
    (hsol : ∀ d ∈ w.devices, ∀ r ∈ d, ∀ e ∈ r.eqs, ∃ v, r.models e.var = some (.solution v))
    (hc : ∀ c, w.circuit = some c → c.dcop.isSome) (h : updWorld x w = (w', none)) : NotPositive w := by
  unfold updWorld at h
  split at h
  · rename_i ds hu
    exact updDevices_none x w.devices hnd hsol _ hu
  · split at h
    · simp at h
    · rename_i c hcc
      split at h
      · rename_i hn
        have := hc c hcc
        rw [hn] at this
        simp at this
      · simp at h

/-! ### Positive variables stay positive -/

theorem newValue_pos {old step new : ℝ} (h : NewValue .positive old step new) : 0 < new := h.2.1

/-- Positive region. -/
def PosR (r : Region) : Prop :=
  OneEquationPerVar r ∧ ∀ e ∈ r.eqs, e.utype = .positive → ∀ i < r.numNodes, 0 < solutions r.models e.var i

theorem updEqs_pos (r : Region) (x : Nat → ℝ) (hnd : OneEquationPerVar r) :
    ∀ (es : List Eqn) (ms : Models) (acc : ℝ × ℝ), (∀ e ∈ es, e ∈ r.eqs) → PosR { r with models := ms } →
      PosR { r with models := (updEqs r.numNodes r.base x es ms acc).1 } := by
  intro es
  induction es with
  | nil => intro ms acc _ h; exact h
  | cons e es ih =>
    intro ms acc hes h
    rw [updEqs]
    split
    · rename_i old hold
      split
      · exact h
      · rename_i new a b hu
        refine ih _ _ (fun e he => hes e (by simp [he])) ⟨hnd, ?_⟩
        intro f hf hft i hi
        by_cases hv : f.var = e.var
        · have hfe : f = e := by
            have he := hes e (by simp)
            exact List.inj_on_of_nodup_map hnd hf he hv
          subst hfe
          have := update_spec hu i
          rw [if_pos hi, hft] at this
          simp only [solutions, hv, set_same]
          exact newValue_pos this
        · have := h.2 f hf hft i hi
          simp only [solutions] at this ⊢
          rw [set_other _ _ hv]
          exact this
    · exact h

theorem updDevice_pos (x : Nat → ℝ) (d : List Region) (acc : ℝ × ℝ) (h : ∀ r ∈ d, PosR r) :
    ∀ r ∈ (updDevice x d acc).1, PosR r := by
  induction d generalizing acc with
  | nil => simp [updDevice]
  | cons r rs ih =>
    have key := updEqs_pos r x (h r (by simp)).1 r.eqs r.models (0, 0) (fun _ h => h) (h r (by simp))
    rw [updDevice]
    split
    · rename_i hu
      rw [hu] at key
      intro r' hr'
      rcases List.mem_cons.1 hr' with rfl | hr'
      · exact key
      · exact h r' (by simp [hr'])
    · rename_i hu
      rw [hu] at key
      intro r' hr'
      rcases List.mem_cons.1 hr' with rfl | hr'
      · exact key
      · exact ih _ (fun r hr => h r (by simp [hr])) r' hr'

theorem updDevices_pos (x : Nat → ℝ) (ds : List (List Region)) (h : ∀ d ∈ ds, ∀ r ∈ d, PosR r) :
    ∀ d ∈ (updDevices x ds).1, ∀ r ∈ d, PosR r := by
  induction ds with
  | nil => simp [updDevices]
  | cons d ds ih =>
    have key := updDevice_pos x d (0, 0) (h d (by simp))
    rw [updDevices]
    split
    · rename_i hu
      rw [hu] at key
      intro r' hr'
      rcases List.mem_cons.1 hr' with rfl | hr'
      · exact key
      · exact h r' (by simp [hr'])
    · rename_i hu
      rw [hu] at key
      intro r' hr'
      rcases List.mem_cons.1 hr' with rfl | hr'
      · exact key
      · exact ih (fun d hd => h d (by simp [hd])) r' hr'

/-- Positive devices. -/
def PosW (w : World) : Prop := ∀ d ∈ w.devices, ∀ r ∈ d, PosR r

theorem updWorld_pos (x : Nat → ℝ) (w : World) (h : PosW w) : PosW (updWorld x w).1 := by
  have key := updDevices_pos x w.devices h
  unfold updWorld
  split
  · rename_i hu; rw [hu] at key; exact key
  · rename_i hu
    rw [hu] at key
    split
    · exact key
    · split <;> exact key

theorem iterate_pos (P : Problem) (lim : Limits) (rhsc : List ℝ) :
    ∀ (fuel iter : Nat) (s : St), PosW s.w → PosW (iterate P lim rhsc fuel iter s).1.w := by
  intro fuel
  induction fuel with
  | zero => intro iter s h; exact h
  | succ fuel ih =>
    intro iter s h
    rw [iterate]
    split
    · exact h
    split
    · exact h
    split
    · exact h
    · exact h
    · rename_i x _
      have key := updWorld_pos x s.w h
      split
      · rename_i hu; rw [hu] at key; exact key
      · rename_i hu; rw [hu] at key; exact ih _ _ (by rw [judge_w]; exact key)

theorem held_pos {r r' : Region} (hg : GoodRegion r) (h : Held r r')
    (hs : ∀ v ∈ r.vars, r'.models v = r.models v) (hp : PosR r) : PosR r' := by
  refine ⟨by rw [OneEquationPerVar, h.eqs]; exact hp.1, ?_⟩
  intro e he ht i hi
  rw [h.eqs] at he
  rw [h.numNodes] at hi
  have := hp.2 e he ht i hi
  simp only [solutions] at this ⊢
  rw [hs _ (hg.listed e he)]
  exact this

theorem same_pos {w w' : World} (hg : GoodWorld w) (h : SameWorld w w') (hp : PosW w) : PosW w' := by
  have key : ∀ {d d' : List Region}, (∀ r ∈ d, GoodRegion r ∧ PosR r) → List.Forall₂ SameRegion d d' → ∀ r ∈ d', PosR r := by
    intro d d' hd hf
    induction hf with
    | nil => simp
    | @cons r r' rs rs' hr _ ih =>
      intro q hq
      rcases List.mem_cons.1 hq with rfl | hq
      · obtain ⟨g, p⟩ := hd r (by simp)
        obtain ⟨h1, h2, h3, h4, h5⟩ := hr
        refine ⟨by rw [OneEquationPerVar, h3]; exact p.1, ?_⟩
        intro e he ht i hi
        rw [h3] at he
        rw [h1] at hi
        have := p.2 e he ht i hi
        simp only [solutions] at this ⊢
        rw [h5 e.var]
        · exact this
        · rintro ⟨v, hv, hev⟩
          exact g.apart v hv (hev ▸ g.listed e he)
      · exact ih (fun r hr => hd r (by simp [hr])) q hq
  have h2 : ∀ {ds ds' : List (List Region)}, (∀ d ∈ ds, ∀ r ∈ d, GoodRegion r ∧ PosR r) →
      List.Forall₂ (List.Forall₂ SameRegion) ds ds' → ∀ d ∈ ds', ∀ r ∈ d, PosR r := by
    intro ds ds' hd hf
    induction hf with
    | nil => simp
    | @cons r r' rs rs' hr _ ih =>
      intro q hq
      rcases List.mem_cons.1 hq with rfl | hq
      · exact key (hd r (by simp)) hr
      · exact ih (fun d hdd => hd d (by simp [hdd])) q hq
  exact h2 (fun d hd r hr => ⟨hg d hd r hr, hp d hd r hr⟩) h.devices

theorem backup_pos {w w1 : World} (hg : GoodWorld w) (hp : PosW w)
    (h : backup { w with circuit := w.circuit.map Circuit.init } = (w1, true)) : PosW w1 := by
  have key : ∀ (d d' : List Region), (∀ r ∈ d, GoodRegion r ∧ PosR r) → loopRegions backupVar d = (d', true) →
      ∀ r ∈ d', PosR r := by
    intro d
    induction d with
    | nil => intro d' _ h; simp only [loopRegions, Prod.mk.injEq] at h; simp [← h.1]
    | cons r rs ih =>
      intro d' hd h
      obtain ⟨g, p⟩ := hd r (by simp)
      obtain ⟨ms', h1, h2, h3⟩ := backup_loop r.vars g.apart r.vars r.models (fun _ h => h) g.solution g.free
      rw [loopRegions, h1] at h
      dsimp only at h
      generalize ht : loopRegions backupVar rs = t at h
      obtain ⟨t1, t2⟩ := t
      simp only [Prod.mk.injEq] at h
      rw [h.2] at ht
      rw [← h.1]
      intro q hq
      rcases List.mem_cons.1 hq with rfl | hq
      · refine ⟨p.1, ?_⟩
        intro e he hte i hi
        have := p.2 e he hte i hi
        simp only [solutions] at this ⊢
        rw [h3 e.var]
        · exact this
        · intro v hv hev
          exact g.apart v hv (hev ▸ g.listed e he)
      · exact ih _ (fun r hr => hd r (by simp [hr])) ht q hq
  have key2 : ∀ (ds ds' : List (List Region)), (∀ d ∈ ds, ∀ r ∈ d, GoodRegion r ∧ PosR r) →
      loopDevices backupVar ds = (ds', true) → ∀ d ∈ ds', ∀ r ∈ d, PosR r := by
    intro ds
    induction ds with
    | nil => intro d' _ h; simp only [loopDevices, Prod.mk.injEq] at h; simp [← h.1]
    | cons d ds ih =>
      intro ds' hd h
      rw [loopDevices] at h
      split at h
      · simp at h
      · rename_i d' h1
        dsimp only at h
        generalize ht : loopDevices backupVar ds = t at h
        obtain ⟨t1, t2⟩ := t
        simp only [Prod.mk.injEq] at h
        rw [h.2] at ht
        rw [← h.1]
        intro q hq
        rcases List.mem_cons.1 hq with rfl | hq
        · exact key d _ (hd d (by simp)) h1
        · exact ih _ (fun d hdd => hd d (by simp [hdd])) ht q hq
  unfold backup at h
  split at h
  · simp at h
  · rename_i ds hds
    simp only [Prod.mk.injEq] at h
    rw [← h.1]
    exact key2 w.devices ds (fun d hd r hr => ⟨hg d hd r hr, hp d hd r hr⟩) hds

/-- **C30** Positive variables stay positive: whatever the linear systems are, whatever the limits and the type, and
whether `solve` converges, fails or raises an error. -/
theorem positive_stays_positive (P : Problem) (lim : Limits) (t : TimeParams) (w : World) (hg : GoodWorld w)
    (hnd : ∀ d ∈ w.devices, ∀ r ∈ d, OneEquationPerVar r) (hp : Positive w) : Positive (solve P lim t w).1 := by
  have hpw : PosW w := fun d hd r hr => ⟨hnd d hd r hr, hp d hd r hr⟩
  suffices h : PosW (solve P lim t w).1 from fun d hd r hr => (h d hd r hr).2
  obtain ⟨w1, h1, h2⟩ := backup_world hg
  have hp1 := backup_pos hg hpw h1
  unfold solve
  dsimp only
  rw [h1]
  dsimp only
  split
  · exact hp1
  rename_i rhsc _
  have hi := iterate_pos P lim rhsc lim.maxIter 0 (St.start w1) hp1
  have hh := iterate_held hg P lim rhsc lim.maxIter 0 (St.start w1) h2
  split
  · rename_i s hs; rw [hs] at hi; exact hi
  rename_i s hs
  rw [hs] at hi hh
  dsimp only at hi hh
  have hfail : ∀ log, PosW (finishFailed s.w log).1 := by
    intro log
    obtain ⟨w2, g1, g2⟩ := restore_world hg hh
    rw [finishFailed, g1]
    exact same_pos hg g2 hpw
  have hconv : ∀ q log, PosW (finishConverged P t s.w q log).1 := by
    intro q log
    unfold finishConverged
    split
    · exact hi
    split
    · split <;> exact hi
    · exact hi
  unfold finish
  split
  · split
    · exact hi
    · split
      · split
        · exact hi
        · split
          · exact hconv _ _
          · exact hfail _
      · split
        · exact hconv _ _
        · exact hfail _
  · split
    · exact hconv _ _
    · exact hfail _

end Verif.Newton
