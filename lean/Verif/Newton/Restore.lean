import Verif.Newton.Model

/-!
# C27: a failed solve leaves the solution unchanged
-/

namespace Verif.Newton
open Classical

/-! ### Specification -/

/-- The names under which the solver keeps its backups. -/
def isBackup (r : Region) (x : String) : Prop := ∃ v ∈ r.vars, x = v ++ "_prev"

/-- `r'` is `r`, up to the models that hold the backups. -/
def SameRegion (r r' : Region) : Prop :=
  r'.numNodes = r.numNodes ∧ r'.base = r.base ∧ r'.eqs = r.eqs ∧ r'.vars = r.vars ∧
    ∀ x, ¬ isBackup r x → r'.models x = r.models x

/-- The circuit has the same solution. -/
def SameCircuit : Option Circuit → Option Circuit → Prop
  | none, none => True
  | some c, some c' => c'.size = c.size ∧ c'.base = c.base ∧ c'.dcop = some (c.dcop.getD fun _ => 0)
  | _, _ => False

/-- The same devices, regions, solutions, circuit solution and transient history. -/
structure SameWorld (w w' : World) : Prop where
  devices : List.Forall₂ (List.Forall₂ SameRegion) w.devices w'.devices
  circuit : SameCircuit w.circuit w'.circuit
  hist : w'.hist = w.hist

/-- The names are usable: every variable is a solution, every equation's variable is in the variable table (what C18
says), no variable has the name of the backup of another, and no other node model has the name of a backup. -/
structure GoodRegion (r : Region) : Prop where
  solution : ∀ v ∈ r.vars, ∃ x, r.models v = some (.solution x)
  listed : ∀ e ∈ r.eqs, e.var ∈ r.vars
  apart : ∀ v ∈ r.vars, v ++ "_prev" ∉ r.vars
  free : ∀ v ∈ r.vars, ∀ f, r.models (v ++ "_prev") ≠ some (.derived f)

def GoodWorld (w : World) : Prop := ∀ d ∈ w.devices, ∀ r ∈ d, GoodRegion r

/-! ### Invariant -/

theorem prev_inj {a b : String} (h : a ++ "_prev" = b ++ "_prev") : a = b := by
  simpa using h

/-- During the iteration: the variables are solutions, the backups hold their initial values, everything else is
untouched. -/
structure Held (r r' : Region) : Prop where
  numNodes : r'.numNodes = r.numNodes
  base : r'.base = r.base
  eqs : r'.eqs = r.eqs
  vars : r'.vars = r.vars
  solution : ∀ v ∈ r.vars, ∃ x, r'.models v = some (.solution x)
  saved : ∀ v ∈ r.vars, r'.models (v ++ "_prev") = r.models v
  others : ∀ x, x ∉ r.vars → ¬ isBackup r x → r'.models x = r.models x

theorem set_same (ms : Models) (x : String) (v : Nat → ℝ) : ms.set x v x = some (.solution v) := by
  simp [Models.set]

theorem set_other (ms : Models) {x y : String} (v : Nat → ℝ) (h : y ≠ x) : ms.set x v y = ms y := by
  simp [Models.set, h]

theorem backup_loop (vars : List String) (hap : ∀ v ∈ vars, v ++ "_prev" ∉ vars) :
    ∀ (vs : List String) (ms : Models), (∀ v ∈ vs, v ∈ vars) → (∀ v ∈ vars, ∃ x, ms v = some (.solution x)) →
      (∀ v ∈ vars, ∀ f, ms (v ++ "_prev") ≠ some (.derived f)) →
      ∃ ms', loopVars backupVar vs ms = (ms', true) ∧ (∀ v ∈ vs, ms' (v ++ "_prev") = ms v) ∧
        (∀ x, (∀ v ∈ vs, x ≠ v ++ "_prev") → ms' x = ms x) := by
  intro vs
  induction vs with
  | nil => intro ms _ _ _; exact ⟨ms, rfl, by simp, by simp⟩
  | cons v vs ih =>
    intro ms hvs hsol hfree
    obtain ⟨x, hx⟩ := hsol v (hvs v (by simp))
    have hb : backupVar ms v = some (ms.set (v ++ "_prev") x) := by
      unfold backupVar
      rw [hx]
      dsimp only
      cases hp : ms (v ++ "_prev") with
      | none => rfl
      | some m =>
        cases m with
        | solution y => rfl
        | derived f => exact absurd hp (hfree v (hvs v (by simp)) f)
    have hne : ∀ u ∈ vars, u ≠ v ++ "_prev" := by
      rintro u hu rfl
      exact hap v (hvs v (by simp)) hu
    obtain ⟨ms', h1, h2, h3⟩ := ih (ms.set (v ++ "_prev") x) (fun u hu => hvs u (by simp [hu]))
      (fun u hu => by rw [set_other _ _ (hne u hu)]; exact hsol u hu)
      (fun u hu f => by
        by_cases huv : u = v
        · subst huv; rw [set_same]; simp
        · rw [set_other _ _ fun h => huv (prev_inj h)]; exact hfree u hu f)
    refine ⟨ms', by rw [loopVars, hb]; exact h1, ?_, ?_⟩
    · intro u hu
      rcases List.mem_cons.1 hu with rfl | hu
      · by_cases hm : u ∈ vs
        · rw [h2 u hm, set_other _ _ (hne u (hvs u (by simp)))]
        · rw [h3 (u ++ "_prev"), set_same, hx]
          intro a ha h
          exact hm (prev_inj h ▸ ha)
      · rw [h2 u hu, set_other _ _ (hne u (hvs u (by simp [hu])))]
    · intro y hy
      rw [h3 y fun a ha => hy a (by simp [ha]), set_other _ _ (hy v (by simp))]

theorem backup_region {r : Region} (hg : GoodRegion r) :
    ∃ ms', loopVars backupVar r.vars r.models = (ms', true) ∧ Held r { r with models := ms' } := by
  obtain ⟨ms', h1, h2, h3⟩ := backup_loop r.vars hg.apart r.vars r.models (fun _ h => h) hg.solution hg.free
  refine ⟨ms', h1, ⟨rfl, rfl, rfl, rfl, ?_, h2, ?_⟩⟩
  · intro v hv
    obtain ⟨x, hx⟩ := hg.solution v hv
    refine ⟨x, ?_⟩
    show ms' v = _
    rw [h3 v, hx]
    rintro u hu rfl
    exact hg.apart u hu hv
  · intro x _ hb
    exact h3 x fun v hv h => hb ⟨v, hv, h⟩

theorem backup_regions {d : List Region} (hg : ∀ r ∈ d, GoodRegion r) :
    ∃ d', loopRegions backupVar d = (d', true) ∧ List.Forall₂ Held d d' := by
  induction d with
  | nil => exact ⟨[], rfl, .nil⟩
  | cons r rs ih =>
    obtain ⟨ms', h1, h2⟩ := backup_region (hg r (by simp))
    obtain ⟨d', h3, h4⟩ := ih fun x hx => hg x (by simp [hx])
    exact ⟨{ r with models := ms' } :: d', by simp [loopRegions, h1, h3], .cons h2 h4⟩

theorem backup_devices {ds : List (List Region)} (hg : ∀ d ∈ ds, ∀ r ∈ d, GoodRegion r) :
    ∃ ds', loopDevices backupVar ds = (ds', true) ∧ List.Forall₂ (List.Forall₂ Held) ds ds' := by
  induction ds with
  | nil => exact ⟨[], rfl, .nil⟩
  | cons d ds ih =>
    obtain ⟨d', h1, h2⟩ := backup_regions (hg d (by simp))
    obtain ⟨ds', h3, h4⟩ := ih fun x hx => hg x (by simp [hx])
    exact ⟨d' :: ds', by simp [loopDevices, h1, h3], .cons h2 h4⟩

/-- The invariant on the circuit. -/
def HeldCircuit : Option Circuit → Option Circuit → Prop
  | none, none => True
  | some c, some c' => c'.size = c.size ∧ c'.base = c.base ∧ c'.prev = some (c.dcop.getD fun _ => 0) ∧ ∃ x, c'.dcop = some x
  | _, _ => False

structure HeldWorld (w w' : World) : Prop where
  devices : List.Forall₂ (List.Forall₂ Held) w.devices w'.devices
  circuit : HeldCircuit w.circuit w'.circuit
  hist : w'.hist = w.hist

theorem backup_world {w : World} (hg : GoodWorld w) :
    ∃ w1, backup { w with circuit := w.circuit.map Circuit.init } = (w1, true) ∧ HeldWorld w w1 := by
  obtain ⟨ds', h1, h2⟩ := backup_devices hg
  refine ⟨{ w with devices := ds', circuit := (w.circuit.map Circuit.init).map Circuit.backup }, ?_, h2, ?_, rfl⟩
  · simp [backup, h1]
  · cases hc : w.circuit with
    | none => simp [HeldCircuit]
    | some c => simp [HeldCircuit, Circuit.init, Circuit.backup]

/-! ### The iteration keeps it -/

theorem updEqs_held (r : Region) (hg : GoodRegion r) (n base : Nat) (x : Nat → ℝ) :
    ∀ (es : List Eqn) (ms : Models) (acc : ℝ × ℝ), (∀ e ∈ es, e ∈ r.eqs) → Held r { r with models := ms } →
      Held r { r with models := (updEqs n base x es ms acc).1 } := by
  intro es
  induction es with
  | nil => intro ms acc _ h; exact h
  | cons e es ih =>
    intro ms acc hes h
    rw [updEqs]
    have hv := hg.listed e (hes e (by simp))
    obtain ⟨old, ho⟩ := h.solution e.var hv
    have ho' : ms e.var = some (.solution old) := ho
    rw [ho']
    dsimp only
    cases hu : e.update n base old x with
    | none => exact h
    | some t =>
      obtain ⟨new, a, rr⟩ := t
      dsimp only
      refine ih _ _ (fun e' he' => hes e' (by simp [he'])) ⟨rfl, rfl, rfl, rfl, ?_, ?_, ?_⟩
      · intro v hvv
        by_cases hve : v = e.var
        · exact ⟨new, by rw [hve]; exact set_same _ _ _⟩
        · obtain ⟨y, hy⟩ := h.solution v hvv
          exact ⟨y, (set_other _ _ hve).trans hy⟩
      · intro v hvv
        refine Eq.trans (set_other _ _ ?_) (h.saved v hvv)
        intro hh
        exact hg.apart v hvv (hh ▸ hv)
      · intro y hy hb
        refine Eq.trans (set_other _ _ ?_) (h.others y hy hb)
        rintro rfl
        exact hy hv

theorem updDevice_held {d d' : List Region} (hg : ∀ r ∈ d, GoodRegion r) (x : Nat → ℝ) (acc : ℝ × ℝ)
    (h : List.Forall₂ Held d d') : List.Forall₂ Held d (updDevice x d' acc).1 := by
  induction h generalizing acc with
  | nil => exact .nil
  | @cons r r' rs rs' hr _ ih =>
    have hr' : Held r { r with models := r'.models } := ⟨rfl, rfl, rfl, rfl, hr.solution, hr.saved, hr.others⟩
    have key := updEqs_held r (hg r (by simp)) r'.numNodes r'.base x r'.eqs r'.models (0, 0)
      (fun e he => hr.eqs ▸ he) hr'
    have key' : Held r { r' with models := (updEqs r'.numNodes r'.base x r'.eqs r'.models (0, 0)).1 } :=
      ⟨hr.numNodes, hr.base, hr.eqs, hr.vars, key.solution, key.saved, key.others⟩
    rw [updDevice]
    split
    · rename_i ms hm
      rw [hm] at key'
      exact .cons key' (by assumption)
    · rename_i ms a e hm
      rw [hm] at key'
      exact .cons key' (ih (fun r hr => hg r (by simp [hr])) _)

theorem updDevices_held {ds ds' : List (List Region)} (hg : ∀ d ∈ ds, ∀ r ∈ d, GoodRegion r) (x : Nat → ℝ)
    (h : List.Forall₂ (List.Forall₂ Held) ds ds') : List.Forall₂ (List.Forall₂ Held) ds (updDevices x ds').1 := by
  induction h with
  | nil => exact .nil
  | @cons d d' rs rs' hr _ ih =>
    have key := updDevice_held (hg d (by simp)) x (0, 0) hr
    rw [updDevices]
    split
    · rename_i ms hm
      rw [hm] at key
      exact .cons key (by assumption)
    · rename_i ms e hm
      rw [hm] at key
      exact .cons key (ih fun r hr => hg r (by simp [hr]))

theorem updWorld_held {w w' : World} (hg : GoodWorld w) (h : HeldWorld w w') (x : Nat → ℝ) :
    HeldWorld w (updWorld x w').1 := by
  have hd := updDevices_held hg x h.devices
  unfold updWorld
  split
  · rename_i ds hds
    rw [hds] at hd
    exact ⟨hd, h.circuit, h.hist⟩
  · rename_i ds es hds
    rw [hds] at hd
    have hc := h.circuit
    cases hw : w'.circuit with
    | none => rw [hw] at hc; exact ⟨hd, hc, h.hist⟩
    | some c =>
      dsimp only
      cases hdc : c.dcop with
      | none => exact ⟨hd, by simpa [hw] using hc, h.hist⟩
      | some old =>
        refine ⟨hd, ?_, h.hist⟩
        rw [hw] at hc
        cases hw0 : w.circuit with
        | none => rw [hw0] at hc; exact hc.elim
        | some c0 =>
          rw [hw0] at hc
          exact ⟨hc.1, hc.2.1, hc.2.2.1, _, rfl⟩

theorem judge_w (lim : Limits) (s : St) (info : IterInfo) : (judge lim s info).w = s.w := by
  have h : ∀ (es : List (ℝ × ℝ)) (s : St), (es.foldl (judgeDevice lim) s).w = s.w := by
    intro es
    induction es with
    | nil => intro s; rfl
    | cons e es ih => intro s; rw [List.foldl_cons, ih]; rfl
  unfold judge
  cases info.circuit with
  | none => exact h _ _
  | some e => exact h _ _

theorem iterate_held {w : World} (hg : GoodWorld w) (P : Problem) (lim : Limits) (rhsc : List ℝ) :
    ∀ (fuel iter : Nat) (s : St), HeldWorld w s.w → HeldWorld w (iterate P lim rhsc fuel iter s).1.w := by
  intro fuel
  induction fuel with
  | zero => intro iter s h; exact h
  | succ fuel ih =>
    intro iter s h
    rw [iterate]
    split
    · exact h
    split
    · exact h
    split
    · exact h
    · exact h
    · rename_i x _
      have key := updWorld_held hg h x
      split
      · rename_i w' hw; rw [hw] at key; exact key
      · rename_i w' info hw
        rw [hw] at key
        exact ih _ _ (by rw [judge_w]; exact key)

/-! ### Restoring -/

theorem restore_loop (vars : List String) (hap : ∀ v ∈ vars, v ++ "_prev" ∉ vars) (saved : String → Nat → ℝ) :
    ∀ (vs : List String) (ms : Models), (∀ v ∈ vs, v ∈ vars) → (∀ v ∈ vars, ∃ x, ms v = some (.solution x)) →
      (∀ v ∈ vars, ms (v ++ "_prev") = some (.solution (saved v))) →
      ∃ ms', loopVars restoreVar vs ms = (ms', true) ∧ (∀ v ∈ vs, ms' v = some (.solution (saved v))) ∧
        (∀ x, x ∉ vs → ms' x = ms x) := by
  intro vs
  induction vs with
  | nil => intro ms _ _ _; exact ⟨ms, rfl, by simp, by simp⟩
  | cons v vs ih =>
    intro ms hvs hsol hsav
    obtain ⟨x, hx⟩ := hsol v (hvs v (by simp))
    have hb : restoreVar ms v = some (ms.set v (saved v)) := by
      unfold restoreVar
      rw [hx, hsav v (hvs v (by simp))]
      rfl
    obtain ⟨ms', h1, h2, h3⟩ := ih (ms.set v (saved v)) (fun u hu => hvs u (by simp [hu]))
      (fun u hu => by
        by_cases huv : u = v
        · exact ⟨saved v, by rw [huv, set_same]⟩
        · rw [set_other _ _ huv]; exact hsol u hu)
      (fun u hu => by
        rw [set_other]
        · exact hsav u hu
        · rintro h
          exact hap u hu (h ▸ hvs v (by simp)))
    refine ⟨ms', by rw [loopVars, hb]; exact h1, ?_, ?_⟩
    · intro u hu
      by_cases hm : u ∈ vs
      · exact h2 u hm
      · rcases List.mem_cons.1 hu with rfl | hu
        · rw [h3 u hm, set_same]
        · exact absurd hu hm
    · intro y hy
      rw [List.mem_cons, not_or] at hy
      rw [h3 y hy.2, set_other _ _ hy.1]

theorem restore_region {r r' : Region} (hg : GoodRegion r) (h : Held r r') :
    ∃ ms', loopVars restoreVar r'.vars r'.models = (ms', true) ∧ SameRegion r { r' with models := ms' } := by
  have hs : ∀ v ∈ r.vars, r'.models (v ++ "_prev") = some (.solution (solutions r.models v)) := by
    intro v hv
    obtain ⟨x, hx⟩ := hg.solution v hv
    rw [h.saved v hv, solutions, hx]
  obtain ⟨ms', h1, h2, h3⟩ := restore_loop r.vars hg.apart (solutions r.models) r.vars r'.models (fun _ h => h)
    h.solution hs
  refine ⟨ms', by rw [h.vars]; exact h1, h.numNodes, h.base, h.eqs, h.vars, ?_⟩
  intro x hx
  show ms' x = _
  by_cases hv : x ∈ r.vars
  · obtain ⟨y, hy⟩ := hg.solution x hv
    rw [h2 x hv, solutions, hy]
  · rw [h3 x hv, h.others x hv hx]

theorem restore_regions {d d' : List Region} (hg : ∀ r ∈ d, GoodRegion r) (h : List.Forall₂ Held d d') :
    ∃ e, loopRegions restoreVar d' = (e, true) ∧ List.Forall₂ SameRegion d e := by
  induction h with
  | nil => exact ⟨[], rfl, .nil⟩
  | @cons r r' rs rs' hr _ ih =>
    obtain ⟨ms', h1, h2⟩ := restore_region (hg r (by simp)) hr
    obtain ⟨e, h3, h4⟩ := ih fun x hx => hg x (by simp [hx])
    exact ⟨{ r' with models := ms' } :: e, by simp [loopRegions, h1, h3], .cons h2 h4⟩

theorem restore_devices {ds ds' : List (List Region)} (hg : ∀ d ∈ ds, ∀ r ∈ d, GoodRegion r)
    (h : List.Forall₂ (List.Forall₂ Held) ds ds') :
    ∃ es, loopDevices restoreVar ds' = (es, true) ∧ List.Forall₂ (List.Forall₂ SameRegion) ds es := by
  induction h with
  | nil => exact ⟨[], rfl, .nil⟩
  | @cons d d' rs rs' hr _ ih =>
    obtain ⟨e, h1, h2⟩ := restore_regions (hg d (by simp)) hr
    obtain ⟨es, h3, h4⟩ := ih fun x hx => hg x (by simp [hx])
    exact ⟨e :: es, by simp [loopDevices, h1, h3], .cons h2 h4⟩

theorem restore_world {w w' : World} (hg : GoodWorld w) (h : HeldWorld w w') :
    ∃ w2, restore w' = (w2, true) ∧ SameWorld w w2 := by
  obtain ⟨es, h1, h2⟩ := restore_devices hg h.devices
  refine ⟨{ w' with devices := es, circuit := w'.circuit.map Circuit.restore }, by simp [restore, h1], h2, ?_, h.hist⟩
  have hc := h.circuit
  show SameCircuit w.circuit (w'.circuit.map Circuit.restore)
  cases h0 : w.circuit <;> cases h3 : w'.circuit <;> rw [h0, h3] at hc
  · trivial
  · exact hc.elim
  · exact hc.elim
  · exact ⟨hc.1, hc.2.1, hc.2.2.1⟩

theorem finishFailed_same {w w' w2 : World} {log log' : List IterInfo} {c : Bool} (hg : GoodWorld w) (h : HeldWorld w w')
    (hf : finishFailed w' log = (w2, .returned c log')) : SameWorld w w2 := by
  obtain ⟨w3, h1, h2⟩ := restore_world hg h
  simp only [finishFailed, h1, Prod.mk.injEq] at hf
  exact hf.1 ▸ h2

theorem finishConverged_true {P : Problem} {t : TimeParams} {w w2 : World} {q : List ℝ} {log log' : List IterInfo}
    {c : Bool} (hf : finishConverged P t w q log = (w2, .returned c log')) : c = true := by
  unfold finishConverged at hf
  split at hf
  · simp at hf
  split at hf
  · split at hf <;> simp_all
  · simp_all

/-- **C27 (partial)**: whatever happens during the iteration, if `solve` returns and reports that it did not converge,
then every node model of every region (other than the backups the solver keeps under `<variable>_prev`), the circuit
solution and the transient history are what they were before the call.  Missing from the full claim: an error raised
during the call (`error_counterexample`), and names that clash with the backups (`prev_variable_counterexample`,
`prev_model_counterexample`) or a variable missing from the table (`unlisted_counterexample`). -/
theorem failed_solve_restores_partial (P : Problem) (lim : Limits) (t : TimeParams) (w w' : World) (log : List IterInfo)
    (hg : GoodWorld w) (h : solve P lim t w = (w', .returned false log)) : SameWorld w w' := by
  obtain ⟨w1, h1, h2⟩ := backup_world hg
  rw [solve, h1] at h
  dsimp only at h
  split at h
  · simp at h
  rename_i rhsc hr
  have hi := iterate_held hg P lim rhsc lim.maxIter 0 (St.start w1) h2
  split at h
  · simp at h
  rename_i s hs
  rw [hs] at hi
  have hi' : HeldWorld w s.w := hi
  unfold finish at h
  split at h
  · split at h
    · simp at h
    split at h
    · split at h
      · simp at h
      · split at h
        · have := finishConverged_true h; simp at this
        · exact finishFailed_same hg hi' h
    · split at h
      · have := finishConverged_true h; simp at this
      · exact finishFailed_same hg hi' h
  · split at h
    · have := finishConverged_true h; simp at this
    · exact finishFailed_same hg hi' h

end Verif.Newton
