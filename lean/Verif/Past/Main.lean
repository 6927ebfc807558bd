import Verif.Past.Model
/-!
# C98: the time points a transient step starts from
-/
namespace Verif.Past
open Newton Classical

/-! ### Specification -/

/-- What `set_initial_condition` is given is two lists of numbers, not empty and equally long. -/
def Given (a b : Arg) (i q : List ℝ) : Prop :=
  a = .entries (i.map some) ∧ b = .entries (q.map some) ∧ i ≠ [] ∧ q ≠ [] ∧ i.length = q.length

/-- One step of the account: for each precision the time points, newest first.  `ext` is whether the extended
precision is in use.  A solve accepted is a new time point of the precision in use, an accepted `transient_dc` is the
only one; an initial condition accepted is a new time point; `reset_devsim` forgets all. -/
inductive Account (quad : Bool) : Sim → (Bool → List (List ℝ × List ℝ)) → Do → (Bool → List (List ℝ × List ℝ)) → Prop
  | dc {s past c m} : m = (quad && s.flag) → Accepted c { s.world with hist := s.hists m } → c.t.method = .dc →
      Account quad s past (.solve c) fun x => if x = m then [solved c { s.world with hist := s.hists m }] else past x
  | tran {s past c m} : m = (quad && s.flag) → Accepted c { s.world with hist := s.hists m } → c.t.method ≠ .dc →
      Account quad s past (.solve c) fun x =>
        if x = m then solved c { s.world with hist := s.hists m } :: past m else past x
  | failed {s past c m} : m = (quad && s.flag) → ¬ Accepted c { s.world with hist := s.hists m } →
      Account quad s past (.solve c) past
  | given {s past a b i q m} : m = (quad && s.flag) → Given a b i q →
      Account quad s past (.initial a b) fun x => if x = m then (i, q) :: past m else past x
  | refused {s past a b} : (¬ ∃ i q, Given a b i q) → Account quad s past (.initial a b) past
  | extended {s past b} : Account quad s past (.extended b) past
  | reset {s past w} : Account quad s past (.reset w) fun _ => []

/-- The account of a session. -/
inductive Story (quad : Bool) : Sim → (Bool → List (List ℝ × List ℝ)) → List Do → (Bool → List (List ℝ × List ℝ)) → Prop
  | nil {s past} : Story quad s past [] past
  | cons {s past d p l p'} : Account quad s past d p → Story quad (step quad s d) p l p' →
      Story quad s past (d :: l) p'

/-! ### set_initial_condition -/

theorem getDoubles_map (i : List ℝ) : getDoubles (i.map some) = i := by
  simp [getDoubles]

theorem getDoubles_ne {l : List (Option ℝ)} (h : getDoubles l ≠ []) : l = (getDoubles l).map some := by
  unfold getDoubles at h ⊢
  split
  · rename_i hall
    clear h
    induction l with
    | nil => rfl
    | cons a l ih =>
      simp only [List.all_cons, Bool.and_eq_true] at hall
      obtain ⟨x, rfl⟩ := Option.isSome_iff_exists.1 hall.1
      simp only [List.filterMap_cons, id, List.map_cons, List.cons.injEq, true_and]
      exact ih hall.2
  · rename_i hall
    exact absurd (by rw [if_neg hall]) h

theorem lists_iff (a b : Arg) (i q : List ℝ) : lists a b = some (i, q) ↔ Given a b i q := by
  constructor
  · intro h
    cases a <;> cases b <;> simp only [lists, reduceCtorEq] at h
    rename_i a b
    split at h
    · simp at h
    · rename_i hc
      push Not at hc
      obtain ⟨⟨h1, h2⟩, h3⟩ := hc
      simp only [Option.some.injEq, Prod.mk.injEq] at h
      obtain ⟨rfl, rfl⟩ := h
      exact ⟨by rw [← getDoubles_ne h1], by rw [← getDoubles_ne h2], h1, h2, h3⟩
  · rintro ⟨rfl, rfl, h1, h2, h3⟩
    simp only [lists, getDoubles_map]
    rw [if_neg (by push Not; exact ⟨⟨h1, h2⟩, h3⟩)]

/-- It is done exactly for two lists of numbers, not empty and equally long; else nothing is changed. -/
theorem initial_answer (quad : Bool) (s : Sim) (a b : Arg) :
    ((s.initial quad a b).2 = true ↔ ∃ i q, Given a b i q) ∧
    ((s.initial quad a b).2 = false → (s.initial quad a b).1 = s) := by
  unfold Sim.initial
  cases h : lists a b with
  | none =>
    refine ⟨⟨by simp, ?_⟩, fun _ => rfl⟩
    rintro ⟨i, q, g⟩
    rw [(lists_iff a b i q).2 g] at h
    simp at h
  | some p =>
    obtain ⟨i, q⟩ := p
    exact ⟨⟨fun _ => ⟨i, q, (lists_iff a b i q).1 h⟩, fun _ => rfl⟩, by simp⟩

theorem push_shows {h : History} {past : List (List ℝ × List ℝ)} (hs : Shows h past) (i q : List ℝ) :
    Shows (push h i q) ((i, q) :: past) := by
  obtain ⟨s1, s2, s3, s4, s5, s6⟩ := hs
  simp_all [Shows, push]

/-! ### The account -/

/-- Systems have at least one row. -/
def Rows (d : Do) : Prop :=
  match d with
  | .solve c => ∀ w v, c.P.current w = some v ∨ c.P.charge w = some v → v ≠ []
  | _ => True

def Full (past : Bool → List (List ℝ × List ℝ)) : Prop := ∀ m, ∀ p ∈ past m, p.1 ≠ [] ∧ p.2 ≠ []

theorem step_account (quad : Bool) (s : Sim) (past : Bool → List (List ℝ × List ℝ)) (d : Do) (hr : Rows d)
    (hf : Full past) (hs : ∀ m, Shows (s.hists m) (past m)) :
    ∃ p, Account quad s past d p ∧ Full p ∧ ∀ m, Shows ((step quad s d).hists m) (p m) := by
  cases d with
  | extended b => exact ⟨past, .extended, hf, hs⟩
  | reset w => exact ⟨_, .reset, by intro m p hp; simp at hp, fun m => by simp [step, noHistory, Shows]⟩
  | initial a b =>
    cases h : lists a b with
    | none =>
      refine ⟨past, .refused ?_, hf, ?_⟩
      · rintro ⟨i, q, g⟩
        rw [(lists_iff a b i q).2 g] at h
        simp at h
      · simpa only [step, Sim.initial, h] using hs
    | some p =>
      obtain ⟨i, q⟩ := p
      have g := (lists_iff a b i q).1 h
      refine ⟨_, .given rfl g, ?_, ?_⟩
      · intro m p hp
        by_cases hm : m = (quad && s.flag)
        · simp only [hm, if_true, List.mem_cons] at hp
          rcases hp with rfl | hp
          · exact ⟨g.2.2.1, g.2.2.2.1⟩
          · exact hf _ p hp
        · simp only [hm, if_false] at hp
          exact hf m p hp
      · intro m
        simp only [step, Sim.initial, h, Sim.mode]
        by_cases hm : m = (quad && s.flag)
        · simp only [hm, if_true]
          exact push_shows (hs _) i q
        · simp only [hm, if_false]
          exact hs m
  | solve c =>
    simp only [Rows] at hr
    rcases call_hist c { s.world with hist := s.hists (quad && s.flag) } with ⟨ha, ⟨I, q, hI, hq⟩, hh⟩ | ⟨hn, hh⟩
    · have hsne : (solved c { s.world with hist := s.hists (quad && s.flag) }).1 ≠ [] ∧
          (solved c { s.world with hist := s.hists (quad && s.flag) }).2 ≠ [] := by
        unfold solved
        rw [hI, hq]
        exact ⟨hr _ _ (.inl hI), hr _ _ (.inr hq)⟩
      by_cases hm : c.t.method = .dc
      · refine ⟨_, .dc rfl ha hm, ?_, ?_⟩
        · intro m p hp
          by_cases e : m = (quad && s.flag)
          · simp only [e, if_true, List.mem_singleton] at hp
            rw [hp]; exact hsne
          · simp only [e, if_false] at hp
            exact hf m p hp
        · intro m
          simp only [step, Sim.solve, Sim.mode]
          by_cases e : m = (quad && s.flag)
          · simp only [e, if_true]
            rw [hh]
            simp [updateHistory, TimeParams.isDCMethod, hm, Shows]
          · simp only [e, if_false]
            exact hs m
      · have hd : c.t.isDCMethod = false := by
          have h1 := ha.1
          simp only [TimeParams.isTransient, ne_eq, decide_eq_true_eq] at h1
          simp [TimeParams.isDCMethod, hm, h1]
        refine ⟨_, .tran rfl ha hm, ?_, ?_⟩
        · intro m p hp
          by_cases e : m = (quad && s.flag)
          · simp only [e, if_true, List.mem_cons] at hp
            rcases hp with rfl | hp
            · exact hsne
            · exact hf _ p hp
          · simp only [e, if_false] at hp
            exact hf m p hp
        · intro m
          simp only [step, Sim.solve, Sim.mode]
          by_cases e : m = (quad && s.flag)
          · simp only [e, if_true]
            rw [hh]
            exact updateHistory_shows (hs _) (hf _) c.t hd _ _
          · simp only [e, if_false]
            exact hs m
    · refine ⟨past, .failed rfl hn, hf, ?_⟩
      intro m
      simp only [step, Sim.solve, Sim.mode]
      by_cases e : m = (quad && s.flag)
      · simp only [e, if_true]
        rw [hh]
        exact hs _
      · simp only [e, if_false]
        exact hs m

theorem story_from (quad : Bool) (l : List Do) : ∀ (s : Sim) (past : Bool → List (List ℝ × List ℝ)),
    (∀ d ∈ l, Rows d) → Full past → (∀ m, Shows (s.hists m) (past m)) →
    ∃ p, Story quad s past l p ∧ ∀ m, Shows ((runs quad s l).hists m) (p m) := by
  induction l with
  | nil => intro s past _ _ hs; exact ⟨past, .nil, hs⟩
  | cons d l ih =>
    intro s past hr hf hs
    obtain ⟨p, a, f, h⟩ := step_account quad s past d (hr d (by simp)) hf hs
    obtain ⟨p', st, h'⟩ := ih (step quad s d) p (fun d hd => hr d (by simp [hd])) f h
    exact ⟨p', .cons a st, h'⟩

/-- **C98** At any time of any session the history of each precision is the (up to three) newest time points of its
account. -/
theorem history_story (quad : Bool) (w : World) (b : Bool) (l : List Do) (hr : ∀ d ∈ l, Rows d) :
    ∃ p, Story quad ⟨w, b, fun _ => noHistory⟩ (fun _ => []) l p ∧
      ∀ m, Shows ((runs quad ⟨w, b, fun _ => noHistory⟩ l).hists m) (p m) :=
  story_from quad l _ _ hr (by intro m p hp; simp at hp) fun _ => by simp [noHistory, Shows]

theorem given_unique {a b : Arg} {i q i' q' : List ℝ} (h : Given a b i q) (h' : Given a b i' q') :
    i = i' ∧ q = q' := by
  have x := (lists_iff a b i q).2 h
  have y := (lists_iff a b i' q').2 h'
  rw [x] at y
  simpa using y

/-- There is only one account. -/
theorem account_unique (quad : Bool) {s : Sim} {past p p' : Bool → List (List ℝ × List ℝ)} {d : Do}
    (h : Account quad s past d p) (h' : Account quad s past d p') : p = p' := by
  cases h with
  | dc m a d => cases h' with
    | dc m' => subst m; subst m'; rfl
    | tran m' a' d' => exact absurd d d'
    | failed m' a' => subst m; subst m'; exact absurd a a'
  | tran m a d => cases h' with
    | dc m' a' d' => exact absurd d' d
    | tran m' => subst m; subst m'; rfl
    | failed m' a' => subst m; subst m'; exact absurd a a'
  | failed m a => cases h' with
    | dc m' a' => subst m; subst m'; exact absurd a' a
    | tran m' a' => subst m; subst m'; exact absurd a' a
    | failed => rfl
  | given m g => cases h' with
    | given m' g' =>
      obtain ⟨rfl, rfl⟩ := given_unique g g'
      subst m; subst m'; rfl
    | refused n => exact absurd ⟨_, _, g⟩ n
  | refused n => cases h' with
    | given m' g' => exact absurd ⟨_, _, g'⟩ n
    | refused => rfl
  | extended => cases h'; rfl
  | reset => cases h'; rfl

/-! ### What the next step makes of it -/

/-- Right after an initial condition the constant part of a time step is made of the numbers given, and of the time
point before. -/
theorem initial_used (quad : Bool) (s : Sim) {a b : Arg} {i q : List ℝ} (g : Given a b i q) {t : TimeParams}
    (ht : t.isDCMethod = false) {n : Nat} {v : List ℝ}
    (hv : rhsConstant ((step quad s (.initial a b)).hists (quad && s.flag)) t n = some v) :
    v.length = n ∧ ∀ r < n, v.getD r 0 =
      t.a1 * q.getD r 0 + t.a2 * (s.hists (quad && s.flag)).q0.getD r 0 +
      t.b1 * i.getD r 0 + t.b2 * (s.hists (quad && s.flag)).i0.getD r 0 := by
  have h := (lists_iff a b i q).2 g
  simp only [step, Sim.initial, h, Sim.mode, if_true] at hv
  exact rhsConstant_get ht hv

theorem assembleIf_zero (data v : List ℝ) : assembleIf data 0 v = some v := by simp [assembleIf]

/-- A first order step (`bdf1` or the first step of the others: no time point before the last is used) right after an
initial condition fails exactly if the lists do not have one number for each row of the system. -/
theorem initial_size (quad : Bool) (s : Sim) {a b : Arg} {i q : List ℝ} (g : Given a b i q) {t : TimeParams}
    (ht : t.isDCMethod = false) (h1 : t.a1 ≠ 0) (h2 : t.a2 = 0) (h3 : t.b2 = 0) (n : Nat) :
    rhsConstant ((step quad s (.initial a b)).hists (quad && s.flag)) t n = none ↔ q.length ≠ n := by
  have h := (lists_iff a b i q).2 g
  simp only [step, Sim.initial, h, Sim.mode, if_true]
  simp only [push, rhsConstant, ht, h2, h3, assembleIf_zero, Bool.false_eq_true, if_false]
  have hq := g.2.2.2.1
  have hi := g.2.2.1
  have hl := g.2.2.2.2
  by_cases e : q.length = n
  · have e' : i.length = n := hl.trans e
    by_cases hb : t.b1 = 0
    · simp [assembleIf, h1, assembleAt, hq, e, hb]
    · simp [assembleIf, h1, assembleAt, hq, hi, e, e', hb]
  · simp [assembleIf, h1, assembleAt, e]

/-- A solve that cannot make its constant part is an error. -/
theorem no_constant (c : Call) (w : World)
    (h : rhsConstant w.hist c.t c.P.numEqns = none) : (c.run w).2 = .raised := by
  obtain ⟨w0, hw0, hrun⟩ : ∃ w0 : World, w0.hist = w.hist ∧ c.run w = Newton.solve c.P c.lim c.t w0 :=
    ⟨c.before w, rfl, rfl⟩
  rw [hrun]
  unfold Newton.solve
  dsimp only
  cases hb : backup { w0 with circuit := w0.circuit.map Circuit.init } with
  | mk w1 b =>
    have hh : w1.hist = w.hist := by
      have := backup_hist { w0 with circuit := w0.circuit.map Circuit.init }
      rw [hb] at this; exact this.trans hw0
    cases b with
    | false => rfl
    | true =>
      dsimp only
      rw [hh, h]

end Verif.Past
