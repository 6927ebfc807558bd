import Verif.Multi.Model
import Mathlib.Data.List.Count

/-! What `SignalCallbacks` does to the flags. -/

namespace Verif.Multi

variable {N V : Type} [DecidableEq N]

/-- `s'` is `s` with some models marked out of date. -/
structure Frame (s s' : St N V) : Prop where
  tab : s'.tab = s.tab
  deps : s'.deps = s.deps
  next : s'.next = s.next
  heap : ∀ i, s'.heap i = { s.heap i with utd := (s'.heap i).utd } ∧ ((s'.heap i).utd = true → (s.heap i).utd = true)

/-- The objects in the table know their names. -/
def Named (s : St N V) : Prop := ∀ n i, s.tab n = some i → (s.heap i).name = n

theorem Frame.refl (s : St N V) : Frame s s := ⟨rfl, rfl, rfl, fun _ => ⟨rfl, id⟩⟩

theorem Frame.trans {s s' s'' : St N V} (h : Frame s s') (h' : Frame s' s'') : Frame s s'' where
  tab := h'.tab.trans h.tab
  deps := h'.deps.trans h.deps
  next := h'.next.trans h.next
  heap i := ⟨by rw [(h'.heap i).1, (h.heap i).1], fun hu => (h.heap i).2 ((h'.heap i).2 hu)⟩

theorem Frame.named {s s' : St N V} (h : Frame s s') (hn : Named s) : Named s' := by
  intro n i hi
  rw [h.tab] at hi
  rw [(h.heap i).1]
  exact hn n i hi

theorem Frame.dependents {s s' : St N V} (h : Frame s s') (x : N) : dependents s' x = dependents s x := by
  unfold Multi.dependents; rw [h.deps]

theorem Frame.utdName {s s' : St N V} (h : Frame s s') {n : N} (hu : utdName s' n = true) : utdName s n = true := by
  unfold Multi.utdName at hu ⊢
  rw [h.tab] at hu
  cases hs : s.tab n with
  | none => simp [hs] at hu
  | some i => simp only [hs] at hu ⊢; exact (h.heap i).2 hu

theorem Frame.utdName_false {s s' : St N V} (h : Frame s s') {n : N} (hu : Multi.utdName s n = false) :
    Multi.utdName s' n = false := by
  cases hh : Multi.utdName s' n with
  | false => rfl
  | true => rw [h.utdName hh] at hu; exact hu

theorem mem_dependents {s : St N V} {x n : N} : n ∈ dependents s x ↔ (n, x) ∈ s.deps := by
  simp [dependents]

theorem clearUtd_frame (s : St N V) (n : N) : Frame s (clearUtd s n) := by
  unfold clearUtd
  cases h : s.tab n with
  | none => exact Frame.refl s
  | some i =>
    refine ⟨rfl, rfl, rfl, fun j => ?_⟩
    by_cases hj : j = i
    · subst hj; simp [setObj]
    · simp [setObj, Function.update_of_ne hj]

theorem clearUtd_self (s : St N V) (n : N) : utdName (clearUtd s n) n = false := by
  unfold clearUtd utdName
  cases h : s.tab n with
  | none => simp [h]
  | some i => simp [setObj, h]

theorem clearUtd_ne {s : St N V} (hn : Named s) {n m : N} (hm : m ≠ n) : utdName (clearUtd s n) m = utdName s m := by
  unfold clearUtd utdName
  cases h : s.tab n with
  | none => rfl
  | some i =>
    simp only [setObj]
    cases h' : s.tab m with
    | none => rfl
    | some j =>
      have : j ≠ i := by
        rintro rfl
        exact hm ((hn m j h').symm.trans (hn n j h))
      simp [Function.update_of_ne this]

/-- Number of models that can still be notified. -/
def mu (s : St N V) : Nat := (s.deps.map Prod.fst).countP (utdName s)

theorem mu_le (s : St N V) : mu s ≤ s.deps.length := by
  unfold mu; exact Nat.le_trans List.countP_le_length (by simp)

theorem Frame.mu_le {s s' : St N V} (h : Frame s s') : mu s' ≤ mu s := by
  unfold mu
  rw [h.deps]
  exact List.countP_mono_left fun n _ hu => h.utdName hu

theorem mu_clear_lt {s : St N V} {n x : N} (hm : (n, x) ∈ s.deps) (hu : utdName s n = true) :
    mu (clearUtd s n) < mu s := by
  have hf := clearUtd_frame s n
  unfold mu
  rw [hf.deps]
  have hmem : n ∈ s.deps.map Prod.fst := List.mem_map_of_mem hm
  generalize s.deps.map Prod.fst = l at hmem
  induction l with
  | nil => simp at hmem
  | cons a l ih =>
    by_cases ha : a = n
    · subst ha
      rw [List.countP_cons_of_neg (by simp [clearUtd_self]), List.countP_cons_of_pos hu]
      exact Nat.lt_succ_of_le (List.countP_mono_left fun n _ hu => hf.utdName hu)
    · have hl : n ∈ l := by simpa [Ne.symm ha] using hmem
      have := ih hl
      rw [List.countP_cons, List.countP_cons]
      have h2 : (if utdName (clearUtd s n) a = true then 1 else 0) ≤ (if utdName s a = true then 1 else 0) := by
        by_cases hh : utdName (clearUtd s n) a = true
        · simp [hh, hf.utdName hh]
        · simp [hh]
      omega

/-- What a notification about `x` that leads from `s` to `s'` has done: only flags are cleared; the models depending
on `x` are out of date; a model that was cleared has its dependents cleared, and depends on `x` or on a cleared
model. -/
structure Signalled (s s' : St N V) (x : N) : Prop where
  frame : Frame s s'
  direct : ∀ n, (n, x) ∈ s.deps → utdName s' n = false
  closed : ∀ m, utdName s m = true → utdName s' m = false → ∀ n, (n, m) ∈ s.deps → utdName s' n = false
  cause : ∀ m, utdName s m = true → utdName s' m = false →
    ∃ d, (m, d) ∈ s.deps ∧ (d = x ∨ (utdName s d = true ∧ utdName s' d = false))

theorem signal_spec : ∀ (k : Nat) (s : St N V) (x : N), Named s → mu s < k → Signalled s (signal k s x) x
  | 0, _, _, _, h => absurd h (by omega)
  | k + 1, s, x, hn, hk => by
    have loop : ∀ (l : List N) (s : St N V), Named s → mu s < k + 1 → (∀ n ∈ l, (n, x) ∈ s.deps) →
        let s' := signalLoop (signal k) s l
        Frame s s' ∧ (∀ n ∈ l, utdName s' n = false) ∧
        (∀ m, utdName s m = true → utdName s' m = false → (∀ n, (n, m) ∈ s.deps → utdName s' n = false) ∧
          ∃ d, (m, d) ∈ s.deps ∧ (d = x ∨ (utdName s d = true ∧ utdName s' d = false))) := by
      intro l
      induction l with
      | nil =>
        intro s _ _ _
        refine ⟨Frame.refl s, by simp, fun m h1 h2 => ?_⟩
        simp only [signalLoop] at h2
        rw [h1] at h2; cases h2
      | cons n l ih =>
        intro s hn hk hl
        dsimp only [signalLoop]
        have hnx := hl n (by simp)
        -- one step
        obtain ⟨s1, hs1, f1, c1, n1⟩ : ∃ s1, (if utdName s n = true then signal k (clearUtd s n) n else s) = s1 ∧
            Frame s s1 ∧ utdName s1 n = false ∧
            (∀ m, utdName s m = true → utdName s1 m = false → (∀ n, (n, m) ∈ s.deps → utdName s1 n = false) ∧
              ∃ d, (m, d) ∈ s.deps ∧ (d = x ∨ (utdName s d = true ∧ utdName s1 d = false))) := by
          by_cases hu : utdName s n = true
          · rw [if_pos hu]
            have hf := clearUtd_frame s n
            have hlt := mu_clear_lt hnx hu
            have sp := signal_spec k (clearUtd s n) n (hf.named hn) (by omega)
            have hnf : utdName (signal k (clearUtd s n) n) n = false := sp.frame.utdName_false (clearUtd_self s n)
            refine ⟨_, rfl, hf.trans sp.frame, hnf, fun m hm hm' => ?_⟩
            by_cases hmn : m = n
            · subst hmn
              refine ⟨fun a ha => sp.direct a (by rw [hf.deps]; exact ha), x, hnx, Or.inl rfl⟩
            · have hcm : utdName (clearUtd s n) m = true := by rw [clearUtd_ne hn hmn]; exact hm
              refine ⟨fun a ha => sp.closed m hcm hm' a (by rw [hf.deps]; exact ha), ?_⟩
              obtain ⟨d, hd, hd'⟩ := sp.cause m hcm hm'
              rw [hf.deps] at hd
              refine ⟨d, hd, Or.inr ?_⟩
              rcases hd' with rfl | ⟨h1, h2⟩
              · exact ⟨hu, hnf⟩
              · exact ⟨hf.utdName h1, h2⟩
          · rw [if_neg hu]
            refine ⟨s, rfl, Frame.refl s, by simpa using hu, fun m h1 h2 => ?_⟩
            rw [h1] at h2; cases h2
        rw [hs1]
        obtain ⟨f2, c2, n2⟩ := ih s1 (f1.named hn) (Nat.lt_of_le_of_lt f1.mu_le hk)
          (fun a ha => by rw [f1.deps]; exact hl a (by simp [ha]))
        refine ⟨f1.trans f2, ?_, fun m hm hm' => ?_⟩
        · intro a ha
          rcases List.mem_cons.1 ha with rfl | ha
          · exact f2.utdName_false c1
          · exact c2 a ha
        · cases h1 : utdName s1 m with
          | false =>
            obtain ⟨ha, d, hd, hd'⟩ := n1 m hm h1
            refine ⟨fun a h => f2.utdName_false (ha a h), d, hd, ?_⟩
            rcases hd' with h | ⟨h, h'⟩
            · exact Or.inl h
            · exact Or.inr ⟨h, f2.utdName_false h'⟩
          | true =>
            obtain ⟨ha, d, hd, hd'⟩ := n2 m h1 hm'
            rw [f1.deps] at hd ha
            refine ⟨ha, d, hd, ?_⟩
            rcases hd' with h | ⟨h, h'⟩
            · exact Or.inl h
            · exact Or.inr ⟨f1.utdName h, h'⟩
    obtain ⟨f, c, n⟩ := loop (dependents s x) s hn hk (fun n hn => mem_dependents.1 hn)
    exact ⟨f, fun a ha => c a (mem_dependents.2 ha), fun m h1 h2 => (n m h1 h2).1, fun m h1 h2 => (n m h1 h2).2⟩

/-- Nothing happens when no model that depends on `x` is up to date. -/
theorem signal_noop {s : St N V} {x : N} (h : ∀ n, (n, x) ∈ s.deps → utdName s n = false) (k : Nat) : signal k s x = s := by
  cases k with
  | zero => rfl
  | succ k =>
    have : ∀ l : List N, (∀ n ∈ l, utdName s n = false) → signalLoop (signal k) s l = s := by
      intro l
      induction l with
      | nil => intro _; rfl
      | cons n l ih =>
        intro hl
        simp only [signalLoop, hl n (by simp)]
        exact ih fun a ha => hl a (by simp [ha])
    exact this _ fun n hn => h n (mem_dependents.1 hn)

theorem enough_spec (s : St N V) : mu s < enough s := Nat.lt_succ_of_le (mu_le s)

end Verif.Multi
