import Verif.Deps.Spec
namespace Verif.Deps
variable {N V : Type} [DecidableEq N]

/-- registered dependency of `m` on `x` -/
def D (s : St N V) (m x : N) : Prop := ∃ ds, (m, ds) ∈ s.deps ∧ x ∈ ds

def U (s : St N V) (n : N) : Prop := isUtd s n = true

theorem mem_dependents (s : St N V) (x m : N) : m ∈ dependents s x ↔ D s m x := by
  unfold dependents D
  simp only [List.mem_map, List.mem_filter, List.contains_iff_mem]
  constructor
  · rintro ⟨⟨a, b⟩, ⟨h1, h2⟩, rfl⟩; exact ⟨b, h1, h2⟩
  · rintro ⟨ds, h1, h2⟩; exact ⟨(m, ds), ⟨h1, h2⟩, rfl⟩

/-! ### find / modify -/

theorem findKind_some {s : St N V} {n : N} {k : Kind} (h : findKind s n = some k) : (s.tab k n).isSome := by
  unfold findKind at h
  split at h
  · cases h; assumption
  · split at h
    · cases h; assumption
    · split at h
      · cases h; assumption
      · split at h
        · cases h; assumption
        · cases h

theorem findKind_none {s : St N V} {n : N} (h : findKind s n = none) (k : Kind) : s.tab k n = none := by
  unfold findKind at h
  split at h
  · cases h
  · split at h
    · cases h
    · split at h
      · cases h
      · split at h
        · cases h
        · cases k <;> simp_all

theorem findKind_congr {s t : St N V} {n : N} (h : ∀ k, (s.tab k n).isSome = (t.tab k n).isSome) :
    findKind s n = findKind t n := by
  unfold findKind; simp only [h]

theorem find_eq_none {s : St N V} {n : N} : find s n = none ↔ findKind s n = none := by
  unfold find
  cases h : findKind s n with
  | none => simp
  | some k =>
    have := findKind_some h
    simp only [reduceCtorEq, iff_false]
    intro h2; simp [h2] at this

theorem find_some_kind {s : St N V} {n : N} {m : M N V} (h : find s n = some m) :
    ∃ k, findKind s n = some k ∧ s.tab k n = some m := by
  unfold find at h
  cases hk : findKind s n with
  | none => simp [hk] at h
  | some k => exact ⟨k, rfl, by simpa [hk] using h⟩

theorem findKind_modify (s : St N V) (n m : N) (g : M N V → M N V) :
    findKind (modify s n g) m = findKind s m := by
  unfold modify
  cases hk : findKind s n with
  | none => rfl
  | some k =>
    apply findKind_congr
    intro k'
    simp only [setTab]
    split
    · rename_i h; rw [h.1, h.2]; simp
    · rfl

theorem find_modify (s : St N V) (n m : N) (g : M N V → M N V) :
    find (modify s n g) m = if m = n then (find s n).map g else find s m := by
  unfold find
  rw [findKind_modify]
  by_cases hmn : m = n
  · subst hmn
    rw [if_pos rfl]
    cases hk : findKind s m with
    | none => rfl
    | some k =>
      simp only [modify, hk, setTab, and_self, if_true]
  · rw [if_neg hmn]
    cases hk : findKind s m with
    | none => rfl
    | some k =>
      simp only [modify]
      cases findKind s n with
      | none => rfl
      | some k2 => simp only [setTab]; rw [if_neg]; exact fun h => hmn h.2

@[simp] theorem deps_modify (s : St N V) (n : N) (g) : (modify s n g).deps = s.deps := by
  unfold modify; split <;> rfl
@[simp] theorem par_modify (s : St N V) (n : N) (g) : (modify s n g).par = s.par := by
  unfold modify; split <;> rfl

theorem tab_isSome_modify (s : St N V) (n : N) (g) (k : Kind) (m : N) :
    ((modify s n g).tab k m).isSome = (s.tab k m).isSome := by
  unfold modify
  cases hk : findKind s n with
  | none => rfl
  | some k' =>
    simp only [setTab]
    split
    · rename_i h; rw [h.1, h.2]; simp
    · rfl

/-- `t` differs from `s` only by cleared flags. -/
structure Cleared (s t : St N V) : Prop where
  kind : ∀ n, findKind t n = findKind s n
  fnd : ∀ n, find t n = (find s n).map (fun m => { m with utd := isUtd t n })
  sub : ∀ n, U t n → U s n
  deps : t.deps = s.deps
  par : t.par = s.par
  tabs : ∀ k n, (t.tab k n).isSome = (s.tab k n).isSome

theorem Cleared.refl (s : St N V) : Cleared s s := by
  refine ⟨fun _ => rfl, ?_, fun _ h => h, rfl, rfl, fun _ _ => rfl⟩
  intro n
  unfold isUtd
  cases h : find s n <;> simp

theorem Cleared.trans {s t u : St N V} (h1 : Cleared s t) (h2 : Cleared t u) : Cleared s u := by
  refine ⟨fun n => (h2.kind n).trans (h1.kind n), ?_, fun n h => h1.sub n (h2.sub n h),
    h2.deps.trans h1.deps, h2.par.trans h1.par, fun k n => (h2.tabs k n).trans (h1.tabs k n)⟩
  intro n
  rw [h2.fnd n, h1.fnd n]
  cases find s n <;> simp

theorem cleared_clearUtd (s : St N V) (n : N) : Cleared s (clearUtd s n) := by
  have hU : ∀ m, isUtd (clearUtd s n) m = if m = n then false else isUtd s m := by
    intro m
    unfold isUtd clearUtd
    rw [find_modify]
    by_cases h : m = n
    · subst h; rw [if_pos rfl, if_pos rfl]; cases find s m <;> rfl
    · rw [if_neg h, if_neg h]
  refine ⟨fun m => findKind_modify _ _ _ _, ?_, ?_, by simp [clearUtd], by simp [clearUtd],
    fun k m => tab_isSome_modify s n _ k m⟩
  · intro m
    rw [hU]
    unfold clearUtd
    rw [find_modify]
    by_cases h : m = n
    · subst h; rw [if_pos rfl, if_pos rfl]
    · rw [if_neg h, if_neg h]
      unfold isUtd
      cases hf : find s m <;> simp
  · intro m hm
    unfold U at *
    rw [hU] at hm
    split at hm
    · cases hm
    · exact hm

theorem not_U_clearUtd (s : St N V) (n : N) : ¬ U (clearUtd s n) n := by
  unfold U isUtd clearUtd
  rw [find_modify, if_pos rfl]
  cases find s n <;> simp

theorem D_congr {s t : St N V} (h : t.deps = s.deps) (m x : N) : D t m x ↔ D s m x := by
  unfold D; rw [h]

/-! ### SignalCallbacks -/

/-- What a (partial) signal guarantees: only flags are cleared, and whatever became out of date has no
up-to-date dependents left. -/
def Good (s t : St N V) : Prop :=
  Cleared s t ∧ ∀ r, U s r → ¬ U t r → ∀ m, D s m r → ¬ U t m

theorem Good.trans {s t u : St N V} (h1 : Good s t) (h2 : Good t u) : Good s u := by
  refine ⟨h1.1.trans h2.1, ?_⟩
  intro r hs hu m hm hum
  by_cases ht : U t r
  · exact h2.2 r ht hu m ((D_congr h1.1.deps m r).mpr hm) hum
  · exact h1.2 r hs ht m hm (h2.1.sub m hum)

theorem signalLoop_good (rec : St N V → N → Option (St N V))
    (hrec : ∀ s x t, rec s x = some t → Good s t ∧ ∀ m, D s m x → ¬ U t m) :
    ∀ l s t, signalLoop rec s l = some t → Good s t ∧ ∀ n ∈ l, ¬ U t n := by
  intro l
  induction l with
  | nil =>
    intro s t h
    cases h
    exact ⟨⟨Cleared.refl s, fun r h1 h2 => absurd h1 h2⟩, by simp⟩
  | cons n l ih =>
    intro s t h
    unfold signalLoop at h
    by_cases hu : isUtd s n = true
    · rw [if_pos hu] at h
      cases hr : rec (clearUtd s n) n with
      | none => rw [hr] at h; cases h
      | some s1 =>
        rw [hr] at h
        obtain ⟨g1, b1⟩ := hrec _ _ _ hr
        obtain ⟨g2, b2⟩ := ih _ _ h
        have c0 := cleared_clearUtd s n
        have g01 : Good s s1 := by
          refine ⟨c0.trans g1.1, ?_⟩
          intro r hs h1 m hm hum
          by_cases hrn : r = n
          · subst hrn
            exact b1 m ((D_congr c0.deps m r).mpr hm) hum
          · have : U (clearUtd s n) r := by
              unfold U isUtd clearUtd
              rw [find_modify, if_neg hrn]
              exact hs
            exact g1.2 r this h1 m ((D_congr c0.deps m r).mpr hm) hum
        refine ⟨g01.trans g2, ?_⟩
        intro m hm
        simp only [List.mem_cons] at hm
        rcases hm with rfl | hm
        · intro h'
          exact not_U_clearUtd s m (g1.1.sub m (g2.1.sub m h'))
        · exact b2 m hm
    · rw [if_neg hu] at h
      obtain ⟨g2, b2⟩ := ih _ _ h
      refine ⟨g2, ?_⟩
      intro m hm
      simp only [List.mem_cons] at hm
      rcases hm with rfl | hm
      · exact fun h' => hu (g2.1.sub m h')
      · exact b2 m hm

theorem signal_good : ∀ fuel (s : St N V) x t, signal fuel s x = some t → Good s t ∧ ∀ m, D s m x → ¬ U t m := by
  intro fuel
  induction fuel with
  | zero => intro s x t h; cases h
  | succ fuel ih =>
    intro s x t h
    obtain ⟨g, b⟩ := signalLoop_good (signal fuel) ih _ _ _ h
    exact ⟨g, fun m hm => b m ((mem_dependents s x m).mpr hm)⟩

/-- number of registered models that are up to date -/
def cnt (s : St N V) : Nat := s.deps.countP (fun p => isUtd s p.1)

theorem cnt_mono {s t : St N V} (h : Cleared s t) : cnt t ≤ cnt s := by
  unfold cnt
  rw [h.deps]
  apply List.countP_mono_left
  intro p _ hp
  exact h.sub p.1 hp

theorem cnt_lt {s t : St N V} (h : Cleared s t) (n : N) (hn : U s n) (ht : ¬ U t n)
    (hd : n ∈ s.deps.map Prod.fst) : cnt t < cnt s := by
  unfold cnt
  rw [h.deps]
  have key : ∀ l : List (N × List N), n ∈ l.map Prod.fst →
      l.countP (fun p => isUtd t p.1) < l.countP (fun p => isUtd s p.1) := by
    intro l
    induction l with
    | nil => intro h; simp at h
    | cons p l ih =>
      intro hm
      have hle : l.countP (fun p => isUtd t p.1) ≤ l.countP (fun p => isUtd s p.1) := by
        apply List.countP_mono_left
        intro q _ hq; exact h.sub q.1 hq
      simp only [List.countP_cons]
      by_cases hp : p.1 = n
      · have h1 : isUtd s p.1 = true := hp ▸ hn
        have h2 : ¬ isUtd t p.1 = true := hp ▸ ht
        rw [if_pos h1, if_neg h2]; omega
      · have hm' : n ∈ l.map Prod.fst := by
          simp only [List.map_cons, List.mem_cons] at hm
          rcases hm with h | h
          · exact absurd h.symm hp
          · exact h
        have := ih hm'
        by_cases h2 : isUtd t p.1 = true
        · have h1 := h.sub p.1 h2
          unfold U at h1
          rw [if_pos h1, if_pos h2]; omega
        · rw [if_neg h2]; omega
  exact key _ hd

theorem signalLoop_some (rec : St N V → N → Option (St N V)) (c : Nat)
    (hrec : ∀ s x, cnt s < c → ∃ t, rec s x = some t ∧ Cleared s t) :
    ∀ l (s : St N V), cnt s ≤ c → (∀ n ∈ l, n ∈ s.deps.map Prod.fst) → ∃ t, signalLoop rec s l = some t := by
  intro l
  induction l with
  | nil => intro s _ _; exact ⟨s, rfl⟩
  | cons n l ih =>
    intro s hc hl
    unfold signalLoop
    by_cases hu : isUtd s n = true
    · rw [if_pos hu]
      have hlt := cnt_lt (cleared_clearUtd s n) n hu (not_U_clearUtd s n) (hl n (by simp))
      obtain ⟨t, ht, hct⟩ := hrec (clearUtd s n) n (by omega)
      rw [ht]
      apply ih
      · have := cnt_mono hct; omega
      · intro m hm
        rw [hct.deps, (cleared_clearUtd s n).deps]
        exact hl m (by simp [hm])
    · rw [if_neg hu]
      exact ih s hc (fun m hm => hl m (by simp [hm]))

theorem signal_some : ∀ fuel (s : St N V) x, cnt s < fuel → ∃ t, signal fuel s x = some t := by
  intro fuel
  induction fuel with
  | zero => intro s x h; omega
  | succ fuel ih =>
    intro s x h
    apply signalLoop_some (signal fuel) fuel
    · intro s' x' h'
      obtain ⟨t, ht⟩ := ih s' x' h'
      exact ⟨t, ht, (signal_good _ _ _ _ ht).1.1⟩
    · omega
    · intro n hn
      obtain ⟨ds, h1, _⟩ := (mem_dependents s x n).mp hn
      exact List.mem_map.mpr ⟨_, h1, rfl⟩

theorem signalAll_good (s : St N V) (x : N) : Good s (signalAll s x) ∧ ∀ m, D s m x → ¬ U (signalAll s x) m := by
  have : cnt s < enough s := by
    unfold cnt enough
    have := List.countP_le_length (l := s.deps) (p := fun p => isUtd s p.1)
    omega
  obtain ⟨t, ht⟩ := signal_some (enough s) s x this
  unfold signalAll
  rw [ht]
  exact signal_good _ _ _ _ ht

theorem signalLoop_noop (rec : St N V → N → Option (St N V)) (s : St N V) :
    ∀ l, (∀ n ∈ l, ¬ U s n) → signalLoop rec s l = some s := by
  intro l
  induction l with
  | nil => intro _; rfl
  | cons n l ih =>
    intro h
    unfold signalLoop
    rw [if_neg (show ¬ isUtd s n = true from h n (by simp))]
    exact ih (fun m hm => h m (by simp [hm]))

theorem signalAll_noop (s : St N V) (x : N) (h : ∀ m, D s m x → ¬ U s m) : signalAll s x = s := by
  unfold signalAll enough signal
  rw [signalLoop_noop]
  · rfl
  · intro n hn; exact h n ((mem_dependents s x n).mp hn)

end Verif.Deps
