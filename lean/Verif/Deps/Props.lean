import Verif.Deps.Preserve
/-
C15 (no stale values), C16 (invalidation reaches every dependent and terminates), C17 (one kind per name).
-/
namespace Verif.Deps
variable {N V : Type} [DecidableEq N]

/-! ### C16 -/

/-- `Reaches s x m`: a chain of registered dependencies leads from `x` to `m`, and every model on it (`m` included)
is up to date. -/
inductive Reaches (s : St N V) (x : N) : N → Prop where
  | one {m} : (∃ ds, (m, ds) ∈ s.deps ∧ x ∈ ds) → isUtd s m = true → Reaches s x m
  | more {m r} : Reaches s x r → (∃ ds, (m, ds) ∈ s.deps ∧ r ∈ ds) → isUtd s m = true → Reaches s x m

theorem Reaches.utd {s : St N V} {x m : N} (h : Reaches s x m) : isUtd s m = true := by
  cases h <;> assumption

/-- C16: SignalCallbacks terminates whatever the dependency graph (cycles included): the recursion never goes
deeper than the number of models having registered dependencies. -/
theorem signal_terminates (s : St N V) (x : N) (fuel : Nat) (h : s.deps.length < fuel) :
    ∃ t, signal fuel s x = some t := by
  apply signal_some
  unfold cnt
  have := List.countP_le_length (l := s.deps) (p := fun p => isUtd s p.1)
  omega

/-- C16 in general form: after the signal there is no up-to-date model registered for `x`, and none registered for a
model which the signal has made out of date. -/
theorem signal_frontier (s t : St N V) (x : N) (fuel : Nat) (h : signal fuel s x = some t) :
    (∀ m, (∃ ds, (m, ds) ∈ s.deps ∧ x ∈ ds) → isUtd t m = false) ∧
    ∀ r, isUtd s r = true → isUtd t r = false → ∀ m, (∃ ds, (m, ds) ∈ s.deps ∧ r ∈ ds) → isUtd t m = false := by
  obtain ⟨⟨hc, hg⟩, hx⟩ := signal_good fuel s x t h
  constructor
  · intro m hm
    have := hx m hm
    unfold U at this; simpa using this
  · intro r h1 h2 m hm
    have := hg r h1 (by unfold U; rw [h2]; simp) m hm
    unfold U at this; simpa using this

/-- C16: a signal never touches definitions, values, parameters or registrations, and never marks anything up to date. -/
theorem signal_only_clears (s t : St N V) (x : N) (fuel : Nat) (h : signal fuel s x = some t) :
    t.deps = s.deps ∧ t.par = s.par ∧
    (∀ n, (find t n).map (fun m => (m.dfn, m.val)) = (find s n).map (fun m => (m.dfn, m.val))) ∧
    ∀ n, isUtd t n = true → isUtd s n = true := by
  obtain ⟨⟨hc, _⟩, _⟩ := signal_good fuel s x t h
  refine ⟨hc.deps, hc.par, ?_, hc.sub⟩
  intro n; rw [hc.fnd n]; cases find s n <;> rfl

theorem signal_leaves_rest : ∀ (fuel : Nat) (s t : St N V) (x : N), signal fuel s x = some t →
    ∀ m, ¬ Reaches s x m → isUtd t m = isUtd s m := by
  have lift : ∀ {s s' : St N V} {x y m}, Cleared s s' → Reaches s x y → Reaches s' y m → Reaches s x m := by
    intro s s' x y m hc hxy hym
    induction hym with
    | one h hu => exact .more hxy (by rw [← hc.deps]; exact h) (hc.sub _ hu)
    | more _ h hu ih => exact .more ih (by rw [← hc.deps]; exact h) (hc.sub _ hu)
  intro fuel
  induction fuel with
  | zero => intro s t x h; cases h
  | succ fuel ih =>
    intro s t x h m hm
    have loop : ∀ l (a b : St N V), Cleared s a → (∀ n ∈ l, ∃ ds, (n, ds) ∈ s.deps ∧ x ∈ ds) →
        signalLoop (signal fuel) a l = some b → isUtd b m = isUtd a m := by
      intro l
      induction l with
      | nil => intro a b _ _ h; simp only [signalLoop, Option.some.injEq] at h; rw [h]
      | cons n l ihl =>
        intro a b ha hl h
        simp only [signalLoop] at h
        split at h
        · rename_i hn
          split at h
          · rename_i s' hs'
            have hcl := cleared_clearUtd a n
            obtain ⟨⟨hc, _⟩, _⟩ := signal_good fuel _ _ _ hs'
            have h1 := ihl s' b (ha.trans (hcl.trans hc)) (fun k hk => hl k (by simp [hk])) h
            have hn : Reaches s x n := .one (hl n (by simp)) (ha.sub n hn)
            have h2 := ih _ _ _ hs' m (fun hr => hm (lift (ha.trans hcl) hn hr))
            have hmn : m ≠ n := by rintro rfl; exact hm hn
            rw [h1, h2]
            unfold isUtd clearUtd
            rw [find_modify, if_neg hmn]
          · cases h
        · exact ihl a b ha (fun k hk => hl k (by simp [hk])) h
    refine loop _ s t (Cleared.refl s) ?_ h
    intro n hn
    exact (mem_dependents s x n).mp hn

/-- C16: a signal marks out of date exactly the up-to-date models reachable through up-to-date dependents. -/
theorem signal_exact (fuel : Nat) (s t : St N V) (x : N) (h : signal fuel s x = some t) (m : N) :
    isUtd t m = true ↔ isUtd s m = true ∧ ¬ Reaches s x m := by
  constructor
  · intro hm
    obtain ⟨h1, h2⟩ := signal_frontier s t x fuel h
    obtain ⟨_, _, _, h4⟩ := signal_only_clears s t x fuel h
    refine ⟨h4 m hm, ?_⟩
    intro hr
    have key : ∀ m, Reaches s x m → isUtd t m = false := by
      intro m hm
      induction hm with
      | one hd _ => exact h1 _ hd
      | more hr hd _ ih => exact h2 _ hr.utd ih _ hd
    rw [key m hr] at hm; cases hm
  · rintro ⟨h1, h2⟩
    rw [signal_leaves_rest fuel s t x h m h2, h1]

/-! ### C17 -/

theorem evalRefs_tabs (zero : V) (rd : St N V → N → St N V × Res V) (path : List N)
    (hrd : ∀ s n k m, ((rd s n).1.tab k m).isSome = (s.tab k m).isSome) :
    ∀ refs s k m, ((evalRefs zero rd path s refs).1.tab k m).isSome = (s.tab k m).isSome := by
  intro refs
  induction refs with
  | nil => intro s k m; rfl
  | cons r rs ih =>
    intro s k m
    cases r with
    | par p =>
      simp only [evalRefs]
      have := ih s k m
      split <;> (rename_i h; rw [h] at this; exact this)
    | model n =>
      simp only [evalRefs]
      split
      · have := ih s k m
        split <;> (rename_i h; rw [h] at this; exact this)
      · split
        · rfl
        · have h1 := hrd s n k m
          split
          · rename_i s' v h
            rw [h] at h1
            have h2 := ih s' k m
            split <;> (rename_i h'; rw [h'] at h2; exact h2.trans h1)
          · rename_i h; rw [h] at h1; exact h1

theorem setValues_tabs (s : St N V) (n : N) (v : V) (k : Kind) (m : N) :
    ((setValues s n v).tab k m).isSome = (s.tab k m).isSome := by
  unfold setValues
  simp only
  rw [tab_isSome_modify, (signalAll_good _ n).1.1.tabs]
  unfold clearUtd
  rw [tab_isSome_modify, tab_isSome_modify]

theorem read_tabs (zero : V) : ∀ fuel path (s : St N V) n k m,
    ((read zero fuel path s n).1.tab k m).isSome = (s.tab k m).isSome := by
  intro fuel
  induction fuel with
  | zero => intro path s n k m; rfl
  | succ fuel ih =>
    intro path s n k m
    unfold read
    split
    · rfl
    · split
      · rfl
      · split
        · exact tab_isSome_modify _ _ _ _ _
        · rename_i refs f _
          have h1 := evalRefs_tabs zero (read zero fuel (n :: path)) (n :: path) (fun s n k m => ih _ s n k m) refs s k m
          split
          · rename_i h; rw [h] at h1; simp only; rw [setValues_tabs]; exact h1
          · rename_i h; rw [h] at h1; exact h1

theorem unique_step (zero : V) (fuel : Nat) (s : St N V) (op : Op N V) (h : Unique s) :
    Unique (step zero fuel s op) := by
  have tr : ∀ t : St N V, (∀ k m, (t.tab k m).isSome = (s.tab k m).isSome) → Unique t := by
    intro t ht n k1 k2 h1 h2
    rw [ht] at h1 h2; exact h n k1 k2 h1 h2
  cases op with
  | setPar p v => exact tr _ (fun k m => (signalAll_good _ p).1.1.tabs k m)
  | setValues n v =>
    simp only [step]
    split
    · exact tr _ (fun k m => setValues_tabs s n v k m)
    · exact h
  | define k n d =>
    simp only [step]
    cases hd : define zero s k n d with
    | none => exact h
    | some t => exact unique_define zero s t k n d hd h
  | delete k n =>
    simp only [step]
    unfold delete
    split
    · have hc := (signalAll_good (setTab (unregister s n) k n none) n).1.1
      intro m k1 k2 h1 h2
      rw [hc.tabs] at h1 h2
      simp only [setTab, unregister] at h1 h2
      split at h1
      · cases h1
      · split at h2
        · cases h2
        · exact h m k1 k2 h1 h2
    · exact h
  | read n => exact tr _ (fun k m => read_tabs zero fuel [] s n k m)

/-- C17: in every state a history of commands can reach, a name has models in at most one of the four tables. -/
theorem one_kind_per_name (zero : V) (fuel : Nat) (ops : List (Op N V)) (n : N) (k1 k2 : Kind)
    (h1 : ((run zero fuel (init zero) ops).tab k1 n).isSome)
    (h2 : ((run zero fuel (init zero) ops).tab k2 n).isSome) : k1 = k2 := by
  have key : ∀ (ops : List (Op N V)) (s : St N V), Unique s → Unique (run zero fuel s ops) := by
    intro ops
    induction ops with
    | nil => intro s h; exact h
    | cons o ops ih => intro s h; exact ih _ (unique_step zero fuel s o h)
  exact key ops _ (by intro n k1 k2 h; simp [init] at h) n k1 k2 h1 h2

/-- C17: creating a model under a name that exists with another kind is refused and changes nothing. -/
theorem define_other_kind_refused (zero : V) (fuel : Nat) (ops : List (Op N V)) (n : N) (k k' : Kind) (d : Dfn N V)
    (hk : k' ≠ k) (h : ((run zero fuel (init zero) ops).tab k' n).isSome) :
    define zero (run zero fuel (init zero) ops) k n d = none ∧
    step zero fuel (run zero fuel (init zero) ops) (.define k n d) = run zero fuel (init zero) ops := by
  have hnone : (((run zero fuel (init zero) ops).tab k n)).isSome = false := by
    cases hx : ((run zero fuel (init zero) ops).tab k n).isSome with
    | false => rfl
    | true => exact absurd (one_kind_per_name zero fuel ops n k' k h hx) hk
  have hfk : (findKind (run zero fuel (init zero) ops) n).isSome = true := by
    cases hx : findKind (run zero fuel (init zero) ops) n with
    | some _ => rfl
    | none => rw [findKind_none hx k'] at h; cases h
  have : define zero (run zero fuel (init zero) ops) k n d = none := by
    unfold define addModel
    rw [if_neg (by rw [hnone]; simp), if_pos hfk]
  refine ⟨this, ?_⟩
  simp only [step, this, Option.getD_none]

/-- C17: creating it with the same kind, or under a fresh name, succeeds; the new definition is the one in force. -/
theorem define_same_kind_accepted (zero : V) (fuel : Nat) (ops : List (Op N V)) (n : N) (k : Kind) (d : Dfn N V)
    (h : ∀ k', k' ≠ k → (run zero fuel (init zero) ops).tab k' n = none) :
    ∃ t, define zero (run zero fuel (init zero) ops) k n d = some t ∧
      t.tab k n = some { dfn := d, utd := false, val := zero } ∧ ∀ k', k' ≠ k → t.tab k' n = none := by
  generalize run zero fuel (init zero) ops = s at h
  have hdef : ∃ t, define zero s k n d = some t := by
    unfold define addModel
    by_cases h1 : (s.tab k n).isSome = true
    · rw [if_pos h1]; exact ⟨_, rfl⟩
    · rw [if_neg h1]
      have : ¬ (findKind s n).isSome = true := by
        cases hk : findKind s n with
        | none => simp
        | some k' =>
          have h2 := findKind_some hk
          by_cases hkk : k' = k
          · subst hkk; exact absurd h2 h1
          · rw [h k' hkk] at h2; cases h2
      rw [if_neg this]; exact ⟨_, rfl⟩
  obtain ⟨t, ht⟩ := hdef
  obtain ⟨_, h2, _⟩ := define_spec zero s t k n d ht
  refine ⟨t, ht, by rw [h2, if_pos ⟨rfl, rfl⟩], ?_⟩
  intro k' hk'
  rw [h2, if_neg (by simp [hk'])]
  exact h k' hk'

/-! ### C15 -/

/-- The commands for which the code keeps values fresh: a name is defined only when it does not exist and is not
mentioned by an existing definition (the source itself documents no such restriction; see `stale_after_redefinition`),
the names an expression uses as parameters are not models, and values are set from outside only on solutions. -/
def Src.Allowed (src : Src N V) : Op N V → Prop
  | .setPar _ _ => True
  | .setValues n _ => ∀ k d, src.defn n = some (k, d) → d = .sol
  | .define _ n d => src.defn n = none ∧
      (∀ m k d', src.defn m = some (k, d') → n ∉ d'.names) ∧
      ∀ refs f, d = .expr refs f → ∀ p, Ref.par p ∈ refs → p ≠ n ∧ src.defn p = none
  | .delete _ _ => True
  | .read _ => True

/-- every command of the history is allowed when it is issued -/
def Src.AllowedAll (zero : V) (src : Src N V) : List (Op N V) → Prop
  | [] => True
  | o :: os => src.Allowed o ∧ (src.step zero o).AllowedAll zero os

/-- the state implements the sources -/
def Impl (zero : V) (s : St N V) (src : Src N V) : Prop :=
  (abs s zero).defn = src.defn ∧ (abs s zero).par = src.par ∧
  ∀ n k, src.defn n = some (k, .sol) → (abs s zero).data n = src.data n

theorem Impl.denotes {zero : V} {s : St N V} {src : Src N V} (h : Impl zero s src) {n : N} {v : V}
    (hd : Denotes zero (abs s zero) n v) : Denotes zero src n v := by
  apply denotes_congr_src h.1.symm h.2.1.symm _ hd
  intro n k hk
  rw [h.1] at hk
  exact (h.2.2 n k hk).symm

theorem abs_defn_kind {s : St N V} {zero : V} {n : N} {k : Kind} {d : Dfn N V}
    (h : (abs s zero).defn n = some (k, d)) : findKind s n = some k ∧ ∃ M, find s n = some M ∧ M.dfn = d := by
  obtain ⟨M, h1, h2, h3⟩ := abs_defn_some h
  exact ⟨h3, M, h1, h2⟩

theorem impl_delete (zero : V) (s : St N V) (src : Src N V) (k : Kind) (n : N) (hu : Unique s)
    (h : Impl zero s src) : Impl zero (delete s k n) (src.step zero (.delete k n)) := by
  unfold delete
  by_cases hk : (s.tab k n).isSome = true
  · rw [if_pos hk]
    have hfk := findKind_unique hu hk
    obtain ⟨M, hM⟩ := Option.isSome_iff_exists.mp hk
    have hdn : src.defn n = some (k, M.dfn) := by rw [← h.1]; simp [abs, hfk, hM]
    have hc := (signalAll_good (setTab (unregister s n) k n none) n).1.1
    have habs := hc.abs (zero := zero)
    have htab : ∀ k' m, (setTab (unregister s n) k n none).tab k' m = if m = n then none else s.tab k' m := by
      intro k' m
      simp only [setTab, unregister]
      by_cases hm : m = n
      · subst hm
        rw [if_pos rfl]
        by_cases hkk : k' = k
        · rw [if_pos ⟨hkk, rfl⟩]
        · rw [if_neg (by simp [hkk])]
          cases h : s.tab k' m with
          | none => rfl
          | some x => exact absurd (hu m k' k (by rw [h]; rfl) hk) hkk
      · rw [if_neg (by simp [hm]), if_neg hm]
    have hfko : ∀ m, m ≠ n → findKind (setTab (unregister s n) k n none) m = findKind s m := by
      intro m hm; apply findKind_congr; intro k'; rw [htab, if_neg hm]
    have hfkn : findKind (setTab (unregister s n) k n none) n = none := by
      unfold findKind; rw [htab, htab, htab, htab]; simp
    have hpar : (setTab (unregister s n) k n none).par = s.par := rfl
    unfold Impl
    rw [habs]
    simp only [Src.step, hdn, if_pos]
    generalize setTab (unregister s n) k n none = s' at htab hfko hfkn hpar
    refine ⟨?_, ?_, ?_⟩
    · funext m
      by_cases hm : m = n
      · subst hm
        rw [if_pos rfl]
        simp only [abs]; rw [hfkn]
      · rw [if_neg hm, ← h.1]
        simp only [abs]
        rw [hfko m hm]
        cases findKind s m with
        | none => rfl
        | some k' => simp only; rw [htab, if_neg hm]
    · rw [← h.2.1]; exact hpar
    · intro m k' hm
      by_cases hmn : m = n
      · subst hmn; rw [if_pos rfl] at hm; cases hm
      · rw [if_neg hmn] at hm
        rw [← h.2.2 m k' hm]
        simp only [abs]
        unfold find
        rw [hfko m hmn]
        cases findKind s m with
        | none => rfl
        | some k' => simp only; rw [htab, if_neg hmn]
  · rw [if_neg hk]
    simp only [Src.step]
    cases hd : src.defn n with
    | none => exact h
    | some p =>
      obtain ⟨k', d⟩ := p
      simp only
      split
      · rename_i hkk
        subst hkk
        rw [← h.1] at hd
        exact absurd (findKind_some (abs_defn_kind hd).1) hk
      · exact h

theorem inv_impl_step (zero : V) (fuel : Nat) (s : St N V) (src : Src N V) (op : Op N V) (hi : Inv zero s)
    (h : Impl zero s src) (ha : src.Allowed op) :
    Inv zero (step zero fuel s op) ∧ Impl zero (step zero fuel s op) (src.step zero op) := by
  have hnone : ∀ m, src.defn m = none ↔ find s m = none := by
    intro m; rw [← h.1]; exact abs_defn_none
  have hsome : ∀ m M, find s m = some M → ∃ k, src.defn m = some (k, M.dfn) := by
    intro m M hm; rw [← h.1]; exact abs_defn hm
  cases op with
  | setPar p v =>
    refine ⟨inv_setPar zero s p v hi, ?_⟩
    simp only [step, Src.step, setPar]
    have hc := (signalAll_good { s with par := fun q => if q = p then v else s.par q } p).1.1
    unfold Impl
    rw [hc.abs]
    refine ⟨h.1, ?_, h.2.2⟩
    funext q
    have := congrFun h.2.1 q
    simp only [abs] at this ⊢
    rw [this]
  | setValues n v =>
    simp only [step, Src.step]
    cases hf : find s n with
    | none =>
      simp only [(hnone n).mpr hf]
      exact ⟨hi, h⟩
    | some M =>
      obtain ⟨k, hk⟩ := hsome n M hf
      have hd : M.dfn = .sol := ha k M.dfn hk
      simp only [hk]
      refine ⟨inv_setValues zero s n M v hi hf hd, ?_⟩
      have e : setValues s n v = modify (signalAll (clearUtd (modify s n (fun m => { m with val := v })) n) n) n
        (fun m => { m with utd := true }) := rfl
      have hfind : ∀ m, (find (setValues s n v) m).map (fun M => (M.dfn, M.val)) =
          if m = n then some (M.dfn, v) else (find s m).map (fun M => (M.dfn, M.val)) := by
        intro m
        have hc := (signalAll_good (clearUtd (modify s n (fun m => { m with val := v })) n) n).1.1
        rw [e, find_modify]
        by_cases hm : m = n
        · subst hm
          rw [if_pos rfl, if_pos rfl, hc.fnd, clearUtd, find_modify, if_pos rfl, find_modify, if_pos rfl, hf]
          rfl
        · rw [if_neg hm, if_neg hm, hc.fnd, clearUtd, find_modify, if_neg hm, find_modify, if_neg hm]
          cases find s m <;> rfl
      have hkind : ∀ m, findKind (setValues s n v) m = findKind s m := by
        intro m
        exact findKind_congr (fun k => setValues_tabs s n v k m)
      have hpar : (setValues s n v).par = s.par := by
        have hc := (signalAll_good (clearUtd (modify s n (fun m => { m with val := v })) n) n).1.1
        rw [e, par_modify, hc.par, clearUtd, par_modify, par_modify]
      refine ⟨?_, ?_, ?_⟩
      · rw [← h.1]
        apply defn_eq_of_find hkind
        intro m
        have := congrArg (Option.map Prod.fst) (hfind m)
        by_cases hm : m = n
        · subst hm
          rw [if_pos rfl] at this
          rw [hf]
          simpa [Option.map_map, Function.comp_def] using this
        · rw [if_neg hm] at this
          simpa [Option.map_map, Function.comp_def] using this
      · rw [← h.2.1]; exact hpar
      · intro m k' hm
        simp only
        have h1 := hfind m
        by_cases hmn : m = n
        · subst hmn
          rw [if_pos rfl] at h1 ⊢
          simp only [abs]
          cases hx : find (setValues s m v) m with
          | none => rw [hx] at h1; cases h1
          | some M' => rw [hx] at h1; simp only [Option.map_some, Option.some.injEq, Prod.mk.injEq] at h1; exact h1.2
        · rw [if_neg hmn] at h1 ⊢
          rw [← h.2.2 m k' hm]
          simp only [abs]
          cases hx : find (setValues s n v) m with
          | none => rw [hx] at h1; cases hy : find s m with
            | none => rfl
            | some _ => rw [hy] at h1; cases h1
          | some M' => rw [hx] at h1; cases hy : find s m with
            | none => rw [hy] at h1; cases h1
            | some M'' =>
              rw [hy] at h1
              simp only [Option.map_some, Option.some.injEq, Prod.mk.injEq] at h1; exact h1.2
  | define k n d =>
    obtain ⟨h1, h2, h3⟩ := ha
    have hfn := (hnone n).mp h1
    have hdef : ∃ t, define zero s k n d = some t := by
      unfold define addModel
      rw [find_eq_none] at hfn
      rw [if_neg (by rw [findKind_none hfn k]; simp), if_neg (by rw [hfn]; simp)]
      exact ⟨_, rfl⟩
    obtain ⟨t, ht⟩ := hdef
    have hstep : step zero fuel s (.define k n d) = t := by simp [step, ht]
    rw [hstep]
    simp only [Src.step, h1]
    refine ⟨inv_define zero s t k n d ht hi hfn ?_ ?_, ?_⟩
    · intro m M hm
      obtain ⟨k', hk'⟩ := hsome m M hm
      exact h2 m k' M.dfn hk'
    · intro refs f hd p hp
      obtain ⟨e1, e2⟩ := h3 refs f hd p hp
      exact ⟨e1, (hnone p).mp e2⟩
    · obtain ⟨_, e2, e3, _⟩ := define_spec zero s t k n d ht
      obtain ⟨f1, f2, f3⟩ := define_find zero s t k n d ht hi.uniq
      refine ⟨?_, ?_, ?_⟩
      · funext m
        simp only
        by_cases hm : m = n
        · subst hm
          rw [if_pos rfl]
          simp only [abs]; rw [f2]; simp only; rw [e2, if_pos ⟨rfl, rfl⟩]; rfl
        · rw [if_neg hm, ← h.1]
          simp only [abs]; rw [f3 m hm]
          cases findKind s m with
          | none => rfl
          | some k' => simp only; rw [e2, if_neg (by simp [hm])]
      · rw [← h.2.1]; exact e3
      · intro m k' hm
        simp only at hm ⊢
        by_cases hmn : m = n
        · subst hmn
          rw [if_pos rfl]
          simp only [abs]; rw [f1, if_pos rfl]
        · rw [if_neg hmn] at hm ⊢
          rw [← h.2.2 m k' hm]
          simp only [abs]; rw [f1, if_neg hmn]
  | delete k n => exact ⟨inv_delete zero s k n hi, impl_delete zero s src k n hi.uniq h⟩
  | read n =>
    obtain ⟨h1, _⟩ := read_ok zero fuel [] s n hi (by simp)
    refine ⟨h1.inv, ?_⟩
    simp only [step, Src.step]
    refine ⟨h1.src.1.trans h.1, h1.src.2.1.trans h.2.1, ?_⟩
    intro m k hm
    rw [← h.2.2 m k hm]
    exact h1.src.2.2 m k (by rw [h.1]; exact hm)

theorem inv_init (zero : V) : Inv zero (init zero : St N V) := by
  have hf : ∀ n, find (init zero : St N V) n = none := by intro n; simp [find_eq_none, findKind, init]
  refine ⟨by intro n k1 k2 h; simp [init] at h, ?_, ?_, ?_, ?_, ?_⟩
  · intro n M h; rw [hf] at h; cases h
  · intro n x h; simp [D, init] at h
  · intro n M refs f h; rw [hf] at h; cases h
  · intro n M h; rw [hf] at h; cases h
  · intro n M refs f h; rw [hf] at h; cases h

omit [DecidableEq N] in
theorem impl_init (zero : V) : Impl zero (init zero : St N V) (Src.init zero) := by
  refine ⟨?_, rfl, ?_⟩
  · funext n; simp [abs, init, Src.init, findKind]
  · intro n k h; simp [Src.init] at h

theorem run_inv (zero : V) (fuel : Nat) : ∀ (ops : List (Op N V)) (s : St N V) (src : Src N V), Inv zero s →
    Impl zero s src → src.AllowedAll zero ops →
    Inv zero (run zero fuel s ops) ∧ Impl zero (run zero fuel s ops) (src.run zero ops) := by
  intro ops
  induction ops with
  | nil => intro s src h1 h2 _; exact ⟨h1, h2⟩
  | cons o ops ih =>
    intro s src h1 h2 h3
    obtain ⟨h4, h5⟩ := inv_impl_step zero fuel s src o h1 h2 h3.1
    exact ih _ _ h4 h5 h3.2

/-- C15 (partial: see `Src.Allowed`; the excluded histories really go wrong, `stale_after_redefinition` and
`stale_after_late_definition`).  After any history of allowed commands, a read that returns a value returns the value
that evaluating the current definitions from scratch gives: no stale value is ever returned. -/
theorem read_fresh_partial (zero : V) (fuel fuel' : Nat) (ops : List (Op N V)) (n : N) (v : V)
    (ha : (Src.init zero : Src N V).AllowedAll zero ops)
    (hr : (read zero fuel' [] (run zero fuel (init zero) ops) n).2 = .ok v) :
    Denotes zero ((Src.init zero).run zero ops) n v := by
  obtain ⟨h1, h2⟩ := run_inv zero fuel ops _ _ (inv_init zero) (impl_init zero) ha
  obtain ⟨h3, h4⟩ := read_ok zero fuel' [] _ n h1 (by simp)
  have h5 := (h4 v hr).denotes h3.inv
  apply h2.denotes
  exact denotes_congr_src h3.src.1.symm h3.src.2.1.symm
    (fun m k hk => (h3.src.2.2 m k (by rw [← h3.src.1]; exact hk)).symm) h5

mutual
/-- the specification determines the value -/
theorem Denotes.det {zero : V} {src : Src N V} : ∀ {n v w}, Denotes zero src n v → Denotes zero src n w → v = w
  | _, _, _, .absent h, h2 => by
    cases h2 with
    | absent _ => rfl
    | sol h' => rw [h] at h'; cases h'
    | expr h' _ _ => rw [h] at h'; cases h'
  | _, _, _, .sol h, h2 => by
    cases h2 with
    | absent h' => rw [h] at h'; cases h'
    | sol h' => rfl
    | expr h' _ _ => rw [h] at h'; cases h'
  | _, _, _, .expr h hr hv, h2 => by
    cases h2 with
    | absent h' => rw [h] at h'; cases h'
    | sol h' => rw [h] at h'; cases h'
    | expr h' hr' hv' =>
      rw [h] at h'; cases h'
      rw [hv, hv', DenotesRefs.det hr hr']
theorem DenotesRefs.det {zero : V} {src : Src N V} : ∀ {rs vs ws}, DenotesRefs zero src rs vs →
    DenotesRefs zero src rs ws → vs = ws
  | _, _, _, .nil, h2 => by cases h2; rfl
  | _, _, _, .par h, h2 => by cases h2 with | par h' => rw [DenotesRefs.det h h']
  | _, _, _, .model h1 h, h2 => by cases h2 with | model h1' h' => rw [Denotes.det h1 h1', DenotesRefs.det h h']
end

/-- C15: reading twice in a row gives the same value and reading changes no other value that is read later. -/
theorem read_stable_partial (zero : V) (fuel f1 f2 : Nat) (ops mid : List (Op N V)) (n : N) (v w : V)
    (ha : (Src.init zero : Src N V).AllowedAll zero ops) (hm : ∀ o ∈ mid, ∃ m, o = .read m)
    (hr : (read zero f1 [] (run zero fuel (init zero) ops) n).2 = .ok v)
    (hw : (read zero f2 [] (run zero fuel (init zero) (ops ++ mid)) n).2 = .ok w) : v = w := by
  have hsrc : ∀ (l : List (Op N V)) (src : Src N V), (∀ o ∈ l, ∃ m, o = .read m) →
      src.run zero l = src ∧ src.AllowedAll zero l := by
    intro l
    induction l with
    | nil => intro src _; exact ⟨rfl, trivial⟩
    | cons o l ih =>
      intro src h
      obtain ⟨m, rfl⟩ := h o (by simp)
      obtain ⟨h1, h2⟩ := ih src (fun o ho => h o (by simp [ho]))
      exact ⟨h1, trivial, h2⟩
  have happ : ∀ (l : List (Op N V)) (src : Src N V), src.AllowedAll zero l →
      (src.run zero l).AllowedAll zero mid → src.AllowedAll zero (l ++ mid) := by
    intro l
    induction l with
    | nil => intro src _ h; exact h
    | cons o l ih => intro src h1 h2; exact ⟨h1.1, ih _ h1.2 h2⟩
  have h1 := read_fresh_partial zero fuel f1 ops n v ha hr
  have h2 := read_fresh_partial zero fuel f2 (ops ++ mid) n w (happ ops _ ha (hsrc mid _ hm).2) hw
  have h3 : (Src.init zero : Src N V).run zero (ops ++ mid) = (Src.init zero).run zero ops := by
    unfold Src.run; rw [List.foldl_append]; exact (hsrc mid _ hm).1
  rw [h3] at h2
  exact h1.det h2

/-! ### every acyclic model can be read -/

/-- `m` is mentioned as a model by the definition of `n` -/
def Mentions (src : Src N V) (m n : N) : Prop :=
  ∃ k refs f, src.defn n = some (k, .expr refs f) ∧ Ref.model m ∈ refs

mutual
theorem Denotes.acc {zero : V} {src : Src N V} : ∀ {n v}, Denotes zero src n v → Acc (Mentions src) n
  | n, _, .absent h => ⟨n, by rintro m ⟨k, refs, f, h1, _⟩; rw [h] at h1; cases h1⟩
  | n, _, .sol h => ⟨n, by rintro m ⟨k, refs, f, h1, _⟩; rw [h] at h1; cases h1⟩
  | n, _, .expr h hr _ => ⟨n, by
      rintro m ⟨k, refs, f, h1, h2⟩; rw [h] at h1; cases h1
      exact DenotesRefs.acc hr m h2⟩
theorem DenotesRefs.acc {zero : V} {src : Src N V} : ∀ {rs vs}, DenotesRefs zero src rs vs →
    ∀ m, Ref.model m ∈ rs → Acc (Mentions src) m
  | _, _, .nil, m, h => by cases h
  | _, _, .par h, m, hm => DenotesRefs.acc h m (by simpa using hm)
  | _, _, .model h1 h, m, hm => by
    simp only [List.mem_cons, Ref.model.injEq] at hm
    rcases hm with hm | hm
    · rw [hm]; exact Denotes.acc h1
    · exact DenotesRefs.acc h m hm
end

/-- transitive closure of `Mentions` -/
inductive Below (src : Src N V) : N → N → Prop where
  | one {m n} : Mentions src m n → Below src m n
  | more {m r n} : Below src m r → Mentions src r n → Below src m n

theorem Below.not_refl {src : Src N V} {n : N} (h : Acc (Mentions src) n) : ¬ Below src n n := by
  have key : ∀ n m, Below src m n → ∀ k, Below src k m → Below src k n := by
    intro n m hmn k hkm
    induction hmn with
    | one h => exact .more hkm h
    | more _ h ih => exact .more ih h
  induction h with
  | intro n h ih =>
    intro hb
    have cyc : ∀ m, Mentions src m n → Below src n m ∨ m = n → False := by
      intro m hm hc
      rcases hc with hc | hc
      · -- m → n → m : m below m
        have h1 : Below src m m := by
          clear ih
          exact (fun (x : Below src n m) => key m n x m (.one hm)) hc
        exact ih m hm h1
      · subst hc; exact ih m hm (.one hm)
    cases hb with
    | one hm => exact cyc n hm (.inr rfl)
    | more hb hm => exact cyc _ hm (.inl hb)

/-- the models on the current evaluation path all depend on the model being read -/
def PathOk (src : Src N V) (path : List N) (n : N) : Prop := ∀ p ∈ path, Below src n p

theorem SameSrc.mentions {s t : St N V} {zero : V} (h : SameSrc s t zero) {m n : N} :
    Mentions (abs t zero) m n ↔ Mentions (abs s zero) m n := by
  unfold Mentions; rw [h.1]

theorem SameSrc.below {s t : St N V} {zero : V} (h : SameSrc s t zero) {m n : N} (hb : Below (abs s zero) m n) :
    Below (abs t zero) m n := by
  induction hb with
  | one hm => exact .one (h.mentions.mpr hm)
  | more _ hm ih => exact .more ih (h.mentions.mpr hm)

theorem SameSrc.denotes {s t : St N V} {zero : V} (h : SameSrc s t zero) {n : N} {v : V}
    (hd : Denotes zero (abs s zero) n v) : Denotes zero (abs t zero) n v :=
  denotes_congr_src h.1 h.2.1 h.2.2 hd

theorem evalRefs_complete (zero : V) (rd : St N V → N → St N V × Res V) (path : List N)
    (hrd : ∀ s n, Inv zero s → n ∉ path → ROk zero path s (rd s n).1 ∧
      ∀ v, (rd s n).2 = .ok v → Got zero (rd s n).1 n v)
    (L : List N)
    (hcomp : ∀ s n, Inv zero s → (∀ m, find s m ≠ none → m ∈ L) → find s n ≠ none → n ∉ path →
      (∃ v, Denotes zero (abs s zero) n v) → PathOk (abs s zero) path n → ∃ v, (rd s n).2 = .ok v) :
    ∀ refs s, Inv zero s → (∀ m, find s m ≠ none → m ∈ L) →
      (∀ r, Ref.model r ∈ refs → (∃ v, Denotes zero (abs s zero) r v) ∧ PathOk (abs s zero) path r) →
      ∃ vs, (evalRefs zero rd path s refs).2 = .inl vs := by
  intro refs
  induction refs with
  | nil => intro s _ _ _; exact ⟨[], rfl⟩
  | cons r rs ih =>
    intro s hi hL hr
    have htail : ∀ t, SameSrc s t zero →
        ∀ r, Ref.model r ∈ rs → (∃ v, Denotes zero (abs t zero) r v) ∧ PathOk (abs t zero) path r := by
      intro t ht r hrr
      obtain ⟨⟨v, h1⟩, h2⟩ := hr r (by simp [hrr])
      exact ⟨⟨v, ht.denotes h1⟩, fun p hp => ht.below (h2 p hp)⟩
    cases r with
    | par p =>
      simp only [evalRefs]
      obtain ⟨vs, h⟩ := ih s hi hL (htail s (SameSrc.refl s zero))
      cases he : evalRefs zero rd path s rs with
      | mk a b =>
        rw [he] at h; simp only at h; subst h
        exact ⟨_, rfl⟩
    | model n =>
      simp only [evalRefs]
      cases hf : find s n with
      | none =>
        obtain ⟨vs, h⟩ := ih s hi hL (htail s (SameSrc.refl s zero))
        cases he : evalRefs zero rd path s rs with
        | mk a b =>
          rw [he] at h; simp only at h; subst h
          exact ⟨_, rfl⟩
      | some M =>
        obtain ⟨⟨v, hv⟩, hpo⟩ := hr n (by simp)
        have hnp : n ∉ path := fun h => Below.not_refl hv.acc (hpo n h)
        simp only
        rw [if_neg (by simpa using hnp)]
        obtain ⟨w, hw⟩ := hcomp s n hi hL (by rw [hf]; simp) hnp ⟨v, hv⟩ hpo
        obtain ⟨h1, _⟩ := hrd s n hi hnp
        cases hrn : rd s n with
        | mk s1 res =>
          rw [hrn] at hw h1
          simp only at hw; subst hw
          simp only
          obtain ⟨vs, h⟩ := ih s1 h1.inv (fun m hm => hL m (fun h => hm ((h1.ex m).mp h))) (htail s1 h1.src)
          cases he : evalRefs zero rd path s1 rs with
          | mk a b =>
            rw [he] at h; simp only at h; subst h
            exact ⟨_, rfl⟩

theorem read_complete (zero : V) (L : List N) : ∀ fuel path (s : St N V) n, Inv zero s →
    (∀ m, find s m ≠ none → m ∈ L) → find s n ≠ none → n ∉ path → path.Nodup → (∀ p ∈ path, p ∈ L) →
    L.length < fuel + path.length →
    (∃ v, Denotes zero (abs s zero) n v) → PathOk (abs s zero) path n →
    ∃ v, (read zero fuel path s n).2 = .ok v := by
  intro fuel
  induction fuel with
  | zero =>
    intro path s n _ _ _ _ hnd hpL hlen _ _
    have := hnd.length_le_of_subset hpL
    omega
  | succ fuel ih =>
    intro path s n hi hL hfn hnp hnd hpL hlen hv hpo
    have hL' := hL
    unfold read
    cases hf : find s n with
    | none => exact ⟨zero, rfl⟩
    | some M =>
      simp only
      by_cases hutd : M.utd = true
      · rw [if_pos hutd]; exact ⟨_, rfl⟩
      · rw [if_neg hutd]
        cases hd : M.dfn with
        | sol => exact ⟨_, rfl⟩
        | expr refs f =>
          simp only
          obtain ⟨k, hk⟩ := abs_defn (zero := zero) hf
          rw [hd] at hk
          have hacc : ∀ r, Ref.model r ∈ refs → (∃ v, Denotes zero (abs s zero) r v) := by
            obtain ⟨v, hv⟩ := hv
            intro r hr
            cases hv with
            | absent h' => rw [hk] at h'; cases h'
            | sol h' => rw [hk] at h'; cases h'
            | expr h' hr' hv' =>
              rw [hk] at h'; cases h'
              clear hv' hk hd
              have : ∀ {rs vs}, DenotesRefs zero (abs s zero) rs vs → Ref.model r ∈ rs →
                  ∃ v, Denotes zero (abs s zero) r v := by
                intro rs
                induction rs with
                | nil => intro vs _ h; cases h
                | cons a rs ihr =>
                  intro vs h hm
                  cases h with
                  | par h => exact ihr h (by simpa using hm)
                  | model h1 h =>
                    simp only [List.mem_cons, Ref.model.injEq] at hm
                    rcases hm with hm | hm
                    · rw [hm]; exact ⟨_, h1⟩
                    · exact ihr h hm
              exact this hr' hr
          have hpo' : ∀ r, Ref.model r ∈ refs → PathOk (abs s zero) (n :: path) r := by
            intro r hr p hp
            have hm : Mentions (abs s zero) r n := ⟨k, refs, f, hk, hr⟩
            simp only [List.mem_cons] at hp
            rcases hp with rfl | hp
            · exact .one hm
            · have := hpo p hp
              clear hpo hp
              induction this with
              | one h => exact .more (.one hm) h
              | more _ h ih' => exact .more ih' h
          obtain ⟨vs, hvs⟩ := evalRefs_complete zero (read zero fuel (n :: path)) (n :: path)
            (fun s m hi hm => read_ok zero fuel (n :: path) s m hi hm) L
            (fun s m hi hL hfm hm hdm hpm => ih (n :: path) s m hi hL hfm hm
              (List.nodup_cons.mpr ⟨hnp, hnd⟩)
              (by
                intro p hp
                simp only [List.mem_cons] at hp
                rcases hp with rfl | hp
                · exact hL' p hfn
                · exact hpL p hp)
              (by simp only [List.length_cons]; omega) hdm hpm)
            refs s hi hL (fun r hr => ⟨hacc r hr, hpo' r hr⟩)
          cases he : evalRefs zero (read zero fuel (n :: path)) (n :: path) s refs with
          | mk a b =>
            rw [he] at hvs; simp only at hvs; subst hvs
            exact ⟨_, rfl⟩

/-- C15: conversely every model whose definitions are not cyclic can be read, and the value read is the specified
one; `L` is any list containing the names of the existing models, and the recursion of the evaluation is never deeper
than its length. -/
theorem read_complete_partial (zero : V) (fuel fuel' : Nat) (ops : List (Op N V)) (n : N) (v : V) (L : List N)
    (ha : (Src.init zero : Src N V).AllowedAll zero ops)
    (hL : ∀ m k d, ((Src.init zero : Src N V).run zero ops).defn m = some (k, d) → m ∈ L) (hfuel : L.length < fuel')
    (hd : Denotes zero ((Src.init zero).run zero ops) n v) :
    (read zero fuel' [] (run zero fuel (init zero) ops) n).2 = .ok v := by
  obtain ⟨h1, h2⟩ := run_inv zero fuel ops _ _ (inv_init zero) (impl_init zero) ha
  generalize hs : run zero fuel (init zero) ops = s at h1 h2
  have hd' : Denotes zero (abs s zero) n v :=
    denotes_congr_src h2.1 h2.2.1 h2.2.2 hd
  have hok : ∃ w, (read zero fuel' [] s n).2 = .ok w := by
    cases hf : find s n with
    | none =>
      cases fuel' with
      | zero => omega
      | succ k => exact ⟨zero, by simp [read, hf]⟩
    | some M =>
      apply read_complete zero L fuel' [] s n h1 _ (by rw [hf]; simp) (by simp) List.nodup_nil (by simp)
        (by simpa using hfuel) ⟨v, hd'⟩ (by intro p hp; simp at hp)
      intro m hm
      obtain ⟨M', hM'⟩ := Option.ne_none_iff_exists'.mp hm
      obtain ⟨k, hk⟩ := abs_defn (zero := zero) hM'
      rw [h2.1] at hk
      exact hL m k _ hk
  obtain ⟨w, hw⟩ := hok
  have := read_fresh_partial zero fuel fuel' ops n w ha (by rw [hs]; exact hw)
  rw [hw, this.det hd]

/-! ### the excluded histories go wrong; concrete cases -/

section Examples

/-- `b = 2*a` -/
def dbl (a : Nat) : Dfn Nat Int := .expr [.model a] (fun vs => 2 * vs.headD 0)
def constant (c : Int) : Dfn Nat Int := .expr [] (fun _ => c)
def mul (a b : Nat) : Dfn Nat Int := .expr [.model a, .model b] (fun vs => vs.headD 0 * (vs.drop 1).headD 0)

/-- C15 fails without the hypothesis on `define`: redefining a model does not invalidate models that use it
(Region.cc:884-1035 does not call SignalCallbacks). Model 1 is a = 3, model 2 is b = 2*a; after reading b, a is
redefined as 5: b still reads 6, not 10. -/
theorem stale_after_redefinition :
    (read 0 9 [] (run (0 : Int) 9 (init 0)
      [.define .node 1 (constant 3), .define .node 2 (dbl 1), .read 2, .define .node 1 (constant 5)]) 2).2 = .ok 6 ∧
    Denotes 0 ((Src.init (0 : Int)).run 0
      [.define .node 1 (constant 3), .define .node 2 (dbl 1), .read 2, .define .node 1 (constant 5)]) 2 10 := by
  refine ⟨rfl, ?_⟩
  refine .expr (k := .node) (refs := [.model 1]) rfl (.model (v := 5) ?_ .nil) rfl
  exact .expr (k := .node) (refs := []) rfl .nil rfl

/-- The same with a model that is created only after a model mentioning it was read. -/
theorem stale_after_late_definition :
    (read 0 9 [] (run (0 : Int) 9 (init 0)
      [.define .node 2 (dbl 1), .read 2, .define .node 1 (constant 5)]) 2).2 = .ok 0 ∧
    Denotes 0 ((Src.init (0 : Int)).run 0
      [.define .node 2 (dbl 1), .read 2, .define .node 1 (constant 5)]) 2 10 := by
  refine ⟨rfl, ?_⟩
  refine .expr (k := .node) (refs := [.model 1]) rfl (.model (v := 5) ?_ .nil) rfl
  exact .expr (k := .node) (refs := []) rfl .nil rfl

/-- A redefinition made before anything was read still does harm later, because the old names stay registered
(Region.cc:1040-1043 only ever inserts).  Model 3 is first (solution 1)*(model 2), then redefined as 2*(solution 1); model 4 is
(model 3)*(model 2).  Reading 4 evaluates 3, then 2, and storing the values of 2 marks 3 out of date although it does
not use 2 any more; 4 ends up to date with 3 out of date, so a later change of the solution does not reach 4. -/
theorem stale_after_spurious_registration :
    (read 0 9 [] (run (0 : Int) 9 (init 0)
      [.define .node 1 .sol, .define .node 2 (constant 7), .define .node 3 (mul 1 2), .define .node 3 (dbl 1),
       .define .node 4 (mul 3 2), .setValues 1 1, .read 4, .setValues 1 10]) 4).2 = .ok 14 ∧
    Denotes 0 ((Src.init (0 : Int)).run 0
      [.define .node 1 .sol, .define .node 2 (constant 7), .define .node 3 (mul 1 2), .define .node 3 (dbl 1),
       .define .node 4 (mul 3 2), .setValues 1 1, .read 4, .setValues 1 10]) 4 140 := by
  refine ⟨rfl, ?_⟩
  refine .expr (k := .node) (refs := [.model 3, .model 2]) rfl (.model (v := 20) ?_ (.model (v := 7) ?_ .nil)) rfl
  · exact .expr (k := .node) (refs := [.model 1]) rfl (.model (v := 10) (.sol (k := .node) rfl) .nil) rfl
  · exact .expr (k := .node) (refs := []) rfl .nil rfl

/-- a history that meets the hypotheses of `read_fresh_partial`, and the value it gives -/
def hist : List (Op Nat Int) :=
  [.define .node 1 .sol, .define .node 2 (dbl 1), .define .edge 3 (mul 1 2), .setValues 1 5, .read 3, .setPar 9 4,
   .setValues 1 6, .delete .node 2]

theorem hist_allowed : (Src.init (0 : Int)).AllowedAll 0 hist := by
  refine ⟨?_, ?_, ?_, ?_, trivial, trivial, ?_, trivial, trivial⟩
  · refine ⟨rfl, ?_, ?_⟩
    · intro m k d h; cases h
    · intro refs f h; cases h
  · refine ⟨rfl, ?_, ?_⟩
    · intro m k d h
      simp only [Src.step, Src.init] at h
      split at h
      · cases h; simp [Dfn.names]
      · cases h
    · intro refs f h p hp; cases h; simp at hp
  · refine ⟨rfl, ?_, ?_⟩
    · intro m k d h
      have h : (if m = 2 then some (Kind.node, dbl 1) else if m = 1 then some (Kind.node, Dfn.sol) else none) =
        some (k, d) := h
      split at h
      · simp only [Option.some.injEq, Prod.mk.injEq] at h; rw [← h.2]; simp [Dfn.names, dbl, Ref.name]
      · split at h
        · simp only [Option.some.injEq, Prod.mk.injEq] at h; rw [← h.2]; simp [Dfn.names]
        · cases h
    · intro refs f h p hp; cases h; simp at hp
  · intro k d h; cases h; rfl
  · intro k d h; cases h; rfl

example : (read 0 9 [] (run (0 : Int) 9 (init 0) (hist.take 5)) 3).2 = .ok 50 := rfl
example : (read 0 9 [] (run (0 : Int) 9 (init 0) (hist.take 7)) 3).2 = .ok 72 := rfl
example : (read 0 9 [] (run (0 : Int) 9 (init 0) hist) 3).2 = .ok 0 := rfl
example : Denotes 0 ((Src.init (0 : Int)).run 0 hist) 3 0 := read_fresh_partial 0 9 9 hist 3 0 hist_allowed rfl
/-- a cyclic pair of definitions: the signal still terminates and the read reports the cycle -/
example : (read 0 9 [] (run (0 : Int) 9 (init 0) [.define .node 1 (dbl 2), .define .node 2 (dbl 1)]) 1).2 = .cyclic :=
  rfl
example : ∃ t, signal 3 (run (0 : Int) 9 (init 0) [.define .node 1 (dbl 2), .define .node 2 (dbl 1)]) 1 = some t :=
  signal_terminates _ _ _ (by decide)
example : define (0 : Int) (run 0 9 (init 0) hist) .edge 1 (dbl 3) = none :=
  (define_other_kind_refused 0 9 hist 1 .edge .node _ (by decide) rfl).1

end Examples

end Verif.Deps
