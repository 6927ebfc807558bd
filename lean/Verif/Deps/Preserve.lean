import Verif.Deps.Steps
namespace Verif.Deps
variable {N V : Type} [DecidableEq N]

theorem isUtd_congr {s t : St N V} {n : N} (h : find t n = find s n) : U t n ↔ U s n := by
  unfold U isUtd; rw [h]

theorem Cleared.unique {s t : St N V} (h : Cleared s t) (hu : Unique s) : Unique t := by
  intro n k1 k2 h1 h2
  rw [h.tabs] at h1 h2
  exact hu n k1 k2 h1 h2

theorem Cleared.find_some {s t : St N V} (h : Cleared s t) {n : N} {M : M N V} (hf : find t n = some M) :
    ∃ M', find s n = some M' ∧ M'.dfn = M.dfn ∧ M'.val = M.val := by
  rw [h.fnd n] at hf
  cases hs : find s n with
  | none => rw [hs] at hf; cases hf
  | some M' =>
    rw [hs] at hf
    simp only [Option.map_some, Option.some.injEq] at hf
    refine ⟨M', rfl, ?_, ?_⟩ <;> rw [← hf]

theorem Cleared.find_none {s t : St N V} (h : Cleared s t) (n : N) : find t n = none ↔ find s n = none := by
  rw [h.fnd n]; simp

theorem Cleared.find_U {s t : St N V} (h : Cleared s t) {n : N} (hU : U t n) : find t n = find s n := by
  have h1 := h.sub n hU
  obtain ⟨M, h2, h3⟩ := U_find h1
  rw [h.fnd n, h2]
  have : isUtd t n = true := hU
  rw [this]
  cases M; simp only at h3; subst h3; rfl

/-- A change of the sources at the name `x` followed by SignalCallbacks(x) keeps the invariant. -/
theorem inv_after_signal (zero : V) (s s' : St N V) (x : N) (hi : Inv zero s) (hu : Unique s')
    (hreg : ∀ n M, find s' n = some M → ∀ y ∈ M.dfn.names, D s' n y)
    (hspur : ∀ n y, D s' n y → ∃ M, find s' n = some M ∧ y ∈ M.dfn.names)
    (hsep : ∀ n M refs f, find s' n = some M → M.dfn = .expr refs f → ∀ p, Ref.par p ∈ refs → find s' p = none)
    (hfu : ∀ m, U s' m → find s' m = find s m ∧ findKind s' m = findKind s m)
    (hf : ∀ m, m ≠ x → find s' m = find s m ∧ findKind s' m = findKind s m)
    (hp : ∀ q, q ≠ x → s'.par q = s.par q) : Inv zero (signalAll s' x) := by
  obtain ⟨⟨hc, hg⟩, hx⟩ := signalAll_good s' x
  generalize signalAll s' x = t at hc hg hx
  have key : ∀ m M refs f, find t m = some M → M.dfn = .expr refs f → U t m → ∀ r, Ref.model r ∈ refs →
      r ≠ x ∧ (find t r ≠ none → U t r) := by
    intro m M refs f hm hd hU r hr
    obtain ⟨M', hm', hd', _⟩ := hc.find_some hm
    have hDr : D s' m r := hreg m M' hm' r (by
      rw [hd', hd]; simp only [Dfn.names, List.mem_map]; exact ⟨_, hr, rfl⟩)
    have hrx : r ≠ x := by rintro rfl; exact hx m hDr hU
    refine ⟨hrx, ?_⟩
    intro hfr
    have hU' := hc.sub m hU
    have hms := (hfu m hU').1
    have hfr' : find s' r ≠ none := fun h => hfr ((hc.find_none r).mpr h)
    have h1 := hi.closed m M' refs f (by rw [← hms]; exact hm') (by rw [hd', hd]) ((isUtd_congr hms).mp hU') r hr
      (by rw [← (hf r hrx).1]; exact hfr')
    have h2 : U s' r := (isUtd_congr (hf r hrx).1).mpr h1
    apply Classical.byContradiction
    intro h3
    exact hg r h2 h3 m hDr hU
  refine ⟨hc.unique hu, ?_, ?_, ?_, ?_, ?_⟩
  · intro n M hn y hy
    obtain ⟨M', h1, h2, _⟩ := hc.find_some hn
    rw [D_congr hc.deps]
    exact hreg n M' h1 y (by rw [h2]; exact hy)
  · intro n y hd
    rw [D_congr hc.deps] at hd
    obtain ⟨M', h1, h2⟩ := hspur n y hd
    refine ⟨{ M' with utd := isUtd t n }, ?_, h2⟩
    rw [hc.fnd n, h1]; rfl
  · intro n M refs f hn hd hU r hr hfr
    exact (key n M refs f hn hd hU r hr).2 hfr
  · intro n M hn hU
    have hU' := hc.sub n hU
    have hns := (hfu n hU').1
    have hn' := hc.find_U hU
    have hden := hi.den n M (by rw [← hns, ← hn']; exact hn) ((isUtd_congr hns).mp hU')
    rw [hc.abs]
    apply denotes_transfer (X := fun m => U t m) _ hden hU
    intro m hm
    have hm' := hc.sub m hm
    obtain ⟨hm1, hm2⟩ := hfu m hm'
    have hdefn : (abs s' zero).defn m = (abs s zero).defn m := by
      obtain ⟨M1, hM1, _⟩ := U_find hm'
      obtain ⟨k1, e1, e2⟩ := find_some_kind hM1
      rw [hm1] at hM1
      obtain ⟨k2, e3, e4⟩ := find_some_kind hM1
      rw [hm2] at e1
      rw [e3] at e1; cases e1
      simp only [abs]
      rw [hm2, e3]
      simp only [e2, e4]
    refine ⟨hdefn, ?_, ?_⟩
    · intro k _
      simp only [abs]; rw [hm1]
    · intro k refs f hdf r hr
      obtain ⟨M1, hM1, hM2, _⟩ := abs_defn_some hdf
      have hMt : find t m = some M1 := by rw [hc.find_U hm, hm1, hM1]
      cases r with
      | par p =>
        simp only
        apply hp
        rintro rfl
        apply hx m _ hm
        apply hreg m M1 (by rw [hm1, hM1])
        rw [hM2]; simp only [Dfn.names, List.mem_map]; exact ⟨_, hr, rfl⟩
      | model r =>
        simp only
        obtain ⟨h1, h2⟩ := key m M1 refs f hMt hM2 hm r hr
        by_cases hrt : find t r = none
        · right
          have h3 := (hc.find_none r).mp hrt
          have h4 : find s r = none := by rw [← (hf r h1).1]; exact h3
          exact ⟨abs_defn_none.mpr h4, abs_defn_none.mpr h3⟩
        · exact .inl (h2 hrt)
  · intro n M refs f hn hd p hp'
    obtain ⟨M', h1, h2, _⟩ := hc.find_some hn
    exact (hc.find_none p).mpr (hsep n M' refs f h1 (by rw [h2, hd]) p hp')

/-! ### setPar -/

theorem inv_setPar (zero : V) (s : St N V) (p : N) (v : V) (hi : Inv zero s) : Inv zero (setPar s p v) := by
  unfold setPar
  refine inv_after_signal zero s _ p hi hi.uniq hi.reg hi.noSpur hi.parSep (fun m _ => ⟨rfl, rfl⟩)
    (fun m _ => ⟨rfl, rfl⟩) ?_
  intro q hq
  simp only
  rw [if_neg hq]

/-! ### setValues of a solution -/

theorem inv_setValues (zero : V) (s : St N V) (n : N) (M : M N V) (v : V) (hi : Inv zero s)
    (hf : find s n = some M) (hd : M.dfn = .sol) : Inv zero (setValues s n v) := by
  have e : setValues s n v = modify (signalAll (clearUtd (modify s n (fun m => { m with val := v })) n) n) n
      (fun m => { m with utd := true }) := rfl
  rw [e]
  have hfs : ∀ m, find (clearUtd (modify s n (fun m => { m with val := v })) n) m =
      if m = n then some { M with val := v, utd := false } else find s m := by
    intro m
    unfold clearUtd
    rw [find_modify, find_modify, find_modify, hf]
    by_cases h : m = n
    · rw [if_pos h, if_pos rfl, if_pos h]; rfl
    · rw [if_neg h, if_neg h, if_neg h]
  have hks : ∀ m, findKind (clearUtd (modify s n (fun m => { m with val := v })) n) m = findKind s m := by
    intro m; unfold clearUtd; rw [findKind_modify, findKind_modify]
  have hds : (clearUtd (modify s n (fun m => { m with val := v })) n).deps = s.deps := by simp [clearUtd]
  have hps : (clearUtd (modify s n (fun m => { m with val := v })) n).par = s.par := by simp [clearUtd]
  have hnu := not_U_clearUtd (modify s n (fun m => { m with val := v })) n
  have huq : Unique (clearUtd (modify s n (fun m => { m with val := v })) n) :=
    unique_modify (unique_modify hi.uniq _ _) _ _
  generalize clearUtd (modify s n (fun m => { m with val := v })) n = s' at hfs hks hds hps hnu huq
  have hold : ∀ m M', find s' m = some M' → ∃ M0, find s m = some M0 ∧ M0.dfn = M'.dfn := by
    intro m M' h
    rw [hfs] at h
    by_cases hm : m = n
    · subst hm; rw [if_pos rfl] at h; cases h; exact ⟨M, hf, rfl⟩
    · rw [if_neg hm] at h; exact ⟨M', h, rfl⟩
  have hnone : ∀ m, find s m = none → find s' m = none := by
    intro m h
    rw [hfs]
    by_cases hm : m = n
    · subst hm; rw [hf] at h; cases h
    · rw [if_neg hm]; exact h
  have h3 : Inv zero (signalAll s' n) := by
    refine inv_after_signal zero s s' n hi huq ?_ ?_ ?_ ?_ ?_ ?_
    · intro m M' hm y hy
      obtain ⟨M0, h1, h2⟩ := hold m M' hm
      rw [D_congr hds]
      exact hi.reg m M0 h1 y (by rw [h2]; exact hy)
    · intro m y hD
      rw [D_congr hds] at hD
      obtain ⟨M0, h1, h2⟩ := hi.noSpur m y hD
      by_cases hm : m = n
      · subst hm; rw [hf] at h1; cases h1
        exact ⟨{ M with val := v, utd := false }, by rw [hfs, if_pos rfl], h2⟩
      · exact ⟨M0, by rw [hfs, if_neg hm]; exact h1, h2⟩
    · intro m M' refs f hm hd' p hp
      obtain ⟨M0, h1, h2⟩ := hold m M' hm
      exact hnone p (hi.parSep m M0 refs f h1 (by rw [h2, hd']) p hp)
    · intro m hm
      have : m ≠ n := by rintro rfl; exact hnu hm
      exact ⟨by rw [hfs, if_neg this], hks m⟩
    · intro m hm
      exact ⟨by rw [hfs, if_neg hm], hks m⟩
    · intro q _; rw [hps]
  obtain ⟨⟨hc, _⟩, _⟩ := signalAll_good s' n
  have hn3 : ¬ U (signalAll s' n) n := fun h => hnu (hc.sub n h)
  generalize signalAll s' n = s3 at h3 hc hn3
  have hf3 : find s3 n = some { M with val := v, utd := isUtd s3 n } := by
    rw [hc.fnd n, hfs, if_pos rfl]; rfl
  exact (finish_ok zero [] s3 n _ v h3 hf3 hn3 (by simp) _
    (fun m => findKind_modify _ _ _ _) (by simp) (by simp) (unique_modify h3.uniq _ _)
    (by
      intro m; rw [find_modify, hf3]
      by_cases h : m = n
      · rw [if_pos h, if_pos h]; rfl
      · rw [if_neg h, if_neg h])
    (fun _ => rfl) (by intro refs f h; simp only at h; rw [hd] at h; cases h)).1.inv

/-! ### delete -/

theorem findKind_unique {s : St N V} (hu : Unique s) {n : N} {k : Kind} (h : (s.tab k n).isSome) :
    findKind s n = some k := by
  cases hk : findKind s n with
  | none => rw [findKind_none hk k] at h; cases h
  | some k' => rw [hu n k' k (findKind_some hk) h]

theorem find_unique {s : St N V} (hu : Unique s) {n : N} {k : Kind} (h : (s.tab k n).isSome) :
    find s n = s.tab k n := by
  unfold find; rw [findKind_unique hu h]

theorem inv_delete (zero : V) (s : St N V) (k : Kind) (n : N) (hi : Inv zero s) : Inv zero (delete s k n) := by
  unfold delete
  by_cases hk : (s.tab k n).isSome = true
  · rw [if_pos hk]
    have htab : ∀ k' m, (setTab (unregister s n) k n none).tab k' m = if m = n then none else s.tab k' m := by
      intro k' m
      simp only [setTab, unregister]
      by_cases hm : m = n
      · subst hm
        rw [if_pos rfl]
        by_cases hkk : k' = k
        · rw [if_pos ⟨hkk, rfl⟩]
        · rw [if_neg (by simp [hkk])]
          cases h : s.tab k' m with
          | none => rfl
          | some x => exact absurd (hi.uniq m k' k (by rw [h]; rfl) hk) hkk
      · rw [if_neg (by simp [hm]), if_neg hm]
    have hfk : ∀ m, m ≠ n → findKind (setTab (unregister s n) k n none) m = findKind s m := by
      intro m hm
      apply findKind_congr
      intro k'; rw [htab, if_neg hm]
    have hfkn : findKind (setTab (unregister s n) k n none) n = none := by
      unfold findKind
      rw [htab, htab, htab, htab]; simp
    have hfn : find (setTab (unregister s n) k n none) n = none := find_eq_none.mpr hfkn
    have hfo : ∀ m, m ≠ n → find (setTab (unregister s n) k n none) m = find s m := by
      intro m hm
      unfold find
      rw [hfk m hm]
      cases findKind s m with
      | none => rfl
      | some k' => simp only; rw [htab, if_neg hm]
    have hD : ∀ m y, D (setTab (unregister s n) k n none) m y ↔ D s m y ∧ m ≠ n := by
      intro m y
      unfold D
      simp only [setTab, unregister, List.mem_filter, decide_not, Bool.not_eq_true', decide_eq_false_iff_not]
      constructor
      · rintro ⟨ds, ⟨h1, h2⟩, h3⟩; exact ⟨⟨ds, h1, h3⟩, h2⟩
      · rintro ⟨⟨ds, h1, h3⟩, h2⟩; exact ⟨ds, ⟨h1, h2⟩, h3⟩
    have hpar : (setTab (unregister s n) k n none).par = s.par := rfl
    generalize setTab (unregister s n) k n none = s' at htab hfk hfkn hfn hfo hD hpar
    have hne : ∀ {m M'}, find s' m = some M' → m ≠ n := by
      rintro m M' h rfl; rw [hfn] at h; cases h
    refine inv_after_signal zero s s' n hi ?_ ?_ ?_ ?_ ?_ ?_ ?_
    · intro m k1 k2 h1 h2
      rw [htab] at h1 h2
      by_cases hm : m = n
      · rw [if_pos hm] at h1; cases h1
      · rw [if_neg hm] at h1 h2; exact hi.uniq m k1 k2 h1 h2
    · intro m M' hm y hy
      have := hne hm
      rw [hfo m this] at hm
      exact (hD m y).mpr ⟨hi.reg m M' hm y hy, this⟩
    · intro m y h
      obtain ⟨h1, h2⟩ := (hD m y).mp h
      rw [hfo m h2]
      exact hi.noSpur m y h1
    · intro m M' refs f hm hd p hp
      have := hne hm
      rw [hfo m this] at hm
      by_cases hpn : p = n
      · rw [hpn]; exact hfn
      · rw [hfo p hpn]; exact hi.parSep m M' refs f hm hd p hp
    · intro m hm
      obtain ⟨M', h1, _⟩ := U_find hm
      exact ⟨hfo m (hne h1), hfk m (hne h1)⟩
    · intro m hm; exact ⟨hfo m hm, hfk m hm⟩
    · intro q _; rw [hpar]
  · rw [if_neg hk]; exact hi

/-! ### define -/

theorem tab_register (s : St N V) (n d : N) : (register s n d).tab = s.tab := by
  unfold register; split <;> rfl
theorem par_register (s : St N V) (n d : N) : (register s n d).par = s.par := by
  unfold register; split <;> rfl

theorem D_register (s : St N V) (n d m x : N) : D (register s n d) m x ↔ D s m x ∨ (m = n ∧ x = d) := by
  unfold register
  split
  · rename_i h
    unfold D
    simp only [List.mem_map]
    constructor
    · rintro ⟨ds, ⟨⟨a, b⟩, h1, h2⟩, h3⟩
      simp only at h2
      split at h2
      · rename_i ha
        simp only [Prod.mk.injEq] at h2
        obtain ⟨e1, e2⟩ := h2
        subst e1; subst e2; subst ha
        split at h3
        · exact .inl ⟨b, h1, h3⟩
        · simp only [List.mem_cons] at h3
          rcases h3 with h3 | h3
          · exact .inr ⟨rfl, h3⟩
          · exact .inl ⟨b, h1, h3⟩
      · simp only [Prod.mk.injEq] at h2
        obtain ⟨e1, e2⟩ := h2
        subst e1; subst e2
        exact .inl ⟨b, h1, h3⟩
    · rintro (⟨ds, h1, h2⟩ | ⟨rfl, rfl⟩)
      · by_cases hm : m = n
        · subst hm
          refine ⟨if ds.contains d then ds else d :: ds, ⟨(m, ds), h1, by simp only [if_pos]⟩, ?_⟩
          split
          · exact h2
          · simp [h2]
        · exact ⟨ds, ⟨(m, ds), h1, by simp only [if_neg hm]⟩, h2⟩
      · simp only [List.any_eq_true, decide_eq_true_eq] at h
        obtain ⟨⟨a, b⟩, h1, h2⟩ := h
        simp only at h2; subst h2
        refine ⟨if b.contains x then b else x :: b, ⟨(a, b), h1, by simp only [if_pos]⟩, ?_⟩
        split
        · rename_i h; simpa using h
        · simp
  · unfold D
    simp only [List.mem_cons, Prod.mk.injEq]
    constructor
    · rintro ⟨ds, (⟨rfl, rfl⟩ | h1), h2⟩
      · right; exact ⟨rfl, by simpa using h2⟩
      · exact .inl ⟨ds, h1, h2⟩
    · rintro (⟨ds, h1, h2⟩ | ⟨rfl, rfl⟩)
      · exact ⟨ds, .inr h1, h2⟩
      · exact ⟨[x], .inl ⟨rfl, rfl⟩, by simp⟩

theorem foldl_register (n : N) : ∀ (l : List N) (s : St N V),
    (l.foldl (fun s x => register s n x) s).tab = s.tab ∧ (l.foldl (fun s x => register s n x) s).par = s.par ∧
    ∀ m x, D (l.foldl (fun s x => register s n x) s) m x ↔ D s m x ∨ (m = n ∧ x ∈ l) := by
  intro l
  induction l with
  | nil => intro s; simp
  | cons d l ih =>
    intro s
    obtain ⟨h1, h2, h3⟩ := ih (register s n d)
    refine ⟨h1.trans (tab_register s n d), h2.trans (par_register s n d), ?_⟩
    intro m x
    simp only [List.foldl_cons]
    rw [h3, D_register]
    simp only [List.mem_cons]
    constructor
    · rintro ((h | h) | h)
      · exact .inl h
      · exact .inr ⟨h.1, .inl h.2⟩
      · exact .inr ⟨h.1, .inr h.2⟩
    · rintro (h | ⟨h, (h' | h')⟩)
      · exact .inl (.inl h)
      · exact .inl (.inr ⟨h, h'⟩)
      · exact .inr ⟨h, h'⟩

/-- state after a successful define -/
theorem define_spec (zero : V) (s t : St N V) (k : Kind) (n : N) (d : Dfn N V) (h : define zero s k n d = some t) :
    ((s.tab k n).isSome ∨ findKind s n = none) ∧
    (∀ k' m, t.tab k' m = if k' = k ∧ m = n then some { dfn := d, utd := false, val := zero } else s.tab k' m) ∧
    t.par = s.par ∧ (∀ m x, D t m x ↔ D s m x ∨ (m = n ∧ x ∈ d.names)) := by
  unfold define addModel at h
  by_cases h1 : (s.tab k n).isSome = true
  · rw [if_pos h1] at h
    simp only [Option.some.injEq] at h
    subst h
    obtain ⟨e1, e2, e3⟩ := foldl_register n d.names (setTab s k n (some { dfn := d, utd := false, val := zero }))
    refine ⟨.inl h1, ?_, e2, ?_⟩
    · intro k' m; rw [e1]; rfl
    · intro m x; rw [e3]; rfl
  · rw [if_neg h1] at h
    by_cases h2 : (findKind s n).isSome = true
    · rw [if_pos h2] at h; cases h
    · rw [if_neg h2] at h
      simp only [Option.some.injEq] at h
      subst h
      obtain ⟨e1, e2, e3⟩ := foldl_register n d.names (setTab s k n (some { dfn := d, utd := false, val := zero }))
      refine ⟨.inr (by simpa using h2), ?_, e2, ?_⟩
      · intro k' m; rw [e1]; rfl
      · intro m x; rw [e3]; rfl

theorem unique_define (zero : V) (s t : St N V) (k : Kind) (n : N) (d : Dfn N V) (h : define zero s k n d = some t)
    (hu : Unique s) : Unique t := by
  obtain ⟨h1, h2, _⟩ := define_spec zero s t k n d h
  have key : ∀ k', (s.tab k' n).isSome → k' = k := by
    intro k' hk'
    rcases h1 with h1 | h1
    · exact hu n k' k hk' h1
    · rw [findKind_none h1 k'] at hk'; cases hk'
  intro m k1 k2 e1 e2
  rw [h2] at e1 e2
  by_cases hm : m = n
  · subst hm
    by_cases c1 : k1 = k
    · by_cases c2 : k2 = k
      · rw [c1, c2]
      · rw [if_neg (by simp [c2])] at e2
        exact absurd (key k2 e2) c2
    · rw [if_neg (by simp [c1])] at e1
      exact absurd (key k1 e1) c1
  · rw [if_neg (by simp [hm])] at e1 e2
    exact hu m k1 k2 e1 e2

theorem define_find (zero : V) (s t : St N V) (k : Kind) (n : N) (d : Dfn N V) (h : define zero s k n d = some t)
    (hu : Unique s) : (∀ m, find t m = if m = n then some { dfn := d, utd := false, val := zero } else find s m) ∧
      findKind t n = some k ∧ ∀ m, m ≠ n → findKind t m = findKind s m := by
  obtain ⟨_, h2, _⟩ := define_spec zero s t k n d h
  have hut := unique_define zero s t k n d h hu
  have hkn : findKind t n = some k := findKind_unique hut (by rw [h2, if_pos ⟨rfl, rfl⟩]; rfl)
  have hko : ∀ m, m ≠ n → findKind t m = findKind s m := by
    intro m hm; apply findKind_congr; intro k'; rw [h2, if_neg (by simp [hm])]
  refine ⟨?_, hkn, hko⟩
  intro m
  by_cases hm : m = n
  · subst hm
    rw [if_pos rfl]
    unfold find; rw [hkn]; simp only; rw [h2, if_pos ⟨rfl, rfl⟩]
  · rw [if_neg hm]
    unfold find; rw [hko m hm]
    cases findKind s m with
    | none => rfl
    | some k' => simp only; rw [h2, if_neg (by simp [hm])]

theorem inv_define (zero : V) (s t : St N V) (k : Kind) (n : N) (d : Dfn N V) (h : define zero s k n d = some t)
    (hi : Inv zero s) (hnew : find s n = none)
    (huse : ∀ m M, find s m = some M → n ∉ M.dfn.names)
    (hpar : ∀ refs f, d = .expr refs f → ∀ p, Ref.par p ∈ refs → p ≠ n ∧ find s p = none) : Inv zero t := by
  obtain ⟨_, h2, hpr, hD⟩ := define_spec zero s t k n d h
  obtain ⟨hfind, hkn, hko⟩ := define_find zero s t k n d h hi.uniq
  have hU : ∀ m, U t m → m ≠ n ∧ U s m := by
    intro m hm
    have hmn : m ≠ n := by
      rintro rfl
      obtain ⟨M, h3, h4⟩ := U_find hm
      rw [hfind, if_pos rfl] at h3
      cases h3; cases h4
    refine ⟨hmn, ?_⟩
    exact (isUtd_congr (by rw [hfind, if_neg hmn])).mp hm
  have hU' : ∀ m, U s m → U t m := by
    intro m hm
    have hmn : m ≠ n := by
      rintro rfl
      obtain ⟨M, h3, h4⟩ := U_find hm
      rw [hnew] at h3; cases h3
    exact (isUtd_congr (by rw [hfind, if_neg hmn])).mpr hm
  refine ⟨unique_define zero s t k n d h hi.uniq, ?_, ?_, ?_, ?_, ?_⟩
  · intro m M hm x hx
    rw [hD]
    rw [hfind] at hm
    by_cases hmn : m = n
    · rw [if_pos hmn] at hm; cases hm
      exact .inr ⟨hmn, hx⟩
    · rw [if_neg hmn] at hm; exact .inl (hi.reg m M hm x hx)
  · intro m x hd
    rcases (hD m x).mp hd with h3 | ⟨rfl, h3⟩
    · obtain ⟨M, h4, h5⟩ := hi.noSpur m x h3
      have hmn : m ≠ n := by rintro rfl; rw [hnew] at h4; cases h4
      exact ⟨M, by rw [hfind, if_neg hmn]; exact h4, h5⟩
    · exact ⟨_, by rw [hfind, if_pos rfl], h3⟩
  · intro m M refs f hm hd hUm r hr hfr
    obtain ⟨hmn, hUs⟩ := hU m hUm
    rw [hfind, if_neg hmn] at hm
    have hrn : r ≠ n := by
      rintro rfl
      apply huse m M hm
      rw [hd]; simp only [Dfn.names, List.mem_map]; exact ⟨_, hr, rfl⟩
    rw [hfind, if_neg hrn] at hfr
    exact hU' r (hi.closed m M refs f hm hd hUs r hr hfr)
  · intro m M hm hUm
    obtain ⟨hmn, hUs⟩ := hU m hUm
    rw [hfind, if_neg hmn] at hm
    have hden := hi.den m M hm hUs
    apply denotes_transfer (X := fun m => U s m) _ hden hUs
    intro m' hm'
    have hmn' : m' ≠ n := (hU m' (hU' m' hm')).1
    refine ⟨?_, ?_, ?_⟩
    · simp only [abs]
      rw [hko m' hmn']
      cases findKind s m' with
      | none => rfl
      | some k' => simp only; rw [h2, if_neg (by simp [hmn'])]
    · intro k' _; simp only [abs]; rw [hfind, if_neg hmn']
    · intro k' refs f hdf r hr
      obtain ⟨M1, hM1, hM2, _⟩ := abs_defn_some hdf
      cases r with
      | par p => simp only [abs]; rw [hpr]
      | model r =>
        simp only
        have hrn : r ≠ n := by
          rintro rfl
          apply huse m' M1 hM1
          rw [hM2]; simp only [Dfn.names, List.mem_map]; exact ⟨_, hr, rfl⟩
        by_cases hfr : find s r = none
        · right
          refine ⟨abs_defn_none.mpr hfr, abs_defn_none.mpr ?_⟩
          rw [hfind, if_neg hrn]; exact hfr
        · exact .inl (hi.closed m' M1 refs f hM1 hM2 hm' r hr hfr)
  · intro m M refs f hm hd p hp
    rw [hfind] at hm ⊢
    by_cases hmn : m = n
    · rw [if_pos hmn] at hm; cases hm
      obtain ⟨h3, h4⟩ := hpar refs f hd p hp
      rw [if_neg h3]; exact h4
    · rw [if_neg hmn] at hm
      have hpn : p ≠ n := by
        rintro rfl
        apply huse m M hm
        rw [hd]; simp only [Dfn.names, List.mem_map]; exact ⟨_, hp, rfl⟩
      rw [if_neg hpn]
      exact hi.parSep m M refs f hm hd p hp

end Verif.Deps
