import Verif.Deps.Lemmas
namespace Verif.Deps
variable {N V : Type} [DecidableEq N]

/-- one kind per name -/
def Unique (s : St N V) : Prop := ∀ n k1 k2, (s.tab k1 n).isSome → (s.tab k2 n).isSome → k1 = k2

/-- what the state says about definitions, forgetting caches -/
def abs (s : St N V) (zero : V) : Src N V where
  defn n := match findKind s n with
    | some k => (s.tab k n).map (fun m => (k, m.dfn))
    | none => none
  data n := match find s n with
    | some m => m.val
    | none => zero
  par := s.par

theorem abs_defn {s : St N V} {zero : V} {n : N} {M : M N V} (h : find s n = some M) :
    ∃ k, (abs s zero).defn n = some (k, M.dfn) := by
  obtain ⟨k, h1, h2⟩ := find_some_kind h
  exact ⟨k, by simp [abs, h1, h2]⟩

theorem abs_defn_none {s : St N V} {zero : V} {n : N} : (abs s zero).defn n = none ↔ find s n = none := by
  constructor
  · intro h
    cases hf : find s n with
    | none => rfl
    | some M =>
      obtain ⟨k, h2⟩ := abs_defn (zero := zero) hf
      rw [h2] at h; cases h
  · intro h
    rw [find_eq_none] at h
    simp [abs, h]

theorem abs_defn_some {s : St N V} {zero : V} {n : N} {k : Kind} {d : Dfn N V}
    (h : (abs s zero).defn n = some (k, d)) : ∃ M, find s n = some M ∧ M.dfn = d ∧ findKind s n = some k := by
  simp only [abs] at h
  cases hk : findKind s n with
  | none => simp [hk] at h
  | some k' =>
    simp only [hk, Option.map_eq_some_iff] at h
    obtain ⟨M, h1, h2⟩ := h
    cases h2
    exact ⟨M, by simp [find, hk, h1], rfl, rfl⟩

/-- the source part of the state is unchanged, apart from data of expression models -/
def SameSrc (s t : St N V) (zero : V) : Prop :=
  (abs t zero).defn = (abs s zero).defn ∧ (abs t zero).par = (abs s zero).par ∧
  ∀ n k, (abs s zero).defn n = some (k, .sol) → (abs t zero).data n = (abs s zero).data n

theorem SameSrc.refl (s : St N V) (zero : V) : SameSrc s s zero := ⟨rfl, rfl, fun _ _ _ => rfl⟩

theorem SameSrc.trans {s t u : St N V} {zero : V} (h1 : SameSrc s t zero) (h2 : SameSrc t u zero) :
    SameSrc s u zero :=
  ⟨h2.1.trans h1.1, h2.2.1.trans h1.2.1, fun n k h => (h2.2.2 n k (by rw [h1.1]; exact h)).trans (h1.2.2 n k h)⟩

mutual
theorem denotes_congr_src {zero : V} {a b : Src N V} (hd : b.defn = a.defn) (hp : b.par = a.par)
    (hs : ∀ n k, a.defn n = some (k, .sol) → b.data n = a.data n) :
    ∀ {n v}, Denotes zero a n v → Denotes zero b n v
  | _, _, .absent h => .absent (by rw [hd]; exact h)
  | n, _, .sol h => by
    rw [← hs n _ h]; exact .sol (by rw [hd]; exact h)
  | _, _, .expr h hr hv => .expr (by rw [hd]; exact h) (denotesRefs_congr_src hd hp hs hr) hv
theorem denotesRefs_congr_src {zero : V} {a b : Src N V} (hd : b.defn = a.defn) (hp : b.par = a.par)
    (hs : ∀ n k, a.defn n = some (k, .sol) → b.data n = a.data n) :
    ∀ {rs vs}, DenotesRefs zero a rs vs → DenotesRefs zero b rs vs
  | _, _, .nil => .nil
  | _, _, .par (p := p) h => by
    rw [← hp]; exact .par (denotesRefs_congr_src hd hp hs h)
  | _, _, .model h1 h2 => .model (denotes_congr_src hd hp hs h1) (denotesRefs_congr_src hd hp hs h2)
end

/-- Transfer of a denotation along a change of sources that does not touch a reference-closed set `X`. -/
def Closed (a b : Src N V) (X : N → Prop) : Prop :=
  ∀ n, X n → b.defn n = a.defn n ∧ (∀ k, a.defn n = some (k, .sol) → b.data n = a.data n) ∧
    ∀ k refs f, a.defn n = some (k, .expr refs f) → ∀ r ∈ refs, match r with
      | .par p => b.par p = a.par p
      | .model m => X m ∨ (a.defn m = none ∧ b.defn m = none)

mutual
theorem denotes_transfer {zero : V} {a b : Src N V} {X : N → Prop} (hc : Closed a b X) :
    ∀ {n v}, Denotes zero a n v → X n → Denotes zero b n v
  | n, _, .absent h, hx => .absent (by rw [(hc n hx).1]; exact h)
  | n, _, .sol h, hx => by
    rw [← (hc n hx).2.1 _ h]; exact .sol (by rw [(hc n hx).1]; exact h)
  | n, _, .expr (refs := refs) h hr hv, hx =>
    .expr (by rw [(hc n hx).1]; exact h) (denotesRefs_transfer hc hr ((hc n hx).2.2 _ _ _ h)) hv
theorem denotesRefs_transfer {zero : V} {a b : Src N V} {X : N → Prop} (hc : Closed a b X) :
    ∀ {rs vs}, DenotesRefs zero a rs vs → (∀ r ∈ rs, match r with
      | .par p => b.par p = a.par p
      | .model m => X m ∨ (a.defn m = none ∧ b.defn m = none)) → DenotesRefs zero b rs vs
  | _, _, .nil, _ => .nil
  | _, _, .par (p := p) h, hr => by
    have h1 := hr (.par p) (by simp)
    simp only at h1
    rw [← h1]; exact .par (denotesRefs_transfer hc h (fun r hm => hr r (by simp [hm])))
  | _, _, .model (n := m) h1 h2, hr => by
    have h3 := hr (.model m) (by simp)
    simp only at h3
    refine .model ?_ (denotesRefs_transfer hc h2 (fun r hm => hr r (by simp [hm])))
    rcases h3 with h3 | h3
    · exact denotes_transfer hc h1 h3
    · cases h1 with
      | absent _ => exact .absent h3.2
      | sol h => rw [h3.1] at h; cases h
      | expr h _ _ => rw [h3.1] at h; cases h
end

/-- The invariant of histories in which no name is redefined while it is in use. -/
structure Inv (zero : V) (s : St N V) : Prop where
  uniq : Unique s
  reg : ∀ n M, find s n = some M → ∀ x ∈ M.dfn.names, D s n x
  noSpur : ∀ n x, D s n x → ∃ M, find s n = some M ∧ x ∈ M.dfn.names
  closed : ∀ n M refs f, find s n = some M → M.dfn = .expr refs f → U s n →
    ∀ r, Ref.model r ∈ refs → find s r ≠ none → U s r
  den : ∀ n M, find s n = some M → U s n → Denotes zero (abs s zero) n M.val
  parSep : ∀ n M refs f, find s n = some M → M.dfn = .expr refs f → ∀ p, Ref.par p ∈ refs → find s p = none

theorem U_iff {s : St N V} {n : N} {M : M N V} (h : find s n = some M) : U s n ↔ M.utd = true := by
  unfold U isUtd; rw [h]

theorem U_find {s : St N V} {n : N} (h : U s n) : ∃ M, find s n = some M ∧ M.utd = true := by
  unfold U isUtd at h
  cases hf : find s n with
  | none => simp [hf] at h
  | some M => exact ⟨M, rfl, by simpa [hf] using h⟩

/-- State after finishing the evaluation of `n`. -/
theorem setValues_old (s : St N V) (n : N) (v : V) (h : ∀ m, D s m n → ¬ U s m) :
    setValues s n v = modify (clearUtd (modify s n (fun m => { m with val := v })) n) n
      (fun m => { m with utd := true }) := by
  unfold setValues
  simp only
  rw [signalAll_noop]
  intro m hm hU
  have hU2 := (cleared_clearUtd _ n).sub m hU
  have hd : D s m n := by
    unfold D clearUtd at hm; simpa [D] using hm
  apply h m hd
  unfold U isUtd at hU2 ⊢
  rw [find_modify] at hU2
  by_cases hmn : m = n
  · subst hmn; rw [if_pos rfl] at hU2
    cases hf : find s m with
    | none => simp [hf] at hU2
    | some M => simpa [hf] using hU2
  · rw [if_neg hmn] at hU2; exact hU2

theorem find_finished (s : St N V) (n m : N) (v : V) :
    find (modify (clearUtd (modify s n (fun m => { m with val := v })) n) n (fun m => { m with utd := true })) m =
      if m = n then (find s n).map (fun M => { M with val := v, utd := true }) else find s m := by
  unfold clearUtd
  rw [find_modify, find_modify, find_modify]
  by_cases h : m = n
  · subst h
    rw [if_pos rfl, if_pos rfl, if_pos rfl, if_pos rfl]
    cases find s m <;> rfl
  · rw [if_neg h, if_neg h]
    rw [find_modify, if_neg h, find_modify, if_neg h]

theorem findKind_finished (s : St N V) (n m : N) (v : V) :
    findKind (modify (clearUtd (modify s n (fun m => { m with val := v })) n) n (fun m => { m with utd := true })) m =
      findKind s m := by
  unfold clearUtd
  rw [findKind_modify, findKind_modify, findKind_modify]

theorem unique_modify {s : St N V} (h : Unique s) (n : N) (g) : Unique (modify s n g) := by
  intro m k1 k2 h1 h2
  rw [tab_isSome_modify] at h1 h2
  exact h m k1 k2 h1 h2

/-- abstract sources only depend on kinds, definitions, data of solutions and parameters -/
theorem defn_eq_of_find {s t : St N V} {zero : V} (hk : ∀ n, findKind t n = findKind s n)
    (hd : ∀ n, (find t n).map M.dfn = (find s n).map M.dfn) : (abs t zero).defn = (abs s zero).defn := by
  funext n
  have h1 := hd n
  simp only [abs]
  rw [hk]
  unfold find at h1
  rw [hk] at h1
  cases hk2 : findKind s n with
  | none => rfl
  | some k =>
    rw [hk2] at h1
    simp only at h1
    cases ht : t.tab k n with
    | none => rw [ht] at h1; cases hs : s.tab k n with
      | none => simp only [ht, hs]
      | some _ => rw [hs] at h1; cases h1
    | some a => rw [ht] at h1; cases hs : s.tab k n with
      | none => rw [hs] at h1; cases h1
      | some b =>
        rw [hs] at h1
        simp only [Option.map_some, Option.some.injEq] at h1
        simp only [ht, hs, Option.map_some, h1]

theorem Cleared.abs {s t : St N V} {zero : V} (h : Cleared s t) : abs t zero = abs s zero := by
  have h1 := defn_eq_of_find (zero := zero) h.kind (by
    intro n; rw [h.fnd n]; cases find s n <;> rfl)
  have h2 : (Deps.abs t zero).data = (Deps.abs s zero).data := by
    funext n
    simp only [Deps.abs]
    rw [h.fnd n]
    cases find s n <;> rfl
  have h3 : (Deps.abs t zero).par = (Deps.abs s zero).par := h.par
  cases ha : Deps.abs t zero
  cases hb : Deps.abs s zero
  rw [ha, hb] at h1 h2 h3
  simp only at h1 h2 h3
  rw [h1, h2, h3]

end Verif.Deps
