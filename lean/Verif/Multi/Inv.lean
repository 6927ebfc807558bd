import Verif.Multi.Spec
import Verif.Multi.Signal

/-! The invariant of clean histories. -/

namespace Verif.Multi

variable {N V : Type} [DecidableEq N]

/-- The order of declaration (`rk`) and the producer of each name (`own`). -/
structure Lay (N : Type) where
  rk : N → Nat
  own : N → N

/-- The structure: who computes whom, and what was declared. -/
structure Str (E : Env N V) (L : Lay N) (s : St N V) : Prop where
  named : Named s
  bound : ∀ n i, s.tab n = some i → i < s.next
  depsTab : ∀ m d, (m, d) ∈ s.deps → s.tab m ≠ none
  leaf : ∀ n i, s.tab n = some i → (s.heap i).dfn = .leaf → (∃ v, E n = some (.given v)) ∧ ∀ d, (n, d) ∉ s.deps
  prod : ∀ n i pol ins outs f, s.tab n = some i → (s.heap i).dfn = .prod pol ins outs f →
    E n = some (.out ins f 0) ∧ (∀ d, (n, d) ∈ s.deps ↔ d ∈ ins) ∧ (∀ m ∈ ins, E m ≠ none ∧ L.rk m < L.rk n) ∧
    (n :: outs).Nodup ∧ L.own n = n ∧
    ∀ j c, outs[j]? = some c → E c = some (.out ins f (j + 1)) ∧ L.rk c = L.rk n ∧ L.own c = n ∧
      (∀ ci, s.tab c = some ci → (s.heap i).kid j = some ci ∧ (s.heap ci).dfn = .sub i (some n) ∧
        (s.heap ci).kind = (s.heap i).kind) ∧
      (∀ ci, (s.heap i).kid j = some ci → (s.heap ci).name = c ∧ ci < s.next)
  sub : ∀ n i p q, s.tab n = some i → (s.heap i).dfn = .sub p q → ∃ q', q = some q' ∧
    (∀ d, (n, d) ∈ s.deps ↔ d = q') ∧ (∃ ins f k, E n = some (.out ins f k)) ∧ L.rk n = L.rk q' ∧ L.own n = q' ∧ (L.own q' = q' ∧ E q' ≠ none) ∧
    p < s.next ∧ (s.heap p).name = q' ∧
    (s.tab q' = none ∨ s.tab q' = some p ∧ ∃ pol ins outs f, (s.heap p).dfn = .prod pol ins outs f ∧ n ∈ outs)

/-- The flags and values. -/
structure Dyn (E : Env N V) (s : St N V) : Prop where
  closed : ∀ m d, (m, d) ∈ s.deps → utdName s m = true → utdName s d = true
  kids : ∀ n i p q, s.tab n = some i → (s.heap i).dfn = .sub p (some q) → utdName s q = true → utdName s n = true
  val : ∀ n i, s.tab n = some i → (s.heap i).utd = true → Val E n (s.heap i).val
  leafVal : ∀ n i, s.tab n = some i → (s.heap i).dfn = .leaf → E n = some (.given (s.heap i).val)

structure Inv (E : Env N V) (L : Lay N) (s : St N V) : Prop extends Str E L s, Dyn E s

/-- The same objects up to flags and values. -/
structure Same (s s' : St N V) : Prop where
  tab : s'.tab = s.tab
  deps : s'.deps = s.deps
  next : s'.next = s.next
  name : ∀ i, (s'.heap i).name = (s.heap i).name
  kind : ∀ i, (s'.heap i).kind = (s.heap i).kind
  dfn : ∀ i, (s'.heap i).dfn = (s.heap i).dfn
  kid : ∀ i, (s'.heap i).kid = (s.heap i).kid

theorem Same.refl (s : St N V) : Same s s := ⟨rfl, rfl, rfl, fun _ => rfl, fun _ => rfl, fun _ => rfl, fun _ => rfl⟩

theorem Same.trans {s s' s'' : St N V} (h : Same s s') (h' : Same s' s'') : Same s s'' where
  tab := h'.tab.trans h.tab
  deps := h'.deps.trans h.deps
  next := h'.next.trans h.next
  name i := (h'.name i).trans (h.name i)
  kind i := (h'.kind i).trans (h.kind i)
  dfn i := (h'.dfn i).trans (h.dfn i)
  kid i := (h'.kid i).trans (h.kid i)

theorem Frame.same {s s' : St N V} (h : Frame s s') : Same s s' where
  tab := h.tab
  deps := h.deps
  next := h.next
  name i := by rw [(h.heap i).1]
  kind i := by rw [(h.heap i).1]
  dfn i := by rw [(h.heap i).1]
  kid i := by rw [(h.heap i).1]

/-- Only flag and value of one object. -/
theorem same_setObj (s : St N V) (i : Nat) (v : V) (b : Bool) : Same s (setObj s i { s.heap i with val := v, utd := b }) where
  tab := rfl
  deps := rfl
  next := rfl
  name j := by by_cases h : j = i <;> [subst h; skip] <;> simp [setObj, *]
  kind j := by by_cases h : j = i <;> [subst h; skip] <;> simp [setObj, *]
  dfn j := by by_cases h : j = i <;> [subst h; skip] <;> simp [setObj, *]
  kid j := by by_cases h : j = i <;> [subst h; skip] <;> simp [setObj, *]

theorem Str.same {E : Env N V} {L : Lay N} {s s' : St N V} (h : Str E L s) (hs : Same s s') : Str E L s' where
  named n i hi := by rw [hs.tab] at hi; rw [hs.name]; exact h.named n i hi
  bound n i hi := by rw [hs.tab] at hi; rw [hs.next]; exact h.bound n i hi
  depsTab m d hd := by rw [hs.deps] at hd; rw [hs.tab]; exact h.depsTab m d hd
  leaf n i hi hd := by
    rw [hs.tab] at hi; rw [hs.dfn] at hd; rw [hs.deps]; exact h.leaf n i hi hd
  prod n i pol ins outs f hi hd := by
    rw [hs.tab] at hi; rw [hs.dfn] at hd
    obtain ⟨h1, h2, h3, h4, h4', h5⟩ := h.prod n i pol ins outs f hi hd
    refine ⟨h1, by rw [hs.deps]; exact h2, h3, h4, h4', fun j c hj => ?_⟩
    obtain ⟨a, b, b', d, e⟩ := h5 j c hj
    refine ⟨a, b, b', fun ci hci => ?_, fun ci hci => ?_⟩
    · rw [hs.tab] at hci; rw [hs.kid, hs.dfn, hs.kind, hs.kind]; exact d ci hci
    · rw [hs.kid] at hci; rw [hs.name, hs.next]; exact e ci hci
  sub n i p q hi hd := by
    rw [hs.tab] at hi; rw [hs.dfn] at hd
    obtain ⟨q', h1, h2, h3, h4, h4', h4'', h5, h6, h7⟩ := h.sub n i p q hi hd
    refine ⟨q', h1, by rw [hs.deps]; exact h2, h3, h4, h4', h4'', by rw [hs.next]; exact h5, by rw [hs.name]; exact h6, ?_⟩
    rw [hs.tab, hs.dfn]; exact h7

/-- Values depend only on the declarations of the names they are made of. -/
theorem Val.mono {E E' : Env N V} (h : ∀ n d, E n = some d → E' n = some d) {n : N} {v : V} (hv : Val E n v) : Val E' n v := by
  induction hv with
  | given h1 => exact .given (h _ _ h1)
  | out h1 h2 _ ih => exact .out (h _ _ h1) h2 ih

/-- The declarations give a name at most one value. -/
theorem Val.unique {E : Env N V} {n : N} {v w : V} (hv : Val E n v) (hw : Val E n w) : v = w := by
  induction hv generalizing w with
  | given h1 =>
    cases hw with
    | given h2 => rw [h1] at h2; cases h2; rfl
    | out h2 _ => rw [h1] at h2; cases h2
  | out h1 hl _ ih =>
    cases hw with
    | given h2 => rw [h1] at h2; cases h2
    | out h2 hl' h3 =>
      rw [h1] at h2; cases h2
      congr 1
      apply List.ext_getElem (hl.trans hl'.symm)
      intro j hj hj'
      exact ih j _ _ (List.getElem?_eq_getElem (hl ▸ hj)) (List.getElem?_eq_getElem hj)
        (h3 j _ _ (List.getElem?_eq_getElem (hl ▸ hj)) (List.getElem?_eq_getElem hj'))

theorem utdName_some {s : St N V} {n : N} {i : Nat} (h : s.tab n = some i) : utdName s n = (s.heap i).utd := by
  simp [utdName, h]

theorem utdName_tab {s : St N V} {n : N} (h : utdName s n = true) : ∃ i, s.tab n = some i ∧ (s.heap i).utd = true := by
  unfold utdName at h
  cases hn : s.tab n with
  | none => simp [hn] at h
  | some i => exact ⟨i, rfl, by simpa [hn] using h⟩

/-- The inputs of what is up to date are up to date. -/
theorem Str.ins_utd {E : Env N V} {L : Lay N} {s : St N V} (h : Str E L s)
    (hc : ∀ m d, (m, d) ∈ s.deps → utdName s m = true → utdName s d = true) {n : N} {ins : List N}
    {f : List V → Nat → V} {k : Nat} (hn : utdName s n = true) (he : E n = some (.out ins f k)) :
    ∀ m ∈ ins, utdName s m = true ∧ ∃ q, (q, m) ∈ s.deps ∧ utdName s q = true := by
  obtain ⟨i, hi, hu⟩ := utdName_tab hn
  intro m hm
  cases hd : (s.heap i).dfn with
  | leaf =>
    obtain ⟨⟨v, hv⟩, -⟩ := h.leaf n i hi hd
    rw [hv] at he; cases he
  | prod pol ins' outs f' =>
    obtain ⟨h1, h2, -⟩ := h.prod n i pol ins' outs f' hi hd
    rw [h1] at he; cases he
    have := (h2 m).2 hm
    exact ⟨hc n m this hn, n, this, hn⟩
  | sub p q =>
    obtain ⟨q', rfl, h2, -, -, -, -, -, -, h7⟩ := h.sub n i p q hi hd
    have hq := hc n q' ((h2 q').2 rfl) hn
    obtain ⟨p', hp', hup'⟩ := utdName_tab hq
    rcases h7 with h7 | ⟨h7, pol, ins', outs, f', h8, h9⟩
    · rw [h7] at hp'; cases hp'
    · obtain ⟨a1, a2, -, -, -, a5⟩ := h.prod q' p pol ins' outs f' h7 h8
      obtain ⟨j, hj⟩ := List.mem_iff_getElem?.1 h9
      obtain ⟨b1, -⟩ := a5 j n hj
      rw [b1] at he; cases he
      have := (a2 m).2 hm
      exact ⟨hc q' m this hq, q', this, hq⟩

/-- Names with given values are solutions. -/
theorem Str.leaf_of_given {E : Env N V} {L : Lay N} {s : St N V} (h : Str E L s) {n : N} {i : Nat} {v : V}
    (hi : s.tab n = some i) (he : E n = some (.given v)) : (s.heap i).dfn = .leaf := by
  cases hd : (s.heap i).dfn with
  | leaf => rfl
  | prod pol ins outs f =>
    have := (h.prod n i pol ins outs f hi hd).1
    rw [he] at this; cases this
  | sub p q =>
    obtain ⟨q', -, -, ⟨ins, f, k, h3⟩, -⟩ := h.sub n i p q hi hd
    rw [he] at h3; cases h3

/-- What is in the tables was declared. -/
theorem Str.declared {E : Env N V} {L : Lay N} {s : St N V} (h : Str E L s) {n : N} {i : Nat} (hi : s.tab n = some i) :
    E n ≠ none := by
  cases hd : (s.heap i).dfn with
  | leaf => obtain ⟨⟨v, hv⟩, -⟩ := h.leaf n i hi hd; simp [hv]
  | prod pol ins outs f => simp [(h.prod n i pol ins outs f hi hd).1]
  | sub p q =>
    obtain ⟨q', -, -, ⟨ins, f, k, h3⟩, -⟩ := h.sub n i p q hi hd
    simp [h3]

/-- The producer of a sub model is not a solution. -/
theorem Str.sub_parent {E : Env N V} {L : Lay N} {s : St N V} (h : Str E L s) {c q : N} {ci p : Nat}
    (hc : s.tab c = some ci) (hd : (s.heap ci).dfn = .sub p (some q)) (hq : utdName s q = true) :
    s.tab q = some p ∧ ∃ pol ins outs f, (s.heap p).dfn = .prod pol ins outs f ∧ c ∈ outs := by
  obtain ⟨q', h1, -, -, -, -, -, -, -, h7⟩ := h.sub c ci p _ hc hd
  cases h1
  obtain ⟨p', hp', -⟩ := utdName_tab hq
  rcases h7 with h7 | h7
  · rw [h7] at hp'; cases hp'
  · exact h7

end Verif.Multi
