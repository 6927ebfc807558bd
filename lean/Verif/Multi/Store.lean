import Verif.Multi.Alloc

/-! What a producer does with its outputs. -/

namespace Verif.Multi

variable {N V : Type} [DecidableEq N]

/-- Values stored in a model whose dependents are all out of date. -/
theorem setValues_noop {s : St N V} (hn : Named s) {n : N} {i : Nat} (hi : s.tab n = some i) (v : V)
    (h : ∀ m, (m, n) ∈ s.deps → m = n ∨ utdName s m = false) :
    setValues s i v = setObj s i { s.heap i with val := v, utd := true } := by
  unfold setValues
  dsimp only
  rw [signal_noop]
  · simp [markUtd, setObj]
  · intro m hm
    rw [hn n i hi] at hm
    have := utdName_setObj hn hi v false m
    rw [this]
    by_cases hmn : m = n
    · simp [hmn]
    · rw [if_neg hmn]
      rcases h m hm with h | h
      · exact absurd h hmn
      · exact h

/-- The pointer of a producer leads to the model with the name of the output. -/
theorem lock_eq {E : Env N V} {L : Lay N} {s : St N V} (h : Str E L s) {i j : Nat} {q c : N} {pol : Policy}
    {ins outs : List N} {f : List V → Nat → V} (hi : s.tab q = some i) (hd : (s.heap i).dfn = .prod pol ins outs f)
    (hj : outs[j]? = some c) : lock s i j = s.tab c := by
  obtain ⟨-, -, -, -, -, p5⟩ := h.prod q i pol ins outs f hi hd
  obtain ⟨-, -, -, c4, c5⟩ := p5 j c hj
  unfold lock
  cases hk : (s.heap i).kid j with
  | none =>
    cases hc : s.tab c with
    | none => rfl
    | some ci => rw [(c4 ci hc).1] at hk; cases hk
  | some ci =>
    obtain ⟨hn, -⟩ := c5 ci hk
    simp only [Option.filter, alive, hn]
    cases hc : s.tab c with
    | none => simp
    | some ci' =>
      have := (c4 ci' hc).1
      rw [hk] at this; cases this
      simp

theorem getElem?_of_drop {l l' : List N} {j : Nat} {c : N} (h : l.drop j = c :: l') : l[j]? = some c ∧ l.drop (j + 1) = l' := by
  constructor
  · have := congrArg List.head? h
    simpa using this
  · have := congrArg List.tail h
    simpa using this

/-- The lookups before a calculation. -/
theorem prepare_spec {E : Env N V} {L : Lay N} {zero : V} {i : Nat} {q : N} {pol : Policy}
    {ins outs : List N} {f : List V → Nat → V} {kind : Kind} : ∀ (l : List N) (j : Nat) (s : St N V), outs.drop j = l → Inv E L s →
    s.tab q = some i → (s.heap i).dfn = .prod pol ins outs f → (s.heap i).kind = kind → utdName s q = false →
    ∀ s1 b, prepare zero pol i q kind j s l = (s1, b) →
    Inv E L s1 ∧ Grow s s1 ∧ (∀ m, utdName s1 m = utdName s m) ∧ (∀ m, m ∉ l → s1.tab m = s.tab m) ∧
      (b = true → pol = .byName ∨ pol = .revive → ∀ c ∈ l, s1.tab c ≠ none) ∧
      ((∀ c ∈ l, s.tab c ≠ none) → b = true)
  | [], _, s, _, h, _, _, _, _, s1, b, he => by
    cases he
    exact ⟨h, Grow.refl s, fun _ => rfl, fun _ _ => rfl, fun _ _ c hc => by simp at hc, fun _ => rfl⟩
  | c :: l, j, s, hl, h, hi, hd, hk, hu, s1, b, he => by
    obtain ⟨hj, hl'⟩ := getElem?_of_drop hl
    obtain ⟨-, -, -, -, -, p5⟩ := h.prod q i pol ins outs f hi hd
    obtain ⟨-, -, -, c4, -⟩ := p5 j c hj
    unfold prepare at he
    have here : ∀ ci, s.tab c = some ci → prepare zero pol i q kind (j + 1) s l = (s1, b) →
        Inv E L s1 ∧ Grow s s1 ∧ (∀ m, utdName s1 m = utdName s m) ∧ (∀ m, m ∉ c :: l → s1.tab m = s.tab m) ∧
        (b = true → pol = .byName ∨ pol = .revive → ∀ c' ∈ c :: l, s1.tab c' ≠ none) ∧
        ((∀ c' ∈ c :: l, s.tab c' ≠ none) → b = true) := by
      intro ci hci he
      obtain ⟨r1, r2, r3, r4, r5, r6⟩ := prepare_spec l (j + 1) s hl' h hi hd hk hu s1 b he
      refine ⟨r1, r2, r3, fun m hm => r4 m (fun hh => hm (List.mem_cons_of_mem _ hh)), fun hb hp c' hc' => ?_,
        fun hh => r6 fun c' hc' => hh c' (List.mem_cons_of_mem _ hc')⟩
      rcases List.mem_cons.1 hc' with rfl | hc'
      · simp [r2.tab _ _ hci]
      · exact r5 hb hp c' hc'
    cases pol with
    | byName =>
      dsimp only at he
      cases hc : s.tab c with
      | none =>
        rw [hc] at he; cases he
        refine ⟨h, Grow.refl s, fun _ => rfl, fun _ _ => rfl, fun hb => by simp at hb, fun hh => ?_⟩
        exact absurd hc (hh c (by simp))
      | some ci =>
        simp only [hc, (c4 ci hc).2.2, hk, if_true] at he
        exact here ci hc he
    | revive =>
      dsimp only at he
      cases hc : s.tab c with
      | none =>
        obtain ⟨s2, e2, inv2, grow2, tab2, u2⟩ := addSub_inv (zero := zero) h hi hd hj hc hu
        rw [hk] at e2
        simp only [hc, e2] at he
        have hil := h.bound q i hi
        obtain ⟨r1, r2, r3, r4, r5, r6⟩ := prepare_spec l (j + 1) s2 hl' inv2 (grow2.tab _ _ hi)
          (by rw [grow2.dfn i hil]; exact hd) (by rw [grow2.kind i hil]; exact hk) (by rw [u2]; exact hu) s1 b he
        refine ⟨r1, grow2.trans r2, fun m => by rw [r3, u2], fun m hm => ?_, fun hb hp c' hc' => ?_, fun hh => ?_⟩
        · rw [r4 m (fun hh => hm (List.mem_cons_of_mem _ hh)), tab2, Function.update_of_ne]
          rintro rfl; exact hm (by simp)
        · rcases List.mem_cons.1 hc' with rfl | hc'
          · have : s2.tab c' = some s.next := by rw [tab2]; simp
            simp [r2.tab _ _ this]
          · exact r5 hb hp c' hc'
        · exact absurd hc (hh c (by simp))
      | some ci =>
        rw [lock_eq h.toStr hi hd hj] at he
        simp only [hc, (c4 ci hc).2.2, hk, Option.isSome_some, and_self, if_true] at he
        exact here ci hc he
    | guard =>
      dsimp only at he
      cases he
      exact ⟨h, Grow.refl s, fun _ => rfl, fun _ _ => rfl, fun _ hp => (by rcases hp with hp | hp <;> cases hp), fun _ => rfl⟩
    | raw =>
      dsimp only at he
      cases he
      exact ⟨h, Grow.refl s, fun _ => rfl, fun _ _ => rfl, fun _ hp => (by rcases hp with hp | hp <;> cases hp), fun _ => rfl⟩

/-- The members of a group depend only on its inputs and its producer. -/
theorem Str.dep_group {E : Env N V} {L : Lay N} {s : St N V} (h : Str E L s) {i : Nat} {q : N} {pol : Policy}
    {ins outs : List N} {f : List V → Nat → V} (hi : s.tab q = some i) (hd : (s.heap i).dfn = .prod pol ins outs f)
    {m x : N} (hm : m ∈ q :: outs) (hx : x ∈ outs) : (m, x) ∉ s.deps := by
  intro hmx
  obtain ⟨p1, p2, p3, p4, p4', p5⟩ := h.prod q i pol ins outs f hi hd
  obtain ⟨j, hj⟩ := List.mem_iff_getElem?.1 hx
  rcases List.mem_cons.1 hm with rfl | hm
  · have := (p3 x ((p2 x).1 hmx)).2
    rw [(p5 j x hj).2.1] at this
    omega
  · obtain ⟨k, hk⟩ := List.mem_iff_getElem?.1 hm
    obtain ⟨-, -, -, c4, -⟩ := p5 k m hk
    cases ht : s.tab m with
    | none => exact h.depsTab m x hmx ht
    | some mi =>
      obtain ⟨q', e, e2, -⟩ := h.sub m mi _ _ ht (c4 mi ht).2.1
      cases e
      rw [(e2 x).1 hmx] at hx
      exact (List.nodup_cons.1 p4).1 hx

theorem setObj_heap_ne {s : St N V} {i k : Nat} (o : Obj N V) (h : k ≠ i) : (setObj s i o).heap k = s.heap k := by
  simp [setObj, h]

/-- The outputs are stored. -/
theorem store_spec {E : Env N V} {L : Lay N} {i : Nat} {q : N} {pol : Policy} {w : Nat → V}
    {ins outs : List N} {f : List V → Nat → V} : ∀ (l : List N) (j : Nat) (s : St N V), outs.drop j = l → Str E L s →
    s.tab q = some i → (s.heap i).dfn = .prod pol ins outs f →
    (∀ m x, (m, x) ∈ s.deps → x ∈ outs → m ∉ q :: outs → utdName s m = false) →
    (∀ s1, store pol i w j s l = some s1 → Same s s1 ∧
      (∀ k, (∀ c ∈ l, s.tab c ≠ some k) → s1.heap k = s.heap k) ∧
      (∀ (j' : Nat) c k, l[j']? = some c → s.tab c = some k →
        s1.heap k = { s.heap k with val := w (j + j' + 1), utd := true })) ∧
    ((∀ c ∈ l, s.tab c ≠ none) → store pol i w j s l ≠ none)
  | [], j, s, _, _, _, _, _ => by
    refine ⟨fun s1 he => ?_, fun _ => by simp [store]⟩
    simp only [store, Option.some.injEq] at he
    subst he
    exact ⟨Same.refl s, fun _ _ => rfl, fun j' c k hc => by simp at hc⟩
  | c :: l, j, s, hl, h, hi, hd, hnd => by
    obtain ⟨hj, hl'⟩ := getElem?_of_drop hl
    have hco : c ∈ outs := List.mem_of_getElem? hj
    obtain ⟨-, -, -, p4, -, -⟩ := h.prod q i pol ins outs f hi hd
    have nodup : (c :: l).Nodup := by
      rw [← hl]
      have h1 : outs.Nodup := (List.nodup_cons.1 p4).2
      exact h1.sublist (List.drop_sublist j outs)
    have here : ∀ ci, s.tab c = some ci →
        (∀ s1, store pol i w (j + 1) (setValues s ci (w (j + 1))) l = some s1 → Same s s1 ∧
          (∀ k, (∀ c' ∈ c :: l, s.tab c' ≠ some k) → s1.heap k = s.heap k) ∧
          (∀ (j' : Nat) c' k, (c :: l)[j']? = some c' → s.tab c' = some k →
            s1.heap k = { s.heap k with val := w (j + j' + 1), utd := true })) ∧
        ((∀ c' ∈ c :: l, s.tab c' ≠ none) → store pol i w (j + 1) (setValues s ci (w (j + 1))) l ≠ none) := by
      intro ci hci
      have sv : setValues s ci (w (j + 1)) = setObj s ci { s.heap ci with val := w (j + 1), utd := true } := by
        refine setValues_noop h.named hci _ fun m hm => Or.inr ?_
        by_cases hmg : m ∈ q :: outs
        · exact absurd hm (h.dep_group hi hd hmg hco)
        · exact hnd m c hm hco hmg
      rw [sv]
      have same : Same s (setObj s ci { s.heap ci with val := w (j + 1), utd := true }) := same_setObj s ci _ _
      have u := utdName_setObj h.named hci (w (j + 1)) true
      have e2 : (setObj s ci { s.heap ci with val := w (j + 1), utd := true }).heap ci =
        { s.heap ci with val := w (j + 1), utd := true } := by simp [setObj]
      have e3 : ∀ k, k ≠ ci → (setObj s ci { s.heap ci with val := w (j + 1), utd := true }).heap k = s.heap k :=
        fun k hk => setObj_heap_ne _ hk
      generalize hs2 : setObj s ci { s.heap ci with val := w (j + 1), utd := true } = s2 at same u e2 e3
      obtain ⟨r1, r2⟩ := store_spec l (j + 1) s2 hl' (h.same same) (by rw [same.tab]; exact hi)
        (by rw [same.dfn]; exact hd) (by
          intro m x hm hx hg
          rw [same.deps] at hm
          rw [u, if_neg]
          · exact hnd m x hm hx hg
          · rintro rfl; exact hg (List.mem_cons_of_mem _ hco))
      refine ⟨fun s1 he => ?_, fun hh => r2 fun c' hc' => by rw [same.tab]; exact hh c' (List.mem_cons_of_mem _ hc')⟩
      obtain ⟨a1, a2, a3⟩ := r1 s1 he
      rw [same.tab] at a2 a3
      refine ⟨same.trans a1, fun k hk => ?_, fun j' c' k hc' hk => ?_⟩
      · rw [a2 k fun c' hc' => hk c' (List.mem_cons_of_mem _ hc'), e3 k]
        rintro rfl
        exact hk c (by simp) hci
      · cases j' with
        | zero =>
          simp only [List.getElem?_cons_zero, Option.some.injEq] at hc'
          subst hc'
          rw [hci] at hk; cases hk
          rw [a2 ci, e2]
          · intro c' hc' hcc
            have := h.named.inj hcc hci
            subst this
            exact (List.nodup_cons.1 nodup).1 hc'
        | succ j' =>
          simp only [List.getElem?_cons_succ] at hc'
          rw [a3 j' c' k hc' hk, e3 k, show j + 1 + j' + 1 = j + (j' + 1) + 1 by omega]
          rintro rfl
          have := h.named.inj hk hci
          subst this
          exact (List.nodup_cons.1 nodup).1 (List.mem_of_getElem? hc')
    have lk := lock_eq h hi hd hj
    cases hc : s.tab c with
    | some ci =>
      have : store pol i w j s (c :: l) = store pol i w (j + 1) (setValues s ci (w (j + 1))) l := by
        rw [hc] at lk
        cases pol <;> simp [store, hc, lk]
      rw [this]
      exact here ci hc
    | none =>
      rw [hc] at lk
      refine ⟨fun s1 he => ?_, fun hh => absurd hc (hh c (by simp))⟩
      cases pol with
      | guard =>
        simp only [store, lk] at he
        obtain ⟨r1, -⟩ := store_spec l (j + 1) s hl' h hi hd hnd
        obtain ⟨a1, a2, a3⟩ := r1 s1 he
        refine ⟨a1, fun k hk => a2 k fun c' hc' => hk c' (List.mem_cons_of_mem _ hc'), fun j' c' k hc' hk => ?_⟩
        cases j' with
        | zero =>
          simp only [List.getElem?_cons_zero, Option.some.injEq] at hc'
          subst hc'
          rw [hc] at hk; cases hk
        | succ j' =>
          simp only [List.getElem?_cons_succ] at hc'
          rw [a3 j' c' k hc' hk, show j + 1 + j' + 1 = j + (j' + 1) + 1 by omega]
      | byName => simp [store, hc] at he
      | revive => simp [store, lk] at he
      | raw => simp [store, lk] at he

/-- A calculation of a group keeps the invariant. -/
theorem store_inv {E : Env N V} {L : Lay N} {s s1 : St N V} {i : Nat} {q : N} {pol : Policy} {ins outs : List N}
    {f : List V → Nat → V} {vs : List V} (h : Inv E L s) (hi : s.tab q = some i)
    (hd : (s.heap i).dfn = .prod pol ins outs f) (hu : utdName s q = false) (hlen : vs.length = ins.length)
    (hvs : ∀ (j : Nat) (m : N) (v : V), ins[j]? = some m → vs[j]? = some v → utdName s m = true ∧ Val E m v)
    (he : store pol i (f vs) 0 (setValues s i (f vs 0)) outs = some s1) :
    Inv E L s1 ∧ Same s s1 ∧ (s1.heap i).utd = true ∧ (s1.heap i).val = f vs 0 ∧
      ∀ m, m ∉ q :: outs → utdName s1 m = utdName s m := by
  obtain ⟨p1, p2, p3, p4, p4', p5⟩ := h.prod q i pol ins outs f hi hd
  have sv : setValues s i (f vs 0) = setObj s i { s.heap i with val := f vs 0, utd := true } := by
    refine setValues_noop h.named hi _ fun m hm => Or.inr ?_
    cases hh : utdName s m with
    | false => rfl
    | true => rw [h.closed m q hm hh] at hu; cases hu
  rw [sv] at he
  have same2 : Same s (setObj s i { s.heap i with val := f vs 0, utd := true }) := same_setObj s i _ _
  have u2 := utdName_setObj h.named hi (f vs 0) true
  have e2 : (setObj s i { s.heap i with val := f vs 0, utd := true }).heap i = { s.heap i with val := f vs 0, utd := true } := by
    simp [setObj]
  have e3 : ∀ k, k ≠ i → (setObj s i { s.heap i with val := f vs 0, utd := true }).heap k = s.heap k :=
    fun k hk => setObj_heap_ne _ hk
  generalize setObj s i { s.heap i with val := f vs 0, utd := true } = s2 at same2 u2 e2 e3 he
  have outf : ∀ c ∈ outs, utdName s c = false := by
    intro c hc
    cases hh : utdName s c with
    | false => rfl
    | true =>
      obtain ⟨ci, hci, -⟩ := utdName_tab hh
      obtain ⟨j, hj⟩ := List.mem_iff_getElem?.1 hc
      obtain ⟨-, -, -, c4, -⟩ := p5 j c hj
      obtain ⟨q', e, e2, -⟩ := h.sub c ci _ _ hci (c4 ci hci).2.1
      cases e
      rw [h.closed c q ((e2 q).2 rfl) hh] at hu; cases hu
  obtain ⟨r1, -⟩ := store_spec (w := f vs) (outs := outs) outs 0 s2 (by simp) (h.toStr.same same2) (by rw [same2.tab]; exact hi)
    (by rw [same2.dfn]; exact hd) (by
      intro m x hm hx hg
      rw [same2.deps] at hm
      rw [u2, if_neg (by rintro rfl; exact hg (by simp))]
      cases hh : utdName s m with
      | false => rfl
      | true => have := h.closed m x hm hh; rw [outf x hx] at this; cases this)
  obtain ⟨a1, a2, a3⟩ := r1 s1 he
  rw [same2.tab] at a2 a3
  have same : Same s s1 := same2.trans a1
  have hi1 : s1.heap i = { s.heap i with val := f vs 0, utd := true } := by
    rw [a2 i, e2]
    intro c hc hci
    have := h.named.inj hci hi
    subst this
    exact (List.nodup_cons.1 p4).1 hc
  have hc1 : ∀ (j : Nat) c k, outs[j]? = some c → s.tab c = some k →
      s1.heap k = { s.heap k with val := f vs (j + 1), utd := true } := by
    intro j c k hj hk
    rw [a3 j c k hj hk, e3 k, Nat.zero_add]
    rintro rfl
    have := h.named.inj hk hi
    subst this
    exact (List.nodup_cons.1 p4).1 (List.mem_of_getElem? hj)
  have hr1 : ∀ m k, m ∉ q :: outs → s.tab m = some k → s1.heap k = s.heap k := by
    intro m k hm hk
    rw [a2 k, e3 k]
    · rintro rfl
      have := h.named.inj hk hi
      subst this
      exact hm (by simp)
    · intro c hc hck
      have := h.named.inj hck hk
      subst this
      exact hm (List.mem_cons_of_mem _ hc)
  have uq : utdName s1 q = true := by
    rw [utdName_some (by rw [same.tab]; exact hi)]; simp [hi1]
  have uc : ∀ c ∈ outs, s.tab c ≠ none → utdName s1 c = true := by
    intro c hc ht
    obtain ⟨k, hk⟩ := Option.ne_none_iff_exists'.1 ht
    obtain ⟨j, hj⟩ := List.mem_iff_getElem?.1 hc
    rw [utdName_some (by rw [same.tab]; exact hk)]; simp [hc1 j c k hj hk]
  have ur : ∀ m, m ∉ q :: outs → utdName s1 m = utdName s m := by
    intro m hm
    unfold utdName
    rw [same.tab]
    cases hk : s.tab m with
    | none => rfl
    | some k => simp only [hr1 m k hm hk]
  have mono : ∀ m, utdName s m = true → utdName s1 m = true := by
    intro m hm
    by_cases hg : m ∈ q :: outs
    · rcases List.mem_cons.1 hg with rfl | hg
      · exact uq
      · rw [outf m hg] at hm; cases hm
    · rw [ur m hg]; exact hm
  have vals : ∀ (j : Nat) (m : N) (v : V), ins[j]? = some m → vs[j]? = some v → Val E m v := fun j m v hm hv => (hvs j m v hm hv).2
  refine ⟨⟨h.toStr.same same, ?_, ?_, ?_, ?_⟩, same, by simp [hi1], by simp [hi1], ur⟩
  · intro m d hmd hm
    rw [same.deps] at hmd
    by_cases hg : m ∈ q :: outs
    · rcases List.mem_cons.1 hg with rfl | hg
      · obtain ⟨j, hj⟩ := List.mem_iff_getElem?.1 ((p2 d).1 hmd)
        have hjl : j < vs.length := by
          rw [hlen]; exact (List.getElem?_eq_some_iff.1 hj).1
        exact mono d (hvs j d _ hj (List.getElem?_eq_getElem hjl)).1
      · obtain ⟨j, hj⟩ := List.mem_iff_getElem?.1 hg
        obtain ⟨-, -, -, c4, -⟩ := p5 j m hj
        obtain ⟨mi, hmi⟩ := Option.ne_none_iff_exists'.1 (h.depsTab m d hmd)
        obtain ⟨q', e, e2, -⟩ := h.sub m mi _ _ hmi (c4 mi hmi).2.1
        cases e
        rw [(e2 d).1 hmd]; exact uq
    · rw [ur m hg] at hm
      exact mono d (h.closed m d hmd hm)
  · intro c ci p q0 hc hdc hq
    obtain ⟨g1, pol', ins', outs', f', g2, g3⟩ := (h.toStr.same same).sub_parent hc hdc hq
    rw [same.tab] at hc g1; rw [same.dfn] at hdc g2
    by_cases hqq : q0 = q
    · subst hqq
      rw [hi] at g1; cases g1
      rw [hd] at g2; cases g2
      exact uc c g3 (by simp [hc])
    · have hg : q0 ∉ q :: outs := by
        intro hg
        rcases List.mem_cons.1 hg with rfl | hg
        · exact hqq rfl
        · obtain ⟨j, hj⟩ := List.mem_iff_getElem?.1 hg
          obtain ⟨-, -, -, c4, -⟩ := p5 j q0 hj
          rw [(c4 p g1).2.1] at g2; cases g2
      rw [ur q0 hg] at hq
      exact mono c (h.kids c ci p q0 hc hdc hq)
  · intro m k hm hum
    rw [same.tab] at hm
    by_cases hg : m ∈ q :: outs
    · rcases List.mem_cons.1 hg with rfl | hg
      · rw [hi] at hm; cases hm
        rw [hi1]
        exact .out p1 hlen vals
      · obtain ⟨j, hj⟩ := List.mem_iff_getElem?.1 hg
        rw [hc1 j m k hj hm]
        exact .out (p5 j m hj).1 hlen vals
    · rw [hr1 m k hg hm] at hum ⊢
      exact h.val m k hm hum
  · intro m k hm hdm
    rw [same.tab] at hm; rw [same.dfn] at hdm
    have hg : m ∉ q :: outs := by
      intro hg
      rcases List.mem_cons.1 hg with rfl | hg
      · rw [hi] at hm; cases hm; rw [hd] at hdm; cases hdm
      · obtain ⟨j, hj⟩ := List.mem_iff_getElem?.1 hg
        obtain ⟨-, -, -, c4, -⟩ := p5 j m hj
        rw [(c4 k hm).2.1] at hdm; cases hdm
    rw [hr1 m k hg hm]; exact h.leafVal m k hm hdm

end Verif.Multi
