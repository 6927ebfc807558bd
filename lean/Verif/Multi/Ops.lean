import Verif.Multi.Inv

/-! Each change of the state keeps the invariant. -/

namespace Verif.Multi

variable {N V : Type} [DecidableEq N]

theorem Named.inj {s : St N V} (h : Named s) {m n : N} {i : Nat} (h1 : s.tab m = some i) (h2 : s.tab n = some i) : m = n :=
  (h m i h1).symm.trans (h n i h2)

/-- Flags after the flag of the object of `n` was set to `b`. -/
theorem utdName_setObj {s : St N V} (hn : Named s) {n : N} {i : Nat} (hi : s.tab n = some i) (v : V) (b : Bool) (m : N) :
    utdName (setObj s i { s.heap i with val := v, utd := b }) m = if m = n then b else utdName s m := by
  unfold utdName
  simp only [setObj]
  cases hm : s.tab m with
  | none =>
    have : m ≠ n := by rintro rfl; rw [hm] at hi; cases hi
    simp [this]
  | some j =>
    by_cases hmn : m = n
    · subst hmn; rw [hi] at hm; cases hm; simp
    · have : j ≠ i := by rintro rfl; exact hmn (hn.inj hm hi)
      simp [hmn, Function.update_of_ne this]

theorem utdName_markUtd {s : St N V} (hn : Named s) {n : N} {i : Nat} (hi : s.tab n = some i) (m : N) :
    utdName (markUtd s i) m = if m = n then true else utdName s m :=
  utdName_setObj hn hi (s.heap i).val true m

theorem same_markUtd (s : St N V) (i : Nat) : Same s (markUtd s i) := same_setObj s i (s.heap i).val true

/-- The structure does not depend on given values. -/
theorem Str.given {E : Env N V} {L : Lay N} {s : St N V} (h : Str E L s) {n : N} {v w : V}
    (hn : E n = some (.given v)) : Str (Function.update E n (some (.given w))) L s where
  named := h.named
  bound := h.bound
  depsTab := h.depsTab
  leaf m i hi hd := by
    obtain ⟨⟨u, hu⟩, h2⟩ := h.leaf m i hi hd
    refine ⟨?_, h2⟩
    by_cases hm : m = n
    · subst hm; exact ⟨w, by simp⟩
    · exact ⟨u, by simp [hm, hu]⟩
  prod m i pol ins outs f hi hd := by
    obtain ⟨h1, h2, h3, h4, h4', h5⟩ := h.prod m i pol ins outs f hi hd
    have out : ∀ c k, E c = some (.out ins f k) →
        Function.update E n (some (.given w)) c = some (.out ins f k) := by
      intro c k hc
      have : c ≠ n := by rintro rfl; rw [hn] at hc; cases hc
      simp [this, hc]
    refine ⟨out _ _ h1, h2, fun a ha => ⟨?_, (h3 a ha).2⟩, h4, h4', fun j c hj => ?_⟩
    · by_cases hm : a = n
      · subst hm; simp
      · simp [hm, (h3 a ha).1]
    · obtain ⟨a, b⟩ := h5 j c hj
      exact ⟨out _ _ a, b⟩
  sub m i p q hi hd := by
    obtain ⟨q', h1, h2, ⟨ins, f, k, h3⟩, h4, h5, ⟨h6, h6'⟩, h7⟩ := h.sub m i p q hi hd
    have : m ≠ n := by rintro rfl; rw [hn] at h3; cases h3
    refine ⟨q', h1, h2, ⟨ins, f, k, by simp [this, h3]⟩, h4, h5, ⟨h6, ?_⟩, h7⟩
    by_cases hq : q' = n
    · subst hq; simp
    · simp [hq, h6']

/-- Values given by the user (EdgeModel.cc:275-290 for a solution). -/
theorem set_inv {E : Env N V} {L : Lay N} {s : St N V} (h : Inv E L s) {n : N} {i : Nat} {v0 : V} (hi : s.tab n = some i)
    (he : E n = some (.given v0)) (v : V) :
    Inv (Function.update E n (some (.given v))) L (setValues s i v) ∧ Same s (setValues s i v) := by
  have hd := h.leaf_of_given hi he
  have hnd := (h.leaf n i hi hd).2
  unfold setValues
  dsimp only
  set s1 := setObj s i { s.heap i with val := v, utd := false } with hs1
  have same1 : Same s s1 := same_setObj s i v false
  rw [h.named n i hi]
  have named1 : Named s1 := (h.toStr.same same1).named
  have sig := signal_spec (enough s1) s1 n named1 (enough_spec s1)
  set s2 := signal (enough s1) s1 n with hs2
  have same2 : Same s s2 := same1.trans sig.frame.same
  have named2 : Named s2 := (h.toStr.same same2).named
  have hi2 : s2.tab n = some i := by rw [same2.tab]; exact hi
  have same3 : Same s (markUtd s2 i) := same2.trans (same_markUtd s2 i)
  have u3 := utdName_markUtd named2 hi2
  set s3 := markUtd s2 i with hs3
  have u1 : ∀ m, utdName s1 m = if m = n then false else utdName s m := utdName_setObj h.named hi v false
  have u12 : ∀ m, utdName s2 m = true → m ≠ n ∧ utdName s m = true := by
    intro m hm
    have := sig.frame.utdName hm
    rw [u1] at this
    by_cases hmn : m = n
    · simp [hmn] at this
    · simpa [hmn] using this
  have d1 : s1.deps = s.deps := same1.deps
  have str : Str (Function.update E n (some (.given v))) L s3 := (h.toStr.same same3).given he
  have closed : ∀ m d, (m, d) ∈ s3.deps → utdName s3 m = true → utdName s3 d = true := by
    intro m d hmd hm
    rw [same3.deps] at hmd
    have hmn : m ≠ n := by rintro rfl; exact hnd d hmd
    rw [u3, if_neg hmn] at hm
    rw [u3]
    by_cases hdn : d = n
    · simp [hdn]
    · rw [if_neg hdn]
      have hsd := h.closed m d hmd (u12 m hm).2
      cases hd2 : utdName s2 d with
      | true => rfl
      | false =>
        have := sig.closed d (by rw [u1, if_neg hdn]; exact hsd) hd2 m (by rw [d1]; exact hmd)
        rw [hm] at this; cases this
  have noDep : ∀ q, (q, n) ∈ s3.deps → utdName s3 q = false := by
    intro q hq
    rw [same3.deps] at hq
    have hqn : q ≠ n := by rintro rfl; exact hnd _ hq
    rw [u3, if_neg hqn]
    exact sig.direct q (by rw [d1]; exact hq)
  have vals : ∀ m w, Val E m w → m ≠ n → utdName s3 m = true → Val (Function.update E n (some (.given v))) m w := by
    intro m w hv
    induction hv with
    | given h1 => intro hmn _; exact .given (by simp [hmn, h1])
    | out h1 h2 h3 ih =>
      intro hmn hu
      have h1' := h1
      rw [← Function.update_of_ne hmn (some (Decl.given v)) E] at h1'
      refine .out h1' h2 fun j a b ha hb => ?_
      obtain ⟨hu', q, hq, hq'⟩ := str.ins_utd closed hu h1' a (List.mem_of_getElem? ha)
      refine ih j a b ha hb ?_ hu'
      rintro rfl
      rw [noDep q hq] at hq'; cases hq'
  have heapv : ∀ j, j ≠ i → (s3.heap j).val = (s.heap j).val := by
    intro j hj
    simp only [hs3, markUtd, setObj, Function.update_of_ne hj]
    rw [(sig.frame.heap j).1]
    simp [hs1, setObj, hj]
  have heapi : (s3.heap i).val = v := by
    simp only [hs3, markUtd, setObj, Function.update_self]
    rw [(sig.frame.heap i).1]
    simp [hs1, setObj]
  refine ⟨⟨str, closed, ?_, ?_, ?_⟩, same3⟩
  · intro c ci p q hc hdc hq
    have hc' := hc
    have hdc' := hdc
    rw [same3.tab] at hc; rw [same3.dfn] at hdc
    have hcn : c ≠ n := by
      rintro rfl; rw [hi] at hc; cases hc; rw [hd] at hdc; cases hdc
    obtain ⟨hqp, pol, ins, outs, f, hp, -⟩ := str.sub_parent hc' hdc' hq
    have hqn : q ≠ n := by
      rintro rfl
      rw [same3.tab, hi] at hqp; cases hqp; rw [same3.dfn, hd] at hp; cases hp
    rw [u3, if_neg hqn] at hq
    rw [u3, if_neg hcn]
    have hcs := h.kids c ci p q hc hdc (u12 q hq).2
    cases hc2 : utdName s2 c with
    | true => rfl
    | false =>
      obtain ⟨d, hcd, hd'⟩ := sig.cause c (by rw [u1, if_neg hcn]; exact hcs) hc2
      rw [d1] at hcd
      obtain ⟨q', hqq, hdq, -⟩ := h.sub c ci p _ hc hdc
      cases hqq
      rw [(hdq d).1 hcd] at hd'
      rcases hd' with h | ⟨-, h⟩
      · exact absurd h hqn
      · rw [hq] at h; cases h
  · intro m j hm hu
    by_cases hmn : m = n
    · subst hmn
      rw [same3.tab, hi] at hm; cases hm
      rw [heapi]; exact .given (by simp)
    · have hm' := hm
      rw [same3.tab] at hm
      have hj : j ≠ i := by rintro rfl; exact hmn (h.named.inj hm hi)
      rw [heapv j hj]
      have hu3 : utdName s3 m = true := by rw [utdName_some hm']; exact hu
      have hu2 := hu3
      rw [u3, if_neg hmn] at hu2
      refine vals m _ (h.val m j hm ?_) hmn hu3
      rw [← utdName_some hm]; exact (u12 m hu2).2
  · intro m j hm hdm
    rw [same3.tab] at hm; rw [same3.dfn] at hdm
    by_cases hmn : m = n
    · subst hmn
      rw [hi] at hm; cases hm
      rw [heapi]; simp
    · have hj : j ≠ i := by rintro rfl; exact hmn (h.named.inj hm hi)
      rw [heapv j hj]
      simp [hmn, h.leafVal m j hm hdm]

/-- A solution that is read becomes up to date. -/
theorem leaf_utd_inv {E : Env N V} {L : Lay N} {s : St N V} (h : Inv E L s) {n : N} {i : Nat} (hi : s.tab n = some i)
    (hd : (s.heap i).dfn = .leaf) : Inv E L (markUtd s i) := by
  have same := same_markUtd s i
  have str := h.toStr.same same
  have u := utdName_markUtd h.named hi
  have hnd := (h.leaf n i hi hd).2
  refine ⟨str, ?_, ?_, ?_, ?_⟩
  · intro m d hmd hm
    rw [same.deps] at hmd
    have hmn : m ≠ n := by rintro rfl; exact hnd d hmd
    rw [u, if_neg hmn] at hm
    rw [u]
    by_cases hdn : d = n
    · simp [hdn]
    · rw [if_neg hdn]; exact h.closed m d hmd hm
  · intro c ci p q hc hdc hq
    obtain ⟨hqp, pol, ins, outs, f, hp, -⟩ := str.sub_parent hc hdc hq
    have hqn : q ≠ n := by
      rintro rfl
      rw [same.tab, hi] at hqp; cases hqp; rw [same.dfn, hd] at hp; cases hp
    rw [same.tab] at hc; rw [same.dfn] at hdc
    rw [u, if_neg hqn] at hq
    rw [u]
    have := h.kids c ci p q hc hdc hq
    simp [this]
  · intro m j hm hu
    rw [same.tab] at hm
    have hv : ((markUtd s i).heap j).val = (s.heap j).val := by
      by_cases hj : j = i
      · subst hj; simp [markUtd, setObj]
      · simp [markUtd, setObj, hj]
    rw [hv]
    by_cases hmn : m = n
    · subst hmn
      rw [hi] at hm; cases hm
      exact .given (h.leafVal _ _ hi hd)
    · have hj : j ≠ i := by rintro rfl; exact hmn (h.named.inj hm hi)
      refine h.val m j hm ?_
      simpa [markUtd, setObj, hj] using hu
  · intro m j hm hdm
    rw [same.tab] at hm; rw [same.dfn] at hdm
    have hv : ((markUtd s i).heap j).val = (s.heap j).val := by
      by_cases hj : j = i
      · subst hj; simp [markUtd, setObj]
      · simp [markUtd, setObj, hj]
    rw [hv]; exact h.leafVal m j hm hdm

/-- Deletion (Region.cc:832-882). -/
theorem delete_inv {E : Env N V} {L : Lay N} {s : St N V} (h : Inv E L s) (n : N) :
    let s1 : St N V := { s with deps := s.deps.filter (fun p => p.1 ≠ n), tab := Function.update s.tab n none }
    Inv E L (signal (enough s1) s1 n) := by
  intro s1
  have t1 : ∀ m i, s1.tab m = some i → m ≠ n ∧ s.tab m = some i := by
    intro m i hm
    by_cases hmn : m = n
    · subst hmn; simp [s1] at hm
    · simpa [s1, hmn] using hm
  have d1 : ∀ m d, (m, d) ∈ s1.deps ↔ m ≠ n ∧ (m, d) ∈ s.deps := by
    intro m d; simp [s1, and_comm]
  have u1 : ∀ m, utdName s1 m = if m = n then false else utdName s m := by
    intro m
    unfold utdName
    by_cases hmn : m = n
    · subst hmn; simp [s1]
    · simp [s1, hmn]
  have str1 : Str E L s1 := by
    refine ⟨?_, ?_, ?_, ?_, ?_, ?_⟩
    · intro m i hm; exact h.named m i (t1 m i hm).2
    · intro m i hm; exact h.bound m i (t1 m i hm).2
    · intro m d hmd
      obtain ⟨hmn, hmd⟩ := (d1 m d).1 hmd
      simpa [s1, hmn] using h.depsTab m d hmd
    · intro m i hm hd
      obtain ⟨a, b⟩ := h.leaf m i (t1 m i hm).2 hd
      exact ⟨a, fun d hd => b d ((d1 m d).1 hd).2⟩
    · intro m i pol ins outs f hm hd
      obtain ⟨hmn, hm⟩ := t1 m i hm
      obtain ⟨h1, h2, h3, h4, h4', h5⟩ := h.prod m i pol ins outs f hm hd
      refine ⟨h1, fun d => ?_, h3, h4, h4', fun j c hj => ?_⟩
      · rw [d1]; simp [hmn, h2]
      · obtain ⟨a, b, b', e, g⟩ := h5 j c hj
        exact ⟨a, b, b', fun ci hci => e ci (t1 c ci hci).2, g⟩
    · intro m i p q hm hd
      obtain ⟨hmn, hm⟩ := t1 m i hm
      obtain ⟨q', h1, h2, h3, h4, h4', h4'', h5, h6, h7⟩ := h.sub m i p q hm hd
      refine ⟨q', h1, fun d => ?_, h3, h4, h4', h4'', h5, h6, ?_⟩
      · rw [d1]; simp [hmn, h2]
      · by_cases hq : q' = n
        · left; simp [s1, hq]
        · simpa [s1, hq] using h7
  have sig := signal_spec (enough s1) s1 n str1.named (enough_spec s1)
  set s2 := signal (enough s1) s1 n with hs2
  have same := sig.frame.same
  have str := str1.same same
  have u12 : ∀ m, utdName s2 m = true → m ≠ n ∧ utdName s m = true := by
    intro m hm
    have := sig.frame.utdName hm
    rw [u1] at this
    by_cases hmn : m = n
    · simp [hmn] at this
    · simpa [hmn] using this
  have hv : ∀ j, (s2.heap j).val = (s.heap j).val := by
    intro j; rw [(sig.frame.heap j).1]
  refine ⟨str, ?_, ?_, ?_, ?_⟩
  · intro m d hmd hm
    rw [same.deps] at hmd
    obtain ⟨hmn, hmd'⟩ := (d1 m d).1 hmd
    have hds := h.closed m d hmd' (u12 m hm).2
    by_cases hdn : d = n
    · subst hdn
      have := sig.direct m hmd
      rw [hm] at this; cases this
    · cases hd2 : utdName s2 d with
      | true => rfl
      | false =>
        have := sig.closed d (by rw [u1, if_neg hdn]; exact hds) hd2 m hmd
        rw [hm] at this; cases this
  · intro c ci p q hc hdc hq
    rw [same.tab] at hc; rw [same.dfn] at hdc
    obtain ⟨hqn, hqs⟩ := u12 q hq
    obtain ⟨hcn, hcs⟩ := t1 c ci hc
    have hu := h.kids c ci p q hcs hdc hqs
    cases hc2 : utdName s2 c with
    | true => rfl
    | false =>
      obtain ⟨d, hcd, hd'⟩ := sig.cause c (by rw [u1, if_neg hcn]; exact hu) hc2
      obtain ⟨q', hqq, hdq, -⟩ := str1.sub c ci p _ hc hdc
      cases hqq
      rw [(hdq d).1 hcd] at hd'
      rcases hd' with h | ⟨-, h⟩
      · exact absurd h hqn
      · rw [hq] at h; cases h
  · intro m j hm hu
    have hm' := hm
    rw [same.tab] at hm
    obtain ⟨hmn, hms⟩ := t1 m j hm
    rw [hv]
    refine h.val m j hms ?_
    rw [← utdName_some hms]
    exact (u12 m (by rw [utdName_some hm']; exact hu)).2
  · intro m j hm hdm
    rw [same.tab] at hm; rw [same.dfn] at hdm
    rw [hv]; exact h.leafVal m j (t1 m j hm).2 hdm

end Verif.Multi
