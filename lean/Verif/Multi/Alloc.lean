import Verif.Multi.Ops
import Mathlib.Data.List.Nodup

/-! Creation of models keeps the invariant. -/

namespace Verif.Multi

variable {N V : Type} [DecidableEq N]

theorem mem_register {s : St N V} {n d m e : N} : (m, e) ∈ (register s n d).deps ↔ (m = n ∧ e = d) ∨ (m, e) ∈ s.deps := by
  unfold register
  by_cases h : (n, d) ∈ s.deps
  · simp only [h, if_true]
    constructor
    · exact Or.inr
    · rintro (⟨rfl, rfl⟩ | h') <;> assumption
  · simp [h]

/-- The state after the creation of one output. -/
theorem addSub_eq {s : St N V} {zero : V} {i j : Nat} {q c : N} {kind : Kind} (hc : s.tab c = none) (hi : i ≠ s.next) :
    ∃ s1, addSub zero s i j q c kind = some s1 ∧ s1.tab = Function.update s.tab c (some s.next) ∧
      s1.next = s.next + 1 ∧ (∀ m e, (m, e) ∈ s1.deps ↔ (m = c ∧ e = q) ∨ (m, e) ∈ s.deps) ∧
      s1.heap s.next = { name := c, kind := kind, dfn := .sub i (some q), utd := false, val := zero, kid := fun _ => none } ∧
      s1.heap i = { s.heap i with kid := Function.update (s.heap i).kid j (some s.next) } ∧
      (∀ k, k ≠ s.next → k ≠ i → s1.heap k = s.heap k) := by
  unfold addSub addModel
  simp only [hc]
  refine ⟨_, rfl, ?_, ?_, ?_, ?_, ?_, ?_⟩
  · simp [setObj, register]
  · simp [setObj, register]
  · intro m e
    simp only [setObj]
    exact mem_register
  · simp [setObj, register, Ne.symm hi]
  · simp [setObj, register, hi]
  · intro k h1 h2
    simp [setObj, register, h1, h2]

/-- What a calculation may change: nothing disappears, and models are not changed in their nature. -/
structure Grow (s s' : St N V) : Prop where
  tab : ∀ n i, s.tab n = some i → s'.tab n = some i
  next : s.next ≤ s'.next
  name : ∀ i, i < s.next → (s'.heap i).name = (s.heap i).name
  kind : ∀ i, i < s.next → (s'.heap i).kind = (s.heap i).kind
  dfn : ∀ i, i < s.next → (s'.heap i).dfn = (s.heap i).dfn

theorem Grow.refl (s : St N V) : Grow s s := ⟨fun _ _ h => h, Nat.le_refl _, fun _ _ => rfl, fun _ _ => rfl, fun _ _ => rfl⟩

theorem Grow.trans {s s' s'' : St N V} (h : Grow s s') (h' : Grow s' s'') : Grow s s'' where
  tab n i hi := h'.tab n i (h.tab n i hi)
  next := Nat.le_trans h.next h'.next
  name i hi := (h'.name i (Nat.lt_of_lt_of_le hi h.next)).trans (h.name i hi)
  kind i hi := (h'.kind i (Nat.lt_of_lt_of_le hi h.next)).trans (h.kind i hi)
  dfn i hi := (h'.dfn i (Nat.lt_of_lt_of_le hi h.next)).trans (h.dfn i hi)

theorem Same.grow {s s' : St N V} (h : Same s s') : Grow s s' :=
  ⟨fun n i hi => by rw [h.tab]; exact hi, by rw [h.next]; exact Nat.le_refl _, fun i _ => h.name i, fun i _ => h.kind i,
    fun i _ => h.dfn i⟩

theorem addSub_inv {E : Env N V} {L : Lay N} {s : St N V} (h : Inv E L s) {zero : V} {i j : Nat} {q c : N} {pol : Policy}
    {ins outs : List N} {f : List V → Nat → V} (hi : s.tab q = some i) (hd : (s.heap i).dfn = .prod pol ins outs f)
    (hj : outs[j]? = some c) (hc : s.tab c = none) (hu : utdName s q = false) :
    ∃ s1, addSub zero s i j q c (s.heap i).kind = some s1 ∧ Inv E L s1 ∧ Grow s s1 ∧
      s1.tab = Function.update s.tab c (some s.next) ∧ ∀ m, utdName s1 m = utdName s m := by
  have hil := h.bound q i hi
  obtain ⟨s1, e1, tab1, next1, deps1, new1, hi1, rest1⟩ :=
    addSub_eq (zero := zero) (j := j) (q := q) (kind := (s.heap i).kind) hc (Nat.ne_of_lt hil)
  obtain ⟨p1, p2, p3, p4, p4', p5⟩ := h.prod q i pol ins outs f hi hd
  obtain ⟨c1, c2, c3, -, c5⟩ := p5 j c hj
  have hcq : c ≠ q := by
    rintro rfl
    exact (List.nodup_cons.1 p4).1 (List.mem_of_getElem? hj)
  have old : ∀ k, k ≠ s.next → (s1.heap k).name = (s.heap k).name ∧ (s1.heap k).kind = (s.heap k).kind ∧
      (s1.heap k).dfn = (s.heap k).dfn ∧ (s1.heap k).utd = (s.heap k).utd ∧ (s1.heap k).val = (s.heap k).val := by
    intro k hk
    by_cases hki : k = i
    · subst hki; simp [hi1]
    · simp [rest1 k hk hki]
  have tne : ∀ m, m ≠ c → s1.tab m = s.tab m := fun m hm => by rw [tab1, Function.update_of_ne hm]
  have tc : s1.tab c = some s.next := by rw [tab1]; simp
  have nc : ∀ d, (c, d) ∉ s.deps := fun d hd => h.depsTab c d hd hc
  have dne : ∀ m d, m ≠ c → ((m, d) ∈ s1.deps ↔ (m, d) ∈ s.deps) := fun m d hm => by rw [deps1]; simp [hm]
  have u1 : ∀ m, utdName s1 m = utdName s m := by
    intro m
    by_cases hm : m = c
    · subst hm
      unfold utdName
      simp [tc, new1, hc]
    · unfold utdName
      rw [tne m hm]
      cases hk : s.tab m with
      | none => rfl
      | some k => exact (old k (Nat.ne_of_lt (h.bound m k hk))).2.2.2.1
  refine ⟨s1, e1, ⟨⟨?_, ?_, ?_, ?_, ?_, ?_⟩, ?_, ?_, ?_, ?_⟩, ⟨?_, by omega, ?_, ?_, ?_⟩, tab1, u1⟩
  · intro m k hm
    by_cases hmc : m = c
    · subst hmc; rw [tc] at hm; cases hm; simp [new1]
    · rw [tne m hmc] at hm
      rw [(old k (Nat.ne_of_lt (h.bound m k hm))).1]; exact h.named m k hm
  · intro m k hm
    rw [next1]
    by_cases hmc : m = c
    · subst hmc; rw [tc] at hm; cases hm; omega
    · rw [tne m hmc] at hm
      have := h.bound m k hm; omega
  · intro m d hmd
    by_cases hmc : m = c
    · subst hmc; simp [tc]
    · rw [tne m hmc]; exact h.depsTab m d ((dne m d hmc).1 hmd)
  · intro m k hm hdm
    by_cases hmc : m = c
    · subst hmc; rw [tc] at hm; cases hm; rw [new1] at hdm; cases hdm
    · rw [tne m hmc] at hm
      rw [(old k (Nat.ne_of_lt (h.bound m k hm))).2.2.1] at hdm
      obtain ⟨a, b⟩ := h.leaf m k hm hdm
      exact ⟨a, fun d hd => b d ((dne m d hmc).1 hd)⟩
  · intro m k pol' ins' outs' f' hm hdm
    by_cases hmc : m = c
    · subst hmc; rw [tc] at hm; cases hm; rw [new1] at hdm; cases hdm
    rw [tne m hmc] at hm
    have hkn := Nat.ne_of_lt (h.bound m k hm)
    rw [(old k hkn).2.2.1] at hdm
    obtain ⟨a1, a2, a3, a4, a4', a5⟩ := h.prod m k pol' ins' outs' f' hm hdm
    refine ⟨a1, fun d => by rw [dne m d hmc]; exact a2 d, a3, a4, a4', fun j' c' hj' => ?_⟩
    obtain ⟨b1, b2, b3, b4, b5⟩ := a5 j' c' hj'
    refine ⟨b1, b2, b3, ?_, ?_⟩
    · intro ci hci
      by_cases hcc : c' = c
      · subst hcc
        have hmq : m = q := b3.symm.trans c3
        subst hmq
        rw [hi] at hm; cases hm
        rw [hd] at hdm; cases hdm
        have hjj : j' = j := by
          have nd := (List.nodup_cons.1 a4).2
          obtain ⟨l1, e1⟩ := List.getElem?_eq_some_iff.1 hj
          obtain ⟨l2, e2⟩ := List.getElem?_eq_some_iff.1 hj'
          exact (List.Nodup.getElem_inj_iff nd (hi := l2) (hj := l1)).1 (e2.trans e1.symm)
        subst hjj
        rw [tc] at hci; cases hci
        rw [hi1, new1]; simp
      · rw [tne c' hcc] at hci
        obtain ⟨g1, g2, g3⟩ := b4 ci hci
        have hcn := Nat.ne_of_lt (h.bound c' ci hci)
        rw [(old ci hcn).2.2.1, (old ci hcn).2.1, (old k hkn).2.1]
        refine ⟨?_, g2, g3⟩
        by_cases hki : k = i
        · subst hki
          have hmq := h.named.inj hm hi
          subst hmq
          rw [hd] at hdm; cases hdm
          have hjj : j' ≠ j := by rintro rfl; rw [hj] at hj'; cases hj'; exact hcc rfl
          rw [hi1]; simp [hjj, g1]
        · rw [rest1 k hkn hki]; exact g1
    · intro ci hci
      by_cases hki : k = i
      · subst hki
        have hmq := h.named.inj hm hi
        subst hmq
        rw [hd] at hdm; cases hdm
        by_cases hjj : j' = j
        · subst hjj
          rw [hj] at hj'; cases hj'
          rw [hi1] at hci
          simp only [Function.update_self] at hci
          cases hci
          rw [new1, next1]; simp
        · rw [hi1] at hci
          simp only [Function.update_of_ne hjj] at hci
          obtain ⟨g1, g2⟩ := b5 ci hci
          rw [(old ci (Nat.ne_of_lt g2)).1, next1]
          exact ⟨g1, by omega⟩
      · rw [rest1 k hkn hki] at hci
        obtain ⟨g1, g2⟩ := b5 ci hci
        rw [(old ci (Nat.ne_of_lt g2)).1, next1]
        exact ⟨g1, by omega⟩
  · intro m k p q0 hm hdm
    by_cases hmc : m = c
    · subst hmc
      rw [tc] at hm; cases hm
      rw [new1] at hdm; cases hdm
      refine ⟨q, rfl, fun d => ?_, ⟨ins, f, j + 1, c1⟩, c2, c3, ⟨p4', by simp [p1]⟩, by omega, ?_, Or.inr ⟨?_, pol, ins, outs, f, ?_, ?_⟩⟩
      · rw [deps1]; simp [nc]
      · rw [(old i (Nat.ne_of_lt hil)).1]; exact h.named q i hi
      · rw [tne q (Ne.symm hcq)]; exact hi
      · rw [(old i (Nat.ne_of_lt hil)).2.2.1]; exact hd
      · exact List.mem_of_getElem? hj
    · rw [tne m hmc] at hm
      rw [(old k (Nat.ne_of_lt (h.bound m k hm))).2.2.1] at hdm
      obtain ⟨q', a1, a2, a3, a4, a5, a6, a7, a8, a9⟩ := h.sub m k p q0 hm hdm
      have hqc : q' ≠ c := by
        rintro rfl
        exact hcq (a6.1.symm.trans c3)
      refine ⟨q', a1, fun d => by rw [dne m d hmc]; exact a2 d, a3, a4, a5, a6, by omega, ?_, ?_⟩
      · rw [(old p (Nat.ne_of_lt a7)).1]; exact a8
      · rw [tne q' hqc, (old p (Nat.ne_of_lt a7)).2.2.1]; exact a9
  · intro m d hmd hm
    rw [u1] at hm ⊢
    by_cases hmc : m = c
    · subst hmc
      rw [show utdName s m = false by simp [utdName, hc]] at hm; cases hm
    · exact h.closed m d ((dne m d hmc).1 hmd) hm
  · intro m k p q0 hm hdm hq
    rw [u1] at hq ⊢
    by_cases hmc : m = c
    · subst hmc
      rw [tc] at hm; cases hm
      rw [new1] at hdm; cases hdm
      rw [hu] at hq; cases hq
    · rw [tne m hmc] at hm
      rw [(old k (Nat.ne_of_lt (h.bound m k hm))).2.2.1] at hdm
      exact h.kids m k p q0 hm hdm hq
  · intro m k hm hum
    by_cases hmc : m = c
    · subst hmc
      rw [tc] at hm; cases hm
      rw [new1] at hum; cases hum
    · rw [tne m hmc] at hm
      have o := old k (Nat.ne_of_lt (h.bound m k hm))
      rw [o.2.2.2.1] at hum
      rw [o.2.2.2.2]; exact h.val m k hm hum
  · intro m k hm hdm
    by_cases hmc : m = c
    · subst hmc; rw [tc] at hm; cases hm; rw [new1] at hdm; cases hdm
    · rw [tne m hmc] at hm
      have o := old k (Nat.ne_of_lt (h.bound m k hm))
      rw [o.2.2.1] at hdm
      rw [o.2.2.2.2]; exact h.leafVal m k hm hdm
  · intro m k hm
    rw [tne m (by rintro rfl; rw [hc] at hm; cases hm)]; exact hm
  · intro k hk; exact (old k (Nat.ne_of_lt hk)).1
  · intro k hk; exact (old k (Nat.ne_of_lt hk)).2.1
  · intro k hk; exact (old k (Nat.ne_of_lt hk)).2.2.1

/-- A new solution, or a new producer whose outputs do not exist yet. -/
theorem alloc_inv {E E' : Env N V} {L L' : Lay N} {s s' : St N V} (h : Inv E L s) {n : N} {o : Obj N V} {ins : List N}
    (hn : E n = none) (ho : o.name = n) (hu : o.utd = false) (hE : ∀ m d, E m = some d → E' m = some d)
    (hL : ∀ m, E m ≠ none → L'.rk m = L.rk m ∧ L'.own m = L.own m)
    (tab : s'.tab = Function.update s.tab n (some s.next)) (heap : s'.heap = Function.update s.heap s.next o)
    (next : s'.next = s.next + 1) (deps : ∀ m d, (m, d) ∈ s'.deps ↔ (m = n ∧ d ∈ ins) ∨ (m, d) ∈ s.deps)
    (hd : (o.dfn = .leaf ∧ ins = [] ∧ E' n = some (.given o.val)) ∨
      ∃ pol outs f, o.dfn = .prod pol ins outs f ∧ E' n = some (.out ins f 0) ∧ (n :: outs).Nodup ∧ L'.own n = n ∧
        (∀ m ∈ ins, E' m ≠ none ∧ L'.rk m < L'.rk n) ∧ (∀ j, o.kid j = none) ∧
        ∀ (j : Nat) c, outs[j]? = some c → E c = none ∧ E' c = some (.out ins f (j + 1)) ∧ L'.rk c = L'.rk n ∧ L'.own c = n) :
    Inv E' L' s' ∧ Grow s s' ∧ utdName s' n = false := by
  have tn : s.tab n = none := by
    cases hh : s.tab n with
    | none => rfl
    | some i => exact absurd hn (h.declared hh)
  have tne : ∀ m, m ≠ n → s'.tab m = s.tab m := fun m hm => by rw [tab, Function.update_of_ne hm]
  have tc : s'.tab n = some s.next := by rw [tab]; simp
  have old : ∀ k, k < s.next → s'.heap k = s.heap k := fun k hk => by
    rw [heap, Function.update_of_ne (Nat.ne_of_lt hk)]
  have new : s'.heap s.next = o := by rw [heap]; simp
  have dne : ∀ m d, m ≠ n → ((m, d) ∈ s'.deps ↔ (m, d) ∈ s.deps) := fun m d hm => by rw [deps]; simp [hm]
  have nn : ∀ d, (n, d) ∉ s.deps := fun d hd => h.depsTab n d hd tn
  have u1 : ∀ m, utdName s' m = utdName s m := by
    intro m
    by_cases hm : m = n
    · subst hm
      unfold utdName
      simp [tc, new, tn, hu]
    · unfold utdName
      rw [tne m hm]
      cases hk : s.tab m with
      | none => rfl
      | some k => simp only [old k (h.bound m k hk)]
  have hE' : ∀ m, E m ≠ none → E' m ≠ none := by
    intro m hm
    obtain ⟨d, hd⟩ := Option.ne_none_iff_exists'.1 hm
    simp [hE m d hd]
  refine ⟨⟨⟨?_, ?_, ?_, ?_, ?_, ?_⟩, ?_, ?_, ?_, ?_⟩, ⟨?_, by omega, ?_, ?_, ?_⟩, ?_⟩
  · intro m k hm
    by_cases hmc : m = n
    · subst hmc; rw [tc] at hm; cases hm; rw [new, ho]
    · rw [tne m hmc] at hm
      rw [old k (h.bound m k hm)]; exact h.named m k hm
  · intro m k hm
    rw [next]
    by_cases hmc : m = n
    · subst hmc; rw [tc] at hm; cases hm; omega
    · rw [tne m hmc] at hm
      have := h.bound m k hm; omega
  · intro m d hmd
    by_cases hmc : m = n
    · subst hmc; simp [tc]
    · rw [tne m hmc]; exact h.depsTab m d ((dne m d hmc).1 hmd)
  · intro m k hm hdm
    by_cases hmc : m = n
    · subst hmc
      rw [tc] at hm; cases hm
      rw [new] at hdm
      rcases hd with ⟨-, rfl, he⟩ | ⟨pol, outs, f, hd, -⟩
      · exact ⟨⟨_, he⟩, fun d hd => by rw [deps] at hd; simp [nn] at hd⟩
      · rw [hdm] at hd; cases hd
    · rw [tne m hmc] at hm
      rw [old k (h.bound m k hm)] at hdm
      obtain ⟨⟨v, a⟩, b⟩ := h.leaf m k hm hdm
      exact ⟨⟨v, hE _ _ a⟩, fun d hd => b d ((dne m d hmc).1 hd)⟩
  · intro m k pol' ins' outs' f' hm hdm
    by_cases hmc : m = n
    · subst hmc
      rw [tc] at hm; cases hm
      rw [new] at hdm
      rcases hd with ⟨hd, -⟩ | ⟨pol, outs, f, hd, e1, e2, e3, e4, e5, e6⟩
      · rw [hdm] at hd; cases hd
      rw [hdm] at hd; cases hd
      refine ⟨e1, fun d => by rw [deps]; simp [nn], e4, e2, e3, fun j c hj => ?_⟩
      obtain ⟨g0, g1, g2, g3⟩ := e6 j c hj
      refine ⟨g1, g2, g3, fun ci hci => ?_, fun ci hci => ?_⟩
      · have hcm : c ≠ m := by
          rintro rfl
          exact (List.nodup_cons.1 e2).1 (List.mem_of_getElem? hj)
        rw [tne c hcm] at hci
        exact absurd g0 (h.declared hci)
      · rw [new, e5] at hci; cases hci
    · rw [tne m hmc] at hm
      have hk := h.bound m k hm
      rw [old k hk] at hdm ⊢
      obtain ⟨a1, a2, a3, a4, a4', a5⟩ := h.prod m k pol' ins' outs' f' hm hdm
      have hm0 : E m ≠ none := by simp [a1]
      refine ⟨hE _ _ a1, fun d => by rw [dne m d hmc]; exact a2 d, fun x hx => ⟨hE' x (a3 x hx).1, ?_⟩, a4,
        by rw [(hL m hm0).2]; exact a4', fun j c hj => ?_⟩
      · rw [(hL m hm0).1, (hL x (a3 x hx).1).1]; exact (a3 x hx).2
      · obtain ⟨b1, b2, b3, b4, b5⟩ := a5 j c hj
        have hc0 : E c ≠ none := by simp [b1]
        have hcn : c ≠ n := by rintro rfl; exact hc0 hn
        refine ⟨hE _ _ b1, by rw [(hL m hm0).1, (hL c hc0).1]; exact b2, by rw [(hL c hc0).2]; exact b3,
          fun ci hci => ?_, fun ci hci => ?_⟩
        · rw [tne c hcn] at hci
          rw [old ci (h.bound c ci hci)]; exact b4 ci hci
        · obtain ⟨g1, g2⟩ := b5 ci hci
          rw [old ci g2]; exact ⟨g1, by omega⟩
  · intro m k p q0 hm hdm
    by_cases hmc : m = n
    · subst hmc
      rw [tc] at hm; cases hm
      rw [new] at hdm
      rcases hd with ⟨hd, -⟩ | ⟨pol, outs, f, hd, -⟩ <;> · rw [hdm] at hd; cases hd
    · rw [tne m hmc] at hm
      rw [old k (h.bound m k hm)] at hdm
      obtain ⟨q', a1, a2, ⟨i', f', k', a3⟩, a4, a5, ⟨a6, a6'⟩, a7, a8, a9⟩ := h.sub m k p q0 hm hdm
      have hqn : q' ≠ n := by rintro rfl; exact a6' hn
      have hm0 : E m ≠ none := by simp [a3]
      refine ⟨q', a1, fun d => by rw [dne m d hmc]; exact a2 d, ⟨i', f', k', hE _ _ a3⟩,
        by rw [(hL m hm0).1, (hL q' a6').1]; exact a4, by rw [(hL m hm0).2]; exact a5,
        ⟨by rw [(hL q' a6').2]; exact a6, hE' q' a6'⟩, by omega, ?_, ?_⟩
      · rw [old p a7]; exact a8
      · rw [tne q' hqn, old p a7]; exact a9
  · intro m d hmd hm
    rw [u1] at hm ⊢
    by_cases hmc : m = n
    · subst hmc
      rw [show utdName s m = false by simp [utdName, tn]] at hm; cases hm
    · exact h.closed m d ((dne m d hmc).1 hmd) hm
  · intro m k p q0 hm hdm hq
    rw [u1] at hq ⊢
    by_cases hmc : m = n
    · subst hmc
      rw [tc] at hm; cases hm
      rw [new] at hdm
      rcases hd with ⟨hd, -⟩ | ⟨pol, outs, f, hd, -⟩ <;> · rw [hdm] at hd; cases hd
    · rw [tne m hmc] at hm
      rw [old k (h.bound m k hm)] at hdm
      exact h.kids m k p q0 hm hdm hq
  · intro m k hm hum
    by_cases hmc : m = n
    · subst hmc
      rw [tc] at hm; cases hm
      rw [new, hu] at hum; cases hum
    · rw [tne m hmc] at hm
      have o := old k (h.bound m k hm)
      rw [o] at hum ⊢
      exact (h.val m k hm hum).mono hE
  · intro m k hm hdm
    by_cases hmc : m = n
    · subst hmc
      rw [tc] at hm; cases hm
      rw [new] at hdm ⊢
      rcases hd with ⟨-, -, he⟩ | ⟨pol, outs, f, hd, -⟩
      · exact he
      · rw [hdm] at hd; cases hd
    · rw [tne m hmc] at hm
      rw [old k (h.bound m k hm)] at hdm ⊢
      exact hE _ _ (h.leafVal m k hm hdm)
  · intro m k hm
    rw [tne m (by rintro rfl; rw [tn] at hm; cases hm)]; exact hm
  · intro k hk; rw [old k hk]
  · intro k hk; rw [old k hk]
  · intro k hk; rw [old k hk]
  · simp [utdName, tc, new, hu]

end Verif.Multi
