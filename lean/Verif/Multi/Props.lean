import Verif.Multi.Read

/-! The properties of groups of models computed together. -/

namespace Verif.Multi

variable {N V : Type} [DecidableEq N]

theorem declOuts_notin {ins : List N} {f : List V → Nat → V} {m : N} : ∀ (l : List N) (k : Nat) (E : Env N V), m ∉ l →
    declOuts ins f k E l m = E m
  | [], _, _, _ => rfl
  | c :: l, k, E, h => by
    simp only [List.mem_cons, not_or] at h
    rw [declOuts, declOuts_notin l _ _ h.2, Function.update_of_ne h.1]

theorem declOuts_at {ins : List N} {f : List V → Nat → V} {c : N} : ∀ (l : List N) (k : Nat) (E : Env N V) (j : Nat), l.Nodup →
    l[j]? = some c → declOuts ins f k E l c = some (.out ins f (k + j))
  | [], _, _, j, _, h => by simp at h
  | a :: l, k, E, j, hn, h => by
    rw [declOuts]
    cases j with
    | zero =>
      simp only [List.getElem?_cons_zero, Option.some.injEq] at h
      subst h
      rw [declOuts_notin l _ _ (List.nodup_cons.1 hn).1]
      simp
    | succ j =>
      simp only [List.getElem?_cons_succ] at h
      rw [declOuts_at l (k + 1) _ j (List.nodup_cons.1 hn).2 h, show k + 1 + j = k + (j + 1) by omega]

theorem mem_registerAll {n m d : N} : ∀ (l : List N) (s : St N V),
    (m, d) ∈ (registerAll s n l).deps ↔ (m = n ∧ d ∈ l) ∨ (m, d) ∈ s.deps
  | [], s => by simp [registerAll]
  | a :: l, s => by
    rw [registerAll, mem_registerAll l, mem_register]
    simp only [List.mem_cons]
    tauto

theorem registerAll_rest {n : N} : ∀ (l : List N) (s : St N V),
    (registerAll s n l).tab = s.tab ∧ (registerAll s n l).heap = s.heap ∧ (registerAll s n l).next = s.next
  | [], s => ⟨rfl, rfl, rfl⟩
  | a :: l, s => by
    rw [registerAll]
    exact registerAll_rest l (register s n a)

/-- The outputs of a new producer. -/
theorem addSubs_inv {E : Env N V} {L : Lay N} {zero : V} {i : Nat} {q : N} {pol : Policy}
    {ins outs : List N} {f : List V → Nat → V} {kind : Kind} : ∀ (l : List N) (j : Nat) (s : St N V), outs.drop j = l → Inv E L s →
    s.tab q = some i → (s.heap i).dfn = .prod pol ins outs f → (s.heap i).kind = kind → utdName s q = false →
    (∀ c ∈ l, s.tab c = none) → l.Nodup →
    ∃ s1, addSubs zero i q kind j s l = (s1, true) ∧ Inv E L s1 ∧ Grow s s1 ∧ ∀ c ∈ l, s1.tab c ≠ none
  | [], _, s, _, h, _, _, _, _, _, _ => ⟨s, rfl, h, Grow.refl s, by simp⟩
  | c :: l, j, s, hl, h, hi, hd, hk, hu, hn, hnd => by
    obtain ⟨hj, hl'⟩ := getElem?_of_drop hl
    have hc := hn c (by simp)
    obtain ⟨s2, e2, inv2, grow2, tab2, u2⟩ := addSub_inv (zero := zero) h hi hd hj hc hu
    have hil := h.bound q i hi
    rw [hk] at e2
    obtain ⟨s1, r0, r1, r2, r3⟩ := addSubs_inv (zero := zero) (kind := kind) l (j + 1) s2 hl' inv2 (grow2.tab _ _ hi)
      (by rw [grow2.dfn i hil]; exact hd) (by rw [grow2.kind i hil]; exact hk) (by rw [u2]; exact hu)
      (fun c' hc' => by
        rw [tab2, Function.update_of_ne]
        · exact hn c' (List.mem_cons_of_mem _ hc')
        · rintro rfl; exact (List.nodup_cons.1 hnd).1 hc') (List.nodup_cons.1 hnd).2
    refine ⟨s1, by simp only [addSubs, e2]; exact r0, r1, grow2.trans r2, fun c' hc' => ?_⟩
    rcases List.mem_cons.1 hc' with rfl | hc'
    · have : s2.tab c' = some s.next := by rw [tab2]; simp
      simp [r2.tab _ _ this]
    · exact r3 c' hc'

theorem rank_bound (r : N → Nat) : ∀ l : List N, ∃ R, ∀ m ∈ l, r m < R
  | [] => ⟨0, by simp⟩
  | a :: l => by
    obtain ⟨R, h⟩ := rank_bound r l
    refine ⟨max R (r a + 1), fun m hm => ?_⟩
    rcases List.mem_cons.1 hm with rfl | hm
    · omega
    · have := h m hm; omega

theorem Inv.tab_none {E : Env N V} {L : Lay N} {s : St N V} (h : Inv E L s) {n : N} (hn : E n = none) : s.tab n = none := by
  cases hh : s.tab n with
  | none => rfl
  | some i => exact absurd hn (h.declared hh)

/-- A new solution. -/
theorem leaf_inv {E : Env N V} {L : Lay N} {s : St N V} (h : Inv E L s) {zero : V} {n : N} {kind : Kind} (hn : E n = none) {fuel : Nat} :
    ∃ s', step zero fuel s (.leaf n kind) = (s', .ok none) ∧
      Inv (Function.update E n (some (.given zero))) L s' ∧ Grow s s' ∧ s'.tab n ≠ none := by
  have tn := h.tab_none hn
  refine ⟨_, by simp only [step, addModel, tn]; rfl, ?_⟩
  obtain ⟨a, b, -⟩ := alloc_inv (E' := Function.update E n (some (.given zero))) (L' := L) (ins := []) h hn (o := { name := n, kind := kind, dfn := .leaf, utd := false, val := zero, kid := fun _ => none }) rfl rfl
    (fun m d hm => by
      rw [Function.update_of_ne]
      · exact hm
      · rintro rfl; rw [hn] at hm; cases hm) (fun _ _ => ⟨rfl, rfl⟩)
    (s' := { s with heap := Function.update s.heap s.next { name := n, kind := kind, dfn := .leaf, utd := false, val := zero, kid := fun _ => none }, next := s.next + 1,
                               tab := Function.update s.tab n (some s.next) }) rfl rfl rfl (by simp)
    (Or.inl ⟨rfl, rfl, by simp⟩)
  exact ⟨a, b, by simp⟩

/-- A new group. -/
theorem group_inv {E : Env N V} {L : Lay N} {s : St N V} (h : Inv E L s) {zero : V} {n : N} {kind : Kind} {pol : Policy}
    {ins outs : List N} {f : List V → Nat → V} {fuel : Nat} (hnd : (n :: outs).Nodup) (hnew : ∀ c ∈ n :: outs, E c = none)
    (hins : ∀ m ∈ ins, E m ≠ none) :
    ((∃ m ∈ ins, s.tab m = none) ∧ step zero fuel s (.group n kind pol ins outs f) = (s, .error)) ∨
    ∃ s' L', step zero fuel s (.group n kind pol ins outs f) = (s', .ok none) ∧
      Inv (declOuts ins f 0 E (n :: outs)) L' s' ∧ Grow s s' ∧ ∀ c ∈ n :: outs, s'.tab c ≠ none := by
  by_cases hin : (ins.all fun m => (s.tab m).isSome) = true
  swap
  · left
    refine ⟨?_, by simp only [step]; rw [if_neg hin]⟩
    simp only [List.all_eq_true, not_forall] at hin
    obtain ⟨m, hm, hh⟩ := hin
    exact ⟨m, hm, by simpa using hh⟩
  right
  have hn : E n = none := hnew n (by simp)
  have tn := h.tab_none hn
  obtain ⟨R, hR⟩ := rank_bound L.rk ins
  obtain ⟨o, ho⟩ : ∃ o : Obj N V, o = { name := n, kind := kind, dfn := .prod pol ins outs f, utd := false, val := zero, kid := fun _ => none } := ⟨_, rfl⟩
  obtain ⟨s1, hs1⟩ : ∃ s1 : St N V, s1 = { s with heap := Function.update s.heap s.next o, next := s.next + 1, tab := Function.update s.tab n (some s.next) } := ⟨_, rfl⟩
  obtain ⟨g1, g2, g3⟩ := registerAll_rest (n := n) ins s1
  obtain ⟨a, b, c⟩ := alloc_inv (E' := declOuts ins f 0 E (n :: outs))
    (L' := ⟨fun m => if m ∈ n :: outs then R else L.rk m, fun m => if m ∈ n :: outs then n else L.own m⟩)
    (s' := registerAll s1 n ins) (o := o) (ins := ins) h hn (by rw [ho]) (by rw [ho])
    (fun m d hm => by
      rw [declOuts_notin]
      · exact hm
      · intro hh; rw [hnew m hh] at hm; cases hm)
    (fun m hm => by
      have : m ∉ n :: outs := fun hh => hm (hnew m hh)
      simp only [this, if_false]; exact ⟨trivial, trivial⟩)
    (by rw [g1, hs1]) (by rw [g2, hs1]) (by rw [g3, hs1]) (fun m d => by rw [mem_registerAll, hs1])
    (Or.inr ⟨pol, outs, f, by rw [ho], declOuts_at (n :: outs) 0 E 0 hnd rfl, hnd, by simp, fun m hm => by
        have : m ∉ n :: outs := fun hh => hins m hm (hnew m hh)
        refine ⟨by rw [declOuts_notin _ _ _ this]; exact hins m hm, ?_⟩
        simp only [this, if_false]
        simpa using hR m hm, by rw [ho]; simp, fun j c hj => by
        have hc := List.mem_of_getElem? hj
        refine ⟨hnew c (List.mem_cons_of_mem _ hc), ?_, by simp [hc], by simp [hc]⟩
        rw [declOuts_at (n :: outs) 0 E (j + 1) hnd (by simpa using hj)]
        simp⟩)
  · have ti : (registerAll s1 n ins).tab n = some s.next := by rw [g1, hs1]; simp
    have oi : (registerAll s1 n ins).heap s.next = o := by rw [g2, hs1]; simp
    obtain ⟨s2, e, r1, r2, r3⟩ := addSubs_inv (zero := zero) (kind := kind) (q := n) (pol := pol) (ins := ins) (outs := outs) (f := f) outs 0 (registerAll s1 n ins) (by simp) a ti
      (by rw [oi, ho]) (by rw [oi, ho]) c (fun x hx => by
        have hxn : x ≠ n := by rintro rfl; exact (List.nodup_cons.1 hnd).1 hx
        rw [g1, hs1]
        simp only [Function.update_of_ne hxn]
        exact h.tab_none (hnew x (List.mem_cons_of_mem _ hx))) (List.nodup_cons.1 hnd).2
    refine ⟨s2, _, ?_, r1, b.trans r2, fun x hx => ?_⟩
    · simp only [step]
      rw [if_pos hin]
      simp only [addModel, tn]
      rw [← ho, ← hs1]
      simp only [e]
    · rcases List.mem_cons.1 hx with rfl | hx
      · simp [r2.tab _ _ ti]
      · exact r3 x hx

/-- Every command keeps the invariant. -/
theorem step_inv {E : Env N V} {L : Lay N} {s s' : St N V} (h : Inv E L s) {zero : V} {op : Op N V} (hc : Clean E op)
    {fuel : Nat} {r : Res (Option V)} (he : step zero fuel s op = (s', r)) :
    (∀ v, r = .ok v → ∃ L', Inv (declare zero E op) L' s' ∧
      ((∀ n, op ≠ .delete n) → Full E s → Full (declare zero E op) s')) ∧
    (r = .error → ∃ L', Inv E L' s' ∧ (Full E s → Full E s')) := by
  cases op with
  | leaf n kind =>
    obtain ⟨s1, e, a, b, c⟩ := leaf_inv (kind := kind) (zero := zero) (fuel := fuel) h hc
    rw [e] at he; cases he
    refine ⟨fun v _ => ⟨L, a, fun _ hf m hm => ?_⟩, fun hh => (by cases hh)⟩
    by_cases hmn : m = n
    · subst hmn; exact c
    · simp only [declare, Function.update_of_ne hmn] at hm
      exact hf.grow b m hm
  | group n kind pol ins outs f =>
    obtain ⟨h1, h2, h3⟩ := hc
    rcases group_inv (zero := zero) (fuel := fuel) (kind := kind) (pol := pol) (f := f) h h1 h2 h3 with ⟨-, e⟩ | ⟨s1, L1, e, a, b, c⟩
    · rw [e] at he; cases he
      exact ⟨fun v hv => (by cases hv), fun _ => ⟨L, h, id⟩⟩
    · rw [e] at he; cases he
      refine ⟨fun v _ => ⟨L1, a, fun _ hf m hm => ?_⟩, fun hh => (by cases hh)⟩
      by_cases hmn : m ∈ n :: outs
      · exact c m hmn
      · simp only [declare, declOuts_notin _ _ _ hmn] at hm
        exact hf.grow b m hm
  | set n v =>
    obtain ⟨v0, hv0⟩ := hc
    cases ht : s.tab n with
    | none =>
      simp only [step, ht] at he; cases he
      exact ⟨fun v hv => (by cases hv), fun _ => ⟨L, h, id⟩⟩
    | some i =>
      simp only [step, ht] at he; cases he
      obtain ⟨a, b⟩ := set_inv h ht hv0 v
      refine ⟨fun v _ => ⟨L, a, fun _ hf m hm => ?_⟩, fun hh => (by cases hh)⟩
      rw [b.tab]
      by_cases hmn : m = n
      · subst hmn; simp [ht]
      · simp only [declare, Function.update_of_ne hmn] at hm
        exact hf m hm
  | get n =>
    cases ht : s.tab n with
    | none =>
      simp only [step, ht] at he; cases he
      exact ⟨fun v hv => (by cases hv), fun _ => ⟨L, h, id⟩⟩
    | some i =>
      simp only [step, ht] at he
      rcases hr : read zero fuel s i with ⟨s1, r1⟩
      obtain ⟨a, -, -⟩ := read_spec fuel s n i h ht s1 r1 hr
      rw [hr] at he
      cases r1 <;> (dsimp only at he; cases he)
      · exact ⟨fun v _ => ⟨L, a.inv, fun _ hf => hf.grow a.grow⟩, fun hh => (by cases hh)⟩
      · exact ⟨fun v hv => (by cases hv), fun _ => ⟨L, a.inv, fun hf => hf.grow a.grow⟩⟩
      · exact ⟨fun v hv => (by cases hv), fun hh => (by cases hh)⟩
  | delete n =>
    cases ht : s.tab n with
    | none =>
      simp only [step, ht] at he; cases he
      exact ⟨fun v hv => (by cases hv), fun _ => ⟨L, h, id⟩⟩
    | some i =>
      simp only [step, ht] at he; cases he
      exact ⟨fun v _ => ⟨L, delete_inv h n, fun hh => absurd rfl (hh n)⟩, fun hh => (by cases hh)⟩

theorem init_inv [Inhabited N] (zero : V) : Inv (fun _ => none) ⟨fun _ => 0, id⟩ (init zero : St N V) := by
  refine ⟨⟨?_, ?_, ?_, ?_, ?_, ?_⟩, ?_, ?_, ?_, ?_⟩ <;> simp [init, Named]

theorem Reach.inv [Inhabited N] {zero : V} {E : Env N V} {s : St N V} (h : Reach zero E s) : ∃ L, Inv E L s := by
  induction h with
  | init => exact ⟨_, init_inv zero⟩
  | ok _ hc he ih =>
    obtain ⟨L, hL⟩ := ih
    obtain ⟨L', hL', -⟩ := (step_inv hL hc he).1 _ rfl
    exact ⟨L', hL'⟩
  | error _ hc he ih =>
    obtain ⟨L, hL⟩ := ih
    obtain ⟨L', hL', -⟩ := (step_inv hL hc he).2 rfl
    exact ⟨L', hL'⟩

theorem ReachNoDelete.inv [Inhabited N] {zero : V} {E : Env N V} {s : St N V} (h : ReachNoDelete zero E s) :
    (∃ L, Inv E L s) ∧ Full E s := by
  induction h with
  | init => exact ⟨⟨_, init_inv zero⟩, fun m hm => absurd rfl hm⟩
  | ok _ hc hd he ih =>
    obtain ⟨⟨L, hL⟩, hf⟩ := ih
    obtain ⟨L', hL', hf'⟩ := (step_inv hL hc he).1 _ rfl
    exact ⟨⟨L', hL'⟩, hf' hd hf⟩
  | error _ hc _ he ih =>
    obtain ⟨⟨L, hL⟩, hf⟩ := ih
    obtain ⟨L', hL', hf'⟩ := (step_inv hL hc he).2 rfl
    exact ⟨⟨L', hL'⟩, hf' hf⟩

/-- The answer to a question is the value that follows from the declarations in force: the outputs of a group are
current and belong together, whichever of them is asked, in whatever order, after any history of clean commands. -/
theorem outputs_current [Inhabited N] {zero : V} {E : Env N V} {s s' : St N V} (h : Reach zero E s) {n : N} {fuel : Nat} {a : Option V}
    (hg : step zero fuel s (.get n) = (s', .ok a)) : ∃ v, a = some v ∧ Val E n v := by
  obtain ⟨L, hL⟩ := h.inv
  cases ht : s.tab n with
  | none => simp [step, ht] at hg
  | some i =>
    simp only [step, ht] at hg
    rcases hr : read zero fuel s i with ⟨s1, r1⟩
    obtain ⟨-, b, -⟩ := read_spec fuel s n i hL ht s1 r1 hr
    rw [hr] at hg
    cases r1 with
    | ok v => cases hg; exact ⟨v, rfl, (b v rfl).2.1⟩
    | error => cases hg
    | crash => cases hg

/-- Asking changes no answer: whatever was asked before, in any order, a question gets the same answer. -/
theorem answers_stable [Inhabited N] {zero : V} {E : Env N V} {s t s' t' : St N V} (hs : Reach zero E s) (ht : Reach zero E t) {n : N}
    {fuel fuel' : Nat} {a b : Option V} (h1 : step zero fuel s (.get n) = (s', .ok a))
    (h2 : step zero fuel' t (.get n) = (t', .ok b)) : a = b := by
  obtain ⟨v, rfl, hv⟩ := outputs_current hs h1
  obtain ⟨w, rfl, hw⟩ := outputs_current ht h2
  rw [hv.unique hw]

/-- As long as nothing is deleted every declared name has an answer: no error and no null pointer, whatever the depth of
the models it is made of. -/
theorem always_answers [Inhabited N] {zero : V} {E : Env N V} {s : St N V} (h : ReachNoDelete zero E s) {n : N} (hn : E n ≠ none) :
    ∃ K, ∀ fuel, K ≤ fuel → ∃ s' v, step zero fuel s (.get n) = (s', .ok (some v)) ∧ Val E n v := by
  obtain ⟨⟨L, hL⟩, hf⟩ := h.inv
  obtain ⟨i, hi⟩ := Option.ne_none_iff_exists'.1 (hf n hn)
  refine ⟨need L s n i, fun fuel hk => ?_⟩
  rcases hr : read zero fuel s i with ⟨s1, r1⟩
  obtain ⟨-, b, c⟩ := read_spec fuel s n i hL hi s1 r1 hr
  obtain ⟨v, rfl⟩ := c hf hk
  exact ⟨s1, v, by simp only [step, hi, hr], (b v rfl).2.1⟩

/-- The names the value of `n` is made of. -/
inductive Needs (E : Env N V) : N → N → Prop where
  | direct {n m ins f k} : E n = some (.out ins f k) → m ∈ ins → Needs E n m
  | trans {n m l} : Needs E n m → Needs E m l → Needs E n l

/-- A deleted model is missed: a question about something that is made of it has no answer. -/
theorem missing_input_no_answer [Inhabited N] {zero : V} {E : Env N V} {s s' : St N V} (h : Reach zero E s) {n m : N} {fuel : Nat} {a : Option V}
    (hn : Needs E n m) (hm : ∀ fuel s1 b, step zero fuel s' (.get m) ≠ (s1, .ok b)) : step zero fuel s (.get n) ≠ (s', .ok a) := by
  intro hg
  obtain ⟨L, hL⟩ := h.inv
  cases ht : s.tab n with
  | none => simp [step, ht] at hg
  | some i =>
    simp only [step, ht] at hg
    rcases hr : read zero fuel s i with ⟨s1, r1⟩
    obtain ⟨c, b, -⟩ := read_spec fuel s n i hL ht s1 r1 hr
    rw [hr] at hg
    cases r1 with
    | error => cases hg
    | crash => cases hg
    | ok v =>
      cases hg
      have hu := (b v rfl).1
      have key : ∀ n m, Needs E n m → utdName s' n = true → utdName s' m = true := by
        intro n m hn
        induction hn with
        | direct h1 h2 => intro hu; exact (c.inv.ins_utd c.inv.closed hu h1 _ h2).1
        | trans _ _ ih1 ih2 => exact fun hu => ih2 (ih1 hu)
      obtain ⟨mi, hmi, hmu⟩ := utdName_tab (key n m hn hu)
      refine hm 1 s' (some (s'.heap mi).val) ?_
      simp [step, hmi, read, hmu]

/-- A producer of the kind that recreates missing outputs never writes to a model that has replaced one of its outputs:
it reports an error, and no model has other values afterwards (in any state whatever). -/
theorem revive_keeps_replacement {zero : V} {s : St N V} {i j ci : Nat} {c : N} {ins outs : List N} {f : List V → Nat → V}
    {k : Nat} (hd : (s.heap i).dfn = .prod .revive ins outs f) (hi : i < s.next) (hu : (s.heap i).utd = false)
    (hj : outs[j]? = some c) (hc : s.tab c = some ci) (hlock : lock s i j = none)
    (hkid : ∀ x, (s.heap i).kid j = some x → x < s.next) :
    ∃ s', read zero (k + 1) s i = (s', .error) ∧ ∀ x, x < s.next → (s'.heap x).val = (s.heap x).val := by
  unfold read
  rw [if_neg (by simp [hu])]
  simp only [hd]
  by_cases hin : (ins.all fun n => (s.tab n).isSome) = true
  swap
  · rw [if_neg hin]; exact ⟨s, rfl, fun _ _ => rfl⟩
  rw [if_pos hin]
  have key : ∀ (l : List N) (j0 : Nat) (t : St N V), outs.drop j0 = l → j0 ≤ j → s.next ≤ t.next →
      (∀ x, x < s.next → (t.heap x).val = (s.heap x).val) → t.tab c = some ci → lock t i j = none →
      (∀ x, (t.heap i).kid j = some x → x < s.next) →
      ∃ t', prepare zero .revive i (s.heap i).name (s.heap i).kind j0 t l = (t', false) ∧
        ∀ x, x < s.next → (t'.heap x).val = (s.heap x).val := by
    intro l
    induction l with
    | nil =>
      intro j0 t hl hj0
      have h1 : outs.length ≤ j0 := List.drop_eq_nil_iff.1 hl
      have h2 := (List.getElem?_eq_some_iff.1 hj).1
      omega
    | cons a l ih =>
      intro j0 t hl hj0 hnx hv htc hlk hk
      obtain ⟨hj0', hl'⟩ := getElem?_of_drop hl
      have hit : i ≠ t.next := by omega
      simp only [prepare]
      by_cases hjj : j0 = j
      · subst hjj
        rw [hj] at hj0'; cases hj0'
        simp only [htc, hlk]
        exact ⟨t, by simp, hv⟩
      · cases hta : t.tab a with
        | some ai =>
          dsimp only
          split
          · exact ih (j0 + 1) t hl' (by omega) hnx hv htc hlk hk
          · exact ⟨t, rfl, hv⟩
        | none =>
          obtain ⟨t1, e1, tab1, next1, -, new1, hi1, rest1⟩ :=
            addSub_eq (zero := zero) (j := j0) (q := (s.heap i).name) (kind := (s.heap i).kind) hta hit
          simp only [e1]
          have hjj' : j ≠ j0 := fun h => hjj h.symm
          have kid1 : (t1.heap i).kid j = (t.heap i).kid j := by
            rw [hi1]; simp [hjj']
          refine ih (j0 + 1) t1 hl' (by omega) (by omega) (fun x hx => ?_) ?_ ?_ ?_
          · rw [← hv x hx]
            by_cases hxi : x = i
            · subst hxi; rw [hi1]
            · rw [rest1 x (by omega) hxi]
          · rw [tab1, Function.update_of_ne]
            · exact htc
            · rintro rfl; rw [htc] at hta; cases hta
          · unfold lock at hlk ⊢
            rw [kid1]
            cases hkj : (t.heap i).kid j with
            | none => rfl
            | some x =>
              have hx := hk x hkj
              rw [hkj] at hlk
              have hnm : (t1.heap x).name = (t.heap x).name := by
                by_cases hxi : x = i
                · subst hxi; rw [hi1]
                · rw [rest1 x (by omega) hxi]
              have : alive t1 x = false := by
                have h0 : alive t x = false := by
                  cases ha : alive t x with
                  | false => rfl
                  | true => simp [Option.filter, ha] at hlk
                simp only [alive, decide_eq_false_iff_not] at h0 ⊢
                rw [hnm, tab1]
                by_cases hna : (t.heap x).name = a
                · rw [hna]; simp; omega
                · rw [Function.update_of_ne hna]; exact h0
              simp [Option.filter, this]
          · intro x hx
            rw [kid1] at hx
            exact hk x hx
  obtain ⟨t', e, hv⟩ := key outs 0 s (by simp) (by omega) (Nat.le_refl _) (fun _ _ => rfl) hc hlock hkid
  rw [e]
  exact ⟨t', rfl, hv⟩

end Verif.Multi
