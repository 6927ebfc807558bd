import Verif.Multi.Store

/-! Reading the values of a model. -/

namespace Verif.Multi

variable {N V : Type} [DecidableEq N]

/-- All declared names exist. -/
def Full (E : Env N V) (s : St N V) : Prop := ∀ m, E m ≠ none → s.tab m ≠ none

theorem Full.grow {E : Env N V} {s s' : St N V} (h : Full E s) (hg : Grow s s') : Full E s' := by
  intro m hm
  obtain ⟨i, hi⟩ := Option.ne_none_iff_exists'.1 (h m hm)
  simp [hg.tab m i hi]

/-- What reading names of rank below `R` may do. -/
structure Calc (E : Env N V) (L : Lay N) (R : Nat) (s s' : St N V) : Prop where
  inv : Inv E L s'
  grow : Grow s s'
  mono : ∀ m, utdName s m = true → utdName s' m = true
  far : ∀ m, R ≤ L.rk m → s'.tab m = s.tab m ∧ utdName s' m = utdName s m

theorem Calc.refl {E : Env N V} {L : Lay N} {s : St N V} (h : Inv E L s) (R : Nat) : Calc E L R s s :=
  ⟨h, Grow.refl s, fun _ h => h, fun _ _ => ⟨rfl, rfl⟩⟩

theorem Calc.trans {E : Env N V} {L : Lay N} {R : Nat} {s s' s'' : St N V} (h : Calc E L R s s') (h' : Calc E L R s' s'') :
    Calc E L R s s'' :=
  ⟨h'.inv, h.grow.trans h'.grow, fun m hm => h'.mono m (h.mono m hm),
    fun m hm => ⟨(h'.far m hm).1.trans (h.far m hm).1, (h'.far m hm).2.trans (h.far m hm).2⟩⟩

theorem Calc.weaken {E : Env N V} {L : Lay N} {R R' : Nat} {s s' : St N V} (h : Calc E L R s s') (hR : R ≤ R') :
    Calc E L R' s s' := ⟨h.inv, h.grow, h.mono, fun m hm => h.far m (by omega)⟩

theorem markUtd_self {s : St N V} {i : Nat} (h : (s.heap i).utd = true) : markUtd s i = s := by
  unfold markUtd setObj
  have : ({ s.heap i with utd := true } : Obj N V) = s.heap i := by rw [← h]
  rw [this, Function.update_eq_self]

/-- The inputs are read one after the other. -/
theorem readList_spec {E : Env N V} {L : Lay N} {R : Nat} {rd : St N V → N → St N V × Res V} {good : N → Prop} :
    ∀ (l : List N) (s : St N V),
    (∀ m ∈ l, E m ≠ none ∧ L.rk m < R) →
    (∀ m ∈ l, ∀ s, Inv E L s → ∀ s' r, rd s m = (s', r) → Calc E L R s s' ∧ (∀ v, r = .ok v → utdName s' m = true ∧ Val E m v) ∧
      (Full E s → good m → ∃ v, r = .ok v)) →
    Inv E L s → ∀ s' r, readList rd s l = (s', r) →
    Calc E L R s s' ∧ (∀ vs, r = .ok vs → vs.length = l.length ∧
      ∀ (j : Nat) (m : N) (v : V), l[j]? = some m → vs[j]? = some v → utdName s' m = true ∧ Val E m v) ∧
    (Full E s → (∀ m ∈ l, good m) → ∃ vs, r = .ok vs)
  | [], s, _, _, h, s', r, he => by
    simp only [readList, Prod.mk.injEq] at he
    obtain ⟨rfl, rfl⟩ := he
    refine ⟨Calc.refl h R, fun vs hvs => ?_, fun _ _ => ⟨[], rfl⟩⟩
    cases hvs
    exact ⟨rfl, fun j m v hm => by simp at hm⟩
  | n :: l, s, hl, hrd, h, s', r, he => by
    simp only [readList] at he
    rcases hr : rd s n with ⟨s1, r1⟩
    obtain ⟨c1, o1, t1⟩ := hrd n (by simp) s h s1 r1 hr
    rw [hr] at he
    cases r1 with
    | error =>
      dsimp only at he; cases he
      exact ⟨c1, fun vs hvs => (by cases hvs), fun hf hg => (by obtain ⟨v, hv⟩ := t1 hf (hg n (by simp)); cases hv)⟩
    | crash =>
      dsimp only at he; cases he
      exact ⟨c1, fun vs hvs => (by cases hvs), fun hf hg => (by obtain ⟨v, hv⟩ := t1 hf (hg n (by simp)); cases hv)⟩
    | ok v =>
      dsimp only at he
      rcases hr2 : readList rd s1 l with ⟨s2, r2⟩
      obtain ⟨c2, o2, t2⟩ := readList_spec l s1 (fun m hm => hl m (List.mem_cons_of_mem _ hm))
        (fun m hm => hrd m (List.mem_cons_of_mem _ hm)) c1.inv s2 r2 hr2
      rw [hr2] at he
      have bad : ∀ r2 : Res (List V), ((Full E s1 → (∀ m ∈ l, good m) → ∃ vs, r2 = .ok vs)) →
          (Full E s → (∀ m ∈ n :: l, good m) → ∃ vs, r2 = .ok vs) :=
        fun r2 ht hf hg => ht (hf.grow c1.grow) fun m hm => hg m (List.mem_cons_of_mem _ hm)
      have bad2 := bad r2 t2
      cases r2 with
      | error =>
        dsimp only at he; cases he
        exact ⟨c1.trans c2, fun vs hvs => (by cases hvs), fun hf hg => (by obtain ⟨v, hv⟩ := bad2 hf hg; cases hv)⟩
      | crash =>
        dsimp only at he; cases he
        exact ⟨c1.trans c2, fun vs hvs => (by cases hvs), fun hf hg => (by obtain ⟨v, hv⟩ := bad2 hf hg; cases hv)⟩
      | ok vs =>
        dsimp only at he; cases he
        refine ⟨c1.trans c2, fun vs' hvs => ?_, fun _ _ => ⟨_, rfl⟩⟩
        cases hvs
        obtain ⟨g1, g2⟩ := o2 vs rfl
        refine ⟨by simp [g1], fun j m w hm hw => ?_⟩
        cases j with
        | zero =>
          simp only [List.getElem?_cons_zero, Option.some.injEq] at hm hw
          subst hm; subst hw
          obtain ⟨a, b⟩ := o1 v rfl
          exact ⟨c2.mono _ a, b⟩
        | succ j =>
          simp only [List.getElem?_cons_succ] at hm hw
          exact g2 j m w hm hw

/-- Fuel for reading the object `i` named `n`. -/
def need (L : Lay N) (s : St N V) (n : N) (i : Nat) : Nat :=
  match (s.heap i).dfn with
  | .sub _ _ => 2 * L.rk n + 2
  | _ => 2 * L.rk n + 1

/-- Reading keeps the invariant and gives the value that was declared; it succeeds when everything declared exists. -/
theorem read_spec {E : Env N V} {L : Lay N} {zero : V} : ∀ (k : Nat) (s : St N V) (n : N) (i : Nat), Inv E L s →
    s.tab n = some i → ∀ s' r, read zero k s i = (s', r) →
    Calc E L (L.rk n + 1) s s' ∧ (∀ v, r = .ok v → utdName s' n = true ∧ Val E n v ∧ (s'.heap i).val = v) ∧
    (Full E s → need L s n i ≤ k → ∃ v, r = .ok v)
  | 0, s, n, i, h, hi, s', r, he => by
    simp only [read, Prod.mk.injEq] at he
    obtain ⟨rfl, rfl⟩ := he
    refine ⟨Calc.refl h _, fun v hv => (by cases hv), fun _ hn => ?_⟩
    unfold need at hn
    split at hn <;> omega
  | k + 1, s, n, i, h, hi, s', r, he => by
    unfold read at he
    by_cases hu : (s.heap i).utd = true
    · rw [if_pos hu] at he
      cases he
      refine ⟨Calc.refl h _, fun v hv => ?_, fun _ _ => ⟨_, rfl⟩⟩
      cases hv
      exact ⟨by rw [utdName_some hi]; exact hu, h.val n i hi hu, rfl⟩
    rw [if_neg hu] at he
    have hun : utdName s n = false := by rw [utdName_some hi]; simpa using hu
    cases hd : (s.heap i).dfn with
    | leaf =>
      simp only [hd] at he
      cases he
      have u := utdName_markUtd h.named hi
      refine ⟨⟨leaf_utd_inv h hi hd, (same_markUtd s i).grow, fun m hm => ?_, fun m hm => ?_⟩, fun v hv => ?_, fun _ _ => ⟨_, rfl⟩⟩
      · rw [u]; simp [hm]
      · refine ⟨by rw [(same_markUtd s i).tab], ?_⟩
        rw [u, if_neg]
        rintro rfl; omega
      · cases hv
        refine ⟨by rw [u]; simp, .given (h.leafVal n i hi hd), ?_⟩
        simp [markUtd, setObj]
    | sub p q =>
      obtain ⟨q', rfl, d2, d3, d4, d5, d6, d7, d8, d9⟩ := h.sub n i p q hi hd
      simp only [hd] at he
      by_cases ha : alive s p = true
      · rw [if_pos ha] at he
        have hq : s.tab q' = some p := by
          have := ha
          simp only [alive, decide_eq_true_eq] at this
          rwa [d8] at this
        obtain ⟨pol, ins, outs, f, hp, hno⟩ : ∃ pol ins outs f, (s.heap p).dfn = .prod pol ins outs f ∧ n ∈ outs := by
          rcases d9 with h | ⟨-, h⟩
          · rw [h] at hq; cases hq
          · exact h
        rcases hr : read zero k s p with ⟨s1, r1⟩
        obtain ⟨c1, o1, t1⟩ := read_spec k s q' p h hq s1 r1 hr
        rw [hr] at he
        have c1' : Calc E L (L.rk n + 1) s s1 := c1.weaken (by omega)
        have t1' : Full E s → need L s n i ≤ k + 1 → ∃ v, r1 = .ok v := by
          intro hf hn
          refine t1 hf ?_
          simp only [need, hd] at hn
          simp only [need, hp]
          omega
        cases r1 with
        | error =>
          dsimp only at he; cases he
          exact ⟨c1', fun vs hvs => (by cases hvs), fun hf hg => (by obtain ⟨v, hv⟩ := t1' hf hg; cases hv)⟩
        | crash =>
          dsimp only at he; cases he
          exact ⟨c1', fun vs hvs => (by cases hvs), fun hf hg => (by obtain ⟨v, hv⟩ := t1' hf hg; cases hv)⟩
        | ok v =>
          dsimp only at he
          have hi1 := c1.grow.tab n i hi
          have hd1 : (s1.heap i).dfn = .sub p (some q') := by rw [c1.grow.dfn i (h.bound n i hi)]; exact hd
          have hu1 := c1.inv.kids n i p q' hi1 hd1 (o1 v rfl).1
          have hu1' : (s1.heap i).utd = true := by rw [utdName_some hi1] at hu1; exact hu1
          rw [markUtd_self hu1'] at he
          cases he
          refine ⟨c1', fun v' hv' => ?_, fun _ _ => ⟨_, rfl⟩⟩
          cases hv'
          exact ⟨hu1, c1.inv.val n i hi1 hu1', rfl⟩
      · rw [if_neg ha] at he
        have hq : s.tab q' = none := by
          rcases d9 with h | ⟨h, -⟩
          · exact h
          · refine absurd ?_ ha
            simp [alive, d8, h]
        simp only [hq, Option.isSome_none, Bool.false_eq_true, if_false] at he
        cases he
        exact ⟨Calc.refl h _, fun v hv => (by cases hv), fun hf => absurd hq (hf q' d6.2)⟩
    | prod pol ins outs f =>
      simp only [hd] at he
      obtain ⟨p1, p2, p3, p4, p4', p5⟩ := h.prod n i pol ins outs f hi hd
      by_cases hin : (ins.all fun n => (s.tab n).isSome) = true
      · rw [if_pos hin] at he
        rcases hpr : prepare zero pol i (s.heap i).name (s.heap i).kind 0 s outs with ⟨s1, b⟩
        rw [hpr] at he
        rw [h.named n i hi] at hpr
        obtain ⟨r1, r2, r3, r4, r5, r6⟩ := prepare_spec outs 0 s (by simp) h hi hd rfl hun s1 b hpr
        have c1 : Calc E L (L.rk n + 1) s s1 := by
          refine ⟨r1, r2, fun m hm => by rw [r3]; exact hm, fun m hm => ⟨r4 m fun hmo => ?_, r3 m⟩⟩
          obtain ⟨j, hj⟩ := List.mem_iff_getElem?.1 hmo
          have := (p5 j m hj).2.1
          omega
        have full : Full E s → ∀ c ∈ outs, s.tab c ≠ none := by
          intro hf c hc
          obtain ⟨j, hj⟩ := List.mem_iff_getElem?.1 hc
          exact hf c (by simp [(p5 j c hj).1])
        cases b with
        | false =>
          dsimp only at he; cases he
          exact ⟨c1, fun vs hvs => (by cases hvs), fun hf hg => (by have := r6 (full hf); cases this)⟩
        | true =>
          dsimp only at he
          generalize hrd : (fun (s : St N V) (n : N) => match s.tab n with
            | some j => read zero k s j
            | none => ((s, Res.error) : St N V × Res V)) = rd at he
          rcases hrl : readList rd s1 ins with ⟨s2, r⟩
          obtain ⟨c2, o2, t2⟩ := readList_spec (E := E) (L := L) (R := L.rk n) (good := fun m => 2 * L.rk m + 2 ≤ k) ins s1 p3 (by
              intro m hm s h s' r hr
              subst hrd
              cases ht : s.tab m with
              | none =>
                simp only [ht] at hr; cases hr
                exact ⟨Calc.refl h _, fun v hv => (by cases hv), fun hf => absurd ht (hf m (p3 m hm).1)⟩
              | some j =>
                simp only [ht] at hr
                obtain ⟨a, b, c⟩ := read_spec k s m j h ht s' r hr
                have := (p3 m hm).2
                refine ⟨a.weaken (by omega), fun v hv => ⟨(b v hv).1, (b v hv).2.1⟩, fun hf hg => c hf ?_⟩
                unfold need
                split <;> omega) c1.inv s2 r hrl
          have c2' : Calc E L (L.rk n + 1) s s2 := c1.trans (c2.weaken (by omega))
          have t2' : Full E s → need L s n i ≤ k + 1 → ∃ vs, r = .ok vs := by
            intro hf hn
            refine t2 (hf.grow r2) fun m hm => ?_
            have := (p3 m hm).2
            simp only [need, hd] at hn
            omega
          rw [hrl] at he
          cases r with
          | error =>
            dsimp only at he; cases he
            exact ⟨c2', fun vs hvs => (by cases hvs), fun hf hg => (by obtain ⟨v, hv⟩ := t2' hf hg; cases hv)⟩
          | crash =>
            dsimp only at he; cases he
            exact ⟨c2', fun vs hvs => (by cases hvs), fun hf hg => (by obtain ⟨v, hv⟩ := t2' hf hg; cases hv)⟩
          | ok vs =>
            dsimp only at he
            obtain ⟨hlen, hvs⟩ := o2 vs rfl
            have hi2 := c2'.grow.tab n i hi
            have hd2 : (s2.heap i).dfn = .prod pol ins outs f := by
              rw [c2'.grow.dfn i (h.bound n i hi)]; exact hd
            have hu2 : utdName s2 n = false := by
              rw [(c2.far n (Nat.le_refl _)).2, r3]; exact hun
            have exs : (∀ c ∈ outs, s2.tab c ≠ none) → store pol i (f vs) 0 (setValues s2 i (f vs 0)) outs ≠ none := by
              intro hh
              have sv : setValues s2 i (f vs 0) = setObj s2 i { s2.heap i with val := f vs 0, utd := true } := by
                refine setValues_noop c2'.inv.named hi2 _ fun m hm => Or.inr ?_
                cases hh : utdName s2 m with
                | false => rfl
                | true => rw [c2'.inv.closed m n hm hh] at hu2; cases hu2
              rw [sv]
              have same2 : Same s2 (setObj s2 i { s2.heap i with val := f vs 0, utd := true }) := same_setObj s2 i _ _
              have u2 := utdName_setObj c2'.inv.named hi2 (f vs 0) true
              refine (store_spec (w := f vs) (E := E) (L := L) (q := n) (ins := ins) (f := f) (outs := outs) outs 0 _ (by simp)
                (c2'.inv.toStr.same same2) (by rw [same2.tab]; exact hi2) (by rw [same2.dfn]; exact hd2) ?_).2
                (by rw [same2.tab]; exact hh)
              intro m x hm hx hg
              rw [same2.deps] at hm
              rw [u2, if_neg (by rintro rfl; exact hg (by simp))]
              cases hh : utdName s2 m with
              | false => rfl
              | true =>
                have hx' := c2'.inv.closed m x hm hh
                obtain ⟨xi, hxi, -⟩ := utdName_tab hx'
                obtain ⟨-, -, -, -, -, p5'⟩ := c2'.inv.prod n i pol ins outs f hi2 hd2
                obtain ⟨j, hj⟩ := List.mem_iff_getElem?.1 hx
                obtain ⟨-, -, -, c4, -⟩ := p5' j x hj
                obtain ⟨q', e, e2, -⟩ := c2'.inv.sub x xi _ _ hxi (c4 xi hxi).2.1
                cases e
                rw [c2'.inv.closed x n ((e2 n).2 rfl) hx'] at hu2; cases hu2
            cases hst : store pol i (f vs) 0 (setValues s2 i (f vs 0)) outs with
            | none =>
              rw [hst] at he
              dsimp only at he; cases he
              refine ⟨c2', fun vs hvs => (by cases hvs), fun hf _ => ?_⟩
              refine absurd hst (exs fun c hc => ?_)
              obtain ⟨ci, hci⟩ := Option.ne_none_iff_exists'.1 (full hf c hc)
              simp [c2'.grow.tab c ci hci]
            | some s3 =>
              rw [hst] at he
              dsimp only at he
              obtain ⟨g1, g2, g3, g4, g5⟩ := store_inv c2'.inv hi2 hd2 hu2 hlen hvs hst
              rw [markUtd_self g3, g4] at he
              obtain ⟨he1, he2⟩ := Prod.mk.inj he
              subst he1
              subst he2
              have hi3 : s3.tab n = some i := by rw [g2.tab]; exact hi2
              refine ⟨c2'.trans ⟨g1, g2.grow, fun m hm => ?_, fun m hm => ⟨by rw [g2.tab], g5 m fun hmo => ?_⟩⟩, fun v hv => ?_,
                fun _ _ => ⟨_, rfl⟩⟩
              · by_cases hg : m ∈ n :: outs
                · have hx := hm
                  rcases List.mem_cons.1 hg with rfl | hg
                  · rw [hu2] at hm; cases hm
                  · obtain ⟨xi, hxi, -⟩ := utdName_tab hx
                    obtain ⟨-, -, -, -, -, p5'⟩ := c2'.inv.prod n i pol ins outs f hi2 hd2
                    obtain ⟨j, hj⟩ := List.mem_iff_getElem?.1 hg
                    obtain ⟨-, -, -, c4, -⟩ := p5' j m hj
                    obtain ⟨q', e, e2, -⟩ := c2'.inv.sub m xi _ _ hxi (c4 xi hxi).2.1
                    cases e
                    rw [c2'.inv.closed m n ((e2 n).2 rfl) hx] at hu2; cases hu2
                · rw [g5 m hg]; exact hm
              · rcases List.mem_cons.1 hmo with rfl | hmo
                · omega
                · obtain ⟨j, hj⟩ := List.mem_iff_getElem?.1 hmo
                  have := (p5 j m hj).2.1
                  omega
              · cases hv
                exact ⟨by rw [utdName_some hi3]; exact g3, g4 ▸ g1.val n i hi3 g3, g4⟩
      · rw [if_neg hin] at he
        cases he
        refine ⟨Calc.refl h _, fun v hv => (by cases hv), fun hf => ?_⟩
        refine absurd ?_ hin
        simp only [List.all_eq_true]
        intro m hm
        exact Option.isSome_iff_ne_none.2 (hf m (p3 m hm).1)

end Verif.Multi
