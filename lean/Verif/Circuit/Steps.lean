import Verif.Circuit.Inv
/-! Every command keeps the invariant (helpers for `Props.lean`). -/
namespace Verif.Circuit
open Verif
variable {N K V : Type} [DecidableEq N] [DecidableEq K]

theorem addCircuitNodeCmd_ok {nm : Names N} {st0 st : St N K V} (h : Ok nm st0 st) (n : N) (ut : UpdateType) :
    Ok nm st0 (addCircuitNodeCmd nm st n ut).1 ∧ ((addCircuitNodeCmd nm st n ut).2 = false →
      Grounded nm (addCircuitNodeCmd nm st n ut).1 ∧ isNode (addCircuitNodeCmd nm st n ut).1 n = true) := by
  unfold addCircuitNodeCmd
  obtain ⟨g1, g2, g3, g4, _⟩ := addGround_spec h.1
  apply andThen_ok (P := Ok nm st0) (Q := Grounded nm) (R := fun s => Grounded nm s ∧ isNode s n = true)
    ⟨⟨g2, h.2.trans g4⟩, fun _ => g3⟩
  intro s hs hgs
  by_cases hn : isNode s n = true
  · rw [if_pos hn]; exact ⟨hs, fun h => by cases h⟩
  · rw [if_neg hn]; exact createNode_ok hs n

theorem construct_ok {nm : Names N} {st0 st : St N K V} (h : Ok nm st0 st) (hg : Grounded nm st) (k : ElemKind) (e n1 n2 : N) :
    Ok nm st0 (construct nm k st e n1 n2).1 ∧ ((construct nm k st e n1 n2).2 = false →
      (construct nm k st e n1 n2).1.elems.get e = some ⟨k, n1, n2, (branchNode nm k e).map Prod.fst⟩) := by
  unfold construct
  apply andThen_ok (P := Ok nm st0) (Q := fun s => Grounded nm s ∧ s.table.has n1 = true)
    (R := fun s => s.elems.get e = some ⟨k, n1, n2, (branchNode nm k e).map Prod.fst⟩)
  · obtain ⟨a1, a2⟩ := addNode_ok h hg n1 .default (by decide)
    exact ⟨a1, fun hf => ⟨(a2 hf).1, (a2 hf).2.1⟩⟩
  · rintro s hs ⟨hgs, h1⟩
    apply andThen_ok (P := Ok nm st0) (Q := fun s => Grounded nm s ∧ s.table.has n1 = true ∧ s.table.has n2 = true)
      (R := fun s => s.elems.get e = some ⟨k, n1, n2, (branchNode nm k e).map Prod.fst⟩)
    · obtain ⟨a1, a2⟩ := addNode_ok hs hgs n2 .default (by decide)
      exact ⟨a1, fun hf => ⟨(a2 hf).1, (a2 hf).2.2 _ h1, (a2 hf).2.1⟩⟩
    · rintro s hs ⟨hgs, h1, h2⟩
      apply andThen_ok (P := Ok nm st0)
        (Q := fun s => s.table.has n1 = true ∧ s.table.has n2 = true ∧
          ∀ b, (branchNode nm k e).map Prod.fst = some b → s.table.has b = true)
        (R := fun s => s.elems.get e = some ⟨k, n1, n2, (branchNode nm k e).map Prod.fst⟩)
      · cases hb : branchNode nm k e with
        | none => exact ⟨hs, fun _ => ⟨h1, h2, fun b hb => by cases hb⟩⟩
        | some p =>
          obtain ⟨b, ty⟩ := p
          have hty : ty ≠ .ground := by
            unfold branchNode at hb
            split at hb <;> cases hb <;> decide
          simp only
          obtain ⟨a1, a2⟩ := addNode_ok hs hgs b ty hty
          refine ⟨a1, fun hf => ⟨(a2 hf).2.2 _ h1, (a2 hf).2.2 _ h2, ?_⟩⟩
          intro b' hb'
          cases hb'
          exact (a2 hf).2.1
      · rintro s hs ⟨h1, h2, h3⟩
        by_cases he : s.elems.has e = true
        · rw [if_pos he]; exact ⟨hs, fun h => by cases h⟩
        · rw [if_neg he]
          obtain ⟨hi, hx⟩ := hs
          refine ⟨⟨⟨hi.wf, hi.target, hi.grounded, hi.ty, hi.ut, hi.noalias, hi.numbered, hi.nosol, hi.sols, ?_⟩,
            hx.trans ⟨fun n d h => ⟨d, h, rfl⟩, fun _ _ h => h, ?_, fun h => ⟨h, rfl, rfl⟩⟩⟩, fun _ => ?_⟩
          · intro e' el hel
            simp only at hel
            rw [FMap.get_set] at hel
            split at hel
            · cases hel; exact ⟨h1, h2, h3⟩
            · exact hi.elems e' el hel
          · intro e' el hel
            simp only
            rw [FMap.get_set]
            split
            · rename_i hh; subst hh; exact absurd ((has_iff_get _ _).mpr ⟨el, hel⟩) he
            · exact hel
          · simp only
            rw [FMap.get_set, if_pos rfl]

theorem elementCmd_ok {nm : Names N} {st0 st : St N K V} (h : Ok nm st0 st) (e n1 n2 : N) :
    Ok nm st0 (elementCmd nm st e n1 n2).1 ∧ ((elementCmd nm st e n1 n2).2 = false →
      ∃ k, nm.kind e = some k ∧
      (elementCmd nm st e n1 n2).1.elems.get e = some ⟨k, n1, n2, (branchNode nm k e).map Prod.fst⟩) := by
  unfold elementCmd
  apply andThen_ok (P := Ok nm st0) (Q := Grounded nm)
    (R := fun s => ∃ k, nm.kind e = some k ∧ s.elems.get e = some ⟨k, n1, n2, (branchNode nm k e).map Prod.fst⟩)
  · obtain ⟨a1, a2⟩ := createNode_ok h n1; exact ⟨a1, fun hf => (a2 hf).1⟩
  · intro s hs hgs
    apply andThen_ok (P := Ok nm st0) (Q := Grounded nm)
      (R := fun s => ∃ k, nm.kind e = some k ∧ s.elems.get e = some ⟨k, n1, n2, (branchNode nm k e).map Prod.fst⟩)
    · obtain ⟨a1, a2⟩ := createNode_ok hs n2; exact ⟨a1, fun hf => (a2 hf).1⟩
    · intro s hs hgs
      cases hk : nm.kind e with
      | none => exact ⟨hs, fun h => by cases h⟩
      | some k =>
        obtain ⟨c1, c2⟩ := construct_ok hs hgs k e n1 n2
        exact ⟨c1, fun hf => ⟨k, rfl, c2 hf⟩⟩

theorem aliasCmd_ok {nm : Names N} {st0 st : St N K V} (h : Ok nm st0 st) (n al : N) :
    Ok nm st0 (aliasCmd nm st n al).1 ∧ ((aliasCmd nm st n al).2 = false →
      (aliasCmd nm st n al).1.aliases.get al = some n ∧ (aliasCmd nm st n al).1.table.has n = true ∧
      (aliasCmd nm st n al).1.table.get al = none) := by
  unfold aliasCmd
  obtain ⟨g1, g2, g3, g4, _⟩ := addGround_spec h.1
  apply andThen_ok (P := Ok nm st0) (Q := Grounded nm)
    (R := fun s => s.aliases.get al = some n ∧ s.table.has n = true ∧ s.table.get al = none)
    ⟨⟨g2, h.2.trans g4⟩, fun _ => g3⟩
  rintro s ⟨hi, hx⟩ hgs
  by_cases h1 : ¬ isNode s n = true
  · rw [if_pos h1]; exact ⟨⟨hi, hx⟩, fun h => by cases h⟩
  · rw [if_neg h1]
    by_cases h2 : isNode s al = true
    · rw [if_pos h2]; exact ⟨⟨hi, hx⟩, fun h => by cases h⟩
    · rw [if_neg h2]
      unfold addAlias
      by_cases h3 : ¬ s.table.has n = true
      · rw [if_pos h3]; exact ⟨⟨hi, hx⟩, fun h => by cases h⟩
      · rw [if_neg h3]
        have h3 : s.table.has n = true := by simpa using h3
        by_cases h4 : s.table.has al = true
        · rw [if_pos h4]; exact ⟨⟨hi, hx⟩, fun h => by cases h⟩
        · rw [if_neg h4]
          have hnew : s.aliases.get al = none := by
            cases hh : s.aliases.get al with
            | none => rfl
            | some m =>
              refine absurd ?_ h2
              unfold isNode resolve; rw [hh]; exact hi.target al m hh
          obtain ⟨⟨d, hz, _⟩, ⟨d2, hd, _⟩⟩ := hgs
          have hzh : s.table.has nm.zero = true := (has_iff_get _ _).mpr ⟨d, hz⟩
          have hgh : s.table.has nm.gnd = true := (has_iff_get _ _).mpr ⟨d2, hd⟩
          refine ⟨⟨⟨hi.wf, ?_, hi.grounded, hi.ty, hi.ut, ?_, hi.numbered, hi.nosol, hi.sols, hi.elems⟩,
            hx.trans ⟨fun n d h => ⟨d, h, rfl⟩, ?_, fun _ _ h => h, fun h => ⟨h, rfl, rfl⟩⟩⟩, fun _ => ⟨?_, h3, has_false h4⟩⟩
          · intro a m ha
            simp only at ha
            rw [FMap.get_set] at ha
            split at ha
            · cases ha; exact h3
            · exact hi.target a m ha
          · simp only
            rw [FMap.get_set, FMap.get_set, if_neg, if_neg]
            · exact hi.noalias
            · rintro rfl; exact h4 hgh
            · rintro rfl; exact h4 hzh
          · intro x m hxm
            simp only
            rw [FMap.get_set]
            split
            · rename_i hh; subst hh; rw [hnew] at hxm; cases hxm
            · exact hxm
          · simp only; rw [FMap.get_set, if_pos rfl]

theorem setValueCmd_ok {nm : Names N} {st0 st : St N K V} (h : Ok nm st0 st) (k : K) (n : N) (x : V) :
    Ok nm st0 (setValueCmd nm st k n x).1 := by
  unfold setValueCmd
  obtain ⟨g1, g2, g3, g4, _⟩ := addGround_spec h.1
  refine (andThen_ok (P := Ok nm st0) (Q := Grounded nm) (R := fun _ => True) ⟨⟨g2, h.2.trans g4⟩, fun _ => g3⟩ ?_).1
  intro s hs _
  refine ⟨?_, fun _ => trivial⟩
  by_cases hc : isNode s n = true ∧ s.sols.has k = true
  · rw [if_pos hc]
    unfold setValue
    cases hk : s.sols.get k with
    | none => exact hs
    | some sol =>
      simp only
      cases hix : index s n with
      | none => exact hs
      | some i =>
        simp only
        cases sol with
        | none => exact hs
        | some v =>
          simp only
          by_cases hlt : i < v.length
          · rw [if_pos hlt]
            obtain ⟨hi, hx⟩ := hs
            refine ⟨⟨hi.wf, hi.target, hi.grounded, hi.ty, hi.ut, hi.noalias, hi.numbered, ?_, ?_, hi.elems⟩,
              hx.trans ⟨fun n d h => ⟨d, h, rfl⟩, fun _ _ h => h, fun _ _ h => h, fun h => ⟨h, rfl, rfl⟩⟩⟩
            · intro hl
              have := hi.nosol hl
              rw [this] at hk; cases hk
            · intro k' v' hk'
              simp only at hk'
              rw [FMap.get_set] at hk'
              split at hk'
              · cases hk'
                rw [List.length_set]
                exact hi.sols k v hk
              · exact hi.sols k' v' hk'
          · rw [if_neg hlt]; exact hs
  · rw [if_neg hc]; exact hs

/-! ### numbering -/
theorem numberLoop_get (t : FMap N Node) : ∀ i n,
    (FMap.get (numberLoop i t).1 n).map (fun d => (d.ty, d.ut)) = (FMap.get t n).map (fun d => (d.ty, d.ut)) := by
  induction t with
  | nil => intro i n; rfl
  | cons p t ih =>
    obtain ⟨m, d⟩ := p
    intro i n
    unfold numberLoop
    split
    · simp only [FMap.get]
      split
      · rfl
      · exact ih _ _
    · simp only [FMap.get]
      split
      · rfl
      · exact ih _ _

theorem numberLoop_keys (t : FMap N Node) : ∀ i, FMap.keys (numberLoop i t).1 = FMap.keys t := by
  induction t with
  | nil => intro i; rfl
  | cons p t ih =>
    obtain ⟨m, d⟩ := p
    intro i
    unfold numberLoop
    split
    · simp only [FMap.keys, List.map_cons] at ih ⊢; rw [ih]
    · simp only [FMap.keys, List.map_cons] at ih ⊢; rw [ih]

theorem numberLoop_idem (t : FMap N Node) : ∀ i, numberLoop i (numberLoop i t).1 = numberLoop i t := by
  induction t with
  | nil => intro i; rfl
  | cons p t ih =>
    obtain ⟨m, d⟩ := p
    intro i
    by_cases hd : d.ty = .ground
    · simp only [numberLoop, hd, if_pos]
      rw [ih]
    · simp only [numberLoop, hd, if_false]
      rw [ih]

theorem numberLoop_lt (t : FMap N Node) : ∀ i, i ≤ (numberLoop i t).2 ∧
    (∀ n d, FMap.get (numberLoop i t).1 n = some d → d.ty ≠ .ground →
      ∃ j, d.number = some j ∧ i ≤ j ∧ j < (numberLoop i t).2) ∧
    (∀ n d, FMap.get (numberLoop i t).1 n = some d → d.ty = .ground → d.number = none) := by
  induction t with
  | nil =>
    intro i
    refine ⟨Nat.le_refl _, ?_, ?_⟩
    · intro n d h; cases h
    · intro n d h; cases h
  | cons p t ih =>
    obtain ⟨m, d⟩ := p
    intro i
    by_cases hd : d.ty = .ground
    · simp only [numberLoop, hd, if_pos]
      obtain ⟨h1, h2, h3⟩ := ih i
      refine ⟨h1, ?_, ?_⟩
      · intro n e he
        simp only [FMap.get] at he
        split at he
        · cases he; intro h; exact absurd rfl h
        · exact h2 n e he
      · intro n e he
        simp only [FMap.get] at he
        split at he
        · cases he; intro _; rfl
        · exact h3 n e he
    · simp only [numberLoop, hd, if_false]
      obtain ⟨h1, h2, h3⟩ := ih (i + 1)
      refine ⟨by omega, ?_, ?_⟩
      · intro n e he
        simp only [FMap.get] at he
        split at he
        · cases he; intro _; exact ⟨i, rfl, Nat.le_refl _, by omega⟩
        · intro hne
          obtain ⟨j, hj1, hj2, hj3⟩ := h2 n e he hne
          exact ⟨j, hj1, by omega, hj3⟩
      · intro n e he
        simp only [FMap.get] at he
        split at he
        · cases he; intro h; exact absurd h hd
        · exact h3 n e he

theorem numberLoop_inj (t : FMap N Node) : ∀ i n m d e, FMap.get (numberLoop i t).1 n = some d →
    FMap.get (numberLoop i t).1 m = some e → d.ty ≠ .ground → e.ty ≠ .ground → d.number = e.number → n = m := by
  induction t with
  | nil => intro i n m d e h; cases h
  | cons p t ih =>
    obtain ⟨x, c⟩ := p
    intro i n m d e hn hm hd he heq
    by_cases hc : c.ty = .ground
    · simp only [numberLoop, hc, if_pos] at hn hm
      simp only [FMap.get] at hn hm
      split at hn
      · cases hn; exact absurd rfl hd
      · split at hm
        · cases hm; exact absurd rfl he
        · exact ih i n m d e hn hm hd he heq
    · simp only [numberLoop, hc, if_false] at hn hm
      simp only [FMap.get] at hn hm
      obtain ⟨_, h2, _⟩ := numberLoop_lt t (i + 1)
      split at hn
      · split at hm
        · rename_i h1 h2; rw [← h1, ← h2]
        · cases hn
          obtain ⟨j, hj1, hj2, _⟩ := h2 m e hm he
          rw [hj1] at heq
          simp only [Option.some.injEq] at heq
          omega
      · split at hm
        · cases hm
          obtain ⟨j, hj1, hj2, _⟩ := h2 n d hn hd
          rw [hj1] at heq
          simp only [Option.some.injEq] at heq
          omega
        · exact ih (i + 1) n m d e hn hm hd he heq

theorem numberLoop_nil (t : FMap N Node) (i : Nat) : (numberLoop i t).1 = [] ↔ t = [] := by
  cases t with
  | nil => simp [numberLoop]
  | cons p t => obtain ⟨x, c⟩ := p; unfold numberLoop; split <;> simp

/-- the state after the numbering and before the solutions are made: like `Inv`, but the lock may not be taken yet -/
theorem setNodeNumbers_ok {nm : Names N} {st0 st : St N K V} (h : Ok nm st0 st) (start : Nat) :
    Ok nm st0 (setNodeNumbers st start).1 ∧ numberLoop 0 (setNodeNumbers st start).1.table =
      ((setNodeNumbers st start).1.table, (setNodeNumbers st start).1.nNodes) ∧
    (st.table ≠ [] → (setNodeNumbers st start).1.table ≠ []) ∧
    (setNodeNumbers st start).1.minEq = start ∧
    (setNodeNumbers st start).1.aliases = st.aliases := by
  obtain ⟨hi, hx⟩ := h
  unfold setNodeNumbers
  simp only
  have hidem := numberLoop_idem st.table 0
  have hget := numberLoop_get st.table 0
  have htbl : ∀ n d, st.table.get n = some d → ∃ d', FMap.get (numberLoop 0 st.table).1 n = some d' ∧ d'.ty = d.ty := by
    intro n d hd
    have := hget n
    rw [hd] at this
    cases hh : FMap.get (numberLoop 0 st.table).1 n with
    | none => rw [hh] at this; cases this
    | some d' => rw [hh] at this; simp only [Option.map_some, Option.some.injEq, Prod.mk.injEq] at this; exact ⟨d', rfl, this.1⟩
  have htbl2 : ∀ n d, FMap.get (numberLoop 0 st.table).1 n = some d → ∃ d', st.table.get n = some d' ∧ d'.ty = d.ty ∧ d'.ut = d.ut := by
    intro n d hd
    have := hget n
    rw [hd] at this
    cases hh : st.table.get n with
    | none => rw [hh] at this; cases this
    | some d' =>
      rw [hh] at this; simp only [Option.map_some, Option.some.injEq, Prod.mk.injEq] at this
      exact ⟨d', rfl, this.1.symm, this.2.symm⟩
  have hsame : st.locked = true → (numberLoop 0 st.table).1 = st.table ∧ (numberLoop 0 st.table).2 = st.nNodes := by
    intro hl
    have := (hi.numbered hl).2
    rw [this]; exact ⟨rfl, rfl⟩
  have hExt : Ext st { st with table := (numberLoop 0 st.table).1, nNodes := (numberLoop 0 st.table).2, minEq := start } :=
    ⟨htbl, fun _ _ h => h, fun _ _ h => h, fun hl => ⟨hl, (hsame hl).1, (hsame hl).2⟩⟩
  refine ⟨⟨⟨?_, fun a n h => hExt.has (hi.target a n h), ?_, ?_, ?_, hi.noalias, ?_, hi.nosol, ?_, ?_⟩, hx.trans hExt⟩, hidem,
    fun h h2 => h ((numberLoop_nil _ _).mp h2), trivial, trivial⟩
  · have := hi.wf
    unfold FMap.WF at this ⊢
    simp only
    rw [numberLoop_keys]; exact this
  · rcases hi.grounded with h | h
    · left; simp only; rw [h]; rfl
    · right; exact hExt.grounded h
  · intro n d hd
    obtain ⟨d', h1, h2, _⟩ := htbl2 n d hd
    rw [← h2]; exact hi.ty n d' h1
  · intro n d hd
    obtain ⟨d', h1, _, h2⟩ := htbl2 n d hd
    rw [← h2]; exact hi.ut n d' h1
  · intro hl
    refine ⟨?_, hidem⟩
    have := (hi.numbered hl).1
    intro h2; exact this ((numberLoop_nil _ _).mp h2)
  · intro k v hk
    simp only at hk ⊢
    cases hl : st.locked with
    | true => rw [(hsame hl).2]; exact hi.sols k v hk
    | false => rw [hi.nosol hl] at hk; cases hk
  · intro e el he
    obtain ⟨h1, h2, h3⟩ := hi.elems e el he
    exact ⟨hExt.has h1, hExt.has h2, fun b hb => hExt.has (h3 b hb)⟩

/-- what the loops of `solveCmd` carry -/
def Num (st : St N K V) : Prop := st.table ≠ [] ∧ numberLoop 0 st.table = (st.table, st.nNodes)

theorem initializeSolution_ok [Zero V] {nm : Names N} {st0 st : St N K V} (h : Ok nm st0 st) (hn : Num st) (k : K) :
    (Ok nm st0 (initializeSolution st k).1 ∧ Num (initializeSolution st k).1) ∧
      (initializeSolution st k).1.table = st.table ∧ (initializeSolution st k).1.aliases = st.aliases ∧
      (initializeSolution st k).1.minEq = st.minEq := by
  obtain ⟨hi, hx⟩ := h
  unfold initializeSolution
  split
  · exact ⟨⟨⟨hi, hx⟩, hn⟩, rfl, rfl, rfl⟩
  · unfold createSolution
    split
    · refine ⟨⟨⟨⟨hi.wf, hi.target, hi.grounded, hi.ty, hi.ut, hi.noalias, (fun _ => hn), (fun h => by cases h), ?_, hi.elems⟩,
        hx.trans ⟨fun n d h => ⟨d, h, rfl⟩, fun _ _ h => h, fun _ _ h => h, fun h => ⟨rfl, rfl, rfl⟩⟩⟩, hn⟩, rfl, rfl, rfl⟩
      intro k' v' hk'
      simp only at hk'
      rw [FMap.get_set] at hk'
      split at hk'
      · cases hk'
      · exact hi.sols k' v' hk'
    · refine ⟨⟨⟨⟨hi.wf, hi.target, hi.grounded, hi.ty, hi.ut, hi.noalias, (fun _ => hn), (fun h => by cases h), ?_, hi.elems⟩,
        hx.trans ⟨fun n d h => ⟨d, h, rfl⟩, fun _ _ h => h, fun _ _ h => h, fun h => ⟨rfl, rfl, rfl⟩⟩⟩, hn⟩, rfl, rfl, rfl⟩
      intro k' v' hk'
      simp only at hk'
      rw [FMap.get_set] at hk'
      split at hk'
      · cases hk'; simp
      · exact hi.sols k' v' hk'

theorem writeSolution_ok {nm : Names N} {st0 st : St N K V} (h : Ok nm st0 st) (hn : Num st) (k : K) (f : Nat → V) :
    (Ok nm st0 (writeSolution st k f).1 ∧ Num (writeSolution st k f).1) ∧
      (writeSolution st k f).1.table = st.table ∧ (writeSolution st k f).1.aliases = st.aliases ∧
      (writeSolution st k f).1.minEq = st.minEq := by
  obtain ⟨hi, hx⟩ := h
  unfold writeSolution
  split
  · rename_i v hk
    refine ⟨⟨⟨⟨hi.wf, hi.target, hi.grounded, hi.ty, hi.ut, hi.noalias, hi.numbered, ?_, ?_, hi.elems⟩,
        hx.trans ⟨fun n d h => ⟨d, h, rfl⟩, fun _ _ h => h, fun _ _ h => h, fun h => ⟨h, rfl, rfl⟩⟩⟩, hn⟩, rfl, rfl, rfl⟩
    · intro hl; rw [hi.nosol hl] at hk; cases hk
    · intro k' v' hk'
      simp only at hk'
      rw [FMap.get_set] at hk'
      split at hk'
      · cases hk'; rw [List.length_map, List.length_range]; exact hi.sols k v hk
      · exact hi.sols k' v' hk'
  · exact ⟨⟨⟨hi, hx⟩, hn⟩, rfl, rfl, rfl⟩

theorem foldl_andThen {A : Type} {P : St N K V → Prop} (f : A → St N K V → St N K V × Bool)
    (hf : ∀ a s, P s → P (f a s).1) : ∀ (ks : List A) (r : St N K V × Bool), P r.1 →
    P (ks.foldl (fun r k => andThen r (f k)) r).1 := by
  intro ks
  induction ks with
  | nil => intro r h; exact h
  | cons k ks ih =>
    intro r h
    rw [List.foldl_cons]
    apply ih
    unfold andThen
    split
    · exact h
    · exact hf k _ h

/-- the table and the aliases after an analysis are those after the numbering -/
theorem solveCmd_ok [Zero V] {nm : Names N} {st0 st : St N K V} (h : Ok nm st0 st) (start : Nat) (ks : List (K × (Nat → V))) :
    Ok nm st0 (solveCmd st start ks).1 ∧
    (st.table ≠ [] → (solveCmd st start ks).1.table = (numberLoop 0 st.table).1 ∧
      (solveCmd st start ks).1.aliases = st.aliases ∧ (solveCmd st start ks).1.minEq = start) := by
  unfold solveCmd
  by_cases ht : st.table = []
  · rw [if_pos ht]; exact ⟨h, fun h => absurd ht h⟩
  · rw [if_neg ht]
    obtain ⟨s1, s2, s3, s4, s5⟩ := setNodeNumbers_ok h start
    let P : St N K V → Prop := fun s => (Ok nm st0 s ∧ Num s) ∧ s.table = (numberLoop 0 st.table).1 ∧
      s.aliases = st.aliases ∧ s.minEq = start
    have hP : P (andThen (setNodeNumbers st start) fun st =>
        andThen (ks.foldl (fun r k => andThen r (fun st => initializeSolution st k.1)) (st, false)) fun st =>
        ks.foldl (fun r k => andThen r (fun st => writeSolution st k.1 k.2)) (st, false)).1 := by
      refine (andThen_ok (P := P) (Q := fun _ => True) (R := fun _ => True) ⟨⟨⟨s1, s3 ht, s2⟩, rfl, s5, s4⟩, fun _ => trivial⟩ ?_).1
      intro s hs _
      refine ⟨(andThen_ok (P := P) (Q := fun _ => True) (R := fun _ => True) ⟨?_, fun _ => trivial⟩ ?_).1, fun _ => trivial⟩
      · apply foldl_andThen (P := P) (fun (k : K × (Nat → V)) st => initializeSolution st k.1)
        · rintro k s ⟨⟨a1, a2⟩, a3, a4, a5⟩
          obtain ⟨b1, b2, b3, b4⟩ := initializeSolution_ok a1 a2 k.1
          exact ⟨b1, b2.trans a3, b3.trans a4, b4.trans a5⟩
        · exact hs
      · intro s hs _
        refine ⟨?_, fun _ => trivial⟩
        apply foldl_andThen (P := P) (fun (k : K × (Nat → V)) st => writeSolution st k.1 k.2)
        · rintro k s ⟨⟨a1, a2⟩, a3, a4, a5⟩
          obtain ⟨b1, b2, b3, b4⟩ := writeSolution_ok a1 a2 k.1 k.2
          exact ⟨b1, b2.trans a3, b3.trans a4, b4.trans a5⟩
        · exact hs
    exact ⟨hP.1.1, fun _ => hP.2⟩

theorem step_ok [Zero V] {nm : Names N} {st0 st : St N K V} (h : Ok nm st0 st) (c : Cmd N K V) (hc : c ≠ .deleteCircuit) :
    Ok nm st0 (step nm st c).1 := by
  cases c with
  | addNode n ut => exact (addCircuitNodeCmd_ok h n ut).1
  | element e n1 n2 => exact (elementCmd_ok h e n1 n2).1
  | alias n al => exact (aliasCmd_ok h n al).1
  | setVal k n x => exact setValueCmd_ok h k n x
  | query =>
    obtain ⟨g1, g2, g3, g4, _⟩ := addGround_spec h.1
    exact ⟨g2, h.2.trans g4⟩
  | solve start ks => exact (solveCmd_ok h start ks).1
  | deleteCircuit => exact absurd rfl hc

theorem run_ok [Zero V] {nm : Names N} (cs : List (Cmd N K V)) : ∀ {st0 st : St N K V}, Ok nm st0 st →
    (∀ c ∈ cs, c ≠ .deleteCircuit) → Ok nm st0 (run nm st cs) := by
  induction cs with
  | nil => intro st0 st h _; exact h
  | cons c cs ih =>
    intro st0 st h hc
    exact ih (step_ok h c (hc c (by simp))) (fun d hd => hc d (by simp [hd]))

theorem run_inv [Zero V] (nm : Names N) (cs : List (Cmd N K V)) : ∀ st : St N K V, Inv nm st → Inv nm (run nm st cs) := by
  induction cs with
  | nil => intro st h; exact h
  | cons c cs ih =>
    intro st h
    show Inv nm (run nm (step nm st c).1 cs)
    apply ih
    by_cases hc : c = .deleteCircuit
    · subst hc; exact Inv.init nm
    · exact (step_ok ⟨h, Ext.refl st⟩ c hc).1

end Verif.Circuit
