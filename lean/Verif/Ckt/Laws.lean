import Verif.Ckt.Props

/-!
# C94: a solution of the assembled equations obeys the laws of the elements that were told
-/
namespace Verif.Ckt
open Verif
open Verif.Circuit (ElemKind Inv branchNode pointerRow)
open Verif.Ckt.Spec

set_option linter.unusedSectionVars false
variable {K F : Type} [DecidableEq K] [Field F] [DecidableEq F]

theorem step_nodes (w : World K F) (c : Cmd K F) : ∃ cs : List (Circuit.Cmd String K F), (step w c).1.st = Circuit.run names w.st cs := by
  cases c with
  | element name n1 n2 v r i =>
    show ∃ cs, (elementCmd w name n1 n2 v r i).1.st = _
    unfold elementCmd
    split
    · exact ⟨[], rfl⟩
    · refine ⟨[.element name n1 n2], ?_⟩
      dsimp only
      split
      · rfl
      · split <;> rfl
  | alter name p x =>
    refine ⟨[], ?_⟩
    show (alterCmd w name p x).1.st = _
    unfold alterCmd
    split
    · rfl
    · split <;> rfl
  | addNode n ut => exact ⟨[.addNode n ut], rfl⟩
  | nodeAlias n al => exact ⟨[.alias n al], rfl⟩
  | setVal k n x => exact ⟨[.setVal k n x], rfl⟩
  | query => exact ⟨[.query], rfl⟩
  | solve s ks => exact ⟨[.solve s ks], rfl⟩
  | deleteCircuit => exact ⟨[.deleteCircuit], rfl⟩

theorem run_nodes (cs : List (Cmd K F)) : ∀ w : World K F, ∃ ds : List (Circuit.Cmd String K F), (run w cs).st = Circuit.run names w.st ds := by
  induction cs with
  | nil => intro w; exact ⟨[], rfl⟩
  | cons c cs ih =>
    intro w
    obtain ⟨d1, h1⟩ := step_nodes w c
    obtain ⟨d2, h2⟩ := ih (step w c).1
    refine ⟨d1 ++ d2, ?_⟩
    show (run (step w c).1 cs).st = _
    rw [h2, h1, Circuit.run_append]

theorem run_append (w : World K F) (cs ds : List (Cmd K F)) : run w (cs ++ ds) = run (run w cs) ds := by
  unfold run; rw [List.foldl_append]

/-- right after an analysis: ground has no row, every other node has one, of its own -/
structure Rows (st : Circuit.St String K F) : Prop where
  ground : pointerRow st "0" = none ∧ pointerRow st "GND" = none
  own : ∀ x, st.table.has x = true → x ≠ "0" → x ≠ "GND" → ∃ i, pointerRow st x = some i
  one : ∀ x y i, pointerRow st x = some i → pointerRow st y = some i → x = y

theorem rows_solved (cs : List (Cmd K F)) (start) (ks : List (K × (Nat → F))) : Rows (run World.init (cs ++ [.solve start ks])).st := by
  obtain ⟨ds, hd⟩ := run_nodes cs (World.init : World K F)
  have e : (run World.init (cs ++ [.solve start ks])).st = Circuit.run names Circuit.St.init (ds ++ [.solve start ks]) := by
    rw [run_append, Circuit.run_append]
    show (Circuit.step names (run World.init cs).st (.solve start ks)).1 = _
    rw [hd]
    rfl
  have hi := Circuit.run_inv names (ds ++ [.solve start ks]) (Circuit.St.init : Circuit.St String K F) (Inv.init names)
  obtain ⟨r1, r2, r3, r4, r5⟩ := Circuit.rows_after_analysis names ds start ks
  rw [e]
  refine ⟨⟨?_, ?_⟩, ?_, r4⟩
  · exact (r5 _ hi.noalias.1).symm.trans r1
  · exact (r5 _ hi.noalias.2).symm.trans r2
  · intro x hx h1 h2
    obtain ⟨i, hi, _⟩ := r3 x hx h1 h2
    exact ⟨i, hi⟩

/-- the current that leaves the node `n` into the element `name` that was told `t` -/
def leaves (row : String → Option Nat) (x : Nat → F) (n name : String) (t : Told F) : F :=
  let v := fun m => Elements.volt x (row m)
  let own := x ((row (name ++ ".I")).getD 0)
  let out := match t.kind with
    | .R => (v t.n1 - v t.n2) / t.value
    | .C => 0
    | .L => own
    | .V => own
    | .I => -t.value
  (if t.n1 = n then out else 0) - (if t.n2 = n then out else 0)

theorem lists_split {A : Account F} {l : List String} (hl : Lists A l) {n t} (hA : A n = some t) :
    ∃ pre post, l = pre ++ n :: post ∧ n ∉ pre ++ post := by
  have hm : n ∈ l := (hl.2 n).mpr (by rw [hA]; simp)
  obtain ⟨pre, post, rfl⟩ := List.append_of_mem hm
  refine ⟨pre, post, rfl, ?_⟩
  have := hl.1
  rw [List.nodup_append, List.nodup_cons] at this
  rw [List.mem_append]
  rintro (h | h)
  · exact this.2.2 n h n (by simp) rfl
  · exact this.2.1.1 h

theorem branch_of {row : String → Option Nat} {n : String} {t : Told F} {c} (h : Elements.branch (t.element row n) = some c) :
    (t.kind = .V ∨ t.kind = .L) ∧ c = (row (n ++ ".I")).getD 0 := by
  obtain ⟨k, n1, n2, a, b, d⟩ := t
  cases k <;> simp [Told.element, Elements.branch] at h ⊢
  · exact h.symm
  · exact h.symm

theorem terminals_of (row : String → Option Nat) (n : String) (t : Told F) : Elements.terminals (t.element row n) = [row t.n1, row t.n2] := by
  obtain ⟨k, n1, n2, a, b, d⟩ := t
  cases k <;> rfl

theorem internal_inj {a b : String} (h : a ++ ".I" = b ++ ".I") : a = b := by
  have := congrArg String.toList h
  rw [String.toList_append, String.toList_append] at this
  exact String.ext (List.append_cancel_right this)

/-- **C94** what a solution means, in terms of what was told: let `x` make every row of the equations of the elements zero, right after
an analysis (where the rows of the nodes are made).  Then at every node of the circuit but ground and the nodes `<name>.I` the currents
of all the elements there are add up to zero, with the values told last, and the voltages of the sources are those told last. -/
theorem solution_laws (cs : List (Cmd K F)) (start) (ks : List (K × (Nat → F))) (A : Account F)
    (hA : Shows (run World.init (cs ++ [.solve start ks])) A) (x : Nat → F)
    (hx : ∀ r, Elements.rowSum r (Elements.assembleDC (elements (run World.init (cs ++ [.solve start ks]))) x).2 = 0) :
    let row := pointerRow (run World.init (cs ++ [.solve start ks])).st
    ∃ l, Lists A l ∧
      (∀ n i, row n = some i → (∀ e t, A e = some t → (t.kind = .V ∨ t.kind = .L) → n ≠ e ++ ".I") →
        (l.map fun e => match A e with | some t => leaves row x n e t | none => 0).sum = 0) ∧
      (∀ e t, A e = some t → (t.kind = .V ∨ t.kind = .L) → (∀ e' t', A e' = some t' → t'.n1 ≠ e ++ ".I" ∧ t'.n2 ≠ e ++ ".I") →
        Elements.volt x (row t.n1) - Elements.volt x (row t.n2) = if t.kind = .V then t.value else 0) := by
  have hr := rows_solved cs start ks
  generalize run World.init (cs ++ [.solve start ks]) = w at hA hx hr
  intro row
  obtain ⟨l, hl, he, hac⟩ := assembled hA
  clear hac
  obtain ⟨k1, k2⟩ := Elements.dc_solution_laws _ x hx
  -- the branch rows
  have hb : ∀ e t, A e = some t → (t.kind = .V ∨ t.kind = .L) → ∃ c, row (e ++ ".I") = some c := by
    intro e t ht hk
    have h1 := hA.elem e
    rw [ht] at h1
    have h2 := (hA.inv.elems e _ h1).2.2 (e ++ ".I") (by
      obtain ⟨k, n1, n2, a, b, d⟩ := t
      dsimp only at hk
      rcases hk with rfl | rfl <;> rfl)
    exact hr.own _ h2 (names.internal_ne_zero e) (names.internal_ne_gnd e)
  have mem : ∀ el, el ∈ elements w → ∃ e t, A e = some t ∧ el = t.element row e := by
    intro el hm
    rw [he, List.mem_filterMap] at hm
    obtain ⟨e, _, h2⟩ := hm
    cases ht : A e with
    | none => rw [ht] at h2; cases h2
    | some t => rw [ht] at h2; cases h2; exact ⟨e, t, ht, rfl⟩
  refine ⟨l, hl, ?_, ?_⟩
  · intro n i hn hni
    have h1 := k1 i (by
      intro el hm hbr
      obtain ⟨e, t, ht, rfl⟩ := mem el hm
      obtain ⟨hk, hc⟩ := branch_of hbr
      obtain ⟨c, hc'⟩ := hb e t ht hk
      rw [hc', Option.getD_some] at hc
      subst hc
      exact hni e t ht hk (hr.one _ _ _ hn hc'))
    refine Eq.trans ?_ h1
    rw [he]
    clear h1 he hl
    have row_iff : ∀ m, row m = some i ↔ m = n := by
      intro m
      constructor
      · intro h; exact hr.one _ _ _ h hn
      · rintro rfl; exact hn
    induction l with
    | nil => rfl
    | cons e l ih =>
      rw [List.map_cons, List.sum_cons, List.filterMap_cons, ih]
      cases ht : A e with
      | none => simp
      | some t =>
        rw [Option.map_some]
        dsimp only
        rw [List.map_cons, List.sum_cons]
        congr 1
        obtain ⟨k, n1, n2, a, b, d⟩ := t
        have e1 := row_iff n1
        have e2 := row_iff n2
        cases k <;> simp only [leaves, Told.element, Elements.currentOut, e1, e2, row]
        · split_ifs <;> ring
        · split_ifs <;> ring
        · split_ifs <;> ring
  · intro e t ht hk hnot
    obtain ⟨c, hc⟩ := hb e t ht hk
    obtain ⟨pre, post, rfl, hn⟩ := lists_split hl ht
    rw [List.filterMap_append, List.filterMap_cons, ht] at he
    dsimp only [Option.map_some] at he
    have hbr : Elements.branch (t.element row e) = some c := by
      obtain ⟨k, n1, n2, a, b, d⟩ := t
      dsimp only at hk
      rcases hk with rfl | rfl <;> simp [Told.element, Elements.branch, hc]
    obtain ⟨g1, g2⟩ := k2 _ _ _ c he hbr (by
      intro el hm hc'
      rw [← List.filterMap_append, List.mem_filterMap] at hm
      obtain ⟨e', hm1, hm2⟩ := hm
      cases ht' : A e' with
      | none => rw [ht'] at hm2; cases hm2
      | some t' =>
        rw [ht'] at hm2
        cases hm2
        obtain ⟨hk', hcc⟩ := branch_of hc'
        obtain ⟨c', hc''⟩ := hb e' t' ht' hk'
        have hcc : c = (row (e' ++ ".I")).getD 0 := hcc
        rw [hc'', Option.getD_some] at hcc
        subst hcc
        have := internal_inj (hr.one _ _ _ hc hc'')
        subst this
        exact hn hm1) (by
      intro el hm hc'
      obtain ⟨e', t', ht', rfl⟩ := mem el hm
      rw [terminals_of] at hc'
      obtain ⟨m1, m2⟩ := hnot e' t' ht'
      simp only [List.mem_cons, List.not_mem_nil, or_false] at hc'
      rcases hc' with h | h
      · exact m1 (hr.one _ _ _ h.symm hc)
      · exact m2 (hr.one _ _ _ h.symm hc))
    obtain ⟨k, n1, n2, a, b, d⟩ := t
    dsimp only at hk
    rcases hk with rfl | rfl
    · rw [if_pos rfl]
      refine g1 _ _ _ ?_
      have hc' : (pointerRow w.st (e ++ ".I")).getD 0 = c := by show (row _).getD 0 = c; rw [hc]; rfl
      simp [Told.element, hc', row]
    · rw [if_neg (by simp)]
      refine g2 _ _ a ?_
      have hc' : (pointerRow w.st (e ++ ".I")).getD 0 = c := by show (row _).getD 0 = c; rw [hc]; rfl
      simp [Told.element, hc', row]

end Verif.Ckt
