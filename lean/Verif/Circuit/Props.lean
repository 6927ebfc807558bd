import Verif.Circuit.Steps
/-
C20: circuit node names and aliases resolve consistently.  C34: reading circuit data has no side effect on analyses.

`run nm St.init cs` is the state after the session `cs`; `(step nm st c).2 = false` says that command `c` reported no error.
`index st n` is what get_circuit_equation_number and the value commands use for the name `n` (`none`: no row, i.e. ground or
unknown); `getValue st k n` is get_circuit_node_value.
-/
namespace Verif.Circuit
open Verif
variable {N K V : Type} [DecidableEq N] [DecidableEq K] [Zero V]

/-- the row that an element uses for the node it was attached to (`CircuitNodePtr::getNumber`, e.g. IdealResistor.cc:16) -/
def pointerRow (st : St N K V) (n : N) : Option Nat := (st.table.get n).bind Node.number

theorem run_append (nm : Names N) (st : St N K V) (cs ds : List (Cmd N K V)) :
    run nm st (cs ++ ds) = run nm (run nm st cs) ds := by
  unfold run; rw [List.foldl_append]

/-- C20: after any session, both ground names read 0 in every solution. -/
theorem ground_reads_zero (nm : Names N) (cs : List (Cmd N K V)) (k : K) :
    getValue (run nm St.init cs) k nm.zero = some 0 ∧ getValue (run nm St.init cs) k nm.gnd = some 0 := by
  have hi := run_inv nm cs (St.init : St N K V) (Inv.init nm)
  generalize run nm St.init cs = st at hi
  have key : ∀ n, resolve st n = n → (n = nm.zero ∨ n = nm.gnd) → getValue st k n = some 0 := by
    intro n hr hn
    unfold getValue
    cases hk : st.sols.get k with
    | none => rfl
    | some sol =>
      simp only
      have hl : st.locked = true := by
        cases hl : st.locked with
        | true => rfl
        | false => rw [hi.nosol hl] at hk; cases hk
      have hnum := (hi.numbered hl).2
      have : index st n = none := by
        unfold index
        rw [hr]
        cases hd : st.table.get n with
        | none => rfl
        | some d =>
          have hg := (hi.ty n d hd).mpr hn
          have h3 := (numberLoop_lt st.table 0).2.2 n d (by rw [hnum]; exact hd) hg
          exact h3
      rw [this]
  exact ⟨key _ (resolve_zero hi) (.inl rfl), key _ (resolve_gnd hi) (.inr rfl)⟩

/-- C20: right after an analysis, ground has no row, every other node of the table has a row of its own below the number of
rows, and two nodes with the same row are the same node (also through the names, for names that are not aliases). -/
theorem rows_after_analysis (nm : Names N) (cs : List (Cmd N K V)) (start : Nat) (ks : List (K × (Nat → V))) :
    let st := run nm St.init (cs ++ [.solve start ks])
    index st nm.zero = none ∧ index st nm.gnd = none ∧
    (∀ x, st.table.has x = true → x ≠ nm.zero → x ≠ nm.gnd →
      ∃ i, pointerRow st x = some i ∧ i < (numberLoop 0 st.table).2) ∧
    (∀ x y i, pointerRow st x = some i → pointerRow st y = some i → x = y) ∧
    (∀ x, st.aliases.get x = none → index st x = pointerRow st x) := by
  have hi := run_inv nm (cs ++ [.solve start ks]) (St.init : St N K V) (Inv.init nm)
  have hi0 := run_inv nm cs (St.init : St N K V) (Inv.init nm)
  intro st
  have hst : st = (solveCmd (run nm St.init cs) start ks).1 := by
    show run nm St.init (cs ++ [.solve start ks]) = _
    rw [run_append]; rfl
  have hnum : numberLoop 0 st.table = (st.table, (numberLoop 0 st.table).2) := by
    by_cases ht : (run nm (St.init : St N K V) cs).table = []
    · have : st.table = [] := by rw [hst]; unfold solveCmd; rw [if_pos ht]; exact ht
      rw [this]; rfl
    · have := (solveCmd_ok ⟨hi0, Ext.refl _⟩ start ks).2 ht
      rw [hst, this.1, numberLoop_idem]
  have hlt := numberLoop_lt st.table 0
  have hinj := numberLoop_inj st.table 0
  rw [hnum] at hlt hinj
  simp only at hlt hinj
  have hground : ∀ n, resolve st n = n → (n = nm.zero ∨ n = nm.gnd) → index st n = none := by
    intro n hr hn
    unfold index; rw [hr]
    cases hd : st.table.get n with
    | none => rfl
    | some d => exact hlt.2.2 n d hd ((hi.ty n d hd).mpr hn)
  have hrow : ∀ x i, pointerRow st x = some i → ∃ d, st.table.get x = some d ∧ d.number = some i ∧ d.ty ≠ .ground := by
    intro x i hx
    unfold pointerRow at hx
    cases hd : st.table.get x with
    | none => rw [hd] at hx; cases hx
    | some d =>
      rw [hd] at hx
      refine ⟨d, rfl, hx, fun hg => ?_⟩
      have := hlt.2.2 x d hd hg
      have hx : d.number = some i := hx
      rw [this] at hx; cases hx
  refine ⟨hground _ (resolve_zero hi) (.inl rfl), hground _ (resolve_gnd hi) (.inr rfl), ?_, ?_, ?_⟩
  · intro x hx h1 h2
    obtain ⟨d, hd⟩ := (has_iff_get _ _).mp hx
    have hne : d.ty ≠ .ground := by
      intro h
      rcases (hi.ty x d hd).mp h with h | h
      · exact h1 h
      · exact h2 h
    obtain ⟨j, hj, _, hj2⟩ := hlt.2.1 x d hd hne
    exact ⟨j, by unfold pointerRow; rw [hd]; exact hj, hj2⟩
  · intro x y i hx hy
    obtain ⟨d, hd1, hd2, hd3⟩ := hrow x i hx
    obtain ⟨e, he1, he2, he3⟩ := hrow y i hy
    exact hinj x y d e hd1 he1 hd3 he3 (hd2.trans he2.symm)
  · intro x hx
    unfold index pointerRow resolve
    rw [hx]; rfl

/-! only circuit_node_alias and delete_circuit change the aliases -/
theorem al_addNode (s : St N K V) (m : N) (ty : NodeType) (ut : UpdateType) : (addNode s m ty ut).1.aliases = s.aliases := by
  unfold addNode; split
  · rfl
  · split <;> rfl

theorem al_andThen {A : FMap N N} {r : St N K V × Bool} {f : St N K V → St N K V × Bool} (h : r.1.aliases = A)
    (h2 : ∀ s : St N K V, s.aliases = A → (f s).1.aliases = A) : (andThen r f).1.aliases = A := by
  unfold andThen; split
  · exact h
  · exact h2 _ h

theorem al_ensure (s : St N K V) (m : N) : (ensureGround s m).1.aliases = s.aliases := by
  unfold ensureGround; split
  · rfl
  · exact al_addNode _ _ _ _

theorem al_ground (nm : Names N) (s : St N K V) : (addGround nm s).1.aliases = s.aliases := by
  unfold addGround
  apply al_andThen (al_ensure _ _)
  intro s hs
  rw [al_ensure, hs]

theorem al_create (nm : Names N) (s : St N K V) (m : N) (ut : UpdateType) :
    (createNode nm s m ut).1.aliases = s.aliases := by
  unfold createNode
  apply al_andThen (al_ground _ _)
  intro s hs
  try dsimp only
  split
  · exact hs
  · rw [al_addNode, hs]

theorem al_construct (nm : Names N) (k : ElemKind) (s : St N K V) (e n1 n2 : N) :
    (construct nm k s e n1 n2).1.aliases = s.aliases := by
  unfold construct
  apply al_andThen (al_addNode _ _ _ _)
  intro s hs
  try dsimp only
  apply al_andThen (by rw [al_addNode, hs])
  intro s hs
  try dsimp only
  apply al_andThen
  · split
    · rw [al_addNode, hs]
    · exact hs
  · intro s hs
    try dsimp only
    split
    · exact hs
    · exact hs

theorem al_element (nm : Names N) (s : St N K V) (e n1 n2 : N) : (elementCmd nm s e n1 n2).1.aliases = s.aliases := by
  unfold elementCmd
  apply al_andThen (al_create _ _ _ _)
  intro s hs
  try dsimp only
  apply al_andThen (by rw [al_create, hs])
  intro s hs
  try dsimp only
  split
  · exact hs
  · rw [al_construct, hs]

theorem al_addCircuitNode (nm : Names N) (s : St N K V) (m : N) (ut : UpdateType) :
    (addCircuitNodeCmd nm s m ut).1.aliases = s.aliases := by
  unfold addCircuitNodeCmd
  apply al_andThen (al_ground _ _)
  intro s hs
  try dsimp only
  split
  · exact hs
  · rw [al_create, hs]

theorem al_setVal (nm : Names N) (s : St N K V) (k : K) (m : N) (x : V) :
    (setValueCmd nm s k m x).1.aliases = s.aliases := by
  unfold setValueCmd
  apply al_andThen (al_ground _ _)
  intro s hs
  try dsimp only
  split
  · unfold setValue
    split
    · exact hs
    · split
      · exact hs
      · split
        · exact hs
        · split <;> exact hs
  · exact hs

/-- a real node whose name is not an alias stays so -/
theorem step_unaliased {nm : Names N} {st : St N K V} (h : Inv nm st) (n : N) (hn : st.table.has n = true)
    (ha : st.aliases.get n = none) (c : Cmd N K V) (hc : c ≠ .deleteCircuit) :
    (step nm st c).1.table.has n = true ∧ (step nm st c).1.aliases.get n = none := by
  refine ⟨(step_ok ⟨h, Ext.refl st⟩ c hc).2.has hn, ?_⟩
  cases c with
  | addNode m ut => show (addCircuitNodeCmd nm st m ut).1.aliases.get n = none; rw [al_addCircuitNode]; exact ha
  | element e n1 n2 => show (elementCmd nm st e n1 n2).1.aliases.get n = none; rw [al_element]; exact ha
  | alias m al =>
    obtain ⟨g1, g2, g3, g4, g5, g6, _⟩ := addGround_spec h
    show (aliasCmd nm st m al).1.aliases.get n = none
    unfold aliasCmd andThen
    rw [g1, if_neg (by simp)]
    have hP : (addGround nm st).1.aliases.get n = none := by rw [g6]; exact ha
    try dsimp only
    split
    · exact hP
    · rename_i h1
      split
      · exact hP
      · rename_i h2
        unfold addAlias
        split
        · exact hP
        · split
          · exact hP
          · rename_i h4
            simp only
            rw [FMap.get_set]
            split
            · rename_i he
              subst he
              exact absurd (g4.has hn) h4
            · exact hP
  | setVal k m x => show (setValueCmd nm st k m x).1.aliases.get n = none; rw [al_setVal]; exact ha
  | query => show (addGround nm st).1.aliases.get n = none; rw [al_ground]; exact ha
  | solve start ks =>
    by_cases ht : st.table = []
    · show (solveCmd st start ks).1.aliases.get n = none
      unfold solveCmd; rw [if_pos ht]; exact ha
    · show (solveCmd st start ks).1.aliases.get n = none
      rw [((solveCmd_ok ⟨h, Ext.refl st⟩ start ks).2 ht).2.1]; exact ha
  | deleteCircuit => exact absurd rfl hc

theorem run_unaliased {nm : Names N} (n : N) (cs : List (Cmd N K V)) : ∀ st : St N K V, Inv nm st →
    st.table.has n = true → st.aliases.get n = none → (∀ c ∈ cs, c ≠ .deleteCircuit) →
    (run nm st cs).table.has n = true ∧ (run nm st cs).aliases.get n = none := by
  induction cs with
  | nil => intro st _ h1 h2 _; exact ⟨h1, h2⟩
  | cons c cs ih =>
    intro st hi h1 h2 hc
    obtain ⟨a1, a2⟩ := step_unaliased hi n h1 h2 c (hc c (by simp))
    exact ih _ (step_ok ⟨hi, Ext.refl st⟩ c (hc c (by simp))).1 a1 a2 (fun d hd => hc d (by simp [hd]))

/-- C20: once `circuit_node_alias(node=n, alias=al)` has succeeded, the alias resolves to the row of `n` after every later
command until delete_circuit.  Partial: `n` itself must not be an alias name that was also used as an element terminal
(see `alias_of_shadowed_counterexample`). -/
theorem alias_resolves_partial (nm : Names N) (cs ds : List (Cmd N K V)) (n al : N)
    (hok : (step nm (run nm (St.init : St N K V) cs) (.alias n al)).2 = false)
    (hn : (run nm (St.init : St N K V) cs).aliases.get n = none)
    (hd : ∀ c ∈ ds, c ≠ .deleteCircuit) :
    let st := run nm St.init (cs ++ .alias n al :: ds)
    index st al = index st n ∧ isNode st al = true ∧ isNode st n = true := by
  intro st
  have hi := run_inv nm cs (St.init : St N K V) (Inv.init nm)
  have hst : st = run nm (step nm (run nm St.init cs) (.alias n al)).1 ds := by
    show run nm St.init (cs ++ .alias n al :: ds) = _
    rw [run_append]; rfl
  obtain ⟨a1, a2⟩ := aliasCmd_ok (⟨hi, Ext.refl _⟩ : Ok nm _ _) n al
  obtain ⟨b1, b2, b3⟩ := a2 hok
  have hnal : n ≠ al := by
    rintro rfl
    obtain ⟨d, hd⟩ := (has_iff_get _ _).mp b2
    rw [b3] at hd; cases hd
  -- the table entry for `n` in the new alias table
  have hn1 : (aliasCmd nm (run nm St.init cs) n al).1.aliases.get n = none := by
    unfold aliasCmd andThen
    obtain ⟨g1, g2, g3, g4, g5, g6, _⟩ := addGround_spec hi
    rw [g1, if_neg (by simp)]
    have hG : (addGround nm (run nm St.init cs)).1.aliases.get n = none := by rw [g6]; exact hn
    try dsimp only
    split
    · exact hG
    · split
      · exact hG
      · unfold addAlias
        split
        · exact hG
        · split
          · exact hG
          · simp only
            rw [FMap.get_set, if_neg hnal]; exact hG
  obtain ⟨c1, c2⟩ := run_unaliased n ds _ a1.1 b2 hn1 hd
  have hx : Ok nm (aliasCmd nm (run nm St.init cs) n al).1 (run nm (aliasCmd nm (run nm St.init cs) n al).1 ds) :=
    run_ok ds ⟨a1.1, Ext.refl _⟩ hd
  have h1 : st.aliases.get al = some n := by rw [hst]; exact hx.2.al al n b1
  have h2 : st.aliases.get n = none := by rw [hst]; exact c2
  have h3 : st.table.has n = true := by rw [hst]; exact c1
  have ra : resolve st al = n := by unfold resolve; rw [h1]; rfl
  have rn : resolve st n = n := by unfold resolve; rw [h2]; rfl
  refine ⟨?_, ?_, ?_⟩
  · unfold index; rw [ra, rn]
  · unfold isNode; rw [ra]; exact h3
  · unfold isNode; rw [rn]; exact h3

/-- C20: an alias for an unknown node, or an alias name that is already a node or alias, is refused and changes nothing but
the possible creation of the ground nodes. -/
theorem alias_refused (nm : Names N) (cs : List (Cmd N K V)) (n al : N)
    (h : isNode (addGround nm (run nm (St.init : St N K V) cs)).1 n = false ∨
         isNode (addGround nm (run nm (St.init : St N K V) cs)).1 al = true) :
    step nm (run nm (St.init : St N K V) cs) (.alias n al) = ((addGround nm (run nm St.init cs)).1, true) := by
  have hi := run_inv nm cs (St.init : St N K V) (Inv.init nm)
  obtain ⟨g1, _⟩ := addGround_spec hi
  show aliasCmd nm _ n al = _
  unfold aliasCmd andThen
  rw [g1, if_neg (by simp)]
  dsimp only
  rcases h with h | h
  · rw [if_pos (by rw [h]; simp)]
  · by_cases h1 : isNode (addGround nm (run nm (St.init : St N K V) cs)).1 n = true
    · rw [if_neg (by simpa using h1), if_pos h]
    · rw [if_pos h1]

/-- C20: an element terminal given by a name that is not an alias is attached to the node of that name: for the rest of the
session the element uses the row that the name resolves to.  Partial: for an alias name this is false
(`terminal_on_alias_counterexample`). -/
theorem terminal_resolves_partial (nm : Names N) (cs ds : List (Cmd N K V)) (e n1 n2 : N)
    (hok : (step nm (run nm (St.init : St N K V) cs) (.element e n1 n2)).2 = false)
    (h1 : (run nm (St.init : St N K V) cs).aliases.get n1 = none)
    (h2 : (run nm (St.init : St N K V) cs).aliases.get n2 = none)
    (hd : ∀ c ∈ ds, c ≠ .deleteCircuit) :
    let st := run nm St.init (cs ++ .element e n1 n2 :: ds)
    ∃ el, st.elems.get e = some el ∧ pointerRow st el.top = index st n1 ∧ pointerRow st el.bot = index st n2 ∧
      isNode st n1 = true ∧ isNode st n2 = true := by
  intro st
  have hi := run_inv nm cs (St.init : St N K V) (Inv.init nm)
  have hst : st = run nm (step nm (run nm St.init cs) (.element e n1 n2)).1 ds := by
    show run nm St.init (cs ++ .element e n1 n2 :: ds) = _
    rw [run_append]; rfl
  obtain ⟨a1, a2⟩ := elementCmd_ok (⟨hi, Ext.refl _⟩ : Ok nm _ _) e n1 n2
  obtain ⟨k, hk, hel⟩ := a2 hok
  obtain ⟨t1, t2, _⟩ := a1.1.elems e _ hel
  have hal : ∀ n, (run nm (St.init : St N K V) cs).aliases.get n = none →
      (elementCmd nm (run nm St.init cs) e n1 n2).1.aliases.get n = none := by
    intro n hn; rw [al_element]; exact hn
  obtain ⟨c1, c2⟩ := run_unaliased n1 ds _ a1.1 t1 (hal n1 h1) hd
  obtain ⟨d1, d2⟩ := run_unaliased n2 ds _ a1.1 t2 (hal n2 h2) hd
  have hx : Ok nm (elementCmd nm (run nm St.init cs) e n1 n2).1 (run nm (elementCmd nm (run nm St.init cs) e n1 n2).1 ds) :=
    run_ok ds ⟨a1.1, Ext.refl _⟩ hd
  have hr : ∀ n, st.aliases.get n = none → resolve st n = n := by
    intro n hn; unfold resolve; rw [hn]; rfl
  have r1 : resolve st n1 = n1 := hr n1 (by rw [hst]; exact c2)
  have r2 : resolve st n2 = n2 := hr n2 (by rw [hst]; exact d2)
  refine ⟨⟨k, n1, n2, (branchNode nm k e).map Prod.fst⟩, by rw [hst]; exact hx.2.el e _ hel, ?_, ?_, ?_, ?_⟩
  · unfold pointerRow index; rw [r1]
  · unfold pointerRow index; rw [r2]
  · unfold isNode; rw [r1, hst]; exact c1
  · unfold isNode; rw [r2, hst]; exact d1

/-- C20: a voltage source and an inductor have their own branch unknown `<name>.I`, which is a node other than ground; a
resistor, a capacitor and a current source have none. -/
theorem branch_unknown (nm : Names N) (cs ds : List (Cmd N K V)) (e n1 n2 : N)
    (hok : (step nm (run nm (St.init : St N K V) cs) (.element e n1 n2)).2 = false)
    (hd : ∀ c ∈ ds, c ≠ .deleteCircuit) :
    let st := run nm St.init (cs ++ .element e n1 n2 :: ds)
    ∃ el, st.elems.get e = some el ∧ nm.kind e = some el.kind ∧ el.top = n1 ∧ el.bot = n2 ∧
      (el.kind = .V ∨ el.kind = .L →
        el.branch = some (nm.internal e) ∧ ∃ d, st.table.get (nm.internal e) = some d ∧ d.ty ≠ .ground) ∧
      (el.kind = .R ∨ el.kind = .C ∨ el.kind = .I → el.branch = none) := by
  intro st
  have hi := run_inv nm cs (St.init : St N K V) (Inv.init nm)
  have hst : st = run nm (step nm (run nm St.init cs) (.element e n1 n2)).1 ds := by
    show run nm St.init (cs ++ .element e n1 n2 :: ds) = _
    rw [run_append]; rfl
  obtain ⟨a1, a2⟩ := elementCmd_ok (⟨hi, Ext.refl _⟩ : Ok nm _ _) e n1 n2
  obtain ⟨k, hk, hel⟩ := a2 hok
  have hx : Ok nm (elementCmd nm (run nm St.init cs) e n1 n2).1 (run nm (elementCmd nm (run nm St.init cs) e n1 n2).1 ds) :=
    run_ok ds ⟨a1.1, Ext.refl _⟩ hd
  have hel' : st.elems.get e = some ⟨k, n1, n2, (branchNode nm k e).map Prod.fst⟩ := by
    rw [hst]; exact hx.2.el e _ hel
  have hinv : Inv nm st := by rw [hst]; exact hx.1
  refine ⟨_, hel', hk, rfl, rfl, ?_, ?_⟩
  · intro hkk
    have hb : (branchNode nm k e).map Prod.fst = some (nm.internal e) := by
      rcases hkk with h | h <;> (simp only at h; subst h; rfl)
    refine ⟨hb, ?_⟩
    have := (hinv.elems e _ hel').2.2 _ hb
    obtain ⟨d, hd⟩ := (has_iff_get _ _).mp this
    refine ⟨d, hd, ?_⟩
    intro hg
    rcases (hinv.ty _ _ hd).mp hg with h | h
    · exact nm.internal_ne_zero e h
    · exact nm.internal_ne_gnd e h
  · intro hkk
    rcases hkk with h | h | h <;> (simp only at h; subst h; rfl)

/-- C20: get_circuit_node_value after an accepted set_circuit_node_value: the new value for every name with the same row, 0 for
names without a row, unchanged otherwise; other solutions are unchanged. -/
theorem value_after_set (nm : Names N) (cs : List (Cmd N K V)) (k : K) (n : N) (x : V)
    (hok : (step nm (run nm (St.init : St N K V) cs) (.setVal k n x)).2 = false) (k' : K) (m : N) :
    let st := run nm (St.init : St N K V) cs
    let st' := run nm (St.init : St N K V) (cs ++ [.setVal k n x])
    getValue st' k' m =
      if k' = k ∧ (index st m).isSome ∧ index st m = index st n then some x else getValue st k' m := by
  intro st st'
  have hi : Inv nm st := run_inv nm cs (St.init : St N K V) (Inv.init nm)
  have hst : st' = (setValueCmd nm st k n x).1 := by
    show run nm St.init (cs ++ [.setVal k n x]) = _
    rw [run_append]; rfl
  have hok : (setValueCmd nm st k n x).2 = false := hok
  obtain ⟨g1, g2, g3, g4, g5, g6, g7, _⟩ := addGround_spec hi
  unfold setValueCmd andThen at hst hok
  rw [g1, if_neg (by simp)] at hst hok
  dsimp only at hst hok
  by_cases hc : isNode (addGround nm st).1 n = true ∧ (addGround nm st).1.sols.has k = true
  · rw [if_pos hc] at hst hok
    -- solutions exist, hence the circuit is locked and the ground nodes exist
    have hl : st.locked = true := by
      cases hl : st.locked with
      | true => rfl
      | false =>
        have := hc.2
        rw [g7, hi.nosol hl] at this; cases this
    rw [g5 (hi.numbered hl).1] at hst hok hc
    obtain ⟨sol, hsol⟩ := (has_iff_get _ _).mp hc.2
    unfold setValue at hst hok
    rw [hsol] at hst hok
    simp only at hst hok
    cases hix : index st n with
    | none =>
      rw [hix] at hst hok
      rw [hst]
      simp only
      rw [if_neg]
      rintro ⟨_, h1, h2⟩
      rw [h2] at h1; cases h1
    | some i =>
      rw [hix] at hst hok
      simp only at hst hok
      cases sol with
      | none => cases hok
      | some v =>
        simp only at hst hok
        by_cases hlt : i < v.length
        · rw [if_pos hlt] at hst
          have hidx : ∀ m, index st' m = index st m := by rw [hst]; intro m; rfl
          unfold getValue
          rw [hidx m]
          by_cases hk : k' = k
          · subst hk
            have : st'.sols.get k' = some (some (v.set i x)) := by
              rw [hst]; simp only; rw [FMap.get_set, if_pos rfl]
            rw [this, hsol]
            cases hm : index st m with
            | none => simp
            | some j =>
              simp only [Option.bind_some]
              by_cases hj : j = i
              · subst hj
                rw [if_pos (by simp)]
                simp [hlt]
              · rw [if_neg (by rintro ⟨_, _, h⟩; exact hj (by simpa using h))]
                rw [List.getElem?_set_ne (fun h => hj h.symm)]
          · rw [if_neg (fun h => hk h.1)]
            have : st'.sols.get k' = st.sols.get k' := by
              rw [hst]; simp only; rw [FMap.get_set, if_neg hk]
            rw [this]
        · rw [if_neg hlt] at hok; cases hok
  · rw [if_neg hc] at hok; cases hok

/-- C20: in an analysed circuit every value read succeeds for solutions made by the analyses -/
theorem value_defined (nm : Names N) (cs : List (Cmd N K V)) (k : K) (n : N) (v : List V)
    (hk : (run nm (St.init : St N K V) cs).sols.get k = some (some v)) :
    ∃ x, getValue (run nm (St.init : St N K V) cs) k n = some x := by
  have hi := run_inv nm cs (St.init : St N K V) (Inv.init nm)
  generalize run nm St.init cs = st at hi hk
  unfold getValue
  rw [hk]
  simp only [Option.bind_some]
  cases hix : index st n with
  | none => exact ⟨_, rfl⟩
  | some i =>
    simp only
    have hl : st.locked = true := by
      cases hl : st.locked with
      | true => rfl
      | false => rw [hi.nosol hl] at hk; cases hk
    have hnum := (hi.numbered hl).2
    unfold index at hix
    cases hd : st.table.get (resolve st n) with
    | none => rw [hd] at hix; cases hix
    | some d =>
      rw [hd] at hix
      have hix : d.number = some i := hix
      have hlt := numberLoop_lt st.table 0
      rw [hnum] at hlt
      have hne : d.ty ≠ .ground := by
        intro h; rw [hlt.2.2 _ d hd h] at hix; cases hix
      obtain ⟨j, hj, _, hj2⟩ := hlt.2.1 _ d hd hne
      rw [hj] at hix; cases hix
      have : i < v.length := by rw [hi.sols k v hk]; exact hj2
      exact ⟨_, List.getElem?_eq_getElem this⟩

/-- the `variable_update` option of add_circuit_node has no effect: every node of every reachable state has the default
update type (CircuitCommands.cc:132 passes DEFAULT) -/
theorem update_type_ignored (nm : Names N) (cs : List (Cmd N K V)) (n : N) (d : Node)
    (h : (run nm (St.init : St N K V) cs).table.get n = some d) : d.ut = .default :=
  (run_inv nm cs (St.init : St N K V) (Inv.init nm)).ut n d h

/-- C34: once a circuit has a node, reading circuit data changes nothing.  Partial: on an empty circuit it is false, see
`query_breaks_analysis_counterexample`. -/
theorem query_readonly_partial (nm : Names N) (cs : List (Cmd N K V))
    (h : (run nm (St.init : St N K V) cs).table ≠ []) :
    step nm (run nm (St.init : St N K V) cs) .query = (run nm St.init cs, false) := by
  have hi := run_inv nm cs (St.init : St N K V) (Inv.init nm)
  obtain ⟨g1, _, _, _, g5, _⟩ := addGround_spec hi
  exact Prod.ext (g5 h) g1

/-! ### concrete sessions -/

/-- names are numbers: 0 and 1 are ground, the branch unknown of `n` is `n + 100`; 10-19 voltage sources, 20-29 resistors -/
def demo : Names Nat where
  zero := 0
  gnd := 1
  internal := fun n => n + 100
  kind := fun n => if n / 10 = 1 then some .V else if n / 10 = 2 then some .R else none
  zero_ne_gnd := by decide
  internal_ne_zero := fun n => by omega
  internal_ne_gnd := fun n => by omega

/-- node 5, source 10 from 5 to ground, resistor 20 from 5 to 6, alias 7 for 6, then an analysis -/
def demoSession : List (Cmd Nat Nat Int) :=
  [.addNode 5 .positive, .element 10 5 0, .element 20 5 6, .alias 6 7, .solve 40 [(0, fun i => (i : Int) + 1)]]

example : index (run demo St.init demoSession) 5 = some 0 := by decide
example : index (run demo St.init demoSession) 6 = some 2 := by decide
example : index (run demo St.init demoSession) 7 = some 2 := by decide
example : getValue (run demo St.init demoSession) 0 7 = some 3 := by decide
example : getValue (run demo St.init demoSession) 0 0 = some 0 := by decide
example : (step demo (run demo St.init demoSession) (.setVal 0 7 9)).2 = false := by decide
example : (step demo (run demo (St.init : St Nat Nat Int) (demoSession.take 3)) (.alias 6 7)).2 = false := by decide
example : (run demo (St.init : St Nat Nat Int) (demoSession.take 3)).aliases.get 6 = none := by decide
example : (step demo (run demo (St.init : St Nat Nat Int) (demoSession.take 2)) (.element 20 5 6)).2 = false := by decide
/-- after an analysis no element can be added -/
example : (step demo (run demo St.init demoSession) (.element 21 5 6)).2 = true := by decide
/-- an alias of an alias is refused -/
example : (step demo (run demo St.init demoSession) (.alias 7 8)).2 = true := by decide

/-- C20 fails: node 5 with alias 7; a resistor attached to the alias 7 gets a node of its own, whose row differs from the row
that the name 7 resolves to: the resistor is not connected to node 5. -/
theorem terminal_on_alias_counterexample :
    let st : St Nat Nat Int := run demo St.init [.addNode 5 .default, .alias 5 7, .element 20 7 0, .solve 0 [(0, fun _ => 0)]]
    ∃ el, st.elems.get 20 = some el ∧ pointerRow st el.top = some 1 ∧ index st 7 = some 0 ∧ index st 5 = some 0 := by
  refine ⟨⟨.R, 7, 0, none⟩, ?_⟩
  decide

/-- C20 fails: aliases 7 of 5; element on 7 makes a real node 7; alias 8 of node 7 is accepted and resolves to the hidden
node, not to what the name 7 resolves to. -/
theorem alias_of_shadowed_counterexample :
    let cs : List (Cmd Nat Nat Int) := [.addNode 5 .default, .alias 5 7, .element 20 7 0]
    (step demo (run demo St.init cs) (.alias 7 8)).2 = false ∧
    index (run demo St.init (cs ++ [.alias 7 8, .solve 0 [(0, fun _ => 0)]])) 8 = some 1 ∧
    index (run demo St.init (cs ++ [.alias 7 8, .solve 0 [(0, fun _ => 0)]])) 7 = some 0 := by
  decide

/-- C34 fails: without a circuit an analysis has nothing to do; after a mere get_circuit_node_list the same analysis fails,
because the ground nodes made by the query count as a circuit. -/
theorem query_breaks_analysis_counterexample :
    (step demo (St.init : St Nat Nat Int) (.solve 4 [(0, fun _ => 0)])).2 = false ∧
    (step demo (run demo (St.init : St Nat Nat Int) [.query]) (.solve 4 [(0, fun _ => 0)])).2 = true := by
  decide

/-- a user node with the name of a branch unknown is used as the branch unknown of the source -/
theorem branch_name_shared :
    let st : St Nat Nat Int := run demo St.init [.addNode 110 .default, .element 10 5 0]
    ∃ el, st.elems.get 10 = some el ∧ el.branch = some 110 ∧
      (st.table.get 110).map (fun d => d.ty) = some .default := by
  refine ⟨⟨.V, 5, 0, some 110⟩, ?_⟩
  decide

end Verif.Circuit
