import Verif.Circuit.Nodes
/-! Invariants of the circuit state (helpers for `Props.lean`). -/
namespace Verif.Circuit
open Verif
variable {N K V : Type} [DecidableEq N] [DecidableEq K]

theorem has_iff_get {A B : Type} [DecidableEq A] (m : FMap A B) (k : A) : m.has k = true ↔ ∃ v, m.get k = some v := by
  unfold FMap.has; rw [Option.isSome_iff_exists]

/-- both ground names are ground nodes of the table -/
def Grounded (nm : Names N) (st : St N K V) : Prop :=
  (∃ d, st.table.get nm.zero = some d ∧ d.ty = .ground) ∧ (∃ d, st.table.get nm.gnd = some d ∧ d.ty = .ground)

/-- holds in every reachable state -/
structure Inv (nm : Names N) (st : St N K V) : Prop where
  wf : st.table.WF
  target : ∀ a n, st.aliases.get a = some n → st.table.has n = true
  grounded : st.table = [] ∨ Grounded nm st
  ty : ∀ n d, st.table.get n = some d → (d.ty = .ground ↔ n = nm.zero ∨ n = nm.gnd)
  ut : ∀ n d, st.table.get n = some d → d.ut = .default
  noalias : st.aliases.get nm.zero = none ∧ st.aliases.get nm.gnd = none
  numbered : st.locked = true → st.table ≠ [] ∧ numberLoop 0 st.table = (st.table, st.nNodes)
  nosol : st.locked = false → st.sols = []
  sols : ∀ k v, st.sols.get k = some (some v) → v.length = st.nNodes
  elems : ∀ e el, st.elems.get e = some el →
    st.table.has el.top = true ∧ st.table.has el.bot = true ∧ ∀ b, el.branch = some b → st.table.has b = true

/-- what later commands (other than delete_circuit) keep -/
structure Ext (a b : St N K V) : Prop where
  tbl : ∀ n d, a.table.get n = some d → ∃ d', b.table.get n = some d' ∧ d'.ty = d.ty
  al : ∀ x n, a.aliases.get x = some n → b.aliases.get x = some n
  el : ∀ e el, a.elems.get e = some el → b.elems.get e = some el
  lock : a.locked = true → b.locked = true ∧ b.table = a.table ∧ b.nNodes = a.nNodes

/-- no alias has the name of a node -/
def Clean (st : St N K V) : Prop := ∀ a n, st.aliases.get a = some n → st.table.get a = none

theorem Ext.refl (a : St N K V) : Ext a a :=
  ⟨fun _ d h => ⟨d, h, rfl⟩, fun _ _ h => h, fun _ _ h => h, fun h => ⟨h, rfl, rfl⟩⟩

theorem Ext.trans {a b c : St N K V} (h : Ext a b) (g : Ext b c) : Ext a c := by
  refine ⟨?_, fun x n hx => g.al x n (h.al x n hx), fun x n hx => g.el x n (h.el x n hx), ?_⟩
  · intro n d hd
    obtain ⟨d', h1, h2⟩ := h.tbl n d hd
    obtain ⟨d'', h3, h4⟩ := g.tbl n d' h1
    exact ⟨d'', h3, h4.trans h2⟩
  · intro hl
    obtain ⟨h1, h2, h3⟩ := h.lock hl
    obtain ⟨h4, h5, h6⟩ := g.lock h1
    exact ⟨h4, h5.trans h2, h6.trans h3⟩

theorem Ext.has {a b : St N K V} (h : Ext a b) {n : N} (hn : a.table.has n = true) : b.table.has n = true := by
  obtain ⟨d, hd⟩ := (has_iff_get _ _).mp hn
  obtain ⟨d', hd', _⟩ := h.tbl n d hd
  exact (has_iff_get _ _).mpr ⟨d', hd'⟩

theorem Ext.grounded {nm : Names N} {a b : St N K V} (h : Ext a b) (hg : Grounded nm a) : Grounded nm b := by
  obtain ⟨⟨d, h1, h2⟩, ⟨e, h3, h4⟩⟩ := hg
  obtain ⟨d', h5, h6⟩ := h.tbl _ _ h1
  obtain ⟨e', h7, h8⟩ := h.tbl _ _ h3
  exact ⟨⟨d', h5, h6.trans h2⟩, ⟨e', h7, h8.trans h4⟩⟩

theorem Inv.init (nm : Names N) : Inv nm (St.init : St N K V) := by
  refine ⟨?_, ?_, .inl rfl, ?_, ?_, ⟨rfl, rfl⟩, ?_, fun _ => rfl, ?_, ?_⟩ <;>
    simp [St.init, FMap.WF, FMap.keys]

theorem resolve_zero {nm : Names N} {st : St N K V} (h : Inv nm st) : resolve st nm.zero = nm.zero := by
  unfold resolve; rw [h.noalias.1]; rfl
theorem resolve_gnd {nm : Names N} {st : St N K V} (h : Inv nm st) : resolve st nm.gnd = nm.gnd := by
  unfold resolve; rw [h.noalias.2]; rfl

theorem has_false {A B : Type} [DecidableEq A] {m : FMap A B} {k : A} (h : ¬ m.has k = true) : m.get k = none := by
  cases hg : m.get k with
  | none => rfl
  | some v => exact absurd ((has_iff_get _ _).mpr ⟨v, hg⟩) h

/-- adding an entry for a new name -/
theorem ext_set {nm : Names N} {st : St N K V} (hi : Inv nm st) (n : N) (d : Node) (hn : ¬ st.table.has n = true)
    (hl : st.locked = false) : Ext st { st with table := st.table.set n d } := by
  refine ⟨?_, fun _ _ h => h, fun _ _ h => h, ?_⟩
  · intro m e he
    refine ⟨e, ?_, rfl⟩
    simp only
    rw [FMap.get_set]
    split
    · rename_i h; subst h; rw [has_false hn] at he; cases he
    · exact he
  · intro h; rw [hl] at h; cases h

theorem inv_set {nm : Names N} {st : St N K V} (hi : Inv nm st) (hg : Grounded nm st) (n : N) (ty : NodeType)
    (hty : ty ≠ .ground) (hn : ¬ st.table.has n = true) (hl : st.locked = false) :
    Inv nm { st with table := st.table.set n ⟨ty, .default, some 0⟩ } := by
  have hx := ext_set hi n ⟨ty, .default, some 0⟩ hn hl
  refine ⟨hi.wf.set n _, fun a m h => hx.has (hi.target a m h), .inr (hx.grounded hg), ?_, ?_, hi.noalias, ?_, hi.nosol,
    hi.sols, ?_⟩
  · intro m d hd
    simp only at hd
    rw [FMap.get_set] at hd
    split at hd
    · rename_i h; subst h
      cases hd
      simp only
      constructor
      · intro h; exact absurd h hty
      · rintro (rfl | rfl)
        · obtain ⟨⟨d, h1, _⟩, _⟩ := hg; rw [has_false hn] at h1; cases h1
        · obtain ⟨_, ⟨d, h1, _⟩⟩ := hg; rw [has_false hn] at h1; cases h1
    · exact hi.ty m d hd
  · intro m d hd
    simp only at hd
    rw [FMap.get_set] at hd
    split at hd
    · cases hd; rfl
    · exact hi.ut m d hd
  · intro h; simp only at h; rw [hl] at h; cases h
  · intro e el he
    obtain ⟨h1, h2, h3⟩ := hi.elems e el he
    exact ⟨hx.has h1, hx.has h2, fun b hb => hx.has (h3 b hb)⟩

/-- the predicate carried through a command -/
def Ok (nm : Names N) (st0 st : St N K V) : Prop := Inv nm st ∧ Ext st0 st

theorem andThen_ok {P Q : St N K V → Prop} {r : St N K V × Bool} {f : St N K V → St N K V × Bool}
    (h1 : P r.1 ∧ (r.2 = false → Q r.1)) {R : St N K V → Prop}
    (h2 : ∀ s, P s → Q s → P (f s).1 ∧ ((f s).2 = false → R (f s).1)) :
    P (andThen r f).1 ∧ ((andThen r f).2 = false → R (andThen r f).1) := by
  unfold andThen
  cases hr : r.2 with
  | true => rw [if_pos rfl]; exact ⟨h1.1, fun h => by rw [hr] at h; cases h⟩
  | false => rw [if_neg (by simp)]; exact h2 _ h1.1 (h1.2 hr)

theorem addNode_ok {nm : Names N} {st0 st : St N K V} (h : Ok nm st0 st) (hg : Grounded nm st) (n : N) (ty : NodeType)
    (hty : ty ≠ .ground) :
    Ok nm st0 (addNode st n ty .default).1 ∧ ((addNode st n ty .default).2 = false →
      Grounded nm (addNode st n ty .default).1 ∧ (addNode st n ty .default).1.table.has n = true ∧
      (∀ m, st.table.has m = true → (addNode st n ty .default).1.table.has m = true)) := by
  unfold addNode
  by_cases hl : st.locked = true
  · rw [if_pos hl]; exact ⟨h, fun h => by cases h⟩
  · rw [if_neg hl]
    have hl : st.locked = false := by simpa using hl
    by_cases hn : st.table.has n = true
    · rw [if_pos hn]; exact ⟨h, fun _ => ⟨hg, hn, fun _ h => h⟩⟩
    · rw [if_neg hn]
      have hx := ext_set h.1 n ⟨ty, .default, some 0⟩ hn hl
      refine ⟨⟨inv_set h.1 hg n ty hty hn hl, h.2.trans hx⟩, fun _ => ⟨hx.grounded hg, ?_, fun m hm => hx.has hm⟩⟩
      rw [has_iff_get]
      exact ⟨_, by simp only; rw [FMap.get_set, if_pos rfl]⟩

/-- AddGroundNode never fails; it changes nothing unless the table is empty -/
theorem addGround_spec {nm : Names N} {st : St N K V} (h : Inv nm st) :
    (addGround nm st).2 = false ∧ Inv nm (addGround nm st).1 ∧ Grounded nm (addGround nm st).1 ∧
    Ext st (addGround nm st).1 ∧ (st.table ≠ [] → (addGround nm st).1 = st) ∧ (addGround nm st).1.aliases = st.aliases ∧
    (addGround nm st).1.sols = st.sols ∧
    (∀ n, (addGround nm st).1.table.has n = true → st.table.has n = true ∨ n = nm.zero ∨ n = nm.gnd) := by
  by_cases ht : st.table = []
  · have hl : st.locked = false := by
      cases hl : st.locked with
      | false => rfl
      | true => exact absurd ht (h.numbered hl).1
    have hz := resolve_zero h
    have hgd := resolve_gnd h
    have hne := nm.zero_ne_gnd
    have e : addGround nm st =
        ({ st with table := [(nm.zero, ⟨.ground, .default, some 0⟩), (nm.gnd, ⟨.ground, .default, some 0⟩)] }, false) := by
      unfold addGround andThen ensureGround isNode
      rw [hz]
      have h1 : addNode st nm.zero .ground .default =
          ({ st with table := [(nm.zero, ⟨.ground, .default, some 0⟩)] }, false) := by
        unfold addNode
        rw [hl, if_neg (by simp), if_neg (by rw [ht]; simp [FMap.has]), ht]
        rfl
      have h0 : ¬ st.table.has nm.zero = true := by rw [ht]; simp [FMap.has]
      rw [if_neg h0, h1]
      rw [if_neg (by simp)]
      have h2 : resolve { st with table := [(nm.zero, (⟨.ground, .default, some 0⟩ : Node))] } nm.gnd = nm.gnd := hgd
      simp only
      rw [h2]
      have h3 : FMap.has [(nm.zero, (⟨.ground, .default, some 0⟩ : Node))] nm.gnd = false := by
        simp [FMap.has, FMap.get, hne]
      rw [h3, if_neg (by simp)]
      unfold addNode
      simp only
      rw [hl, if_neg (by simp), h3, if_neg (by simp)]
      simp [FMap.set, hne]
    rw [e]
    have hG : Grounded nm { st with table := [(nm.zero, (⟨.ground, .default, some 0⟩ : Node)),
        (nm.gnd, ⟨.ground, .default, some 0⟩)] } := by
      constructor
      · exact ⟨⟨.ground, .default, some 0⟩, by simp [FMap.get], rfl⟩
      · exact ⟨⟨.ground, .default, some 0⟩, by simp [FMap.get, hne], rfl⟩
    have hgets : ∀ n d, FMap.get [(nm.zero, (⟨.ground, .default, some 0⟩ : Node)), (nm.gnd, ⟨.ground, .default, some 0⟩)] n
        = some d → (n = nm.zero ∨ n = nm.gnd) ∧ d = ⟨.ground, .default, some 0⟩ := by
      intro n d hd
      simp only [FMap.get] at hd
      split at hd
      · rename_i e; cases hd; exact ⟨.inl e.symm, rfl⟩
      · split at hd
        · rename_i e; cases hd; exact ⟨.inr e.symm, rfl⟩
        · cases hd
    have hnone : ∀ n, st.table.get n = none := by intro n; rw [ht]; rfl
    have hnh : ∀ n, ¬ st.table.has n = true := by intro n; rw [ht]; simp [FMap.has]
    have hel : ∀ e, st.elems.get e = none := by
      intro e
      cases hh : st.elems.get e with
      | none => rfl
      | some el => exact absurd (h.elems e el hh).1 (hnh _)
    have hal : ∀ a, st.aliases.get a = none := by
      intro a
      cases hh : st.aliases.get a with
      | none => rfl
      | some x => exact absurd (h.target a x hh) (hnh _)
    refine ⟨rfl, ⟨?_, ?_, .inr hG, ?_, ?_, h.noalias, ?_, h.nosol, h.sols, ?_⟩, hG, ⟨?_, fun _ _ h => h, fun _ _ h => h, ?_⟩,
      fun h => absurd ht h, rfl, rfl, ?_⟩
    · simp [FMap.WF, FMap.keys, hne]
    · intro a n ha; rw [hal a] at ha; cases ha
    · intro n d hd
      obtain ⟨h1, h2⟩ := hgets n d hd
      subst h2; simp [h1]
    · intro n d hd
      obtain ⟨h1, h2⟩ := hgets n d hd
      subst h2; rfl
    · intro hh; simp only at hh; rw [hl] at hh; cases hh
    · intro e el hh; simp only at hh; rw [hel e] at hh; cases hh
    · intro n d hd; rw [hnone n] at hd; cases hd
    · intro hh; rw [hl] at hh; cases hh
    · intro n hn
      obtain ⟨d, hd⟩ := (has_iff_get _ _).mp hn
      exact .inr (hgets n d hd).1
  · have hG : Grounded nm st := h.grounded.resolve_left ht
    have e : addGround nm st = (st, false) := by
      unfold addGround andThen ensureGround isNode
      obtain ⟨⟨d, h1, _⟩, ⟨d2, h2, _⟩⟩ := hG
      rw [resolve_zero h, if_pos ((has_iff_get _ _).mpr ⟨d, h1⟩)]
      simp only [Bool.false_eq_true, if_false]
      rw [resolve_gnd h, if_pos ((has_iff_get _ _).mpr ⟨d2, h2⟩)]
    rw [e]
    exact ⟨rfl, h, hG, Ext.refl _, fun _ => rfl, rfl, rfl, fun _ h => .inl h⟩

theorem createNode_ok {nm : Names N} {st0 st : St N K V} (h : Ok nm st0 st) (n : N) :
    Ok nm st0 (createNode nm st n .default).1 ∧ ((createNode nm st n .default).2 = false →
      Grounded nm (createNode nm st n .default).1 ∧ isNode (createNode nm st n .default).1 n = true) := by
  unfold createNode
  obtain ⟨g1, g2, g3, g4, _⟩ := addGround_spec h.1
  apply andThen_ok (P := Ok nm st0) (Q := Grounded nm) (R := fun s => Grounded nm s ∧ isNode s n = true)
    ⟨⟨g2, h.2.trans g4⟩, fun _ => g3⟩
  intro s hs hgs
  by_cases hn : isNode s n = true
  · rw [if_pos hn]; exact ⟨hs, fun _ => ⟨hgs, hn⟩⟩
  · rw [if_neg hn]
    obtain ⟨a1, a2⟩ := addNode_ok hs hgs n .default (by decide)
    refine ⟨a1, fun hf => ⟨(a2 hf).1, ?_⟩⟩
    -- the name is not an alias, otherwise it would have been a node
    have hr : s.aliases.get n = none := by
      cases hh : s.aliases.get n with
      | none => rfl
      | some m =>
        refine absurd ?_ hn
        unfold isNode resolve; rw [hh]; exact hs.1.target n m hh
    have hal : (addNode s n .default .default).1.aliases = s.aliases := by
      unfold addNode; split
      · rfl
      · split <;> rfl
    unfold isNode resolve
    rw [hal, hr]
    exact (a2 hf).2.1

end Verif.Circuit
