import Verif.SmallSignal.System
import Mathlib.Analysis.SpecialFunctions.ExpDeriv
import Mathlib.Analysis.Calculus.Deriv.Add
import Mathlib.Analysis.Calculus.Deriv.Mul
import Mathlib.Analysis.Complex.RealDeriv

/-! # C60: AC analysis -/

namespace Verif.SmallSignal
open Verif.Assembly
open Verif.Elements (Elem)

noncomputable section

/-! ### storage -/

theorem append_real_inj {a b : String} (h : a ++ "_Real" = b ++ "_Real") : a = b := by
  have := congrArg String.toList h
  simp only [String.toList_append] at this
  exact String.ext (List.append_cancel_right this)
theorem append_imag_inj {a b : String} (h : a ++ "_Imag" = b ++ "_Imag") : a = b := by
  have := congrArg String.toList h
  simp only [String.toList_append] at this
  exact String.ext (List.append_cancel_right this)
theorem append_real_ne_imag (a b : String) : a ++ "_Real" ≠ b ++ "_Imag" := by
  intro h
  have h1 := congrArg String.toList h
  simp only [String.toList_append] at h1
  have h2 := (List.append_inj' h1 (by decide)).2
  exact absurd h2 (by decide)

theorem set_self (ms : Newton.Models) (x : String) (v : Nat → ℝ) : (ms.set x v) x = some (.solution v) := by
  simp [Newton.Models.set]
theorem set_other (ms : Newton.Models) (x y : String) (v : Nat → ℝ) (h : y ≠ x) : (ms.set x v) y = ms y := by
  simp [Newton.Models.set, h]

theorem acEqs_frame (r : Newton.Region) (X : Nat → ℂ) (es : List Newton.Eqn) (ms ms' : Newton.Models)
    (h : acEqs r X es ms = some ms') (x : String) (hx : ∀ e ∈ es, x ≠ e.var ++ "_Real" ∧ x ≠ e.var ++ "_Imag") :
    ms' x = ms x := by
  induction es generalizing ms with
  | nil => simp only [acEqs, Option.some.injEq] at h; rw [h]
  | cons e es ih =>
    simp only [acEqs] at h
    split at h
    · simp at h
    · have he := hx e (by simp)
      rw [ih _ h fun a ha => hx a (by simp [ha]), set_other _ _ _ _ he.2, set_other _ _ _ _ he.1]

theorem acEqs_shows (r : Newton.Region) (X : Nat → ℂ) (es : List Newton.Eqn) (hnd : (es.map (·.var)).Nodup)
    (ms ms' : Newton.Models) (h : acEqs r X es ms = some ms') (e : Newton.Eqn) (he : e ∈ es) :
    ms' (e.var ++ "_Real") = some (.solution fun i => (X (eqRow r e i)).re) ∧
    ms' (e.var ++ "_Imag") = some (.solution fun i => (X (eqRow r e i)).im) := by
  induction es generalizing ms with
  | nil => simp at he
  | cons a es ih =>
    rw [List.map_cons, List.nodup_cons] at hnd
    simp only [acEqs] at h
    split at h
    · simp at h
    · rcases List.mem_cons.1 he with rfl | he
      · have hne : ∀ b ∈ es, e.var ≠ b.var := fun b hb hv => hnd.1 (List.mem_map.2 ⟨b, hb, hv.symm⟩)
        rw [acEqs_frame r X es _ _ h, acEqs_frame r X es _ _ h]
        · refine ⟨?_, set_self _ _ _⟩
          rw [set_other _ _ _ _ (append_real_ne_imag _ _), set_self]
        · intro b hb
          exact ⟨(append_real_ne_imag _ _).symm, fun hh => hne b hb (append_imag_inj hh)⟩
        · intro b hb
          exact ⟨fun hh => hne b hb (append_real_inj hh), append_real_ne_imag _ _⟩
      · exact ih hnd.2 _ h he

theorem acEqs_some (r : Newton.Region) (X : Nat → ℂ) (es : List Newton.Eqn) (ms : Newton.Models)
    (h : ∀ e ∈ es, (ms e.var).isSome) : ∃ ms', acEqs r X es ms = some ms' := by
  induction es generalizing ms with
  | nil => exact ⟨ms, rfl⟩
  | cons e es ih =>
    have he := h e (by simp)
    have : ¬ (ms e.var).isNone := by rw [Option.isSome_iff_ne_none] at he; simpa using he
    simp only [acEqs, if_neg this]
    apply ih
    intro b hb
    have hb' := h b (by simp [hb])
    unfold Newton.Models.set
    simp only [Function.update_apply]
    split_ifs <;> simp [hb']

theorem acRegions_spec (X : Nat → ℂ) (rs rs' : List Newton.Region) (h : acRegions X rs = some rs')
    (hnd : ∀ r ∈ rs, (r.eqs.map (·.var)).Nodup) : List.Forall₂ (ShowsRegion X) rs rs' := by
  induction rs generalizing rs' with
  | nil => simp only [acRegions, Option.some.injEq] at h; subst h; exact .nil
  | cons r rs ih =>
    simp only [acRegions] at h
    cases h1 : acEqs r X r.eqs r.models with
    | none => simp [h1] at h
    | some ms =>
      cases h2 : acRegions X rs with
      | none => simp [h1, h2] at h
      | some rs'' =>
        simp only [h1, h2, Option.some.injEq] at h
        subst h
        refine .cons ?_ (ih _ h2 fun x hx => hnd x (by simp [hx]))
        refine ⟨rfl, rfl, rfl, rfl, ?_, fun x hx => acEqs_frame r X _ _ _ h1 x hx⟩
        intro e he
        obtain ⟨a, b⟩ := acEqs_shows r X r.eqs (hnd r (by simp)) _ _ h1 e he
        exact ⟨_, _, a, b, fun i _ => rfl⟩

theorem acRegions_some (X : Nat → ℂ) (rs : List Newton.Region) (h : ∀ r ∈ rs, ∀ e ∈ r.eqs, (r.models e.var).isSome) :
    ∃ rs', acRegions X rs = some rs' := by
  induction rs with
  | nil => exact ⟨[], rfl⟩
  | cons r rs ih =>
    obtain ⟨ms, e1⟩ := acEqs_some r X r.eqs r.models (h r (by simp))
    obtain ⟨rs', e2⟩ := ih fun x hx => h x (by simp [hx])
    exact ⟨_, by simp only [acRegions, e1, e2]; rfl⟩

theorem acDevices_spec (X : Nat → ℂ) (ds ds' : List (List Newton.Region)) (h : acDevices X ds = some ds')
    (hnd : ∀ d ∈ ds, ∀ r ∈ d, (r.eqs.map (·.var)).Nodup) :
    List.Forall₂ (List.Forall₂ (ShowsRegion X)) ds ds' := by
  induction ds generalizing ds' with
  | nil => simp only [acDevices, Option.some.injEq] at h; subst h; exact .nil
  | cons d ds ih =>
    simp only [acDevices] at h
    cases h1 : acRegions X d with
    | none => simp [h1] at h
    | some d' =>
      cases h2 : acDevices X ds with
      | none => simp [h1, h2] at h
      | some ds'' =>
        simp only [h1, h2, Option.some.injEq] at h
        subst h
        exact .cons (acRegions_spec X d d' h1 (hnd d (by simp))) (ih _ h2 fun x hx => hnd x (by simp [hx]))

theorem acDevices_some (X : Nat → ℂ) (ds : List (List Newton.Region))
    (h : ∀ d ∈ ds, ∀ r ∈ d, ∀ e ∈ r.eqs, (r.models e.var).isSome) : ∃ ds', acDevices X ds = some ds' := by
  induction ds with
  | nil => exact ⟨[], rfl⟩
  | cons d ds ih =>
    obtain ⟨ms, e1⟩ := acRegions_some X d (h d (by simp))
    obtain ⟨rs', e2⟩ := ih fun x hx => h x (by simp [hx])
    exact ⟨_, by simp only [acDevices, e1, e2]; rfl⟩

/-- the numbers of the nodes are distinct (`NodeKeeper::InitializeFields`, C20) -/
def NodesDistinct (c : Circ) : Prop := (c.nodes.filterMap (·.2)).Nodup

theorem acNodes_frame (base : Nat) (X : Nat → ℂ) (ns : List (String × Option Nat)) (s : (Nat → ℝ) × (Nat → ℝ)) (i : Nat)
    (hi : i ∉ ns.filterMap (·.2)) : (acNodes base X ns s).1 i = s.1 i ∧ (acNodes base X ns s).2 i = s.2 i := by
  induction ns generalizing s with
  | nil => exact ⟨rfl, rfl⟩
  | cons n ns ih =>
    obtain ⟨nm, o⟩ := n
    cases o with
    | none => exact ih s (by simpa using hi)
    | some j =>
      simp only [List.filterMap_cons, List.mem_cons, not_or] at hi
      simp only [acNodes]
      obtain ⟨a, b⟩ := ih (Function.update s.1 j (X (j + base)).re, Function.update s.2 j (X (j + base)).im) hi.2
      rw [a, b]
      exact ⟨Function.update_of_ne hi.1 _ _, Function.update_of_ne hi.1 _ _⟩

theorem acNodes_spec (base : Nat) (X : Nat → ℂ) (ns : List (String × Option Nat)) (s : (Nat → ℝ) × (Nat → ℝ))
    (i : Nat) (hi : i ∈ ns.filterMap (·.2)) :
    (acNodes base X ns s).1 i = (X (base + i)).re ∧ (acNodes base X ns s).2 i = (X (base + i)).im := by
  induction ns generalizing s with
  | nil => simp at hi
  | cons n ns ih =>
    obtain ⟨nm, o⟩ := n
    cases o with
    | none => exact ih s (by simpa using hi)
    | some j =>
      by_cases hm : i ∈ ns.filterMap (·.2)
      · exact ih _ hm
      · simp only [List.filterMap_cons, List.mem_cons] at hi
        rcases hi with rfl | hi
        · simp only [acNodes]
          obtain ⟨a, b⟩ := acNodes_frame base X ns
            (Function.update s.1 i (X (i + base)).re, Function.update s.2 i (X (i + base)).im) i hm
          rw [a, b, Nat.add_comm base i]
          simp
        · exact absurd hi hm

theorem initSol_other (s : String → Option (Nat → ℝ)) (k x : String) (h : x ≠ k) : initSol s k x = s x := by
  unfold initSol
  split_ifs
  · exact Function.update_of_ne h _ _
  · rfl
theorem initSol_keep (s : String → Option (Nat → ℝ)) (k x : String) (v : Nat → ℝ) (h : s x = some v) :
    initSol s k x = some v := by
  unfold initSol
  split_ifs with hn
  · by_cases e : x = k
    · subst e; rw [h] at hn; simp at hn
    · rw [Function.update_of_ne e]; exact h
  · exact h
theorem initSol_isSome (s : String → Option (Nat → ℝ)) (k : String) : (initSol s k k).isSome := by
  unfold initSol
  split_ifs with hn
  · simp
  · rw [Option.isSome_iff_ne_none]; simpa using hn
theorem initSol_isSome' (s : String → Option (Nat → ℝ)) (k x : String) (h : (s x).isSome) : (initSol s k x).isSome := by
  obtain ⟨v, hv⟩ := Option.isSome_iff_exists.1 h
  rw [initSol_keep s k x v hv]; rfl
theorem initSol_getD (s : String → Option (Nat → ℝ)) (k x : String) :
    (initSol s k x).getD (fun _ => 0) = (s x).getD fun _ => 0 := by
  unfold initSol
  split_ifs with hn
  · by_cases e : x = k
    · subst e
      have : s x = none := by simpa using hn
      simp [this]
    · rw [Function.update_of_ne e]
  · rfl

theorem acCircuit_spec (rkey ikey : String) (hk : rkey ≠ ikey) (X : Nat → ℂ) (c : Circ) (c1 : Circ)
    (hc1 : c1 = { c with sols := initSol (initSol (initSol c.sols rkey) ikey) "dcop" }) :
    ∃ c', acCircuit rkey ikey X c1 = some c' ∧ ShowsCircuit rkey ikey X c c' := by
  subst hc1
  have h1 : (initSol (initSol (initSol c.sols rkey) ikey) "dcop" rkey).isSome :=
    initSol_isSome' _ _ _ (initSol_isSome' _ _ _ (initSol_isSome _ _))
  have h2 : (initSol (initSol (initSol c.sols rkey) ikey) "dcop" ikey).isSome :=
    initSol_isSome' _ _ _ (initSol_isSome _ _)
  obtain ⟨v1, e1⟩ := Option.isSome_iff_exists.1 h1
  obtain ⟨v2, e2⟩ := Option.isSome_iff_exists.1 h2
  refine ⟨{ c with sols := Function.update (Function.update (initSol (initSol (initSol c.sols rkey) ikey) "dcop") rkey
      (some (acNodes c.base X c.nodes (v1, v2)).1)) ikey (some (acNodes c.base X c.nodes (v1, v2)).2) },
    by simp only [acCircuit, e1, e2], rfl, rfl, rfl,
    ⟨(acNodes c.base X c.nodes (v1, v2)).1, (acNodes c.base X c.nodes (v1, v2)).2, ?_, ?_, ?_⟩, ?_, ?_⟩
  · simp only; rw [Function.update_of_ne hk, Function.update_self]
  · simp
  · intro n i hi
    obtain ⟨a, b⟩ := acNodes_spec c.base X c.nodes (v1, v2) i (List.mem_filterMap.2 ⟨_, hi, rfl⟩)
    apply Complex.ext
    · exact a.symm
    · exact b.symm
  · intro x hr hi hd
    simp only
    rw [Function.update_of_ne hi, Function.update_of_ne hr, initSol_other _ _ _ hd, initSol_other _ _ _ hi,
      initSol_other _ _ _ hr]
  · intro s hs hr hi
    simp only
    rw [Function.update_of_ne hi.symm, Function.update_of_ne hr.symm]
    exact initSol_keep _ _ _ _ (initSol_keep _ _ _ _ (initSol_keep _ _ _ _ hs))

/-! ### the initialization does not change what is assembled -/

theorem circStatic_init (w : World) : circStatic (acInit w) = circStatic w := by
  obtain ⟨ds, c⟩ := w
  cases c with
  | none => rfl
  | some c => simp only [circStatic, acInit, Option.map_some, initSol_getD]
theorem circDynamic_init (w : World) : circDynamic (acInit w) = circDynamic w := by
  obtain ⟨ds, c⟩ := w
  cases c with
  | none => rfl
  | some c => simp only [circDynamic, acInit, Option.map_some, initSol_getD]
theorem circBase_init (w : World) : circBase (acInit w) = circBase w := by
  obtain ⟨ds, c⟩ := w
  cases c <;> rfl
theorem acRhs_init (w : World) : acRhs (acInit w) = acRhs w := by
  obtain ⟨ds, c⟩ := w
  cases c <;> rfl
theorem bounded_init {ld : Load} {w : World} (h : Bounded ld w) : Bounded ld (acInit w) :=
  ⟨h.static, h.dynamic, h.customS, h.customD, by rw [circBase_init, circStatic_init]; exact h.circS,
    by rw [circBase_init, circDynamic_init]; exact h.circD, h.perm⟩
theorem staticRow_init (ld : Load) (w : World) : staticRow ld (acInit w) = staticRow ld w := by
  unfold staticRow; rw [circStatic_init, circBase_init]
theorem dynamicRow_init (ld : Load) (w : World) : dynamicRow ld (acInit w) = dynamicRow ld w := by
  unfold dynamicRow; rw [circDynamic_init, circBase_init]

/-- no region has two equations for one variable (C13) -/
def OneEquationPerVariable (w : World) : Prop := ∀ d ∈ w.devices, ∀ r ∈ d, (r.eqs.map (·.var)).Nodup

/-- **C60** AC analysis.  For every load, frequency and state: the analysis does not access anything outside of the arrays and does
not fail an assertion; if it reports success there are complex amplitudes `X` which solve the linearized equations at that frequency,
`J X + 2πi f C X = b`, and which are exactly what can be read afterwards from the node solutions `<variable>_Real`,
`<variable>_Imag` of every region and from `ssac_real`, `ssac_imag` of the circuit; all other solutions are as before. If it reports
failure, the devices and all solutions of the circuit are as before. -/
theorem ac_analysis (B : Backend) (hB : B.Correct) (ld : Load) (f : ℝ) (w : World) (hb : Bounded ld w) (hv : VarsExist w)
    (hu : OneEquationPerVariable w) :
    ∃ w' ok, acSolve B ld f w = some (w', ok) ∧
      (ok = true → ∃ X : Nat → ℂ,
        (∀ r < ld.N, staticRow ld w X r + 2 * Real.pi * f * Complex.I * dynamicRow ld w X r = acRhs w r) ∧
        ShowsAC X w w') ∧
      (ok = false → w'.devices = w.devices ∧ ∀ c, w.circuit = some c →
        ∃ c', w'.circuit = some c' ∧ ∀ x v, c.sols x = some v → c'.sols x = some v) := by
  have hb' := bounded_init hb
  obtain ⟨m, e1, hrep⟩ := ac_matrix ld f (acInit w) hb' B.crm
  have hBs := fun X => hB ld.N m.ap m.ai (Matrix.getComplex Complex.mk m) (acCell ld f (acInit w)) (acRhs (acInit w)) X
  unfold acSolve
  simp only [e1]
  cases hs : B.solve false ld.N m.ap m.ai (Matrix.getComplex Complex.mk m) (acRhs (acInit w)) with
  | none =>
    refine ⟨_, _, rfl, by simp, fun _ => ⟨rfl, fun c hc =>
      ⟨{ c with sols := initSol (initSol (initSol c.sols "ssac_real") "ssac_imag") "dcop" },
        by simp only [acInit, hc, Option.map_some], ?_⟩⟩⟩
    intro x v hx
    exact initSol_keep _ _ _ _ (initSol_keep _ _ _ _ (initSol_keep _ _ _ _ hx))
  | some X =>
    have hsol := (hBs X hrep).1 hs
    simp only [acCell_row f hb', staticRow_init, dynamicRow_init, acRhs_init] at hsol
    obtain ⟨ds, e2⟩ := acDevices_some X w.devices hv
    have hdev : (acInit w).devices = w.devices := rfl
    have hsh := acDevices_spec X w.devices ds e2 hu
    simp only [hdev, e2]
    cases hc : w.circuit with
    | none =>
      have : (acInit w).circuit = none := by simp [acInit, hc]
      simp only [this]
      exact ⟨_, _, rfl, fun _ => ⟨X, hsol, hsh, by simp [ShowsCircuitOpt, hc]⟩, by simp⟩
    | some c =>
      have : (acInit w).circuit =
          some { c with sols := initSol (initSol (initSol c.sols "ssac_real") "ssac_imag") "dcop" } := by
        simp [acInit, hc]
      simp only [this]
      obtain ⟨c', e3, h3⟩ := acCircuit_spec "ssac_real" "ssac_imag" (by decide) X c _ rfl
      simp only [e3]
      exact ⟨_, _, rfl, fun _ => ⟨X, hsol, hsh, by simpa [ShowsCircuitOpt, hc] using h3⟩, by simp⟩

/-! ### the right hand side -/

theorem assignAll_eq (rhs : Nat → ℂ) (offset : Nat) (es : List (Nat × ℂ)) (hnd : (es.map Prod.fst).Nodup) (r : Nat) :
    (∀ e ∈ es, e.1 + offset = r → assignAll rhs offset es r = e.2) ∧
    ((∀ e ∈ es, e.1 + offset ≠ r) → assignAll rhs offset es r = rhs r) := by
  induction es generalizing rhs with
  | nil => simp [assignAll]
  | cons a es ih =>
    rw [List.map_cons, List.nodup_cons] at hnd
    obtain ⟨h1, h2⟩ := ih (Function.update rhs (a.1 + offset) a.2) hnd.2
    constructor
    · intro e he her
      rcases List.mem_cons.1 he with rfl | he
      · rw [assignAll, h2]
        · rw [← her, Function.update_self]
        · intro b hb hbr
          exact hnd.1 (List.mem_map.2 ⟨b, hb, by omega⟩)
      · exact h1 e he her
    · intro h
      rw [assignAll, h2 fun e he => h e (by simp [he])]
      exact Function.update_of_ne (fun hh => h a (by simp) hh.symm) _ _

/-- branch rows are not shared between elements and are not node rows (C20) -/
def BranchesOwn (els : List (Elem ℝ × ℂ)) : Prop :=
  (els.filterMap fun e => Elements.branch e.1).Nodup ∧
  ∀ e ∈ els, ∀ b, Elements.branch e.1 = some b → ∀ e' ∈ els, some b ∉ Elements.terminals e'.1

theorem acRhsEntries_branch (els : List (Elem ℝ × ℂ)) :
    ∀ x ∈ acRhsEntries els, ∃ e ∈ els, Elements.branch e.1 = some x.1 := by
  intro x hx
  obtain ⟨e, he, hxe⟩ := List.mem_flatMap.1 hx
  obtain ⟨el, ac⟩ := e
  cases el <;> simp at hxe
  subst hxe
  exact ⟨_, he, rfl⟩

theorem acRhsEntries_nodup (els : List (Elem ℝ × ℂ)) (h : (els.filterMap fun e => Elements.branch e.1).Nodup) :
    ((acRhsEntries els).map Prod.fst).Nodup := by
  have hsub : ((acRhsEntries els).map Prod.fst).Sublist (els.filterMap fun e => Elements.branch e.1) := by
    clear h
    induction els with
    | nil => exact List.Sublist.slnil
    | cons e es ih =>
      obtain ⟨el, ac⟩ := e
      simp only [acRhsEntries, List.flatMap_cons, List.map_append] at ih ⊢
      cases el <;> simp only [Elements.branch, List.filterMap_cons, List.map_nil, List.nil_append, List.map_cons,
        List.singleton_append]
      · exact ih
      · exact ih
      · exact List.Sublist.cons _ ih
      · exact List.Sublist.cons_cons _ ih
      · exact ih
  exact hsub.nodup h

/-- The sources: in the branch row of a voltage source the right hand side is its complex amplitude, in every other row zero. -/
theorem acRhs_rows (w : World) (c : Circ) (hc : w.circuit = some c) (hown : BranchesOwn c.els) :
    (∀ p m b V ac, (Elem.voltage p m b V, ac) ∈ c.els → acRhs w (c.base + b) = ac) ∧
    (∀ r, (∀ p m b V ac, (Elem.voltage p m b V, ac) ∈ c.els → c.base + b ≠ r) → acRhs w r = 0) := by
  have h := fun r => assignAll_eq (fun _ => 0) c.base (acRhsEntries c.els) (acRhsEntries_nodup _ hown.1) r
  unfold acRhs
  rw [hc]
  constructor
  · intro p m b V ac hmem
    refine (h (c.base + b)).1 (b, ac) ?_ (by omega)
    exact List.mem_flatMap.2 ⟨_, hmem, by simp⟩
  · intro r hr
    refine (h r).2 ?_
    intro e he her
    obtain ⟨x, hx, hex⟩ := List.mem_flatMap.1 he
    obtain ⟨el, ac⟩ := x
    cases el <;> simp at hex
    rename_i p m b V
    subst hex
    exact hr p m b V ac hx (by simp only at her; omega)

/-! ### the laws of the circuit -/

theorem matVec_shift_lift (o : Nat) (m : List (MEntry ℝ)) (X : Nat → ℂ) (r : Nat) :
    matVec (shiftM o (liftM m)) X (o + r) = Elements.rowMul r (liftM m) (fun i => X (o + i)) := by
  simp only [matVec, shiftM, Elements.rowMul, List.map_map, liftM]
  congr 1
  refine List.map_congr_left fun e _ => ?_
  simp only [Function.comp_apply]
  have h1 : e.1 + o = o + r ↔ e.1 = r := by omega
  have h2 : e.2.1 + o = o + e.2.1 := by omega
  simp only [h1, h2]

theorem liftM_append (a b : List (MEntry ℝ)) : liftM (a ++ b) = liftM a ++ liftM b := by simp [liftM]
theorem liftM_push2 (r c : Option Nat) (v : ℝ) : liftM (Elements.push2 r c v) = Elements.push2 r c (v : ℂ) := by
  cases r <;> cases c <;> simp [liftM, Elements.push2]
theorem liftM_flatMap {A : Type} (l : List A) (g : A → List (MEntry ℝ)) :
    liftM (l.flatMap g) = l.flatMap fun a => liftM (g a) := by
  simp [liftM, List.map_flatMap]

/-- what one element contributes to row `r` of `J X + jω C X` -/
def elemRow (jw : ℂ) (x : Nat → ℂ) (r : Nat) (e : Elem ℝ) : ℂ :=
  Elements.rowMul r (liftM (Elements.dcMat (fun _ => 0) e)) x + jw * Elements.rowMul r (liftM (Elements.tranMat 1 (fun _ => 0) e)) x

theorem elemRow_node (jw : ℂ) (x : Nat → ℂ) (i : Nat) (e : Elem ℝ) (h : Elements.branch e ≠ some i) :
    elemRow jw x i e = acCurrentOut jw x i e := by
  unfold elemRow
  cases e with
  | resistor a b R =>
    simp only [Elements.dcMat, Elements.tranMat, liftM_append, liftM_push2, Elements.rowMul_append,
      Elements.rowMul_push2, acCurrentOut]
    simp only [liftM, List.map_nil, Elements.rowMul, List.sum_nil, mul_zero, add_zero]
    push_cast
    split_ifs <;> (try simp only [div_eq_mul_inv]) <;> ring
  | capacitor a b C =>
    simp only [Elements.dcMat, Elements.tranMat, liftM_append, liftM_push2, Elements.rowMul_append,
      Elements.rowMul_push2, acCurrentOut]
    simp only [liftM, List.map_nil, Elements.rowMul, List.sum_nil, zero_add]
    push_cast
    split_ifs <;> ring
  | inductor a b c L =>
    have hc : c ≠ i := by simpa [Elements.branch] using h
    simp only [Elements.dcMat, Elements.tranMat, liftM_append, liftM_push2, Elements.rowMul_append,
      Elements.rowMul_push2, acCurrentOut, Option.some.injEq, hc, if_false]
    simp only [liftM, List.map_cons, List.map_nil, Elements.rowMul_one, hc, if_false, Elements.volt]
    push_cast
    split_ifs <;> ring
  | voltage a b c V =>
    have hc : c ≠ i := by simpa [Elements.branch] using h
    simp only [Elements.dcMat, Elements.tranMat, liftM_append, liftM_push2, Elements.rowMul_append,
      Elements.rowMul_push2, acCurrentOut, Option.some.injEq, hc, if_false]
    simp only [liftM, List.map_nil, Elements.rowMul, List.sum_nil, Elements.volt]
    push_cast
    split_ifs <;> ring
  | current a b I => simp [Elements.dcMat, Elements.tranMat, liftM, Elements.rowMul, acCurrentOut]

theorem elemRow_foreign (jw : ℂ) (x : Nat → ℂ) (i : Nat) (e : Elem ℝ) (h : Elements.branch e ≠ some i)
    (ht : some i ∉ Elements.terminals e) : elemRow jw x i e = 0 := by
  rw [elemRow_node jw x i e h]
  cases e <;> simp only [Elements.terminals, List.mem_cons, List.not_mem_nil, or_false, not_or] at ht <;>
    simp [acCurrentOut, Ne.symm ht.1, Ne.symm ht.2]

theorem circuit_rows (ld : Load) (w : World) (c : Circ) (hc : w.circuit = some c) (jw : ℂ) (X : Nat → ℂ) (i : Nat) :
    matVec (shiftM (circBase w) (liftM (circStatic w).1)) X (c.base + i) +
      jw * matVec (shiftM (circBase w) (liftM (circDynamic w).1)) X (c.base + i) =
    ((c.els.map Prod.fst).map (elemRow jw (fun k => X (c.base + k)) i)).sum := by
  have hb : circBase w = c.base := by simp [circBase, hc]
  rw [hb, matVec_shift_lift, matVec_shift_lift]
  simp only [circStatic, circDynamic, hc, Elements.assembleDC, Elements.assembleTran]
  rw [liftM_flatMap, liftM_flatMap, Elements.rowMul_flatMap, Elements.rowMul_flatMap]
  generalize c.els.map Prod.fst = l
  induction l with
  | nil => simp
  | cons a l ih =>
    simp only [List.map_cons, List.sum_cons]
    rw [← ih]
    simp only [elemRow]
    have e1 : Elements.dcMat ((c.sols "dcop").getD fun _ => 0) a = Elements.dcMat (fun _ => 0) a := by cases a <;> rfl
    have e2 : Elements.tranMat 1 ((c.sols "dcop").getD fun _ => 0) a = Elements.tranMat 1 (fun _ => 0) a := by
      cases a <;> rfl
    rw [e1, e2]
    ring

/-- What the devices and custom equations put into row `r` of `J X + jω C X`: for the row of a circuit node, the small-signal
current that the contacts at this node draw (C40). -/
def deviceACRow (ld : Load) (jw : ℂ) (X : Nat → ℂ) (r : Nat) : ℂ :=
  ((ld.static.map liftP).map fun d => deviceRow ld.perm ld.N (matVec d.1.1 X) (matVec d.2.1 X) r).sum +
  deviceRow ld.perm ld.N (matVec (liftP ld.customStatic).1.1 X) (matVec (liftP ld.customStatic).2.1 X) r +
  jw * (((ld.dynamic.map liftP).map fun d => deviceRow ld.perm ld.N (matVec d.1.1 X) (matVec d.2.1 X) r).sum +
    deviceRow ld.perm ld.N (matVec (liftP ld.customDynamic).1.1 X) (matVec (liftP ld.customDynamic).2.1 X) r)

theorem ac_row_split (ld : Load) (w : World) (c : Circ) (hc : w.circuit = some c) (jw : ℂ) (X : Nat → ℂ) (i : Nat) :
    staticRow ld w X (c.base + i) + jw * dynamicRow ld w X (c.base + i) =
      deviceACRow ld jw X (c.base + i) + ((c.els.map Prod.fst).map (elemRow jw (fun k => X (c.base + k)) i)).sum := by
  rw [← circuit_rows ld w c hc jw X i]
  simp only [staticRow, dynamicRow, systemRow, deviceACRow]
  ring

/-- **C60, the laws of the circuit.**  For amplitudes that solve the system (`ac_analysis`), with `jω = 2πif`: at every node the
small-signal currents into the elements and into the devices add up to zero; across every voltage source the amplitude is the
specified `acreal + i acimag`; across every inductor it is `jωL` times its current. -/
theorem ac_circuit_laws (ld : Load) (w : World) (f : ℝ) (c : Circ) (hc : w.circuit = some c) (hown : BranchesOwn c.els)
    (X : Nat → ℂ)
    (hX : ∀ r < ld.N, staticRow ld w X r + 2 * Real.pi * f * Complex.I * dynamicRow ld w X r = acRhs w r) :
    (∀ i, c.base + i < ld.N → (∀ e ∈ c.els, Elements.branch e.1 ≠ some i) →
      (c.els.map fun e => acCurrentOut (2 * Real.pi * f * Complex.I) (fun k => X (c.base + k)) i e.1).sum +
        deviceACRow ld (2 * Real.pi * f * Complex.I) X (c.base + i) = 0) ∧
    (∀ p m b V ac, (Elem.voltage p m b V, ac) ∈ c.els → c.base + b < ld.N →
      deviceACRow ld (2 * Real.pi * f * Complex.I) X (c.base + b) = 0 →
      Elements.volt (fun k => X (c.base + k)) p - Elements.volt (fun k => X (c.base + k)) m = ac) ∧
    (∀ p m b L ac, (Elem.inductor p m b L, ac) ∈ c.els → c.base + b < ld.N →
      deviceACRow ld (2 * Real.pi * f * Complex.I) X (c.base + b) = 0 →
      Elements.volt (fun k => X (c.base + k)) p - Elements.volt (fun k => X (c.base + k)) m =
        2 * Real.pi * f * Complex.I * L * X (c.base + b)) := by
  set jw : ℂ := 2 * Real.pi * f * Complex.I with hjw
  set x : Nat → ℂ := fun k => X (c.base + k) with hx
  obtain ⟨hr1, hr2⟩ := acRhs_rows w c hc hown
  have hrow : ∀ i, c.base + i < ld.N → deviceACRow ld jw X (c.base + i) +
      (c.els.map fun e => elemRow jw x i e.1).sum = acRhs w (c.base + i) := by
    intro i hi
    rw [← hX _ hi, ac_row_split ld w c hc jw X i, List.map_map]
    rfl
  -- the sum over the elements in a branch row is the contribution of the owner
  have hbr : ∀ e ∈ c.els, ∀ b, Elements.branch e.1 = some b →
      (c.els.map fun a => elemRow jw x b a.1).sum = elemRow jw x b e.1 := by
    intro e he b hb
    obtain ⟨pre, post, hsplit⟩ := List.append_of_mem he
    have hzero : ∀ a ∈ pre ++ post, elemRow jw x b a.1 = 0 := by
      intro a ha
      have hac : a ∈ c.els := by rw [hsplit]; simp only [List.mem_append, List.mem_cons] at ha ⊢; tauto
      refine elemRow_foreign jw x b a.1 ?_ (hown.2 e he b hb a hac)
      intro hab
      have hnd := hown.1
      rw [hsplit, List.filterMap_append, List.filterMap_cons, hb] at hnd
      rcases List.mem_append.1 ha with ha | ha
      · have := (List.nodup_append.1 hnd).2.2 b (List.mem_filterMap.2 ⟨a, ha, hab⟩) b (by simp)
        exact this rfl
      · have := (List.nodup_append.1 hnd).2.1
        rw [List.nodup_cons] at this
        exact this.1 (List.mem_filterMap.2 ⟨a, ha, hab⟩)
    rw [hsplit, List.map_append, List.map_cons, List.sum_append, List.sum_cons,
      List.sum_eq_zero (l := pre.map _) (by
        intro v hv; obtain ⟨a, ha, rfl⟩ := List.mem_map.1 hv; exact hzero a (by simp [ha])),
      List.sum_eq_zero (l := post.map _) (by
        intro v hv; obtain ⟨a, ha, rfl⟩ := List.mem_map.1 hv; exact hzero a (by simp [ha]))]
    ring
  refine ⟨?_, ?_, ?_⟩
  · intro i hi hnb
    have h0 : acRhs w (c.base + i) = 0 := hr2 _ (by
      intro p m b V ac hmem hbi
      have : b = i := by omega
      subst this
      exact hnb _ hmem rfl)
    have := hrow i hi
    rw [h0] at this
    rw [← this, add_comm]
    congr 2
    exact List.map_congr_left fun e he => (elemRow_node jw x i e.1 (hnb e he)).symm
  · intro p m b V ac hmem hb hdev
    have h1 := hrow b hb
    rw [hdev, zero_add, hbr _ hmem b rfl, hr1 p m b V ac hmem] at h1
    have hp : p ≠ some b := fun h => hown.2 _ hmem b rfl _ hmem (by simp [Elements.terminals, h])
    have hm : m ≠ some b := fun h => hown.2 _ hmem b rfl _ hmem (by simp [Elements.terminals, h])
    simp only [elemRow, Elements.dcMat, Elements.tranMat, liftM_append, liftM_push2, Elements.rowMul_append,
      Elements.rowMul_push2, hp, hm, if_false] at h1
    simp only [liftM, List.map_nil, Elements.rowMul, List.sum_nil, mul_zero, if_true] at h1
    rw [← h1]
    push_cast
    ring
  · intro p m b L ac hmem hb hdev
    have h1 := hrow b hb
    have h0 : acRhs w (c.base + b) = 0 := hr2 _ (by
      intro p' m' b' V ac' hmem' hbi
      have hbb : b' = b := by omega
      subst hbb
      have hnd := hown.1
      have e1 := hbr _ hmem b' rfl
      have e2 := hbr _ hmem' b' rfl
      -- two elements cannot own the same branch
      obtain ⟨pre, post, hsplit⟩ := List.append_of_mem hmem
      rw [hsplit, List.filterMap_append, List.filterMap_cons] at hnd
      simp only [Elements.branch] at hnd
      rw [hsplit] at hmem'
      simp only [List.mem_append, List.mem_cons, Prod.mk.injEq, reduceCtorEq, false_and, false_or] at hmem'
      rcases hmem' with ha | ha
      · exact (List.nodup_append.1 hnd).2.2 b' (List.mem_filterMap.2 ⟨_, ha, rfl⟩) b' (by simp) rfl
      · have := (List.nodup_append.1 hnd).2.1
        rw [List.nodup_cons] at this
        exact this.1 (List.mem_filterMap.2 ⟨_, ha, rfl⟩))
    rw [hdev, zero_add, hbr _ hmem b rfl, h0] at h1
    have hp : p ≠ some b := fun h => hown.2 _ hmem b rfl _ hmem (by simp [Elements.terminals, h])
    have hm : m ≠ some b := fun h => hown.2 _ hmem b rfl _ hmem (by simp [Elements.terminals, h])
    simp only [elemRow, Elements.dcMat, Elements.tranMat, liftM_append, liftM_push2, Elements.rowMul_append,
      Elements.rowMul_push2, hp, hm, if_false, if_true] at h1
    simp only [liftM, List.map_cons, List.map_nil, Elements.rowMul_one, if_true] at h1
    push_cast at h1
    linear_combination -h1

end
end Verif.SmallSignal
