import Verif.Ckt.Laws
import Verif.Solve.Cmds

/-!
# C94: `circuit_element` and `circuit_alter` with their keywords
-/
namespace Verif.Ckt
open Verif
open Verif.PyArg (F64 Py Lib Opt Means)
open Verif.SetVals (Text text_of not_good)
open Verif.Ckt.Spec

set_option linter.unusedSectionVars false
variable {K F : Type} [DecidableEq K] [Field F] [DecidableEq F]

/-! ### Model -/

/-- CircuitCommands.cc:154-163; `stringCannotBeEmpty` -/
def elementOpts (L : Lib) : List Opt :=
  [⟨"name", "", .string, true, some (SetVals.notEmpty L)⟩, ⟨"n1", "", .string, true, none⟩, ⟨"n2", "", .string, true, none⟩,
   ⟨"value", "0.0", .float, false, none⟩, ⟨"acreal", "0.0", .float, false, none⟩, ⟨"acimag", "0.0", .float, false, none⟩]

/-- CircuitCommands.cc:271-277 -/
def alterOpts (L : Lib) : List Opt :=
  [⟨"name", "", .string, true, some (SetVals.notEmpty L)⟩, ⟨"param", "value", .string, false, none⟩,
   ⟨"value", "0.0", .float, true, none⟩]

/-- the largest double and its negative, and the number that a double is -/
structure Env (F : Type) where
  maxD : F64
  minD : F64
  val : F64 → F

/-- what a call answers -/
inductive Reply
  | badArgs (e : PyArg.OptError)
  | done (r : Res)

/-- the options of a call -/
def sopt (L : Lib) (opts : List Opt) (sel : List (String × Py)) (n : String) : String := (PyArg.stringOption L opts sel n).getD ""
def dopt (L : Lib) (E : Env F) (opts : List Opt) (sel : List (String × Py)) (n : String) : F :=
  E.val ((PyArg.doubleOption L E.maxD E.minD opts sel n).getD 0)

/-- circuitElementCmd, CircuitCommands.cc:145-260 -/
def elementCall (L : Lib) (E : Env F) (w : World K F) (kw : List (String × Py)) : World K F × Reply :=
  match PyArg.processOptions L (elementOpts L) kw with
  | .error e => (w, .badArgs e)
  | .ok sel =>
    let o := elementOpts L
    let r := elementCmd w (sopt L o sel "name") (sopt L o sel "n1") (sopt L o sel "n2") (dopt L E o sel "value") (dopt L E o sel "acreal")
      (dopt L E o sel "acimag")
    (r.1, .done r.2)

/-- circuitAlterCmd, CircuitCommands.cc:262-352 -/
def alterCall (L : Lib) (E : Env F) (w : World K F) (kw : List (String × Py)) : World K F × Reply :=
  match PyArg.processOptions L (alterOpts L) kw with
  | .error e => (w, .badArgs e)
  | .ok sel =>
    let o := alterOpts L
    let r := alterCmd w (sopt L o sel "name") (sopt L o sel "param") (dopt L E o sel "value")
    (r.1, .done r.2)

/-! ### Specification -/

/-- the number a value stands for: what it can be read as, or one of the two names -/
inductive IsNumber (L : Lib) (E : Env F) : Py → F → Prop
  | read (v x) (h : PyArg.getDouble L v = (true, x)) : IsNumber L E v (E.val x)
  | max (v) (h : (PyArg.getDouble L v).1 = false) (hs : PyArg.getString L v = "MAXDOUBLE") : IsNumber L E v (E.val E.maxD)
  | min (v) (h : (PyArg.getDouble L v).1 = false) (hs : PyArg.getString L v = "-MAXDOUBLE") : IsNumber L E v (E.val E.minD)
  | other (v) (h : (PyArg.getDouble L v).1 = false) (h1 : PyArg.getString L v ≠ "MAXDOUBLE") (h2 : PyArg.getString L v ≠ "-MAXDOUBLE") :
      IsNumber L E v (E.val 0)

/-- the option `n` is the number `x` -/
def Num (L : Lib) (E : Env F) (opts : List Opt) (kw : List (String × Py)) (n : String) (x : F) : Prop :=
  ∃ v, Means opts kw n v ∧ IsNumber L E v x

/-! ### Proofs -/

theorem num_of {L : Lib} (E : Env F) {opts : List Opt} (hnd : (opts.map (·.name)).Nodup) {kw sel : List (String × Py)} (hk : (kw.map (·.1)).Nodup)
    (hne : ∀ p ∈ kw, p.1 ≠ "") (h : PyArg.processOptions L opts kw = .ok sel) {n} (hn : n ∈ opts.map (·.name)) :
    Num L E opts kw n (dopt L E opts sel n) := by
  obtain ⟨v, h1, h2, _⟩ := text_of hnd hk hne h hn
  refine ⟨v, h2, ?_⟩
  simp only [dopt, PyArg.doubleOption, h1, Option.map_some, Option.getD_some]
  by_cases c1 : (PyArg.getDouble L v).1 = true
  · rw [if_pos c1]; exact .read v _ (by rw [← c1])
  rw [if_neg c1]
  have c1' : (PyArg.getDouble L v).1 = false := by simpa using c1
  by_cases c2 : PyArg.getString L v = "MAXDOUBLE"
  · rw [if_pos c2]; exact .max v c1' c2
  rw [if_neg c2]
  by_cases c3 : PyArg.getString L v = "-MAXDOUBLE"
  · rw [if_pos c3]; exact .min v c1' c3
  rw [if_neg c3]; exact .other v c1' c2 c3

theorem txt_of {L : Lib} {opts : List Opt} (hnd : (opts.map (·.name)).Nodup) {kw sel : List (String × Py)} (hk : (kw.map (·.1)).Nodup)
    (hne : ∀ p ∈ kw, p.1 ≠ "") (h : PyArg.processOptions L opts kw = .ok sel) {n} (hn : n ∈ opts.map (·.name)) :
    Text L opts kw n (sopt L opts sel n) := by
  obtain ⟨v, h1, h2, _⟩ := text_of hnd hk hne h hn
  exact ⟨v, h2, by simp [sopt, PyArg.stringOption, h1]⟩

theorem elementOpts_nodup (L : Lib) : ((elementOpts L).map (·.name)).Nodup := by simp [elementOpts]
theorem alterOpts_nodup (L : Lib) : ((alterOpts L).map (·.name)).Nodup := by simp [alterOpts]

/-- **C94** `circuit_element` with keywords: bad options are an error and do nothing; otherwise an element with the texts and numbers of the
options, or their defaults, is told. -/
theorem element_call (L : Lib) (E : Env F) {w : World K F} {A} (h : Shows w A) (kw : List (String × Py)) (hk : (kw.map (·.1)).Nodup)
    (hne : ∀ p ∈ kw, p.1 ≠ "") :
    (¬ PyArg.Good L (elementOpts L) kw ∧ ∃ e, elementCall L E w kw = (w, .badArgs e)) ∨
    (PyArg.Good L (elementOpts L) kw ∧ ∃ name n1 n2 v r i A' res, Text L (elementOpts L) kw "name" name ∧ Text L (elementOpts L) kw "n1" n1 ∧
      Text L (elementOpts L) kw "n2" n2 ∧ Num L E (elementOpts L) kw "value" v ∧ Num L E (elementOpts L) kw "acreal" r ∧
      Num L E (elementOpts L) kw "acimag" i ∧ Does (K := K) (w.st.sols ≠ []) A (.element name n1 n2 v r i) A' res ∧
      (elementCall L E w kw).2 = .done res ∧ Shows (elementCall L E w kw).1 A') := by
  unfold elementCall
  cases hp : PyArg.processOptions L (elementOpts L) kw with
  | error e => exact .inl ⟨not_good (elementOpts_nodup L) hk hne hp, e, rfl⟩
  | ok sel =>
    right
    refine ⟨(PyArg.options_accepted_iff L _ (elementOpts_nodup L) kw hk hne).mp ⟨sel, hp⟩, ?_⟩
    have t := fun n hn => txt_of (n := n) (elementOpts_nodup L) hk hne hp hn
    have d := fun n hn => num_of (n := n) E (elementOpts_nodup L) hk hne hp hn
    obtain ⟨A', h1, h2⟩ := element_after h (sopt L (elementOpts L) sel "name") (sopt L (elementOpts L) sel "n1") (sopt L (elementOpts L) sel "n2")
      (dopt L E (elementOpts L) sel "value") (dopt L E (elementOpts L) sel "acreal") (dopt L E (elementOpts L) sel "acimag")
    exact ⟨_, _, _, _, _, _, A', _, t _ (by simp [elementOpts]), t _ (by simp [elementOpts]), t _ (by simp [elementOpts]),
      d _ (by simp [elementOpts]), d _ (by simp [elementOpts]), d _ (by simp [elementOpts]), h1, rfl, h2⟩

/-- **C94** `circuit_alter` with keywords. -/
theorem alter_call (L : Lib) (E : Env F) {w : World K F} {A} (h : Shows w A) (kw : List (String × Py)) (hk : (kw.map (·.1)).Nodup)
    (hne : ∀ p ∈ kw, p.1 ≠ "") :
    (¬ PyArg.Good L (alterOpts L) kw ∧ ∃ e, alterCall L E w kw = (w, .badArgs e)) ∨
    (PyArg.Good L (alterOpts L) kw ∧ ∃ name p v A' res, Text L (alterOpts L) kw "name" name ∧ Text L (alterOpts L) kw "param" p ∧
      Num L E (alterOpts L) kw "value" v ∧ Does (K := K) (w.st.sols ≠ []) A (.alter name p v) A' res ∧
      (alterCall L E w kw).2 = .done res ∧ Shows (alterCall L E w kw).1 A') := by
  unfold alterCall
  cases hp : PyArg.processOptions L (alterOpts L) kw with
  | error e => exact .inl ⟨not_good (alterOpts_nodup L) hk hne hp, e, rfl⟩
  | ok sel =>
    right
    refine ⟨(PyArg.options_accepted_iff L _ (alterOpts_nodup L) kw hk hne).mp ⟨sel, hp⟩, ?_⟩
    obtain ⟨A', h1, h2⟩ := alter_after h (sopt L (alterOpts L) sel "name") (sopt L (alterOpts L) sel "param") (dopt L E (alterOpts L) sel "value")
    exact ⟨_, _, _, A', _, txt_of (alterOpts_nodup L) hk hne hp (by simp [alterOpts]), txt_of (alterOpts_nodup L) hk hne hp (by simp [alterOpts]),
      num_of E (alterOpts_nodup L) hk hne hp (by simp [alterOpts]), h1, rfl, h2⟩

/-- the options that must be given -/
theorem keywords_required (L : Lib) (kw : List (String × Py)) :
    (PyArg.Good L (elementOpts L) kw → ∀ n, n = "name" ∨ n = "n1" ∨ n = "n2" → ∃ v, (n, v) ∈ kw) ∧
    (PyArg.Good L (alterOpts L) kw → ∀ n, n = "name" ∨ n = "value" → ∃ v, (n, v) ∈ kw) := by
  constructor
  · rintro h n (rfl | rfl | rfl)
    · exact h.required ⟨"name", "", .string, true, some (SetVals.notEmpty L)⟩ (by simp [elementOpts]) rfl
    · exact h.required ⟨"n1", "", .string, true, none⟩ (by simp [elementOpts]) rfl
    · exact h.required ⟨"n2", "", .string, true, none⟩ (by simp [elementOpts]) rfl
  · rintro h n (rfl | rfl)
    · exact h.required ⟨"name", "", .string, true, some (SetVals.notEmpty L)⟩ (by simp [alterOpts]) rfl
    · exact h.required ⟨"value", "0.0", .float, true, none⟩ (by simp [alterOpts]) rfl

/-- **C94** the options that are enough: a name and two nodes for an element, a name and a number for an alteration. -/
theorem keywords_enough (L : Lib) (kw : List (String × Py)) (hk : (kw.map (·.1)).Nodup) (hne : ∀ p ∈ kw, p.1 ≠ "") (name : Py)
    (hn : ("name", name) ∈ kw) (ht : PyArg.getString L name ≠ "") :
    ((∀ p ∈ kw, p.1 = "name" ∨ p.1 = "n1" ∨ p.1 = "n2") → (∃ v, ("n1", v) ∈ kw) → (∃ v, ("n2", v) ∈ kw) → PyArg.Good L (elementOpts L) kw) ∧
    (∀ value, ("value", value) ∈ kw → (PyArg.getDouble L value).1 = true → (∀ p ∈ kw, p.1 = "name" ∨ p.1 = "value") → PyArg.Good L (alterOpts L) kw) := by
  have check : ∀ (opts : List Opt), (opts.map (·.name)).Nodup → (∀ o ∈ opts, ∀ c, o.check = some c → o.name = "name" ∧ c = SetVals.notEmpty L) →
      ∀ o ∈ opts, ∀ c, o.check = some c → ∃ h : String → Option Py, c o.name h = true ∧ ∀ n v, h n = some v ↔ Means opts kw n v := by
    intro opts hd hc o ho c hoc
    obtain ⟨h1, rfl⟩ := hc o ho c hoc
    classical
    refine ⟨PyArg.holder opts (kw.reverse ++ []), ?_, PyArg.holder_means hd hk⟩
    have := (PyArg.holder_means hd hk "name" name).mpr (.given _ hn)
    unfold SetVals.notEmpty
    rw [h1, this]
    exact decide_eq_true ht
  constructor
  · rintro hall ⟨v1, h1⟩ ⟨v2, h2⟩
    refine ⟨?_, ?_, check _ (elementOpts_nodup L) ?_⟩
    · intro n v hv
      rcases hall _ hv with h | h | h <;> dsimp only at h <;> subst h
      · exact ⟨⟨"name", "", .string, true, some (SetVals.notEmpty L)⟩, by simp [elementOpts], rfl, rfl⟩
      · exact ⟨⟨"n1", "", .string, true, none⟩, by simp [elementOpts], rfl, rfl⟩
      · exact ⟨⟨"n2", "", .string, true, none⟩, by simp [elementOpts], rfl, rfl⟩
    · intro o ho hr
      simp only [elementOpts, List.mem_cons, List.not_mem_nil, or_false] at ho
      rcases ho with rfl | rfl | rfl | rfl | rfl | rfl
      · exact ⟨_, hn⟩
      · exact ⟨_, h1⟩
      · exact ⟨_, h2⟩
      all_goals cases hr
    · intro o ho c hc
      simp only [elementOpts, List.mem_cons, List.not_mem_nil, or_false] at ho
      rcases ho with rfl | rfl | rfl | rfl | rfl | rfl <;> cases hc
      exact ⟨rfl, rfl⟩
  · intro value hv hd hall
    refine ⟨?_, ?_, check _ (alterOpts_nodup L) ?_⟩
    · intro n v hx
      rcases hall _ hx with h | h <;> dsimp only at h <;> subst h
      · exact ⟨⟨"name", "", .string, true, some (SetVals.notEmpty L)⟩, by simp [alterOpts], rfl, rfl⟩
      · have : v = value := by
          have e := (PyArg.lookup_reverse hk "value" v).2 hx
          rw [(PyArg.lookup_reverse hk "value" value).2 hv] at e
          exact (Option.some.inj e).symm
        subst this
        exact ⟨⟨"value", "0.0", .float, true, none⟩, by simp [alterOpts], rfl, hd⟩
    · intro o ho hr
      simp only [alterOpts, List.mem_cons, List.not_mem_nil, or_false] at ho
      rcases ho with rfl | rfl | rfl
      · exact ⟨_, hn⟩
      · cases hr
      · exact ⟨_, hv⟩
    · intro o ho c hc
      simp only [alterOpts, List.mem_cons, List.not_mem_nil, or_false] at ho
      rcases ho with rfl | rfl | rfl <;> cases hc
      exact ⟨rfl, rfl⟩

/-- **C94** what the other options are if they are not given. -/
theorem keywords_defaults (L : Lib) (kw : List (String × Py)) (n : String) (v : Py) :
    (n = "value" ∨ n = "acreal" ∨ n = "acimag" → Means (elementOpts L) kw n v → (n, v) ∈ kw ∨ ((∀ u, (n, u) ∉ kw) ∧ v = .str "0.0")) ∧
    (n = "param" → Means (alterOpts L) kw n v → (n, v) ∈ kw ∨ ((∀ u, (n, u) ∉ kw) ∧ v = .str "value")) := by
  constructor
  · intro hn h
    cases h with
    | given v h => exact .inl h
    | default o ho hn' h =>
      right
      refine ⟨h, ?_⟩
      simp only [elementOpts, List.mem_cons, List.not_mem_nil, or_false] at ho
      rcases hn with rfl | rfl | rfl <;> (rcases ho with rfl | rfl | rfl | rfl | rfl | rfl <;> simp at hn' ⊢)
  · intro hn h
    cases h with
    | given v h => exact .inl h
    | default o ho hn' h =>
      right
      refine ⟨h, ?_⟩
      simp only [alterOpts, List.mem_cons, List.not_mem_nil, or_false] at ho
      subst hn
      rcases ho with rfl | rfl | rfl <;> simp at hn' ⊢

end Verif.Ckt
