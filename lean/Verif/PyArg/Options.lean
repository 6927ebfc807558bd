import Verif.PyArg.Model
import Mathlib.Data.List.Nodup
import Mathlib.Logic.Basic

/-!
# C64: keyword options of commands (`src/pythonapi/GetArgs.cc`, `src/common_api/GetArgsCommon.cc`)
-/

namespace Verif.PyArg

inductive OptType where
  | boolean | string | integer | float | list
deriving DecidableEq

/-- What a command hands to a check: the option's name, and how the handler answers (`GetObjectHolder`). -/
abbrev Check := String → (String → Option Py) → Bool

/-- `dsGetArgs::Option`, `GetArgs.hh`; `required` is `requiredType::REQUIRED`. The check may look at the state of the program, which is
part of the function here. -/
structure Opt where
  name : String
  default : String
  type : OptType
  required : Bool
  check : Option Check

/-- the kinds of error -/
inductive OptError where
  | invalid (name : String)
  | notConvertible (name : String)
  | missing (names : List String)
  | rejected (names : List String)
deriving DecidableEq

/-- `optionMap`, `GetArgsCommon.cc` 13-20: the last entry of a name counts -/
def findOpt (opts : List Opt) (name : String) : Option Opt := opts.reverse.find? (·.name = name)

/-- the tests on the type, `GetArgs.cc` 50-94 -/
def convertible (L : Lib) (t : OptType) (v : Py) : Bool :=
  match t with
  | .float => (getDouble L v).1
  | .boolean => (getBoolean v).1
  | .integer => (getInteger L v).1
  | .list => (listOf v).isSome
  | .string => true

/-- the loop over the given keywords, `GetArgs.cc` 31-106: `kw` in the order of the map; empty names are skipped -/
def readArgs (L : Lib) (opts : List Opt) : List (String × Py) → List (String × Py) → Except OptError (List (String × Py))
  | [], sel => .ok sel
  | (n, v) :: kw, sel =>
    if n = "" then readArgs L opts kw sel
    else match findOpt opts n with
      | none => .error (.invalid n)
      | some o => if convertible L o.type v then readArgs L opts kw ((n, v) :: sel) else .error (.notConvertible n)

def lookup (sel : List (String × Py)) (n : String) : Option Py := (sel.find? (·.1 = n)).map (·.2)

/-- `GetObjectHolder`, `GetArgsCommon.cc` 22-45: the given value, else the text of the default; `none` is the failed assertion for a name
that is no option -/
def holder (opts : List Opt) (sel : List (String × Py)) (n : String) : Option Py :=
  match lookup sel n with
  | some v => some v
  | none => (findOpt opts n).map fun o => .str o.default

/-- required parameters, `GetArgs.cc` 108-131 -/
def missing (opts : List Opt) (sel : List (String × Py)) : List String :=
  (opts.filter fun o => o.required && (lookup sel o.name).isNone).map (·.name)

/-- the callbacks, `GetArgs.cc` 133-157: all are called -/
def rejected (opts : List Opt) (sel : List (String × Py)) : List String :=
  (opts.filter fun o => match o.check with
    | some c => !c o.name (holder opts sel)
    | none => false).map (·.name)

/-- `GetArgs::processOptions`, `GetArgs.cc` 17-161. Simplification: a name occurs once among the keywords (they come from a Python `dict`),
so that "already passed" (43-48) cannot happen. -/
def processOptions (L : Lib) (opts : List Opt) (kw : List (String × Py)) : Except OptError (List (String × Py)) :=
  match readArgs L opts kw [] with
  | .error e => .error e
  | .ok sel =>
    if missing opts sel ≠ [] then .error (.missing (missing opts sel))
    else if rejected opts sel ≠ [] then .error (.rejected (rejected opts sel))
    else .ok sel

/-- `GetStringOption` … `GetIntegerOption`, `GetArgsCommon.cc` 53-118; `maxDouble` is the largest double -/
def stringOption (L : Lib) (opts : List Opt) (sel : List (String × Py)) (n : String) : Option String :=
  (holder opts sel n).map (getString L)
def doubleOption (L : Lib) (maxDouble negMaxDouble : F64) (opts : List Opt) (sel : List (String × Py)) (n : String) : Option F64 :=
  (holder opts sel n).map fun v =>
    if (getDouble L v).1 then (getDouble L v).2
    else if getString L v = "MAXDOUBLE" then maxDouble
    else if getString L v = "-MAXDOUBLE" then negMaxDouble
    else 0
def booleanOption (opts : List Opt) (sel : List (String × Py)) (n : String) : Option Bool :=
  (holder opts sel n).map fun v => if (getBoolean v).1 then (getBoolean v).2 else false
def integerOption (L : Lib) (opts : List Opt) (sel : List (String × Py)) (n : String) : Option Int :=
  (holder opts sel n).map fun v => if (getInteger L v).1 then (getInteger L v).2 else 0

/-! ### Specification -/

/-- The keyword arguments as the user wrote them. -/
def given (kw : List (String × Py)) (n : String) (v : Py) : Prop := (n, v) ∈ kw

/-- What an option stands for in the call: what was given, or the default. -/
inductive Means (opts : List Opt) (kw : List (String × Py)) (n : String) : Py → Prop
  | given (v : Py) (h : (n, v) ∈ kw) : Means opts kw n v
  | default (o : Opt) (ho : o ∈ opts) (hn : o.name = n) (h : ∀ v, (n, v) ∉ kw) : Means opts kw n (.str o.default)

/-- A call is good if every keyword is an option, its value can be read as the type of the option, every required option is given and
every check accepts. -/
structure Good (L : Lib) (opts : List Opt) (kw : List (String × Py)) : Prop where
  known : ∀ n v, (n, v) ∈ kw → ∃ o ∈ opts, o.name = n ∧ convertible L o.type v = true
  required : ∀ o ∈ opts, o.required = true → ∃ v, (o.name, v) ∈ kw
  checked : ∀ o ∈ opts, ∀ c, o.check = some c → ∃ h : String → Option Py, c o.name h = true ∧
    ∀ n v, h n = some v ↔ Means opts kw n v

/-! ### Proofs -/

theorem findOpt_some {opts : List Opt} (hd : (opts.map (·.name)).Nodup) {n : String} {o : Opt} :
    findOpt opts n = some o ↔ o ∈ opts ∧ o.name = n := by
  unfold findOpt
  constructor
  · intro h
    refine ⟨by simpa using List.mem_of_find?_eq_some h, by simpa using List.find?_some h⟩
  · rintro ⟨ho, hn⟩
    cases h : opts.reverse.find? (·.name = n) with
    | none =>
      rw [List.find?_eq_none] at h
      exact absurd hn (by simpa using h o (by simpa using ho))
    | some o' =>
      have h1 : o' ∈ opts := by simpa using List.mem_of_find?_eq_some h
      have h2 : o'.name = n := by simpa using List.find?_some h
      have : o' = o := List.inj_on_of_nodup_map hd h1 ho (h2.trans hn.symm)
      rw [this]

theorem readArgs_ok (L : Lib) {opts : List Opt} (kw sel : List (String × Py)) (hne : ∀ p ∈ kw, p.1 ≠ "") (sel' : List (String × Py)) :
    readArgs L opts kw sel = .ok sel' ↔
      sel' = kw.reverse ++ sel ∧ ∀ p ∈ kw, ∃ o, findOpt opts p.1 = some o ∧ convertible L o.type p.2 = true := by
  induction kw generalizing sel with
  | nil => simp only [readArgs, Except.ok.injEq, List.reverse_nil, List.nil_append, List.not_mem_nil, false_implies, implies_true, and_true]; exact eq_comm
  | cons p kw ih =>
    obtain ⟨n, v⟩ := p
    have h1 : n ≠ "" := hne (n, v) (by simp)
    simp only [readArgs, if_neg h1]
    cases ho : findOpt opts n with
    | none => simp [ho]
    | some o =>
      by_cases hc : convertible L o.type v = true
      · simp only [hc, if_true]
        rw [ih ((n, v) :: sel) fun p hp => hne p (by simp [hp])]
        simp [ho, hc]
      · simp [ho, hc]

theorem lookup_reverse {kw : List (String × Py)} (hd : (kw.map (·.1)).Nodup) (n : String) (v : Py) :
    lookup (kw.reverse ++ []) n = some v ↔ (n, v) ∈ kw := by
  unfold lookup
  rw [List.append_nil]
  constructor
  · intro h
    rw [Option.map_eq_some_iff] at h
    obtain ⟨p, h1, h2⟩ := h
    have h3 : p ∈ kw := by simpa using List.mem_of_find?_eq_some h1
    have h4 : p.1 = n := by simpa using List.find?_some h1
    rw [← h4, ← h2]; exact h3
  · intro h
    cases h1 : kw.reverse.find? (·.1 = n) with
    | none =>
      rw [List.find?_eq_none] at h1
      exact absurd (h1 (n, v) (by simpa using h)) (by simp)
    | some p =>
      have h3 : p ∈ kw := by simpa using List.mem_of_find?_eq_some h1
      have h4 : p.1 = n := by simpa using List.find?_some h1
      have : p = (n, v) := List.inj_on_of_nodup_map hd h3 h h4
      rw [this]; rfl

theorem holder_means {opts : List Opt} (hd : (opts.map (·.name)).Nodup) {kw : List (String × Py)} (hk : (kw.map (·.1)).Nodup)
    (n : String) (v : Py) : holder opts (kw.reverse ++ []) n = some v ↔ Means opts kw n v := by
  unfold holder
  cases h : lookup (kw.reverse ++ []) n with
  | some w =>
    have hw := (lookup_reverse hk n w).1 h
    constructor
    · intro e
      simp only [Option.some.injEq] at e
      exact .given v (e ▸ hw)
    · intro m
      cases m with
      | given _ hv =>
        have := (lookup_reverse hk n v).2 hv
        rw [h] at this
        exact this
      | default o _ _ hno => exact absurd hw (hno w)
  | none =>
    have hno : ∀ w, (n, w) ∉ kw := by
      intro w hw
      rw [(lookup_reverse hk n w).2 hw] at h
      simp at h
    constructor
    · intro e
      simp only [Option.map_eq_some_iff] at e
      obtain ⟨o, ho, rfl⟩ := e
      obtain ⟨h1, h2⟩ := (findOpt_some hd).1 ho
      exact .default o h1 h2 hno
    · intro m
      cases m with
      | given _ hv => exact absurd hv (hno v)
      | default o ho hn _ =>
        simp only [(findOpt_some hd).2 ⟨ho, hn⟩, Option.map_some]

/-- **C64** A command goes on exactly if the call is good, and then every option has the value given in the call, or its default. Otherwise
it ends with an error before it does anything. -/
theorem options_accepted_iff (L : Lib) (opts : List Opt) (hd : (opts.map (·.name)).Nodup) (kw : List (String × Py))
    (hk : (kw.map (·.1)).Nodup) (hne : ∀ p ∈ kw, p.1 ≠ "") :
    (∃ sel, processOptions L opts kw = .ok sel) ↔ Good L opts kw := by
  have hhold := holder_means hd hk
  constructor
  · rintro ⟨sel, h⟩
    unfold processOptions at h
    cases hr : readArgs L opts kw [] with
    | error e => rw [hr] at h; simp at h
    | ok s =>
      rw [hr] at h
      obtain ⟨rfl, hall⟩ := (readArgs_ok L kw [] hne s).1 hr
      simp only at h
      split at h
      · simp at h
      rename_i hm
      split at h
      · simp at h
      rename_i hj
      simp only [ne_eq, not_not] at hm hj
      refine ⟨?_, ?_, ?_⟩
      · intro n v hnv
        obtain ⟨o, ho, hc⟩ := hall _ hnv
        obtain ⟨h1, h2⟩ := (findOpt_some hd).1 ho
        exact ⟨o, h1, h2, hc⟩
      · intro o ho hreq
        simp only [missing, List.map_eq_nil_iff, List.filter_eq_nil_iff] at hm
        have := hm o ho
        simp only [hreq, Bool.true_and, Option.isNone_iff_eq_none] at this
        obtain ⟨v, hv⟩ := Option.ne_none_iff_exists'.1 this
        exact ⟨v, (lookup_reverse hk _ _).1 hv⟩
      · intro o ho c hc
        simp only [rejected, List.map_eq_nil_iff, List.filter_eq_nil_iff] at hj
        have := hj o ho
        simp only [hc, Bool.not_eq_true', Bool.not_eq_false] at this
        exact ⟨_, this, hhold⟩
  · intro g
    have hr : readArgs L opts kw [] = .ok (kw.reverse ++ []) := by
      rw [readArgs_ok L kw [] hne]
      refine ⟨rfl, ?_⟩
      rintro ⟨n, v⟩ hp
      obtain ⟨o, h1, h2, h3⟩ := g.known n v hp
      exact ⟨o, (findOpt_some hd).2 ⟨h1, h2⟩, h3⟩
    refine ⟨kw.reverse ++ [], ?_⟩
    unfold processOptions
    rw [hr]
    simp only
    rw [if_neg, if_neg]
    · simp only [ne_eq, not_not, rejected, List.map_eq_nil_iff, List.filter_eq_nil_iff]
      intro o ho
      cases hc : o.check with
      | none => simp
      | some c =>
        obtain ⟨h, h1, h2⟩ := g.checked o ho c hc
        have : h = holder opts (kw.reverse ++ []) := by
          funext n
          refine Option.ext fun v => ?_
          rw [h2, hhold]
        rw [this] at h1
        simp only [h1, Bool.not_true, Bool.false_eq_true, not_false_eq_true]
    · simp only [ne_eq, not_not, missing, List.map_eq_nil_iff, List.filter_eq_nil_iff]
      intro o ho
      cases hreq : o.required with
      | false => simp
      | true =>
        obtain ⟨v, hv⟩ := g.required o ho hreq
        rw [(lookup_reverse hk _ _).2 hv]
        simp

/-- **C64** The value a command sees: what was given, or the default. -/
theorem option_value (L : Lib) (opts : List Opt) (hd : (opts.map (·.name)).Nodup) (kw : List (String × Py))
    (hk : (kw.map (·.1)).Nodup) (hne : ∀ p ∈ kw, p.1 ≠ "") (sel : List (String × Py)) (h : processOptions L opts kw = .ok sel)
    (n : String) (v : Py) : holder opts sel n = some v ↔ Means opts kw n v := by
  unfold processOptions at h
  cases hr : readArgs L opts kw [] with
  | error e => rw [hr] at h; simp at h
  | ok s =>
    rw [hr] at h
    obtain ⟨rfl, -⟩ := (readArgs_ok L kw [] hne s).1 hr
    simp only at h
    split at h
    · simp at h
    split at h
    · simp at h
    simp only [Except.ok.injEq] at h
    rw [← h]
    exact holder_means hd hk n v

/-- **C64, refuted part**: the value of an integer option that is not exactly an `int` (and no text) — a float, a numpy integer, a list — is
accepted and read as 0. -/
theorem integer_option_counterexample (L : Lib) (v : Py) (h : ∀ n, v ≠ .int n) (hs : ∀ s, v ≠ .str s) (hb : ∀ b, v ≠ .bytes b) :
    convertible L .integer v = true ∧ (getInteger L v).2 = 0 := by
  cases v with
  | int n => exact absurd rfl (h n)
  | str s => exact absurd rfl (hs s)
  | bytes b => exact absurd rfl (hb b)
  | _ => exact ⟨rfl, rfl⟩

/-- An integer in range is read as itself, an integer out of the range of `int` that fits into `long` is refused. -/
theorem integer_option_partial (L : Lib) (n : Int) :
    (INT_MIN ≤ n ∧ n ≤ INT_MAX → getInteger L (.int n) = (true, n)) ∧
    (LONG_MIN ≤ n ∧ n ≤ LONG_MAX → ¬ (INT_MIN ≤ n ∧ n ≤ INT_MAX) → convertible L .integer (.int n) = false) ∧
    (¬ (LONG_MIN ≤ n ∧ n ≤ LONG_MAX) → getInteger L (.int n) = (true, -1)) := by
  refine ⟨?_, ?_, ?_⟩
  · intro h
    have hl : LONG_MIN ≤ n ∧ n ≤ LONG_MAX := by
      unfold INT_MIN INT_MAX at h; unfold LONG_MIN LONG_MAX; omega
    simp [getInteger, getLong, asLong, h, hl]
  · intro hl h
    simp [convertible, getInteger, getLong, asLong, h, hl]
  · intro hl
    have : INT_MIN ≤ (-1 : Int) ∧ (-1 : Int) ≤ INT_MAX := by unfold INT_MIN INT_MAX; omega
    simp [getInteger, getLong, asLong, hl, this]

/-! ### The options of `solve` as an example -/

def solveOpts : List Opt := [⟨"type", "", .string, true, none⟩, ⟨"maximum_iterations", "20", .integer, false, none⟩,
  ⟨"relative_error", "0", .float, false, none⟩, ⟨"maximum_error", "MAXDOUBLE", .float, false, none⟩]

/-- a good call, and the values it gives -/
example (L : Lib) (h20 : L.parseInt "20" = some 20) : ∃ sel,
    processOptions L solveOpts [("type", .str "dc"), ("relative_error", .flt 5)] = .ok sel ∧
    integerOption L solveOpts sel "maximum_iterations" = some 20 ∧
    doubleOption L 7 8 solveOpts sel "relative_error" = some 5 ∧ stringOption L solveOpts sel "type" = some "dc" := by
  refine ⟨_, rfl, ?_, rfl, rfl⟩
  have : holder solveOpts [("relative_error", .flt 5), ("type", .str "dc")] "maximum_iterations" = some (.str "20") := rfl
  unfold integerOption
  have e : (([("relative_error", Py.flt 5), ("type", Py.str "dc")] : List (String × Py))) = _ := rfl
  rw [this]
  simp [getInteger, getLong, h20, asLong, LONG_MIN, LONG_MAX, INT_MIN, INT_MAX]

/-- `solve(type="dc", maximum_iterations=10.0)` runs with 0 iterations -/
example (L : Lib) (x : F64) : ∃ sel, processOptions L solveOpts [("maximum_iterations", .flt x), ("type", .str "dc")] = .ok sel ∧
    integerOption L solveOpts sel "maximum_iterations" = some 0 := ⟨_, rfl, rfl⟩

/-- the default `MAXDOUBLE` cannot be given explicitly -/
theorem maxdouble_refused (L : Lib) (h : L.parseFloat "MAXDOUBLE" = none) :
    processOptions L solveOpts [("maximum_error", .str "MAXDOUBLE"), ("type", .str "dc")] = .error (.notConvertible "maximum_error") := by
  have h1 : findOpt solveOpts "maximum_error" = some ⟨"maximum_error", "MAXDOUBLE", .float, false, none⟩ := rfl
  have h2 : convertible L .float (.str "MAXDOUBLE") = false := by simp [convertible, getDouble, h]
  unfold processOptions
  simp [readArgs, h1, h2]

end Verif.PyArg
