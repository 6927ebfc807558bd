import Verif.Solve.Props
import Verif.SetVals.Cmds

/-!
# C91: the `solve` command with its keywords
-/

namespace Verif.Solve

open Classical
open Verif.Newton
open Verif.PyArg (F64 Py Lib Opt Means)
open Verif.SetVals (Text text_of not_good)

/-! ### Specification -/

/-- the double a value stands for: what it can be read as, or one of the two names -/
inductive IsDouble (L : Lib) (E : Env) : Py → F64 → Prop
  | read (v x) (h : PyArg.getDouble L v = (true, x)) : IsDouble L E v x
  | max (v) (h : (PyArg.getDouble L v).1 = false) (hs : PyArg.getString L v = "MAXDOUBLE") : IsDouble L E v E.maxD
  | min (v) (h : (PyArg.getDouble L v).1 = false) (hs : PyArg.getString L v = "-MAXDOUBLE") : IsDouble L E v E.minD
  | other (v) (h : (PyArg.getDouble L v).1 = false) (h1 : PyArg.getString L v ≠ "MAXDOUBLE") (h2 : PyArg.getString L v ≠ "-MAXDOUBLE") :
      IsDouble L E v 0

/-- the integer a value stands for -/
inductive IsInt (L : Lib) : Py → Int → Prop
  | read (v n) (h : PyArg.getInteger L v = (true, n)) : IsInt L v n
  | other (v) (h : (PyArg.getInteger L v).1 = false) : IsInt L v 0

/-- the option `n` is the double `x` -/
def Num (L : Lib) (E : Env) (kw : List (String × Py)) (n : String) (x : F64) : Prop := ∃ v, Means (opts L) kw n v ∧ IsDouble L E v x

/-- the option `n` is the integer `i` -/
def Int' (L : Lib) (kw : List (String × Py)) (n : String) (i : Int) : Prop := ∃ v, Means (opts L) kw n v ∧ IsInt L v i

/-- the arguments are those that were given, or the defaults -/
structure Reads (L : Lib) (E : Env) (kw : List (String × Py)) (a : Args) : Prop where
  type : Text L (opts L) kw "type" a.type
  solverType : Text L (opts L) kw "solver_type" a.solverType
  output : Text L (opts L) kw "output_node" a.output
  tdelta : Num L E kw "tdelta" a.tdelta
  gamma : Num L E kw "gamma" a.gamma
  abs : Num L E kw "absolute_error" a.abs
  rel : Num L E kw "relative_error" a.rel
  charge : Num L E kw "charge_error" a.charge
  max : Num L E kw "maximum_error" a.max
  frequency : Num L E kw "frequency" a.frequency
  maxIter : Int' L kw "maximum_iterations" a.maxIter
  maxDiv : Int' L kw "maximum_divergence" a.maxDiv
  symbolic : Int' L kw "symbolic_iteration_limit" a.symbolic
  info : ∃ v, Means (opts L) kw "info" v ∧ (a.info = true ↔ PyArg.getBoolean v = (true, true))

/-- the analyses -/
inductive Analysis
  | newton (t : TimeParams)
  | ac
  | noise

/-- the analysis that a type and the two numbers ask for; the transient ones need numbers that are not zero -/
inductive Asks : String → ℝ → ℝ → Analysis → Prop
  | dc (dt g) : Asks "dc" dt g (.newton dcOnly)
  | ac (dt g) : Asks "ac" dt g .ac
  | noise (dt g) : Asks "noise" dt g .noise
  | transientDc (dt g) : Asks "transient_dc" dt g (.newton transientDC)
  | bdf1 (dt g) (hd : dt ≠ 0) (hg : g ≠ 0) : Asks "transient_bdf1" dt g (.newton (bdf1 dt g))
  | tr (dt g) (hd : dt ≠ 0) (hg : g ≠ 0) : Asks "transient_tr" dt g (.newton (tr dt g))
  | bdf2 (dt g) (hd : dt ≠ 0) (hg : g ≠ 0) : Asks "transient_bdf2" dt g (.newton (bdf2 dt g))

/-- the linear solvers of the program -/
inductive HasSolver (E : Env) : String → Prop
  | direct : HasSolver E "direct"
  | iterative (h : E.iterative = true) : HasSolver E "iterative"

/-- How often a loop up to an `int` goes at most: a negative number is converted to a number near 2^64. -/
inductive Bound : Int → Nat → Prop
  | nonneg (n : Nat) (h : n < 2 ^ 31) : Bound n n
  | neg (n : Nat) (h0 : 0 < n) (h : n ≤ 2 ^ 31) : Bound (-(n : Int)) (2 ^ 64 - n)

/-- The call with good options. -/
inductive Does (E : Env) (a : Args) (w : World) : World × Res → Prop
  /-- nothing is done: no analysis is asked for, or a dictionary of an analysis that has none, or there is no such linear solver -/
  | noAnalysis (m) (h : ∀ x, ¬ Asks a.type (E.val a.tdelta) (E.val a.gamma) x) : Does E a w (w, .err m)
  | noInfo (m x) (hi : a.info = true) (h : Asks a.type (E.val a.tdelta) (E.val a.gamma) x) (hx : x = .ac ∨ x = .noise) : Does E a w (w, .err m)
  | noSolver (m) (h : ¬ HasSolver E a.solverType) : Does E a w (w, .err m)
  /-- a solve with the method of the type, with the limits; without a dictionary the answer is `None` or the error, with it the dictionary -/
  | newton (t lim P) (h : Asks a.type (E.val a.tdelta) (E.val a.gamma) (.newton t)) (hs : HasSolver E a.solverType)
      (hP : P = E.problem a.solverType (PyArg.toSize a.symbolic)) (h1 : lim.abs = E.val a.abs) (h2 : lim.rel = E.val a.rel)
      (h3 : lim.qrel = E.val a.charge) (h4 : lim.max = E.val a.max) (h5 : lim.maxIter = PyArg.toSize a.maxIter)
      (h6 : lim.maxDiv = PyArg.toSize a.maxDiv) (r)
      (hr : match solveI P lim t E.names w with
        | (_, .raised) => r = .raised
        | (_, .returned d) => (a.info = true ∧ r = .info d) ∨ (a.info = false ∧ d.converged = true ∧ r = .empty) ∨
            (a.info = false ∧ d.converged = false ∧ r = .err "Convergence failure!\n")) :
      Does E a w ((solve P lim t w).1, r)
  | ac (h : Asks a.type (E.val a.tdelta) (E.val a.gamma) .ac) (hi : a.info = false) (hs : HasSolver E a.solverType) (w' o r)
      (ha : E.ac a.solverType (E.val a.frequency) w = (w', o))
      (hr : (o = none ∧ r = .raised) ∨ (o = some true ∧ r = .empty) ∨ (o = some false ∧ r = .err "Convergence failure!\n")) : Does E a w (w', r)
  | noise (h : Asks a.type (E.val a.tdelta) (E.val a.gamma) .noise) (hi : a.info = false) (hs : HasSolver E a.solverType) (w' o r)
      (ha : E.noise a.solverType a.output (E.val a.frequency) w = (w', o))
      (hr : (o = none ∧ r = .raised) ∨ (o = some true ∧ r = .empty) ∨ (o = some false ∧ r = .err "Convergence failure!\n")) : Does E a w (w', r)

/-! ### Proofs -/

theorem opts_nodup (L : Lib) : ((opts L).map (·.name)).Nodup := by simp [opts]

theorem args_reads (L : Lib) (E : Env) {kw sel : List (String × Py)} (hk : (kw.map (·.1)).Nodup) (hne : ∀ p ∈ kw, p.1 ≠ "")
    (h : PyArg.processOptions L (opts L) kw = .ok sel) : Reads L E kw (args L E sel) := by
  have key : ∀ n ∈ (opts L).map (·.name), ∃ v, PyArg.holder (opts L) sel n = some v ∧ Means (opts L) kw n v := by
    intro n hn
    obtain ⟨v, h1, h2, _⟩ := text_of (opts_nodup L) hk hne h hn
    exact ⟨v, h1, h2⟩
  have text : ∀ n ∈ (opts L).map (·.name), Text L (opts L) kw n ((PyArg.stringOption L (opts L) sel n).getD "") := by
    intro n hn
    obtain ⟨v, h1, h2⟩ := key n hn
    exact ⟨v, h2, by simp [PyArg.stringOption, h1]⟩
  have num : ∀ n ∈ (opts L).map (·.name), Num L E kw n ((PyArg.doubleOption L E.maxD E.minD (opts L) sel n).getD 0) := by
    intro n hn
    obtain ⟨v, h1, h2⟩ := key n hn
    refine ⟨v, h2, ?_⟩
    simp only [PyArg.doubleOption, h1, Option.map_some, Option.getD_some]
    by_cases c1 : (PyArg.getDouble L v).1 = true
    · rw [if_pos c1]; exact .read v _ (by rw [← c1])
    rw [if_neg c1]
    have c1' : (PyArg.getDouble L v).1 = false := by simpa using c1
    by_cases c2 : PyArg.getString L v = "MAXDOUBLE"
    · rw [if_pos c2]; exact .max v c1' c2
    rw [if_neg c2]
    by_cases c3 : PyArg.getString L v = "-MAXDOUBLE"
    · rw [if_pos c3]; exact .min v c1' c3
    rw [if_neg c3]; exact .other v c1' c2 c3
  have int : ∀ n ∈ (opts L).map (·.name), Int' L kw n ((PyArg.integerOption L (opts L) sel n).getD 0) := by
    intro n hn
    obtain ⟨v, h1, h2⟩ := key n hn
    refine ⟨v, h2, ?_⟩
    simp only [PyArg.integerOption, h1, Option.map_some, Option.getD_some]
    by_cases c1 : (PyArg.getInteger L v).1 = true
    · rw [if_pos c1]; exact .read v _ (by rw [← c1])
    · rw [if_neg c1]; exact .other v (by simpa using c1)
  refine ⟨text _ ?_, text _ ?_, text _ ?_, num _ ?_, num _ ?_, num _ ?_, num _ ?_, num _ ?_, num _ ?_, num _ ?_, int _ ?_, int _ ?_, int _ ?_, ?_⟩
  iterate 13 simp [opts]
  obtain ⟨v, h1, h2⟩ := key "info" (by simp [opts])
  refine ⟨v, h2, ?_⟩
  simp only [args, PyArg.booleanOption, h1, Option.map_some, Option.getD_some]
  cases hb : PyArg.getBoolean v with
  | mk b c => cases b <;> cases c <;> simp

theorem append_ne {a b : String} (h : b ≠ "") : a ++ b ≠ "" := by
  intro hc
  rw [String.append_eq_empty_iff] at hc
  exact h hc.2

/-- there is no complaint exactly if an analysis is asked for that can be done -/
theorem complaint_iff (E : Env) (a : Args) : complaint E a = "" ↔
    ∃ x, Asks a.type (E.val a.tdelta) (E.val a.gamma) x ∧ ¬ (a.info = true ∧ (x = .ac ∨ x = .noise)) := by
  obtain ⟨ty, st, td, g, info, ab, re, ch, mx, mi, md, sy, fr, ou⟩ := a
  unfold complaint
  dsimp only
  have ne1 : ∀ s : String, s ++ "\" analysis\n" ≠ "" := fun s => append_ne (by simp)
  have ne2 : ∀ s : String, s ++ "\n" ≠ "" := fun s => append_ne (by simp)
  constructor
  · intro h
    split at h
    · rename_i ht
      rcases ht with rfl | rfl | rfl | rfl
      · exact ⟨_, .dc _ _, by simp⟩
      · refine ⟨_, .ac _ _, ?_⟩
        rintro ⟨hi, _⟩
        subst hi
        rw [if_pos ⟨rfl, .inl rfl⟩] at h
        exact ne1 _ h
      · refine ⟨_, .noise _ _, ?_⟩
        rintro ⟨hi, _⟩
        subst hi
        rw [if_pos ⟨rfl, .inr rfl⟩] at h
        exact ne1 _ h
      · exact ⟨_, .transientDc _ _, by simp⟩
    split at h
    · rename_i ht
      by_cases hg : E.val g = 0
      · rw [if_pos hg] at h; exact absurd h (ne2 _)
      rw [if_neg hg] at h
      by_cases hd : E.val td = 0
      · rw [if_pos hd] at h; exact absurd h (ne2 _)
      rcases ht with rfl | rfl | rfl
      · exact ⟨_, .bdf1 _ _ hd hg, by simp⟩
      · exact ⟨_, .tr _ _ hd hg, by simp⟩
      · exact ⟨_, .bdf2 _ _ hd hg, by simp⟩
    · simp at h
  · rintro ⟨x, hx, hn⟩
    cases hx with
    | dc => simp
    | ac => cases info <;> simp at hn ⊢
    | noise => cases info <;> simp at hn ⊢
    | transientDc => simp
    | bdf1 _ _ hd hg => simp [hd, hg]
    | tr _ _ hd hg => simp [hd, hg]
    | bdf2 _ _ hd hg => simp [hd, hg]

theorem solver_iff (E : Env) (s : String) : HasSolver E s ↔ (s = "direct" ∨ s = "iterative") ∧ ¬ (s = "iterative" ∧ E.iterative = false) := by
  constructor
  · intro h
    cases h with
    | direct => simp
    | iterative h => simp [h]
  · rintro ⟨rfl | rfl, h⟩
    · exact .direct
    · exact .iterative (by simpa using h)

theorem runSolve_does (E : Env) (a : Args) (w : World) (t : TimeParams) (h : Asks a.type (E.val a.tdelta) (E.val a.gamma) (.newton t))
    (hs : HasSolver E a.solverType) : Does E a w (runSolve E a t w) := by
  have key := info_changes_nothing (E.problem a.solverType (PyArg.toSize a.symbolic)) (limits E a) t E.names w
  have hw : (runSolve E a t w).1 = (solve (E.problem a.solverType (PyArg.toSize a.symbolic)) (limits E a) t w).1 := by
    rw [key]
    unfold runSolve
    cases solveI (E.problem a.solverType (PyArg.toSize a.symbolic)) (limits E a) t E.names w with
    | mk w' o => cases o <;> rfl
  have he : runSolve E a t w = ((solve (E.problem a.solverType (PyArg.toSize a.symbolic)) (limits E a) t w).1, (runSolve E a t w).2) := by
    rw [← hw]
  rw [he]
  refine .newton t (limits E a) _ h hs rfl rfl rfl rfl rfl rfl rfl _ ?_
  unfold runSolve
  cases solveI (E.problem a.solverType (PyArg.toSize a.symbolic)) (limits E a) t E.names w with
  | mk w' o =>
    cases o with
    | raised => rfl
    | returned d =>
      dsimp only [answer]
      cases hi : a.info <;> cases hc : d.converged <;> simp

theorem answerB_spec (p : World × Option Bool) : (answerB p).1 = p.1 ∧ ((p.2 = none ∧ (answerB p).2 = .raised) ∨
    (p.2 = some true ∧ (answerB p).2 = .empty) ∨ (p.2 = some false ∧ (answerB p).2 = .err "Convergence failure!\n")) := by
  obtain ⟨w, o⟩ := p
  cases o with
  | none => exact ⟨rfl, .inl ⟨rfl, rfl⟩⟩
  | some b =>
    cases b with
    | true => exact ⟨rfl, .inr (.inl ⟨rfl, rfl⟩)⟩
    | false => exact ⟨rfl, .inr (.inr ⟨rfl, rfl⟩)⟩

theorem solveImpl_does (E : Env) (a : Args) (w : World) : Does E a w (solveImpl E a w) := by
  unfold solveImpl
  by_cases hc : complaint E a = ""
  swap
  · rw [if_pos hc]
    rw [complaint_iff] at hc
    by_cases hx : ∃ x, Asks a.type (E.val a.tdelta) (E.val a.gamma) x
    · obtain ⟨x, hx⟩ := hx
      have : a.info = true ∧ (x = .ac ∨ x = .noise) := by
        by_contra hn
        exact hc ⟨x, hx, hn⟩
      exact .noInfo _ x this.1 hx this.2
    · exact .noAnalysis _ (fun x h => hx ⟨x, h⟩)
  rw [if_neg (by simpa using hc)]
  obtain ⟨x, hx, hn⟩ := (complaint_iff E a).mp hc
  by_cases h1 : a.solverType ≠ "direct" ∧ a.solverType ≠ "iterative"
  · rw [if_pos h1]
    exact .noSolver _ (by rw [solver_iff]; rintro ⟨h | h, _⟩; exacts [h1.1 h, h1.2 h])
  rw [if_neg h1]
  by_cases h2 : a.solverType = "iterative" ∧ E.iterative = false
  · rw [if_pos h2]
    exact .noSolver _ (by rw [solver_iff]; exact fun h => h.2 h2)
  rw [if_neg h2]
  have hs : HasSolver E a.solverType := by
    rw [solver_iff]
    refine ⟨?_, h2⟩
    by_contra hh
    rw [not_or] at hh
    exact h1 hh
  generalize hty : a.type = ty at hx
  have tac : a.info = true → ¬ (x = .ac ∨ x = .noise) := fun h h' => hn ⟨h, h'⟩
  cases hx with
  | dc =>
    rw [if_pos rfl]
    exact runSolve_does E a w _ (hty ▸ .dc _ _) hs
  | ac =>
    rw [if_neg (by simp), if_pos rfl]
    obtain ⟨e1, e2⟩ := answerB_spec (E.ac a.solverType (E.val a.frequency) w)
    have : a.info = false := by
      cases hi : a.info with
      | false => rfl
      | true => exact absurd (.inl rfl) (tac hi)
    exact .ac (hty ▸ .ac _ _) this hs (answerB (E.ac a.solverType (E.val a.frequency) w)).1 (E.ac a.solverType (E.val a.frequency) w).2 _
      (by rw [e1]) e2
  | noise =>
    rw [if_neg (by simp), if_neg (by simp), if_pos rfl]
    obtain ⟨e1, e2⟩ := answerB_spec (E.noise a.solverType a.output (E.val a.frequency) w)
    have : a.info = false := by
      cases hi : a.info with
      | false => rfl
      | true => exact absurd (.inr rfl) (tac hi)
    exact .noise (hty ▸ .noise _ _) this hs (answerB (E.noise a.solverType a.output (E.val a.frequency) w)).1
      (E.noise a.solverType a.output (E.val a.frequency) w).2 _ (by rw [e1]) e2
  | transientDc =>
    rw [if_neg (by simp), if_neg (by simp), if_neg (by simp), if_pos rfl]
    exact runSolve_does E a w _ (hty ▸ .transientDc _ _) hs
  | bdf1 _ _ hd hg =>
    rw [if_neg (by simp), if_neg (by simp), if_neg (by simp), if_neg (by simp), if_pos rfl]
    exact runSolve_does E a w _ (hty ▸ .bdf1 _ _ hd hg) hs
  | tr _ _ hd hg =>
    rw [if_neg (by simp), if_neg (by simp), if_neg (by simp), if_neg (by simp), if_neg (by simp), if_pos rfl]
    exact runSolve_does E a w _ (hty ▸ .tr _ _ hd hg) hs
  | bdf2 _ _ hd hg =>
    rw [if_neg (by simp), if_neg (by simp), if_neg (by simp), if_neg (by simp), if_neg (by simp), if_neg (by simp)]
    exact runSolve_does E a w _ (hty ▸ .bdf2 _ _ hd hg) hs

/-- **C91** The command with its keywords: bad options do nothing and are an error; otherwise it does what the options, or their defaults, ask
for. -/
theorem solve_command (L : Lib) (E : Env) (w : World) (kw : List (String × Py)) (hk : (kw.map (·.1)).Nodup) (hne : ∀ p ∈ kw, p.1 ≠ "") :
    (¬ PyArg.Good L (opts L) kw ∧ ∃ e, solveCmd L E w kw = (w, .badArgs e)) ∨
    (PyArg.Good L (opts L) kw ∧ ∃ a, Reads L E kw a ∧ Does E a w (solveCmd L E w kw)) := by
  unfold solveCmd
  cases hp : PyArg.processOptions L (opts L) kw with
  | error e => exact .inl ⟨not_good (opts_nodup L) hk hne hp, e, rfl⟩
  | ok sel =>
    exact .inr ⟨(PyArg.options_accepted_iff L _ (opts_nodup L) kw hk hne).mp ⟨sel, hp⟩, args L E sel, args_reads L E hk hne hp,
      solveImpl_does E _ w⟩

/-- what each keyword is if it is not given -/
def defaults : List (String × String) :=
  [("absolute_error", "0"), ("relative_error", "0"), ("maximum_error", "MAXDOUBLE"), ("maximum_iterations", "20"), ("maximum_divergence", "20"),
   ("symbolic_iteration_limit", "1"), ("frequency", "0.0"), ("output_node", ""), ("solver_type", "direct"), ("tdelta", "0.0"),
   ("charge_error", "0.0"), ("gamma", "1.0"), ("info", "")]

/-- **C91** `type` must be given; a keyword that is not given has its default. -/
theorem keywords (L : Lib) (kw : List (String × Py)) :
    (PyArg.Good L (opts L) kw → ∃ v, ("type", v) ∈ kw) ∧
    ∀ p ∈ defaults, ∀ v, Means (opts L) kw p.1 v → (p.1, v) ∈ kw ∨ ((∀ u, (p.1, u) ∉ kw) ∧ v = .str p.2) := by
  refine ⟨fun h => h.required ⟨"type", "", .string, true, some (SetVals.notEmpty L)⟩ (by simp [opts]) rfl, ?_⟩
  intro p hp v h
  cases h with
  | given v h => exact .inl h
  | default o ho hn h =>
    right
    refine ⟨h, ?_⟩
    simp only [defaults, List.mem_cons, List.not_mem_nil, or_false] at hp
    simp only [opts, List.mem_cons, List.not_mem_nil, or_false] at ho
    rcases hp with rfl | rfl | rfl | rfl | rfl | rfl | rfl | rfl | rfl | rfl | rfl | rfl | rfl <;>
      (rcases ho with rfl | rfl | rfl | rfl | rfl | rfl | rfl | rfl | rfl | rfl | rfl | rfl | rfl | rfl <;> simp at hn ⊢)

/-- the number of iterations and of divergences that an `int` stands for -/
theorem bound_toSize {n : Int} {m : Nat} (h : Bound n m) : PyArg.toSize n = m := by
  cases h with
  | nonneg n h =>
    unfold PyArg.toSize
    rw [BitVec.toNat_ofInt]
    omega
  | neg n h0 h =>
    unfold PyArg.toSize
    rw [BitVec.toNat_ofInt]
    omega

/-- every `int` has its bound -/
theorem bound_total {n : Int} (h1 : -2 ^ 31 ≤ n) (h2 : n < 2 ^ 31) : Bound n (PyArg.toSize n) := by
  have : ∃ m, Bound n m := by
    by_cases h : 0 ≤ n
    · obtain ⟨k, rfl⟩ := Int.eq_ofNat_of_zero_le h
      exact ⟨k, .nonneg k (by omega)⟩
    · obtain ⟨k, hk⟩ := Int.eq_ofNat_of_zero_le (a := -n) (by omega)
      have : n = -(k : Int) := by omega
      subst this
      exact ⟨2 ^ 64 - k, .neg k (by omega) (by omega)⟩
  obtain ⟨m, hm⟩ := this
  rw [bound_toSize hm]
  exact hm

end Verif.Solve
