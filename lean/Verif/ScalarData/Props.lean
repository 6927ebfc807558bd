import Verif.ScalarData.Model
import Mathlib.Algebra.Ring.Rat
import Mathlib.Tactic.NormNum
import Mathlib.Data.Rat.Floor
/-
Property C13: uniform-value fast paths agree with elementwise arithmetic.
-/
namespace Verif.ScalarData
variable {α : Type} [Semiring α] [DecidableEq α]

/-- Well-formed environments: an array model has one value per entry. -/
def Env.Wf (env : Env α) : Prop := ∀ k, (env.models k).uniform = false → (env.models k).vals.length = env.n

/-- The test values `IsZero`/`IsOne` are exact (always so in standard precision, where `toDouble = id`). -/
def Env.Exact (env : Env α) : Prop :=
  ∀ x : α, (env.toDouble x = 0 → x = 0) ∧ (env.toDouble x = 1 → x = 1)

/-- Well-formed data objects over `env`. -/
def SD.Wf (env : Env α) (s : SD α) : Prop :=
  s.length = env.n ∧ (s.isuniform = true → s.ref = none) ∧
  (s.isuniform = false → s.ref = none → s.values.length = env.n)

/-- The array a data object stands for (what a reader sees, index by index: `denote_get`). -/
def denote (env : Env α) (s : SD α) : List α := getScalarList env s

theorem mvalues_length (env : Env α) (h : env.Wf) (k : Nat) : ((env.models k).values env.n).length = env.n := by
  unfold MModel.values
  split
  · simp
  · rename_i hu; exact h k (by simpa using hu)

theorem denote_length (env : Env α) (h : env.Wf) (s : SD α) (hs : s.Wf env) : (denote env s).length = env.n := by
  unfold denote getScalarList
  split
  · simpa using hs.1
  · rename_i hu
    split
    · exact mvalues_length env h _
    · exact hs.2.2 (by simpa using hu) ‹_›

theorem denote_get (env : Env α) (s : SD α) (hs : s.Wf env) (i : Nat) (hi : i < env.n) :
    get env s i = (denote env s)[i]? := by
  unfold get denote getScalarList
  split
  · simp [hs.1, hi]
  · split <;> rfl

theorem makeAssignable_spec (env : Env α) (h : env.Wf) (s : SD α) (hs : s.Wf env) :
    (makeAssignable env s).Wf env ∧ (makeAssignable env s).values = denote env s ∧
    (makeAssignable env s).isuniform = false ∧ (makeAssignable env s).ref = none := by
  unfold makeAssignable denote getScalarList
  obtain ⟨h1, h2, h3⟩ := hs
  by_cases hu : s.isuniform = true
  · rw [if_pos hu, if_pos hu]
    exact ⟨⟨h1, by simp, fun _ _ => by simp [h1]⟩, rfl, rfl, h2 hu⟩
  · have hu' : s.isuniform = false := by simpa using hu
    rw [if_neg hu, if_neg hu]
    cases hr : s.ref with
    | none => exact ⟨⟨h1, by simp [hu'], fun _ _ => h3 hu' hr⟩, rfl, hu', hr⟩
    | some k => exact ⟨⟨h1, by simp, fun _ _ => mvalues_length env h k⟩, rfl, hu', rfl⟩

theorem ofModel_spec (env : Env α) (k : Nat) :
    (ofModel env k).Wf env ∧ denote env (ofModel env k) = (env.models k).values env.n := by
  unfold ofModel denote getScalarList SD.Wf MModel.values
  by_cases hu : (env.models k).uniform = true
  · simp [hu]
  · simp [hu]

theorem ofScalar_spec (env : Env α) (v : α) (l : Nat) (hl : l = env.n) :
    (ofScalar v l).Wf env ∧ denote env (ofScalar v l) = List.replicate env.n v := by
  subst hl
  simp [ofScalar, denote, getScalarList, SD.Wf]

theorem zipWith_replicate_right (op : α → α → α) (l : List α) (v : α) (n : Nat) (h : l.length = n) :
    List.zipWith op l (List.replicate n v) = l.map (fun x => op x v) := by
  subst h
  induction l with
  | nil => rfl
  | cons a l ih => simp [List.replicate_succ, ih]

theorem zipWith_replicate_left (op : α → α → α) (l : List α) (v : α) (n : Nat) (h : l.length = n) :
    List.zipWith op (List.replicate n v) l = l.map (fun x => op v x) := by
  subst h
  induction l with
  | nil => rfl
  | cons a l ih => simp [List.replicate_succ, ih]

theorem map_const (l : List α) (v : α) : l.map (fun _ => v) = List.replicate l.length v := by
  induction l with
  | nil => rfl
  | cons a l ih => simp [List.replicate_succ]

theorem opEqualScalar_spec (env : Env α) (h : env.Wf) (op : α → α → α) (s : SD α) (hs : s.Wf env) (v : α) :
    (opEqualScalar env op s v).Wf env ∧
    denote env (opEqualScalar env op s v) = (denote env s).map (fun x => op x v) := by
  unfold opEqualScalar
  by_cases hu : s.isuniform = true
  · obtain ⟨h1, h2, h3⟩ := hs
    simp only [hu, if_true]
    refine ⟨⟨h1, fun _ => h2 hu, fun h => by simp at h⟩, ?_⟩
    simp [denote, getScalarList, hu]
  · obtain ⟨w, hv, hn, hr⟩ := makeAssignable_spec env h s hs
    simp only [hu]
    refine ⟨⟨w.1, fun h => ?_, fun _ _ => ?_⟩, ?_⟩
    · simp [hn] at h
    · simp [hv, denote_length env h s hs]
    · conv => lhs; unfold denote getScalarList
      simp [hn, hr, hv]

theorem opEqualData_spec (env : Env α) (h : env.Wf) (op : α → α → α) (s e : SD α) (hs : s.Wf env) (he : e.Wf env) :
    ∃ r, opEqualData env op s e = some r ∧ r.Wf env ∧
      denote env r = List.zipWith op (denote env s) (denote env e) := by
  unfold opEqualData
  by_cases hu : s.isuniform = true
  · by_cases hue : e.isuniform = true
    · simp only [hu, hue, Bool.and_self, if_true]
      obtain ⟨h1, h2, h3⟩ := hs
      refine ⟨_, rfl, ⟨h1, fun _ => h2 hu, fun h => by simp at h⟩, ?_⟩
      simp [denote, getScalarList, hu, hue, h1, he.1]
    · have hue' : e.isuniform = false := by simpa using hue
      simp only [hu, hue', Bool.and_false, Bool.false_eq_true, if_false]
      obtain ⟨w, hv, hn, hr⟩ := makeAssignable_spec env h s hs
      have hl1 := denote_length env h s hs
      have hl2 := denote_length env h e he
      rw [if_pos (by rw [hv]; unfold denote at hl1 hl2; unfold denote; omega)]
      refine ⟨_, rfl, ⟨w.1, fun h => ?_, fun _ _ => ?_⟩, ?_⟩
      · simp [hn] at h
      · simp only [hv, List.length_zipWith]; unfold denote at *; omega
      · conv => lhs; unfold denote getScalarList
        simp [hn, hr, hv]; rfl
  · have hu' : s.isuniform = false := by simpa using hu
    by_cases hue : e.isuniform = true
    · simp only [hu', hue, Bool.false_and, Bool.false_eq_true, if_false, if_true]
      obtain ⟨w, hd⟩ := opEqualScalar_spec env h op s hs e.uval
      refine ⟨_, rfl, w, ?_⟩
      rw [hd]
      have : denote env e = List.replicate env.n e.uval := by simp [denote, getScalarList, hue, he.1]
      rw [this, zipWith_replicate_right _ _ _ _ (denote_length env h s hs)]
    · have hue' : e.isuniform = false := by simpa using hue
      simp only [hu', hue', Bool.and_false, Bool.false_eq_true, if_false]
      obtain ⟨w, hv, hn, hr⟩ := makeAssignable_spec env h s hs
      have hl1 := denote_length env h s hs
      have hl2 := denote_length env h e he
      rw [if_pos (by rw [hv]; unfold denote at hl1 hl2; unfold denote; omega)]
      refine ⟨_, rfl, ⟨w.1, fun h => ?_, fun _ _ => ?_⟩, ?_⟩
      · simp [hn] at h
      · simp only [hv, List.length_zipWith]; unfold denote at *; omega
      · conv => lhs; unfold denote getScalarList
        simp [hn, hr, hv]; rfl

theorem isZero_spec (env : Env α) (s : SD α) (hs : s.Wf env) (hz : isZero s = true) :
    denote env s = List.replicate env.n 0 := by
  simp only [isZero, Bool.and_eq_true, decide_eq_true_eq] at hz
  simp [denote, getScalarList, hz, hs.1]

theorem isOne_spec (env : Env α) (s : SD α) (hs : s.Wf env) (hz : isOne s = true) :
    denote env s = List.replicate env.n 1 := by
  simp only [isOne, Bool.and_eq_true, decide_eq_true_eq] at hz
  simp [denote, getScalarList, hz, hs.1]

/-! ## C13 — statements.  `denote` of the result is the elementwise operation on the `denote` of the operands. -/

theorem times_equal_data_elementwise (env : Env α) (h : env.Wf) (s e : SD α) (hs : s.Wf env) (he : e.Wf env) :
    ∃ r, timesEqualData env s e = some r ∧ r.Wf env ∧
      denote env r = List.zipWith (· * ·) (denote env s) (denote env e) := by
  have l1 := denote_length env h s hs
  have l2 := denote_length env h e he
  unfold timesEqualData
  by_cases hz : isZero s = true
  · simp only [hz, Bool.true_or, if_true]
    refine ⟨s, rfl, hs, ?_⟩
    rw [isZero_spec env s hs hz, zipWith_replicate_left _ _ _ _ l2]
    simp only [zero_mul]; rw [map_const, l2]
  · by_cases ho : isOne e = true
    · simp only [hz, ho, Bool.or_true, if_true]
      refine ⟨s, rfl, hs, ?_⟩
      rw [isOne_spec env e he ho, zipWith_replicate_right _ _ _ _ l1]
      simp
    · simp only [hz, ho, Bool.or_self, Bool.false_eq_true, if_false]
      by_cases hze : isZero e = true
      · simp only [hze, if_true]
        obtain ⟨w, hd⟩ := ofScalar_spec env (0 : α) s.length hs.1
        refine ⟨_, rfl, w, ?_⟩
        rw [hd, isZero_spec env e he hze, zipWith_replicate_right _ _ _ _ l1]
        simp only [mul_zero]; rw [map_const, l1]
      · simp only [hze, Bool.false_eq_true, if_false]
        by_cases hos : isOne s = true
        · simp only [hos, if_true]
          refine ⟨e, rfl, he, ?_⟩
          rw [isOne_spec env s hs hos, zipWith_replicate_left _ _ _ _ l2]
          simp
        · simp only [hos, Bool.false_eq_true, if_false]
          exact opEqualData_spec env h _ s e hs he

theorem plus_equal_data_elementwise (env : Env α) (h : env.Wf) (s e : SD α) (hs : s.Wf env) (he : e.Wf env) :
    ∃ r, plusEqualData env s e = some r ∧ r.Wf env ∧
      denote env r = List.zipWith (· + ·) (denote env s) (denote env e) := by
  have l1 := denote_length env h s hs
  have l2 := denote_length env h e he
  unfold plusEqualData
  by_cases hz : isZero s = true
  · simp only [hz, if_true]
    refine ⟨e, rfl, he, ?_⟩
    rw [isZero_spec env s hs hz, zipWith_replicate_left _ _ _ _ l2]; simp
  · simp only [hz, Bool.false_eq_true, if_false]
    by_cases hze : isZero e = true
    · simp only [hze, if_true]
      refine ⟨s, rfl, hs, ?_⟩
      rw [isZero_spec env e he hze, zipWith_replicate_right _ _ _ _ l1]; simp
    · simp only [hze, Bool.false_eq_true, if_false]
      exact opEqualData_spec env h _ s e hs he

theorem times_equal_scalar_elementwise (env : Env α) (h : env.Wf) (s : SD α) (hs : s.Wf env) (x : α) :
    (timesEqualScalar env s x).Wf env ∧
    denote env (timesEqualScalar env s x) = (denote env s).map (fun y => y * x) := by
  have l1 := denote_length env h s hs
  unfold timesEqualScalar
  by_cases hz : isZero s = true
  · simp only [hz, Bool.true_or, if_true]
    refine ⟨hs, ?_⟩
    rw [isZero_spec env s hs hz]; simp
  · by_cases h1 : x = 1
    · simp only [h1, decide_true, Bool.or_true, if_true]
      exact ⟨hs, by simp⟩
    · simp only [hz, h1, decide_false, Bool.or_self, Bool.false_eq_true, if_false]
      by_cases h0 : x = 0
      · subst h0
        simp only [if_true]
        obtain ⟨w, hd⟩ := ofScalar_spec env (0 : α) s.length hs.1
        refine ⟨w, ?_⟩
        rw [hd]; simp only [mul_zero]; rw [map_const, l1]
      · simp only [h0, if_false]
        by_cases hos : isOne s = true
        · simp only [hos, if_true]
          obtain ⟨w, hd⟩ := ofScalar_spec env x s.length hs.1
          refine ⟨w, ?_⟩
          rw [hd, isOne_spec env s hs hos]; simp
        · simp only [hos, Bool.false_eq_true, if_false]
          exact opEqualScalar_spec env h _ s hs x

theorem plus_equal_scalar_elementwise (env : Env α) (h : env.Wf) (s : SD α) (hs : s.Wf env) (x : α) :
    (plusEqualScalar env s x).Wf env ∧
    denote env (plusEqualScalar env s x) = (denote env s).map (fun y => y + x) := by
  unfold plusEqualScalar
  by_cases h0 : x = 0
  · subst h0; simp only [if_true]; exact ⟨hs, by simp⟩
  · simp only [h0, if_false]
    by_cases hz : isZero s = true
    · simp only [hz, if_true]
      have hu : s.isuniform = true ∧ s.uval = 0 := by simpa [isZero] using hz
      refine ⟨⟨hs.1, fun _ => hs.2.1 hu.1, fun h => by simp [hu.1] at h⟩, ?_⟩
      rw [isZero_spec env s hs hz]
      simp [denote, getScalarList, hu.1, hs.1]
    · simp only [hz, Bool.false_eq_true, if_false]
      exact opEqualScalar_spec env h _ s hs x

/-- In every precision: adding a model. -/
theorem plus_equal_model_elementwise (env : Env α) (h : env.Wf) (s : SD α) (hs : s.Wf env) (k : Nat) :
    ∃ r, plusEqualModel env s k = some r ∧ r.Wf env ∧
      denote env r = List.zipWith (· + ·) (denote env s) ((env.models k).values env.n) := by
  have lm := mvalues_length env h k
  obtain ⟨wm, dm⟩ := ofModel_spec env k
  unfold plusEqualModel opEqualModel
  by_cases hz : isZero s = true
  · simp only [hz, if_true]
    refine ⟨_, rfl, wm, ?_⟩
    rw [isZero_spec env s hs hz, zipWith_replicate_left _ _ _ _ lm, dm]; simp
  · simp only [hz, Bool.false_eq_true, if_false]
    obtain ⟨r, hr, hw, hd⟩ := opEqualData_spec env h (· + ·) s (ofModel env k) hs wm
    exact ⟨r, hr, hw, by rw [hd, dm]⟩

/-- Multiplying by a model, when the tests for 0 and 1 are exact (standard precision build). The full statement, without
`Exact`, is false in extended precision: `times_equal_model_extended_counterexample`. -/
theorem times_equal_model_elementwise_partial (env : Env α) (h : env.Wf) (hx : env.Exact) (s : SD α) (hs : s.Wf env)
    (k : Nat) :
    ∃ r, timesEqualModel env s k = some r ∧ r.Wf env ∧
      denote env r = List.zipWith (· * ·) (denote env s) ((env.models k).values env.n) := by
  have l1 := denote_length env h s hs
  have lm := mvalues_length env h k
  obtain ⟨wm, dm⟩ := ofModel_spec env k
  unfold timesEqualModel
  by_cases hz : isZero s = true
  · simp only [hz, Bool.true_or, if_true]
    refine ⟨s, rfl, hs, ?_⟩
    rw [isZero_spec env s hs hz, zipWith_replicate_left _ _ _ _ lm]
    simp only [zero_mul]; rw [map_const, lm]
  · by_cases ho : mIsOne env k = true
    · simp only [hz, ho, Bool.or_true, if_true]
      refine ⟨s, rfl, hs, ?_⟩
      simp only [mIsOne, Bool.and_eq_true, decide_eq_true_eq] at ho
      have := (hx _).2 ho.2
      have e : (env.models k).values env.n = List.replicate env.n 1 := by simp [MModel.values, ho.1, this]
      rw [e, zipWith_replicate_right _ _ _ _ l1]; simp
    · simp only [hz, ho, Bool.or_self, Bool.false_eq_true, if_false]
      by_cases hze : mIsZero env k = true
      · simp only [hze, if_true]
        obtain ⟨w, hd⟩ := ofScalar_spec env (0 : α) s.length hs.1
        refine ⟨_, rfl, w, ?_⟩
        simp only [mIsZero, Bool.and_eq_true, decide_eq_true_eq] at hze
        have := (hx _).1 hze.2
        have e : (env.models k).values env.n = List.replicate env.n 0 := by simp [MModel.values, hze.1, this]
        rw [hd, e, zipWith_replicate_right _ _ _ _ l1]
        simp only [mul_zero]; rw [map_const, l1]
      · simp only [hze, Bool.false_eq_true, if_false]
        by_cases hos : isOne s = true
        · simp only [hos, if_true]
          refine ⟨_, rfl, wm, ?_⟩
          rw [isOne_spec env s hs hos, zipWith_replicate_left _ _ _ _ lm, dm]; simp
        · simp only [hos, Bool.false_eq_true, if_false]
          obtain ⟨r, hr, hw, hd⟩ := opEqualData_spec env h (· * ·) s (ofModel env k) hs wm
          exact ⟨r, hr, hw, by rw [hd, dm]⟩

/-- The standard precision build satisfies `Exact`. -/
theorem exact_of_standard_precision (env : Env α) (h : env.toDouble = id) : env.Exact := by
  intro x; simp [h]

/-- Writing one element: `x[i] = v` changes exactly entry `i`, whatever the representation. -/
theorem set_spec (env : Env α) (h : env.Wf) (s : SD α) (hs : s.Wf env) (i : Nat) (v : α) (hi : i < env.n) :
    ∃ r, set env s i v = some r ∧ r.Wf env ∧ denote env r = (denote env s).set i v := by
  obtain ⟨w, hv, hn, hr⟩ := makeAssignable_spec env h s hs
  have l1 := denote_length env h s hs
  unfold set
  simp only [hv, l1, hi, if_true]
  refine ⟨_, rfl, ⟨w.1, fun h => by simp [hn] at h, fun _ _ => by simp [l1]⟩, ?_⟩
  conv => lhs; unfold denote getScalarList
  simp [hn, hr]; rfl

/-- Reading never goes out of bounds. -/
theorem get_in_bounds (env : Env α) (h : env.Wf) (s : SD α) (hs : s.Wf env) (i : Nat) (hi : i < env.n) :
    ∃ v, get env s i = some v := by
  rw [denote_get env s hs i hi]
  have := denote_length env h s hs
  exact ⟨_, List.getElem?_eq_getElem (by omega)⟩

/-- Surrogate for rounding to `double` near 1: round to a multiple of 2^-52. -/
def round52 (x : ℚ) : ℚ := (⌊x * 2 ^ 52 + 1 / 2⌋ : ℚ) / 2 ^ 52

/-- Disagreement with the code: in an extended precision build, multiplying by a uniform model whose value differs
from 1 by less than the resolution of `double` does nothing. -/
theorem times_equal_model_extended_counterexample :
    ∃ (env : Env ℚ) (s : SD ℚ), env.Wf ∧ s.Wf env ∧ env.toDouble = round52 ∧
      ∃ r, timesEqualModel env s 0 = some r ∧
        denote env r ≠ List.zipWith (· * ·) (denote env s) ((env.models 0).values env.n) := by
  refine ⟨⟨1, fun _ => ⟨true, 1 + 1 / 2 ^ 60, []⟩, round52⟩, ofScalar 3 1, ?_, ?_, rfl, ofScalar 3 1, ?_, ?_⟩
  · intro k h; simp at h
  · simp [SD.Wf, ofScalar]
  · have : round52 (1 + 1 / 2 ^ 60) = 1 := by
      unfold round52
      have : ⌊((1 : ℚ) + 1 / 2 ^ 60) * 2 ^ 52 + 1 / 2⌋ = 2 ^ 52 := by
        rw [Int.floor_eq_iff]; norm_num
      rw [this]; norm_num
    simp only [timesEqualModel, mIsOne, this]
    simp
  · simp [denote, getScalarList, ofScalar, MModel.values]

/-- A concrete environment and operands meeting the hypotheses (an array model, a uniform model, all three
representations of data). -/
def exEnv : Env ℚ := ⟨3, fun k => if k = 0 then ⟨false, 0, [1, 2, 3]⟩ else ⟨true, 5, []⟩, id⟩
example : exEnv.Wf ∧ exEnv.Exact ∧ (ofModel exEnv 0).Wf exEnv ∧ (ofVector [4, 5, (6 : ℚ)]).Wf exEnv ∧
    (ofScalar (2 : ℚ) 3).Wf exEnv := by
  refine ⟨?_, exact_of_standard_precision _ rfl, (ofModel_spec _ _).1, ?_, ?_⟩
  · intro k h
    by_cases hk : k = 0 <;> simp_all [exEnv]
  · simp [ofVector, SD.Wf, exEnv]
  · simp [ofScalar, SD.Wf, exEnv]
example : timesEqualModel exEnv (ofVector [4, 5, (6 : ℚ)]) 0 = some (ofVector [4, 10, 18]) := by decide +kernel

end Verif.ScalarData
