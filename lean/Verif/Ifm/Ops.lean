import Verif.Ifm.Spec

/-! # Arithmetic and functions of interface data -/

namespace Verif.Ifm

open Verif.ScalarData Verif.Sym Verif.Eval

section
variable {I : Ifc} (hI : I.Wf) {g h : Nat → ℝ}
include hI

/-- `a += b` and `a *= b`. -/
theorem opEqual_denotes {op : ℝ → ℝ → ℝ} {a b r : IVal} (ha : Denotes I g a) (hb : Denotes I h b)
    (he : opEqual I op a b = some r) : Denotes I (fun i => op (g i) (h i)) r := by
  unfold opEqual at he
  split at he
  · cases he; trivial
  · rename_i s s'
    rw [Option.map_eq_some_iff] at he
    obtain ⟨r', h1, rfl⟩ := he
    obtain ⟨r2, e1, hw, hd⟩ := opEqualData_spec I.env hI.env op s s' ha.1 hb.1
    rw [e1] at h1
    cases h1
    exact ⟨hw, fun i hi => by rw [hd, List.getElem?_zipWith, ha.2 i hi, hb.2 i hi]⟩
  · rename_i s y
    cases he
    obtain ⟨hw, hd⟩ := opEqualScalar_spec I.env hI.env op s ha.1 y
    exact ⟨hw, fun i hi => by rw [hd, List.getElem?_map, ha.2 i hi, ← hb i hi]; rfl⟩
  · cases he; trivial
  · rename_i x s
    rw [Option.map_eq_some_iff] at he
    obtain ⟨r', h1, rfl⟩ := he
    obtain ⟨w1, d1⟩ := ofScalar_spec I.env x s.length hb.1.1
    obtain ⟨r2, e1, hw, hd⟩ := opEqualData_spec I.env hI.env op _ s w1 hb.1
    rw [e1] at h1
    cases h1
    exact ⟨hw, fun i hi => by
      rw [hd, List.getElem?_zipWith, hb.2 i hi, d1, List.getElem?_replicate, if_pos hi, ← ha i hi]⟩
  · cases he
    intro i hi
    simp only [ha i hi, hb i hi]
  · cases he; trivial

theorem opEqual_total {op : ℝ → ℝ → ℝ} {a b : IVal} (ha : Denotes I g a) (hb : Denotes I h b) (va : a.isInvalid = false)
    (vb : b.isInvalid = false) : ∃ r, opEqual I op a b = some r ∧ r.isInvalid = false := by
  cases a with
  | invalid => cases va
  | double x =>
    cases b with
    | invalid => cases vb
    | double y => exact ⟨_, rfl, rfl⟩
    | data s =>
      obtain ⟨r2, e1, -⟩ := opEqualData_spec I.env hI.env op _ s (ofScalar_spec I.env x s.length hb.1.1).1 hb.1
      exact ⟨.data r2, by simp [opEqual, e1], rfl⟩
  | data s =>
    cases b with
    | invalid => cases vb
    | double y => exact ⟨_, rfl, rfl⟩
    | data s' =>
      obtain ⟨r2, e1, -⟩ := opEqualData_spec I.env hI.env op s s' ha.1 hb.1
      exact ⟨.data r2, by simp [opEqual, e1], rfl⟩

omit hI in
theorem argOf_get {v : IVal} {i : Nat} (hv : Denotes I g v) (hk : v.isInvalid = false) (hi : i < I.env.n) :
    Arg.get i (argOf I v) = some (g i) := by
  cases v with
  | invalid => cases hk
  | double x => simp only [argOf, Arg.get]; rw [hv i hi]
  | data s =>
    have h1 := hv.2 i hi
    simp only [argOf]
    split_ifs with hu
    · simp only [denote, getScalarList, hu, if_true, hv.1.1] at h1
      rw [List.getElem?_replicate, if_pos hi] at h1
      exact h1
    · exact h1

omit hI in
theorem argsAt_ok {gs : List (Nat → ℝ)} {argv : List IVal} {i : Nat} (hd : List.Forall₂ (Denotes I) gs argv)
    (hk : ∀ v ∈ argv, v.isInvalid = false) (hi : i < I.env.n) :
    argsAt (argv.map (argOf I)) i = some (gs.map (· i)) := by
  induction hd with
  | nil => simp [argsAt]
  | @cons g v gs argv h1 _ ih =>
    have h2 := argOf_get h1 (hk v (by simp)) hi
    have h3 := ih fun v hv => hk v (by simp [hv])
    simp only [argsAt] at h3 ⊢
    simp [h2, h3]

theorem argOf_length {s : SD ℝ} (hv : Denotes I g (.data s)) :
    (if s.isuniform then s.length else (getScalarList I.env s).length) = I.env.n := by
  split_ifs
  · exact hv.1.1
  · exact denote_length I.env hI.env s hv.1

theorem vlenOf_ok {gs : List (Nat → ℝ)} {argv : List IVal} (hd : List.Forall₂ (Denotes I) gs argv) :
    (∀ v ∈ argv, v.isInvalid = false) → ∀ n : Nat, (n = I.env.n ∨ argv.all IVal.isDouble = false) → vlenOf I argv n = I.env.n := by
  induction hd with
  | nil =>
    intro _ n h
    rcases h with h | h
    · simpa [vlenOf] using h
    · simp at h
  | @cons g v gs argv h1 _ ih =>
    intro hk n h
    cases v with
    | invalid => have := hk .invalid (by simp); cases this
    | double x =>
      simp only [vlenOf]
      exact ih (fun v hv => hk v (by simp [hv])) n (by simpa [IVal.isDouble] using h)
    | data s =>
      simp only [vlenOf]
      rw [argOf_length hI h1]
      exact ih (fun v hv => hk v (by simp [hv])) _ (Or.inl rfl)

theorem numElems_ok {gs : List (Nat → ℝ)} {argv : List IVal} (hd : List.Forall₂ (Denotes I) gs argv) :
    (argv.map (argOf I)).any Arg.isVec = true → numElems (argv.map (argOf I)) = I.env.n := by
  induction hd with
  | nil => intro h; simp at h
  | @cons g v gs argv h1 _ ih =>
    intro h
    cases v with
    | invalid => simp only [List.map_cons, argOf, numElems]; exact ih (by simpa [argOf, Arg.isVec] using h)
    | double x => simp only [List.map_cons, argOf, numElems]; exact ih (by simpa [argOf, Arg.isVec] using h)
    | data s =>
      by_cases hu : s.isuniform = true
      · simp only [List.map_cons, argOf, hu, if_true, numElems]
        exact ih (by simpa [argOf, Arg.isVec, hu] using h)
      · have := argOf_length hI h1
        simp only [hu] at this
        simp only [List.map_cons, argOf, hu]
        simpa [numElems] using this

omit hI in
theorem doubles_ok {gs : List (Nat → ℝ)} {argv : List IVal} (hd : List.Forall₂ (Denotes I) gs argv)
    (ha : argv.all IVal.isDouble = true) {i : Nat} (hi : i < I.env.n) : argv.map IVal.dbl = gs.map (· i) := by
  induction hd with
  | nil => rfl
  | @cons g v gs argv h1 _ ih =>
    simp only [List.all_cons, Bool.and_eq_true] at ha
    cases v with
    | invalid => simp [IVal.isDouble] at ha
    | data s => simp [IVal.isDouble] at ha
    | double x => simp only [List.map_cons, IVal.dbl, ih ha.2, h1 i hi]

omit hI in
theorem package_ok {name : Str} (hn : name ≠ nVecSum ∧ name ≠ nVecMax ∧ name ≠ nVecMin) (out : List ℝ) :
    package name out = some (.data (ofVector out)) := by
  simp [package, hn]

/-- Functions of interface data: right at every pair, or invalid. -/
theorem extMath_denotes {name : Str} {gs : List (Nat → ℝ)} {argv : List IVal} {errs : Nat} {r : IVal × Nat × Bool}
    (hd : List.Forall₂ (Denotes I) gs argv) (hkn : known I.math name)
    (hn : name ≠ nVecSum ∧ name ≠ nVecMax ∧ name ≠ nVecMin) {G : Nat → ℝ}
    (hG : ∀ i y, appl I.math name (gs.map (· i)) = some y → G i = y) (h : extMath I name argv errs = some r)
    (hf : r.2.2 = false) : Denotes I G r.1 := by
  unfold extMath at h
  split at h
  · cases h
  split at h
  · cases h; trivial
  rename_i hinv
  have hval : ∀ v ∈ argv, v.isInvalid = false := by
    intro v hv
    by_contra hc
    exact hinv (List.any_eq_true.2 ⟨v, hv, by simpa using hc⟩)
  split at h
  · rename_i hall
    cases h
    dsimp only at hf ⊢
    by_cases herr : (mathScalar I.math name (argv.map IVal.dbl)).err = true
    · simp [herr, Denotes]
    · have herr' : (mathScalar I.math name (argv.map IVal.dbl)).err = false := by simpa using herr
      split_ifs
      · trivial
      · intro i hi
        refine hG i _ ?_
        rw [← doubles_ok hd hall hi]
        exact mathScalar_ok hkn herr' hf
  · rename_i hall
    have hlen : vlenOf I argv 0 = I.env.n := vlenOf_ok hI hd hval 0 (Or.inr (by simpa using hall))
    dsimp only at h
    split at h
    · rename_i hvec
      cases h
      dsimp only at hf ⊢
      have hvec' : (argv.map (argOf I)).any Arg.isVec = false := by simpa using hvec
      by_cases herr : (mathScalar I.math name ((argv.map (argOf I)).map Arg.sc0)).err = true
      · simp only [herr]; simp [Denotes]
      · have herr' : (mathScalar I.math name ((argv.map (argOf I)).map Arg.sc0)).err = false := by simpa using herr
        split_ifs
        · trivial
        · rw [hlen]
          obtain ⟨w, d⟩ := ofScalar_spec I.env (mathScalar I.math name ((argv.map (argOf I)).map Arg.sc0)).val I.env.n rfl
          refine ⟨w, fun i hi => ?_⟩
          rw [d, List.getElem?_replicate, if_pos hi]
          have h1 := scs_of_argsAt hvec' (argsAt_ok hd hval hi)
          have h2 := mathScalar_ok hkn herr' hf
          rw [h1] at h2 ⊢
          rw [hG i _ h2]
    · rename_i hvec
      have hvec' : (argv.map (argOf I)).any Arg.isVec = true := by simpa using hvec
      rw [Option.bind_eq_some_iff] at h
      obtain ⟨q, hq, h⟩ := h
      split at h
      · cases h; trivial
      · rename_i herr
        have herr' : q.err = false := by simpa using herr
        rw [package_ok hn, Option.map_some] at h
        cases h
        dsimp only at hf ⊢
        split_ifs
        · trivial
        · obtain ⟨h1, h2⟩ := mathVec_ok hkn (numElems_ok hI hd hvec') (hlen ▸ hq) herr' hf
          obtain ⟨w, d⟩ := ofVector_spec I.env q.val h1
          refine ⟨w, fun i hi => ?_⟩
          rw [d]
          have h3 := h2 i hi _ (argsAt_ok hd hval hi)
          rw [List.getElem?_eq_getElem (by omega)] at h3 ⊢
          rw [hG i _ h3]

theorem extMath_total (hpos : 0 < I.env.n) {name : Str} {gs : List (Nat → ℝ)} {argv : List IVal}
    (hd : List.Forall₂ (Denotes I) gs argv) (hval : ∀ v ∈ argv, v.isInvalid = false) (hne : argv ≠ [])
    (ht : takes I.math name gs.length) (hn : name ≠ nVecSum ∧ name ≠ nVecMax ∧ name ≠ nVecMin)
    (hv : ∀ i, i < I.env.n → (appl I.math name (gs.map (· i))).isSome = true) :
    ∃ v, extMath I name argv 0 = some (v, 0, false) ∧ v.isInvalid = false := by
  have hlen := hd.length_eq
  unfold extMath
  rw [if_neg (by simpa using hne), if_neg (by
    intro hc
    obtain ⟨v, h1, h2⟩ := List.any_eq_true.1 hc
    rw [hval v h1] at h2; cases h2)]
  split
  · rename_i hall
    have h1 := doubles_ok hd hall hpos
    obtain ⟨t1, t2⟩ := mathScalar_total (xs := gs.map (· 0)) (by simpa using ht) (hv 0 hpos)
    simp only [h1, t1, t2]
    exact ⟨_, rfl, rfl⟩
  · rename_i hall
    have hvl : vlenOf I argv 0 = I.env.n := vlenOf_ok hI hd hval 0 (Or.inr (by simpa using hall))
    dsimp only
    split
    · rename_i hvec
      have hvec' : (argv.map (argOf I)).any Arg.isVec = false := by simpa using hvec
      have h1 := scs_of_argsAt hvec' (argsAt_ok hd hval hpos)
      obtain ⟨t1, t2⟩ := mathScalar_total (xs := gs.map (· 0)) (by simpa using ht) (hv 0 hpos)
      simp only [h1, t1, t2]
      exact ⟨_, rfl, rfl⟩
    · rename_i hvec
      have hvec' : (argv.map (argOf I)).any Arg.isVec = true := by simpa using hvec
      obtain ⟨r, hr, r1, r2⟩ := mathVec_total (R := I.math) (f := name) (args := argv.map (argOf I)) (n := I.env.n)
        (by simpa [← hlen] using ht) (numElems_ok hI hd hvec')
        (fun i hi => ⟨_, argsAt_ok hd hval hi, hv i hi⟩)
      rw [hvl, hr, Option.bind_some, r1, r2, package_ok hn]
      exact ⟨_, rfl, rfl⟩

end

end Verif.Ifm
