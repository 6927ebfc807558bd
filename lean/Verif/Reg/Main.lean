import Verif.Reg.Model
/-!
# C99: functions registered from Python
-/
namespace Verif.Reg

variable {Y : Python}

/-! ### Specification -/

/-- Calls of a procedure, one after another, with these arguments: they begin in the state `p` of Python and end in `p'`, and
give these numbers. -/
inductive Calls (f : Y.Obj) : List (List ℝ) → Y.P → List ℝ → Y.P → Prop
  | nil {p} : Calls f [] p [] p
  | cons {xs l p q p' x r} : Y.invoke f xs p = (q, .number x) → Calls f l q r p' → Calls f (xs :: l) p (x :: r) p'

/-- A call that gives no number, and what is said about it. -/
inductive Bad (f : Y.Obj) : List ℝ → Y.P → Y.P → String → Prop
  | object {xs p q t} : Y.invoke f xs p = (q, .object t) →
      Bad f xs p q ("Could not convert " ++ t ++ " to a DoubleType\n")
  | exception {xs p q t} : Y.invoke f xs p = (q, .exception t) → Bad f xs p q ("Python Command failed\n" ++ t)

/-- The value of an argument at point `j`. -/
def Arg.at (j : Nat) : Arg → ℝ
  | .scalar x => x
  | .vector v => v.getD j 0

/-- The arguments of the calls: one list for each point. -/
def points (args : List Arg) (n : Nat) : List (List ℝ) := (List.range n).map fun j => args.map (Arg.at j)

/-- The vectors have one value for each of `n` points. -/
def Shaped (args : List Arg) (n : Nat) : Prop := ∀ v, Arg.vector v ∈ args → v.length = n

/-- There is a vector. -/
def Data (args : List Arg) : Prop := ∃ v, Arg.vector v ∈ args

/-- What is told to `register_function`. -/
structure Told (Y : Python) where
  name : String
  f : Y.Obj
  nargs : Int

/-- It can be done. -/
def Told.Ok (t : Told Y) : Prop := 1 ≤ t.nargs ∧ Y.callable t.f = true

/-- The last telling of the name that could be done, from the history (last first). -/
inductive Last : List (Told Y) → String → Option (Y.Obj × Nat) → Prop
  | nil {x} : Last [] x none
  | here {t l} : t.Ok → Last (t :: l) t.name (some (t.f, t.nargs.toNat))
  | bad {t l x r} : ¬ t.Ok → Last l x r → Last (t :: l) x r
  | other {t l x r} : t.name ≠ x → Last l x r → Last (t :: l) x r

/-! ### Registration -/

/-- The tables after a history (last first). -/
def after (quad : Bool) : List (Told Y) → Tables Y
  | [] => ⟨fun _ => none, fun _ => none⟩
  | t :: l => (register quad (after quad l) t.name t.f t.nargs).1

theorem append_ne {a b : String} (h : b ≠ "") : a ++ b ≠ "" := by
  intro e
  have := congrArg String.length e
  rw [String.length_append] at this
  have l0 : ("" : String).length = 0 := rfl
  rw [l0] at this
  exact h (String.length_eq_zero_iff.1 (by omega))

theorem add_bad (T : Table Y) (name : String) (f : Y.Obj) (n : Nat) (h : Y.callable f ≠ true) :
    (add T name f n).1 = T ∧ (add T name f n).2 ≠ "" := by
  rw [add, if_neg h]
  exact ⟨rfl, append_ne (by decide)⟩

/-- It is done exactly if there is an argument and the procedure is callable; else nothing is changed. -/
theorem register_answer (quad : Bool) (T : Tables Y) (t : Told Y) :
    ((register quad T t.name t.f t.nargs).2 = none ↔ t.Ok) ∧
    ((register quad T t.name t.f t.nargs).2 ≠ none → (register quad T t.name t.f t.nargs).1 = T) := by
  unfold register Told.Ok
  by_cases h : t.nargs < 1
  · simp [h]
  · have h1 : (1 : Int) ≤ t.nargs := by omega
    by_cases hc : Y.callable t.f = true
    · cases quad <;> simp [h, h1, add, hc]
    · obtain ⟨d1, d2⟩ := add_bad T.dbl t.name t.f t.nargs.toNat hc
      obtain ⟨q1, _⟩ := add_bad T.ext t.name t.f t.nargs.toNat hc
      rw [if_neg h]
      dsimp only
      rw [if_neg (append_ne d2)]
      refine ⟨⟨fun e => by simp at e, fun e => absurd e.2 hc⟩, fun _ => ?_⟩
      cases quad
      · simp only [Bool.false_eq_true, if_false, d1]
      · simp only [if_true, d1, q1]

theorem register_ok (quad : Bool) (T : Tables Y) (t : Told Y) (h : t.Ok) (x : String) :
    (register quad T t.name t.f t.nargs).1.dbl x = (if x = t.name then some (t.f, t.nargs.toNat) else T.dbl x) ∧
    (register quad T t.name t.f t.nargs).1.ext x =
      (if quad = true ∧ x = t.name then some (t.f, t.nargs.toNat) else T.ext x) := by
  obtain ⟨h1, h2⟩ := h
  have h3 : ¬ t.nargs < 1 := by omega
  cases quad <;> simp [register, h3, add, h2]

/-- A name is what was told last of it, in the precision that is built. -/
theorem registered (quad : Bool) (l : List (Told Y)) (x : String) :
    Last l x ((after quad l).dbl x) ∧ (quad = true → (after quad l).ext x = (after quad l).dbl x) := by
  induction l with
  | nil => exact ⟨.nil, fun _ => rfl⟩
  | cons t l ih =>
    by_cases h : t.Ok
    · obtain ⟨a, b⟩ := register_ok quad (after quad l) t h x
      simp only [after]
      rw [a, b]
      by_cases e : x = t.name
      · subst e
        refine ⟨?_, fun q => by simp [q]⟩
        rw [if_pos rfl]
        exact .here h
      · refine ⟨?_, fun q => ?_⟩
        · rw [if_neg e]
          exact .other (fun h => e h.symm) ih.1
        · rw [if_neg e, if_neg (fun h => e h.2)]
          exact ih.2 q
    · have ra := register_answer quad (after quad l) t
      have e : (register quad (after quad l) t.name t.f t.nargs).1 = after quad l :=
        ra.2 fun hn => h (ra.1.1 hn)
      simp only [after]
      rw [e]
      exact ⟨.bad h ih.1, ih.2⟩

/-- Only one thing was told last. -/
theorem last_unique {l : List (Told Y)} {x : String} {r r' : Option (Y.Obj × Nat)} (h : Last l x r)
    (h' : Last l x r') : r = r' := by
  induction h with
  | nil => cases h'; rfl
  | here ok => cases h' with
    | here => rfl
    | bad n => exact absurd ok n
    | other n => exact absurd rfl n
  | bad n _ ih => cases h' with
    | here ok => exact absurd ok n
    | bad _ q => exact ih q
    | other _ q => exact ih q
  | other n _ ih => cases h' with
    | here => exact absurd rfl n
    | bad _ q => exact ih q
    | other _ q => exact ih q

/-! ### Evaluation -/

theorem row_points {args : List Arg} {n : Nat} (hs : Shaped args n) {j : Nat} (hj : j < n) :
    row args j = some (args.map (Arg.at j)) := by
  unfold row
  induction args with
  | nil => rfl
  | cons a args ih =>
    have hs' : Shaped args n := fun v hv => hs v (List.mem_cons_of_mem _ hv)
    rw [List.mapM_cons, ih hs']
    cases a with
    | scalar x => rfl
    | vector v =>
      have hl := hs v (by simp)
      have : v[j]? = some (v.getD j 0) := by
        rw [List.getD_eq_getElem?_getD, List.getElem?_eq_getElem (by omega)]
        rfl
      dsimp only
      rw [this]
      rfl

theorem fold_pos (args : List Arg) (n : Nat) (hs : Shaped args n) :
    ∀ k, (k = 0 ∨ k = n) → (k = n ∨ Data args) →
    args.foldl elems k = n := by
  induction args with
  | nil =>
    intro k _ h
    rcases h with h | ⟨v, hv⟩
    · exact h
    · simp at hv
  | cons a args ih =>
    intro k hk h
    have hs' : Shaped args n := fun v hv => hs v (List.mem_cons_of_mem _ hv)
    cases a with
    | scalar x =>
      refine ih hs' k hk ?_
      rcases h with h | ⟨v, hv⟩
      · exact .inl h
      · exact .inr ⟨v, by simpa using hv⟩
    | vector v =>
      have hl := hs v (by simp)
      simp only [List.foldl_cons, elems]
      by_cases hz : k = 0
      · rw [if_pos hz]
        exact ih hs' _ (.inr hl) (.inl hl)
      · rw [if_neg hz]
        rcases hk with hk | hk
        · exact absurd hk hz
        · exact ih hs' _ (.inr hk) (.inl hk)

theorem numElems_data {args : List Arg} {n : Nat} (hs : Shaped args n) (hd : Data args) (hn : n ≠ 0) :
    numElems args = n := by
  have := fold_pos args n hs 0 (.inl rfl) (.inr hd)
  rw [numElems, this, if_neg hn]

theorem fold_scalars (xs : List ℝ) (k : Nat) : (xs.map Arg.scalar).foldl elems k = k := by
  induction xs generalizing k with
  | nil => rfl
  | cons x xs ih => exact ih k

theorem numElems_scalars (xs : List ℝ) : numElems (xs.map .scalar) = 1 := by
  rw [numElems, fold_scalars, if_pos rfl]

/-- The loop, from point `k` on. -/
theorem loop_spec (f : Y.Obj) {args : List Arg} {n : Nat} (hs : Shaped args n) : ∀ (m k : Nat), k + m = n →
    ∀ (p : Y.P) (r : List ℝ), r.length = n →
    (∃ v p', Calls f ((List.range' k m).map fun j => args.map (Arg.at j)) p v p' ∧ v.length = m ∧
      loop f args (List.range' k m) p r = (p', some (r.take k ++ v, ""))) ∨
    (∃ i v q p' e, i < m ∧ Calls f ((List.range' k i).map fun j => args.map (Arg.at j)) p v q ∧
      Bad f (args.map (Arg.at (k + i))) q p' e ∧
      ∃ r', loop f args (List.range' k m) p r = (p', some (r', e))) := by
  intro m
  induction m with
  | zero =>
    intro k hk p r hr
    left
    refine ⟨[], p, .nil, rfl, ?_⟩
    have : r.take k = r := List.take_of_length_le (by omega)
    simp [loop, this]
  | succ m ih =>
    intro k hk p r hr
    have hrow := row_points hs (show k < n by omega)
    rw [List.range'_succ]
    simp only [loop, hrow]
    cases hi : Y.invoke f (args.map (Arg.at k)) p with
    | mk q a =>
      cases a with
      | number x =>
        simp only [hr]
        rw [if_pos (by omega)]
        rcases ih (k + 1) (by omega) q (r.set k x) (by simpa using hr) with
          ⟨v, p', c, hv, hl⟩ | ⟨i, v, q', p', e, him, c, b, r', hl⟩
        · left
          refine ⟨x :: v, p', .cons hi c, by simp [hv], ?_⟩
          rw [hl]
          have : (r.set k x).take (k + 1) = r.take k ++ [x] := by
            rw [List.take_add_one, List.take_set_of_le (Nat.le_refl k)]
            simp [List.getElem?_set, hr, show k < n by omega]
          rw [this]
          simp
        · right
          refine ⟨i + 1, x :: v, q', p', e, by omega, ?_, ?_, r', hl⟩
          · rw [List.range'_succ]
            exact .cons hi c
          · have : k + (i + 1) = k + 1 + i := by omega
            rw [this]
            exact b
      | object t =>
        right
        exact ⟨0, [], p, q, _, by omega, .nil, .object hi, r, rfl⟩
      | exception t =>
        right
        exact ⟨0, [], p, q, _, by omega, .nil, .exception hi, r, rfl⟩

theorem bad_text {f : Y.Obj} {xs : List ℝ} {p q : Y.P} {e : String} (h : Bad f xs p q e) : e ≠ "" := by
  cases h <;> simp

/-- A wrong number of arguments is an error, and nothing is called. -/
theorem wrong_count (T : Table Y) (b : String → Option (List Arg → List ℝ × String)) {name : String} {f : Y.Obj} {n : Nat}
    (hT : T name = some (f, n)) {args : List Arg} (h : n ≠ args.length) (vlen : Nat) (p : Y.P) :
    ∃ r e, evalData T b name args vlen p = (p, some (r, e)) ∧ e ≠ "" := by
  refine ⟨List.replicate vlen 0, countMessage n args.length name, ?_, ?_⟩
  · rw [evalData, hT]
    dsimp only
    rw [evalTcl, if_pos h]
  · exact append_ne (by decide)

/-- So it is on numbers. -/
theorem wrong_count_numbers (T : Table Y) (b : String → Option (List ℝ → ℝ × String)) {name : String} {f : Y.Obj} {n : Nat}
    (hT : T name = some (f, n)) {xs : List ℝ} (h : n ≠ xs.length) (p : Y.P) :
    ∃ e, evalNumbers T b name xs p = (p, some (0, e)) ∧ e ≠ "" := by
  have he : countMessage n xs.length name ≠ "" := append_ne (by decide)
  refine ⟨countMessage n xs.length name, ?_, he⟩
  have h' : n ≠ (xs.map Arg.scalar).length := by rwa [List.length_map]
  simp only [evalNumbers, hT]
  rw [evalTcl, if_pos h', List.length_map]
  dsimp only
  rw [if_neg he]

/-- On data the procedure is called once for each point, in order, with the values at the point; the result is what it gives;
if a call gives no number none is made after it, and its error is given. -/
theorem data_calls (T : Table Y) (b : String → Option (List Arg → List ℝ × String)) {name : String} {f : Y.Obj} {c : Nat}
    (hT : T name = some (f, c)) {args : List Arg} (h : c = args.length) {n : Nat} (hn : n ≠ 0) (hs : Shaped args n)
    (hd : Data args) (p : Y.P) :
    (∃ v p', Calls f (points args n) p v p' ∧ evalData T b name args n p = (p', some (v, ""))) ∨
    (∃ i v q p' e r', i < n ∧ Calls f (points args i) p v q ∧ Bad f (args.map (Arg.at i)) q p' e ∧ e ≠ "" ∧
      evalData T b name args n p = (p', some (r', e))) := by
  have he : evalData T b name args n p = loop f args (List.range' 0 n) p (List.replicate n 0) := by
    simp only [evalData, hT, evalTcl, h, ne_eq, not_true_eq_false, if_false]
    rw [numElems_data hs hd hn, fold_pos args n hs 0 (.inl rfl) (.inr hd), if_neg hn, List.range_eq_range']
  rw [he]
  have e0 : ∀ m, points args m = (List.range' 0 m).map fun j => args.map (Arg.at j) := by
    intro m
    rw [points, List.range_eq_range']
  rcases loop_spec f hs n 0 (by omega) p (List.replicate n 0) (by simp) with
    ⟨v, p', cc, hv, hl⟩ | ⟨i, v, q, p', e, him, cc, bb, r', hl⟩
  · left
    refine ⟨v, p', ?_, by rw [hl]; simp⟩
    rw [e0]; exact cc
  · right
    refine ⟨i, v, q, p', e, r', him, ?_, ?_, bad_text bb, hl⟩
    · rw [e0]; exact cc
    · simpa using bb

/-- On numbers it is called once. -/
theorem number_calls (T : Table Y) (b : String → Option (List ℝ → ℝ × String)) {name : String} {f : Y.Obj}
    {xs : List ℝ} (hT : T name = some (f, xs.length)) (p : Y.P) :
    (∃ x p', Y.invoke f xs p = (p', .number x) ∧ evalNumbers T b name xs p = (p', some (x, ""))) ∨
    (∃ p' e, Bad f xs p p' e ∧ e ≠ "" ∧ evalNumbers T b name xs p = (p', some (0, e))) := by
  have hr : row (xs.map .scalar) 0 = some xs := by
    have := row_points (args := xs.map .scalar) (n := 1) (by intro v hv; simp at hv) (j := 0) (by omega)
    rw [this, List.map_map]
    congr 1
    exact List.map_id xs
  have he : evalTcl f xs.length name (xs.map .scalar) [0] p = loop f (xs.map .scalar) [0] p [0] := by
    simp only [evalTcl, List.length_map, ne_eq, not_true_eq_false, if_false]
    rw [fold_scalars, numElems_scalars, if_pos rfl]
    rfl
  simp only [evalNumbers, hT, he, loop, hr]
  cases hi : Y.invoke f xs p with
  | mk q a =>
    cases a with
    | number x => exact .inl ⟨x, q, rfl, by simp⟩
    | object t => exact .inr ⟨q, _, .object hi, by simp, by simp⟩
    | exception t => exact .inr ⟨q, _, .exception hi, by simp, by simp⟩

/-- A procedure that is registered is used also if there is a built in function of the name. -/
theorem before_builtin (T : Table Y) (b b' : String → Option (List Arg → List ℝ × String)) {name : String} {r : Y.Obj × Nat}
    (hT : T name = some r) (args : List Arg) (vlen : Nat) (p : Y.P) :
    evalData T b name args vlen p = evalData T b' name args vlen p := by
  simp [evalData, hT]

end Verif.Reg
