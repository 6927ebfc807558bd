import Verif.ExtSolver.Spec

/-!
What the answers do.
-/

namespace Verif.ExtSolver
open Verif Verif.PyArg Verif.ExtSolver.Spec

theorem hashMap_snoc (L : Lib) (items : List (Py × Py)) (kv : Py × Py) :
    hashMap L (items ++ [kv]) = (hashMap L items).set (getString L kv.1) kv.2 := by
  simp [hashMap, List.foldl_append]

theorem get_hashMap (L : Lib) (items : List (Py × Py)) (k : String) (v : Py) :
    (hashMap L items).get k = some v ↔ Item L items k v := by
  induction items using List.reverseRecOn with
  | nil =>
    constructor
    · intro h; simp [hashMap] at h
    · rintro ⟨pre, key, post, h, _⟩; simp at h
  | append_singleton items kv ih =>
    rw [hashMap_snoc, FMap.get_set]
    by_cases hk : k = getString L kv.1
    · rw [if_pos hk]
      constructor
      · intro h
        have h' := Option.some.inj h
        exact ⟨items, kv.1, [], by rw [← h'], hk.symm, by simp⟩
      · rintro ⟨pre, key, post, h, h1, h2⟩
        rcases List.eq_nil_or_concat post with rfl | ⟨post', q, rfl⟩
        · have := List.append_inj' h (by simp)
          simp only [List.cons.injEq, and_true] at this
          rw [this.2]
        · exfalso
          rw [List.concat_eq_append, ← List.cons_append, ← List.append_assoc] at h
          have := List.append_inj' h (by simp)
          simp only [List.cons.injEq, and_true] at this
          exact h2 q (by simp) (by rw [← this.2]; exact hk.symm)
    · rw [if_neg hk, ih]
      constructor
      · rintro ⟨pre, key, post, h, h1, h2⟩
        refine ⟨pre, key, post ++ [kv], by rw [h]; simp, h1, ?_⟩
        intro q hq
        rcases List.mem_append.1 hq with hq | hq
        · exact h2 q hq
        · simp only [List.mem_singleton] at hq
          subst hq
          exact fun h => hk h.symm
      · rintro ⟨pre, key, post, h, h1, h2⟩
        rcases List.eq_nil_or_concat post with rfl | ⟨post', q, rfl⟩
        · exfalso
          have := List.append_inj' h (by simp)
          simp only [List.cons.injEq, and_true] at this
          exact hk (by rw [this.2]; exact h1.symm)
        · rw [List.concat_eq_append, ← List.cons_append, ← List.append_assoc] at h
          have := List.append_inj' h (by simp)
          exact ⟨pre, key, post', this.1, h1, fun q' hq' => h2 q' (by simp [hq'])⟩

theorem status_iff (L : Lib) (items : List (Py × Py)) : status (hashMap L items) = true ↔ Well L items := by
  unfold status Well
  constructor
  · intro h
    cases hg : (hashMap L items).get "status" with
    | none => rw [hg] at h; simp at h
    | some o => rw [hg] at h; exact ⟨o, (get_hashMap L items _ o).1 hg, h⟩
  · rintro ⟨o, h, ho⟩
    rw [(get_hashMap L items _ o).2 h]
    exact ho

theorem has_hashMap (L : Lib) (items : List (Py × Py)) (k : String) :
    (hashMap L items).has k = true ↔ ∃ o, Item L items k o := by
  unfold FMap.has
  constructor
  · intro h
    obtain ⟨o, ho⟩ := Option.isSome_iff_exists.1 h
    exact ⟨o, (get_hashMap L items k o).1 ho⟩
  · rintro ⟨o, h⟩
    rw [(get_hashMap L items _ o).2 h]
    rfl

/-- **C84**: `init` succeeds exactly if the answer is a dictionary with a true `status`, a `message`, a `solver_object` and the format `"csc"` or
`"csr"`; then the format and the object are the ones that were given. -/
theorem init_iff (L : Lib) (cb : Callback) (n : Nat) (transpose : Bool) (p : Pre) :
    (init L cb n transpose).2 = some p ↔
      p.n = n ∧ p.transpose = transpose ∧ ∃ items f o, (cb [.init transpose n]).1 = .dict items ∧ Well L items ∧
        Item L items "matrix_format" f ∧ getString L f = (if p.crm then "csr" else "csc") ∧
        Item L items "solver_object" p.obj ∧ Item L items "message" o := by
  unfold init
  dsimp only
  cases hr : (cb [.init transpose n]).1 with
  | raised =>
    constructor
    · intro h; simp at h
    · rintro ⟨_, _, items, _, _, h, _⟩; simp at h
  | value o =>
    constructor
    · intro h; simp at h
    · rintro ⟨_, _, items, _, _, h, _⟩; simp at h
  | dict items =>
    dsimp only
    by_cases hk : hasKeys (hashMap L items) ["matrix_format", "solver_object", "status", "message"] = true
    · rw [if_pos hk]
      simp only [hasKeys, List.all_cons, List.all_nil, Bool.and_true, Bool.and_eq_true] at hk
      obtain ⟨k1, k2, k3, k4⟩ := hk
      obtain ⟨f, hf⟩ := (has_hashMap L items _).1 k1
      obtain ⟨o, ho⟩ := (has_hashMap L items _).1 k2
      obtain ⟨me, hme⟩ := (has_hashMap L items _).1 k4
      rw [(get_hashMap L items _ f).2 hf, (get_hashMap L items _ o).2 ho]
      by_cases hs : status (hashMap L items) = true
      · rw [if_pos hs]
        have hw := (status_iff L items).1 hs
        have huniq : ∀ {k : String} {a b : Py}, Item L items k a → Item L items k b → a = b := by
          intro k a b ha hb
          have h1 := (get_hashMap L items k a).2 ha
          have h2 := (get_hashMap L items k b).2 hb
          rw [h1] at h2
          exact Option.some.inj h2
        by_cases h1 : (some f).elim "" (getString L) = "csc"
        · rw [if_pos h1]
          replace h1 : getString L f = "csc" := h1
          dsimp only
          constructor
          · intro h
            have h := Option.some.inj h
            subst h
            exact ⟨rfl, rfl, items, f, me, rfl, hw, hf, h1, ho, hme⟩
          · rintro ⟨e1, e2, items', f', o', e, _, hf', hfs, ho', _⟩
            simp only [Reply.dict.injEq] at e
            subst e
            have := huniq hf hf'
            subst this
            have := huniq ho ho'
            cases p with
            | mk pn pt pc po =>
              dsimp only at *
              subst e1 e2 this
              cases pc with
              | false => rfl
              | true => rw [h1] at hfs; simp at hfs
        · rw [if_neg h1]
          by_cases h2 : (some f).elim "" (getString L) = "csr"
          · rw [if_pos h2]
            replace h2 : getString L f = "csr" := h2
            dsimp only
            constructor
            · intro h
              have h := Option.some.inj h
              subst h
              exact ⟨rfl, rfl, items, f, me, rfl, hw, hf, h2, ho, hme⟩
            · rintro ⟨e1, e2, items', f', o', e, _, hf', hfs, ho', _⟩
              simp only [Reply.dict.injEq] at e
              subst e
              have := huniq hf hf'
              subst this
              have := huniq ho ho'
              cases p with
              | mk pn pt pc po =>
                dsimp only at *
                subst e1 e2 this
                cases pc with
                | true => rfl
                | false => rw [h2] at hfs; simp at hfs
          · rw [if_neg h2]
            constructor
            · intro h; simp at h
            · rintro ⟨_, _, items', f', o', e, _, hf', hfs, _⟩
              exfalso
              simp only [Reply.dict.injEq] at e
              subst e
              have := huniq hf hf'
              subst this
              cases hc : p.crm with
              | true => rw [hc] at hfs; exact h2 hfs
              | false => rw [hc] at hfs; exact h1 hfs
      · rw [if_neg hs]
        constructor
        · intro h; simp at h
        · rintro ⟨_, _, items', _, _, e, hw, _⟩
          simp only [Reply.dict.injEq] at e
          subst e
          exact absurd ((status_iff L items).2 hw) hs
    · rw [if_neg hk]
      constructor
      · intro h; simp at h
      · rintro ⟨_, _, items', f, o, e, ⟨s, hs, _⟩, hf, _, ho, hme⟩
        simp only [Reply.dict.injEq] at e
        subst e
        exfalso
        apply hk
        simp only [hasKeys, List.all_cons, List.all_nil, Bool.and_true, Bool.and_eq_true]
        exact ⟨(has_hashMap L items _).2 ⟨_, hf⟩, (has_hashMap L items _).2 ⟨_, ho⟩, (has_hashMap L items _).2 ⟨_, hs⟩,
          (has_hashMap L items _).2 ⟨_, hme⟩⟩

theorem init_msgs (L : Lib) (cb : Callback) (n : Nat) (transpose : Bool) : (init L cb n transpose).1 = [.init transpose n] := by
  unfold init
  dsimp only
  repeat' split
  all_goals rfl

variable {R : Type}

theorem luFactor_msgs (L : Lib) (C : Conv R) (cb : Callback) (p : Pre) (m : Matrix.Mat R) (h : List Msg) :
    (luFactor L C cb p m h).1 = h ++ [factorMsg C p m] := by
  unfold luFactor
  dsimp only
  repeat' split
  all_goals rfl

/-- **C84**: an answer to `factor` -/
theorem luFactor_spec (L : Lib) (C : Conv R) (cb : Callback) (p : Pre) (m : Matrix.Mat R) (h : List Msg) :
    ((luFactor L C cb p m h).2 = .ok () → Accepted L (cb (h ++ [factorMsg C p m]))) ∧
    ((luFactor L C cb p m h).2 = .failed → FactorFails L (cb (h ++ [factorMsg C p m]))) ∧
    ((luFactor L C cb p m h).2 = .threw → FactorRefused L (cb (h ++ [factorMsg C p m]))) := by
  unfold luFactor
  dsimp only
  generalize cb (h ++ [factorMsg C p m]) = r
  rcases r with ⟨r, fpe⟩
  cases r with
  | raised => exact ⟨by simp, by simp, fun _ => .inl rfl⟩
  | value o => exact ⟨by simp, fun _ => .inl ⟨o, rfl⟩, by simp⟩
  | dict items =>
    dsimp only
    by_cases hs : status (hashMap L items) = true
    · rw [if_pos hs]
      have hw := (status_iff L items).1 hs
      obtain ⟨s, hs1, _⟩ := hw
      have hk : hasKeys (hashMap L items) ["status", "message"] = true ↔ ∃ o, Item L items "message" o := by
        simp only [hasKeys, List.all_cons, List.all_nil, Bool.and_true, Bool.and_eq_true]
        rw [has_hashMap, has_hashMap]
        exact ⟨fun h => h.2, fun h => ⟨⟨s, hs1⟩, h⟩⟩
      have hw := (status_iff L items).1 hs
      by_cases hm : ∃ o, Item L items "message" o
      · cases fpe with
        | false =>
          rw [if_pos (by simp [hk.2 hm])]
          obtain ⟨o, ho⟩ := hm
          exact ⟨fun _ => ⟨rfl, items, o, rfl, hw, ho⟩, by simp, by simp⟩
        | true =>
          rw [if_neg (by simp)]
          exact ⟨by simp, fun _ => .inr ⟨items, rfl, hw, .inl rfl⟩, by simp⟩
      · rw [if_neg (by
          intro hh
          simp only [Bool.and_eq_true] at hh
          exact hm (hk.1 hh.1))]
        exact ⟨by simp, fun _ => .inr ⟨items, rfl, hw, .inr hm⟩, by simp⟩
    · rw [if_neg hs]
      exact ⟨by simp, by simp, fun _ => .inr ⟨items, rfl, fun hw => hs ((status_iff L items).2 hw)⟩⟩

theorem luSolve_msgs (L : Lib) (C : Conv R) (cb : Callback) (p : Pre) (x b : List R) (h : List Msg) :
    (luSolve L C cb p x b h).1 = h ++ [.solve p.obj false (b.map C.toD)] := by
  unfold luSolve
  dsimp only
  repeat' split
  all_goals rfl

theorem get_bind {T : Type} (L : Lib) (items : List (Py × Py)) (get : Py → Option (List T)) (v : List T) :
    ((hashMap L items).get "x").bind get = some v ↔ Numbers L get items v := by
  rw [Option.bind_eq_some_iff]
  constructor
  · rintro ⟨o, h1, h2⟩
    exact ⟨o, (get_hashMap L items _ o).1 h1, h2⟩
  · rintro ⟨o, h1, h2⟩
    exact ⟨o, (get_hashMap L items _ o).2 h1, h2⟩

/-- **C84**: an answer to `solve` -/
theorem luSolve_spec (L : Lib) (C : Conv R) (cb : Callback) (p : Pre) (x b : List R) (h : List Msg) :
    (∀ y, (luSolve L C cb p x b h).2 = .ok y →
      (∃ v, Answers L (getDoubleList L) b.length (cb (h ++ [.solve p.obj false (b.map C.toD)])) v ∧ y = v.map C.ofD) ∨
      ((cb (h ++ [.solve p.obj false (b.map C.toD)])).2 = false ∧
        (∃ o, (cb (h ++ [.solve p.obj false (b.map C.toD)])).1 = .value o) ∧ y = x)) ∧
    ((luSolve L C cb p x b h).2 = .failed → (cb (h ++ [.solve p.obj false (b.map C.toD)])).2 = true ∧
      ¬ SolveRefused L (getDoubleList L) b.length (cb (h ++ [.solve p.obj false (b.map C.toD)]))) ∧
    ((luSolve L C cb p x b h).2 = .threw →
      SolveRefused L (getDoubleList L) b.length (cb (h ++ [.solve p.obj false (b.map C.toD)]))) := by
  unfold luSolve
  dsimp only
  generalize cb (h ++ [.solve p.obj false (b.map C.toD)]) = r
  rcases r with ⟨r, fpe⟩
  cases r with
  | raised => exact ⟨by simp, by simp, fun _ => .inl rfl⟩
  | value o =>
    cases fpe with
    | false =>
      refine ⟨?_, by simp, by simp⟩
      intro y hy
      simp only [Bool.false_eq_true, if_false, Res.ok.injEq] at hy
      exact .inr ⟨rfl, ⟨o, rfl⟩, hy.symm⟩
    | true =>
      refine ⟨by simp, fun _ => ⟨rfl, ?_⟩, by simp⟩
      rintro (h | ⟨items, h, _⟩) <;> simp at h
  | dict items =>
    dsimp only
    by_cases hs : status (hashMap L items) = true
    · rw [if_pos hs]
      have hw := (status_iff L items).1 hs
      cases hx : ((hashMap L items).get "x").bind (getDoubleList L) with
      | none =>
        refine ⟨by simp, by simp, fun _ => .inr ⟨items, rfl, .inr ?_⟩⟩
        rintro ⟨v, hv, _⟩
        rw [(get_bind L items _ v).2 hv] at hx
        simp at hx
      | some v =>
        have hv := (get_bind L items _ v).1 hx
        dsimp only
        by_cases hl : v.length = b.length
        · rw [if_pos hl]
          cases fpe with
          | false =>
            refine ⟨?_, by simp, by simp⟩
            intro y hy
            simp only [Bool.false_eq_true, if_false, Res.ok.injEq] at hy
            exact .inl ⟨v, ⟨rfl, hl, items, rfl, hw, hv⟩, hy.symm⟩
          | true =>
            refine ⟨by simp, fun _ => ⟨rfl, ?_⟩, by simp⟩
            rintro (h | ⟨items', h, h'⟩)
            · simp at h
            · simp only [Reply.dict.injEq] at h
              subst h
              rcases h' with h' | h'
              · exact h' hw
              · exact h' ⟨v, hv, hl⟩
        · rw [if_neg hl]
          refine ⟨by simp, by simp, fun _ => .inr ⟨items, rfl, .inr ?_⟩⟩
          rintro ⟨v', hv', hl'⟩
          have := (get_bind L items _ v').2 hv'
          rw [hx] at this
          rw [Option.some.inj this] at hl
          exact hl hl'
    · rw [if_neg hs]
      exact ⟨by simp, by simp, fun _ => .inr ⟨items, rfl, .inl fun hw => hs ((status_iff L items).2 hw)⟩⟩

theorem luSolveC_msgs (L : Lib) (C : Conv R) (cb : Callback) (p : Pre) (x b : List (R × R)) (h : List Msg) :
    (luSolveC C L cb p x b h).1 = h ++ [.solve p.obj true (interleave (b.map fun z => C.toD z.1) (b.map fun z => C.toD z.2))] := by
  unfold luSolveC
  dsimp only
  repeat' split
  all_goals rfl

/-- **C85**: an answer to `solve` for complex numbers -/
theorem luSolveC_spec (L : Lib) (C : Conv R) (cb : Callback) (p : Pre) (x b : List (R × R)) (h h' : List Msg)
    (hh : h' = h ++ [.solve p.obj true (interleave (b.map fun z => C.toD z.1) (b.map fun z => C.toD z.2))]) :
    (∀ y, (luSolveC C L cb p x b h).2 = .ok y →
      (∃ v, Answers L getComplexList b.length (cb h') v ∧ y = v.map fun z => (C.ofD z.1, C.ofD z.2)) ∨
      ((cb h').2 = false ∧ (∃ o, (cb h').1 = .value o) ∧ y = x)) ∧
    ((luSolveC C L cb p x b h).2 = .failed → (cb h').2 = true ∧ ¬ SolveRefused L getComplexList b.length (cb h')) ∧
    ((luSolveC C L cb p x b h).2 = .threw → SolveRefused L getComplexList b.length (cb h')) := by
  unfold luSolveC
  dsimp only
  rw [← hh]
  generalize cb h' = r
  rcases r with ⟨r, fpe⟩
  cases r with
  | raised => exact ⟨by simp, by simp, fun _ => .inl rfl⟩
  | value o =>
    cases fpe with
    | false =>
      refine ⟨?_, by simp, by simp⟩
      intro y hy
      simp only [Bool.false_eq_true, if_false, Res.ok.injEq] at hy
      exact .inr ⟨rfl, ⟨o, rfl⟩, hy.symm⟩
    | true =>
      refine ⟨by simp, fun _ => ⟨rfl, ?_⟩, by simp⟩
      rintro (h | ⟨items, h, _⟩) <;> simp at h
  | dict items =>
    dsimp only
    by_cases hs : status (hashMap L items) = true
    · rw [if_pos hs]
      have hw := (status_iff L items).1 hs
      cases hx : ((hashMap L items).get "x").bind getComplexList with
      | none =>
        refine ⟨by simp, by simp, fun _ => .inr ⟨items, rfl, .inr ?_⟩⟩
        rintro ⟨v, hv, _⟩
        rw [(get_bind L items _ v).2 hv] at hx
        simp at hx
      | some v =>
        have hv := (get_bind L items _ v).1 hx
        dsimp only
        by_cases hl : v.length = b.length
        · rw [if_pos hl]
          cases fpe with
          | false =>
            refine ⟨?_, by simp, by simp⟩
            intro y hy
            simp only [Bool.false_eq_true, if_false, Res.ok.injEq] at hy
            exact .inl ⟨v, ⟨rfl, hl, items, rfl, hw, hv⟩, hy.symm⟩
          | true =>
            refine ⟨by simp, fun _ => ⟨rfl, ?_⟩, by simp⟩
            rintro (h | ⟨items', h, h'⟩)
            · simp at h
            · simp only [Reply.dict.injEq] at h
              subst h
              rcases h' with h' | h'
              · exact h' hw
              · exact h' ⟨v, hv, hl⟩
        · rw [if_neg hl]
          refine ⟨by simp, by simp, fun _ => .inr ⟨items, rfl, .inr ?_⟩⟩
          rintro ⟨v', hv', hl'⟩
          have := (get_bind L items _ v').2 hv'
          rw [hx] at this
          rw [Option.some.inj this] at hl
          exact hl hl'
    · rw [if_neg hs]
      exact ⟨by simp, by simp, fun _ => .inr ⟨items, rfl, .inl fun hw => hs ((status_iff L items).2 hw)⟩⟩

end Verif.ExtSolver
