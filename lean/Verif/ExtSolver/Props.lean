import Verif.ExtSolver.Loop
import Verif.PyArg.Arrays

/-!
The custom direct solver: what it is told, and what is done with its answers.
-/

namespace Verif.ExtSolver
open Verif Verif.PyArg Verif.ExtSolver.Spec Verif.Matrix Verif.Matrix.Spec

variable {R : Type} [AddZeroClass R] [DecidableEq R]

theorem history_init (L : Lib) (C : Conv R) (cb : Callback) (p : Pre) (dr : Drive R) (symMax : Nat) :
    Spec.History L C cb p dr symMax [.init p.transpose p.n] [] := by
  refine ⟨rfl, ?_, ?_, ?_, ?_⟩
  · intro i m hm
    have := get_lt hm
    simp at this
  · intro i m hm
    have := get_lt hm
    simp at this
  · intro i hi
    simp at hi
  · intro i x hx
    simp at hx

/-- **C84, C85**: every solve with a custom solver, for every solver and every system.  Either the answer to `init` was not usable (see
`init_iff`), there was no other call and there is an error; or the calls and the solutions are as in `Spec.History`, and they ended
as in `Ended`. -/
theorem solve_history (L : Lib) (C : Conv R) (cb : Callback) (n : Nat) (dr : Drive R) (symMax maxIter : Nat) (hfit : Fits n dr)
    (h : List Msg) (xs : List (List R)) (e : End) (he : newton L C cb n dr symMax maxIter = (h, xs, e)) :
    ((init L cb n false).2 = none ∧ h = [.init false n] ∧ xs = [] ∧ e = .threw) ∨
    ∃ p, (init L cb n false).2 = some p ∧ Spec.History L C cb p dr symMax h xs ∧ Ended L cb h xs.length (dr.rhs xs).length e ∧
      (e = .done → dr.go xs = false ∨ xs.length = maxIter) := by
  unfold newton at he
  have hm := init_msgs L cb n false
  cases hi : init L cb n false with
  | mk h0 o =>
    rw [hi] at he hm
    dsimp only at hm
    subst hm
    cases o with
    | none =>
      simp only [Prod.mk.injEq] at he
      obtain ⟨rfl, rfl, rfl⟩ := he
      exact .inl ⟨rfl, rfl, rfl, rfl⟩
    | some p =>
      right
      have hp := (init_iff L cb n false p).1 (by rw [hi])
      obtain ⟨hn, ht, _⟩ := hp
      subst hn
      have H := history_init L C cb p dr symMax
      rw [ht] at H
      have := loop_spec hfit maxIter (new p.n false p.crm) _ [] h xs e H rfl (by simpa using new_ready p.n false p.crm)
        (by simp) he
      obtain ⟨a, b, c, _⟩ := this
      exact ⟨p, rfl, a, b, by simpa using c⟩

/-- the answer to the last of the calls `h` is an error -/
def Refused (L : Lib) (cb : Callback) (h : List Msg) : Prop :=
  match h.getLast? with
  | some (.factor _ _ _ _ _ _) => FactorRefused L (cb h)
  | some (.solve _ _ b) => SolveRefused L (getDoubleList L) b.length (cb h)
  | _ => False

theorem not_accepted_refused {L : Lib} {r : Reply × Bool} (h1 : Accepted L r) : ¬ FactorRefused L r := by
  obtain ⟨_, items, o, e, w, _⟩ := h1
  rintro (h | ⟨items', h, nw⟩)
  · rw [e] at h; simp at h
  · rw [e] at h
    simp only [Reply.dict.injEq] at h
    subst h
    exact nw w

/-- **C86**: no refusal is overlooked.  If the answer to any of the calls is an error - an exception, a status that is not true, a solution
that is missing or has the wrong length - then this was the last call, no solution was used for it and the solve ends with an
error. -/
theorem refusal_stops (L : Lib) (C : Conv R) (cb : Callback) (n : Nat) (dr : Drive R) (symMax maxIter : Nat) (hfit : Fits n dr)
    (h : List Msg) (xs : List (List R)) (e : End) (he : newton L C cb n dr symMax maxIter = (h, xs, e)) (k : Nat) (hk : k ≤ h.length)
    (hr : Refused L cb (h.take k)) : k = h.length ∧ e = .threw := by
  rcases solve_history L C cb n dr symMax maxIter hfit h xs e he with ⟨_, rfl, rfl, rfl⟩ | ⟨p, _, H, hend, _⟩
  · exfalso
    rcases k with _ | k
    · simp [Refused] at hr
    · have : k = 0 := by simpa using hk
      subst this
      simp [Refused] at hr
  · have hkpos : 0 < k := by
      rcases Nat.eq_zero_or_pos k with rfl | h
      · simp [Refused] at hr
      · exact h
    have hget : (h.take k).getLast? = h[k - 1]? := by
      rw [List.getLast?_eq_getElem?, List.length_take, Nat.min_eq_left hk, List.getElem?_take_of_lt (by omega)]
    unfold Refused at hr
    rw [hget] at hr
    rcases Nat.even_or_odd' (k - 1) with ⟨i, hi | hi⟩
    · rcases i with _ | i
      · rw [hi, H.first] at hr
        exact absurd hr (by simp)
      · have hk' : k = 2 * i + 3 := by omega
        have hlt : k - 1 < h.length := by omega
        have hidx : k - 1 = 2 * i + 2 := by omega
        obtain ⟨m, hm⟩ : ∃ m, h[k - 1]? = some m := ⟨h[k - 1], List.getElem?_eq_getElem hlt⟩
        have hs := H.solve i m (by rw [← hidx]; exact hm)
        rw [hm, hs] at hr
        dsimp only at hr
        rw [List.length_map] at hr
        -- a solution used for it would contradict the refusal
        have hx : ¬ i < xs.length := by
          intro hlt
          obtain ⟨x, hx⟩ : ∃ x, xs[i]? = some x := ⟨xs[i], List.getElem?_eq_getElem hlt⟩
          obtain ⟨_, hu⟩ := H.used i x hx
          rw [← hk'] at hu
          rcases hu with ⟨v, ⟨_, hl, items, e1, w, nn⟩, _⟩ | ⟨_, ⟨o, e1⟩, _⟩
          · rcases hr with hr | ⟨items', e2, hr⟩
            · rw [e1] at hr; simp at hr
            · rw [e1] at e2
              simp only [Reply.dict.injEq] at e2
              subst e2
              rcases hr with hr | hr
              · exact hr w
              · exact hr ⟨v, nn, hl⟩
          · rcases hr with hr | ⟨items', e2, _⟩
            · rw [e1] at hr; simp at hr
            · rw [e1] at e2; simp at e2
        cases e with
        | done =>
          have : h.length = 2 * xs.length + 1 := hend
          omega
        | undef => exact absurd hend (by simp [Ended])
        | failed =>
          rcases hend with ⟨hl, _⟩ | ⟨hl, _, hn⟩
          · omega
          · exfalso
            have h1 : i = xs.length := by omega
            have h2 : k = h.length := by omega
            rw [h1, List.take_length, h2, List.take_length] at hr
            exact hn hr
        | threw =>
          rcases hend with ⟨hl, _⟩ | ⟨hl, _⟩
          · omega
          · exact ⟨by omega, rfl⟩
    · have hk' : k = 2 * i + 2 := by omega
      have hlt : k - 1 < h.length := by omega
      obtain ⟨m, hm⟩ : ∃ m, h[k - 1]? = some m := ⟨h[k - 1], List.getElem?_eq_getElem hlt⟩
      obtain ⟨ap, ai, same, vs, hs, _⟩ := H.factor i m (by rw [← hi]; exact hm)
      rw [hm, hs] at hr
      dsimp only at hr
      have hlast : ¬ k < h.length := by
        intro hlt
        have := H.accepted i (by omega)
        rw [← hk'] at this
        exact not_accepted_refused this hr
      have hkl : k = h.length := by omega
      refine ⟨hkl, ?_⟩
      rw [hkl, List.take_length] at hr
      cases e with
      | done =>
        have : h.length = 2 * xs.length + 1 := hend
        omega
      | undef => exact absurd hend (by simp [Ended])
      | failed =>
        exfalso
        rcases hend with ⟨_, hf⟩ | ⟨hl, _⟩
        · rcases hf with ⟨o, ho⟩ | ⟨items, ho, w, _⟩
          · rcases hr with hr | ⟨items', e2, _⟩
            · rw [ho] at hr; simp at hr
            · rw [ho] at e2; simp at e2
          · rcases hr with hr | ⟨items', e2, nw⟩
            · rw [ho] at hr; simp at hr
            · rw [ho] at e2
              simp only [Reply.dict.injEq] at e2
              subst e2
              exact nw w
        · omega
      | threw => rfl

/-- **C85, the part that holds**: if the solver always returns a dictionary, every solution that is used is the one that the solver returned,
number by number, for the right hand side it was given. -/
theorem used_is_returned_partial (L : Lib) (C : Conv R) (cb : Callback) (n : Nat) (dr : Drive R) (symMax maxIter : Nat) (hfit : Fits n dr)
    (h : List Msg) (xs : List (List R)) (e : End) (he : newton L C cb n dr symMax maxIter = (h, xs, e))
    (hdict : ∀ g o, (cb g).1 ≠ .value o) (i : Nat) (x : List R) (hx : xs[i]? = some x) :
    ∃ v, Answers L (getDoubleList L) (dr.rhs (xs.take i)).length (cb (h.take (2 * i + 3))) v ∧ x = v.map C.ofD := by
  rcases solve_history L C cb n dr symMax maxIter hfit h xs e he with ⟨_, _, rfl, _⟩ | ⟨p, _, H, _, _⟩
  · simp at hx
  · rcases (H.used i x hx).2 with h1 | ⟨_, ⟨o, ho⟩, _⟩
    · exact h1
    · exact absurd ho (hdict _ o)

/-- **C85, what is missing**: an answer to `solve` that is not a dictionary is no error; the solution that is used is zero whatever the
system is. -/
theorem not_a_dictionary (L : Lib) (C : Conv R) (cb : Callback) (p : Pre) (m : Mat R) (b : List R) (h : List Msg) (o : Py)
    (hacc : (luFactor L C cb p m h).2 = .ok ()) (hcb : cb (h ++ [factorMsg C p m, .solve p.obj false (b.map C.toD)]) = (.value o, false)) :
    (directSolve L C cb p m (List.replicate p.n 0) b h).2 = .ok (List.replicate p.n 0) := by
  unfold directSolve
  have fm := luFactor_msgs L C cb p m h
  cases hf : luFactor L C cb p m h with
  | mk h1 r =>
    rw [hf] at hacc fm
    dsimp only at hacc fm
    subst hacc fm
    dsimp only
    unfold luSolve
    dsimp only
    rw [List.append_assoc]
    simp only [List.cons_append, List.nil_append]
    rw [hcb]
    simp

/-- **C84**: the solution of the systems.  If each answer solves the system that the solver was told - whatever matrix and vector the arrays
stand for - then each solution that is used solves the system that was assembled. -/
theorem honest_solver (L : Lib) {R : Type} [CommSemiring R] [DecidableEq R] (C : Conv R) (cb : Callback) (n : Nat) (dr : Drive R)
    (symMax maxIter : Nat) (hfit : Fits n dr)
    (h : List Msg) (xs : List (List R)) (e : End) (he : newton L C cb n dr symMax maxIter = (h, xs, e)) (hdict : ∀ g o, (cb g).1 ≠ .value o)
    (p : Pre) (hp : (init L cb n false).2 = some p)
    (honest : ∀ (i : ℕ) ap ai same (vs b : List R) v k, h[2 * i + 1]? = some (.factor p.obj ap ai same false (vs.map C.toD)) →
      h[2 * i + 2]? = some (.solve p.obj false (b.map C.toD)) →
      Answers L (getDoubleList L) k (cb (h.take (2 * i + 3))) v →
      ∀ A, Represents n ap ai vs A → ∀ r, r < n →
        ((List.range n).map fun c => byLine p.crm A r c * ((v.map C.ofD)[c]?).getD 0).sum = (b[r]?).getD 0)
    (i : Nat) (x : List R) (hx : xs[i]? = some x) (r : Nat) (hr : r < n) :
    ((List.range n).map fun c => value false r c 0 (dr.assemble (xs.take i)) * (x[c]?).getD 0).sum =
      ((dr.rhs (xs.take i))[r]?).getD 0 := by
  rcases solve_history L C cb n dr symMax maxIter hfit h xs e he with ⟨h0, _⟩ | ⟨p', hp', H, _, _⟩
  · rw [h0] at hp; simp at hp
  · rw [hp] at hp'
    have := Option.some.inj hp'
    subst this
    have hpn : p.n = n := ((init_iff L cb n false p).1 hp).1
    obtain ⟨hlen, hu⟩ := H.used i x hx
    rcases hu with ⟨v, ha, rfl⟩ | ⟨_, ⟨o, ho⟩, _⟩
    · obtain ⟨m1, hm1⟩ : ∃ m, h[2 * i + 1]? = some m := ⟨h[2 * i + 1], List.getElem?_eq_getElem (by omega)⟩
      obtain ⟨m2, hm2⟩ : ∃ m, h[2 * i + 2]? = some m := ⟨h[2 * i + 2], List.getElem?_eq_getElem hlen⟩
      obtain ⟨ap, ai, same, vs, rfl, hrep, _⟩ := H.factor i m1 hm1
      have := H.solve i m2 hm2
      subst this
      rw [hpn] at hrep
      have key := honest i ap ai same vs _ v _ hm1 hm2 ha _ hrep r hr
      have hinv : ∀ (A : Nat → Nat → R) r c, byLine p.crm (byLine p.crm A) r c = A r c := by
        intro A r c
        unfold byLine
        cases p.crm <;> rfl
      simp only [hinv] at key
      exact key
    · exact absurd ho (hdict _ o)

/-! ### Complex systems -/

theorem interleave_get {A : Type} : ∀ (xs ys : List A), xs.length = ys.length → (interleave xs ys).length = 2 * xs.length ∧
    ∀ i, (interleave xs ys)[2 * i]? = xs[i]? ∧ (interleave xs ys)[2 * i + 1]? = ys[i]?
  | [], [], _ => by simp [interleave]
  | [], _ :: _, h => by simp at h
  | _ :: _, [], h => by simp at h
  | x :: xs, y :: ys, h => by
    obtain ⟨hl, hg⟩ := interleave_get xs ys (by simpa using h)
    refine ⟨by simp [interleave, hl]; omega, ?_⟩
    intro i
    cases i with
    | zero => simp [interleave]
    | succ i =>
      have := hg i
      simp only [interleave]
      rw [show 2 * (i + 1) = 2 * i + 1 + 1 from by omega]
      simpa using this

/-- **C85**: a small-signal solve (`transpose = false`) or a noise solve (`transpose = true`), for every solver and every system whose matrix has
a non-zero number in every row and column: the calls are `init`, `factor` and `solve`, with the assembled matrix (not transposed; the real and
imaginary parts of the entries in turns) and right hand side; what is used is the answer, or zero if that is not a dictionary. -/
theorem ac_history (L : Lib) (C : Conv R) (cb : Callback) (n : Nat) (transpose : Bool) (ops : List (Op R)) (b : List (R × R))
    (hin : ∀ o ∈ ops, InRange n true o ∧ IsAdd o) (hfull : ∀ l, l < n → ∀ crm, ∃ o ∈ ops, Touches crm l o)
    (h : List Msg) (r : Option (Res (List (R × R)))) (he : acSolve L C cb n transpose ops b = (h, r)) :
    ((init L cb n transpose).2 = none ∧ h = [.init transpose n] ∧ r = some .threw) ∨
    ∃ p ap ai same re im, (init L cb n transpose).2 = some p ∧
      Represents n ap ai re (byLine p.crm fun r c => value false r c 0 ops) ∧
      Represents n ap ai im (byLine p.crm fun r c => value true r c 0 ops) ∧
      let h2 := [Msg.init transpose n, .factor p.obj ap ai same true ((interleave re im).map C.toD)]
      let h3 := h2 ++ [.solve p.obj true (interleave (b.map fun z => C.toD z.1) (b.map fun z => C.toD z.2))]
      (h = h2 ∧ r = some .threw ∧ FactorRefused L (cb h2)) ∨
      (h = h2 ∧ r = some .failed ∧ FactorFails L (cb h2)) ∨
      (h = h3 ∧ Accepted L (cb h2) ∧
        ((r = some .threw ∧ SolveRefused L getComplexList b.length (cb h3)) ∨
         (r = some .failed ∧ (cb h3).2 = true) ∨
         (∃ v, r = some (.ok (v.map fun z => (C.ofD z.1, C.ofD z.2))) ∧ Answers L getComplexList b.length (cb h3) v) ∨
         (r = some (.ok (List.replicate n (0, 0))) ∧ (cb h3).2 = false ∧ ∃ o, (cb h3).1 = .value o))) := by
  unfold acSolve at he
  have hm := init_msgs L cb n transpose
  cases hi : init L cb n transpose with
  | mk h0 o =>
    rw [hi] at he hm
    dsimp only at hm
    subst hm
    cases o with
    | none =>
      simp only [Prod.mk.injEq] at he
      obtain ⟨rfl, rfl⟩ := he
      exact .inl ⟨rfl, rfl, rfl⟩
    | some p =>
      right
      obtain ⟨m1, e1, cx, rep, _, _⟩ := round_ready (new_ready n true p.crm) ops hin (fun _ l hl => hfull l hl p.crm)
      dsimp only at he
      rw [e1] at he
      dsimp only at he
      refine ⟨p, m1.ap, m1.ai, m1.sameSym, m1.x false, m1.x true, rfl, rep false (by simp), rep true (by simp), ?_⟩
      have hmsg : factorMsg C p m1 = .factor p.obj m1.ap m1.ai m1.sameSym true ((interleave (m1.x false) (m1.x true)).map C.toD) := by
        unfold factorMsg
        rw [cx]
        simp
      have fm := luFactor_msgs L C cb p m1 [.init transpose n]
      obtain ⟨fo, ff, ft⟩ := luFactor_spec L C cb p m1 [.init transpose n]
      unfold directSolveC at he
      cases hfr : luFactor L C cb p m1 [.init transpose n] with
      | mk h1 r1 =>
        rw [hfr] at he fo ff ft fm
        dsimp only at fo ff ft fm
        rw [hmsg] at fm fo ff ft
        simp only [List.cons_append, List.nil_append] at fm fo ff ft
        subst fm
        cases r1 with
        | threw =>
          simp only [Prod.mk.injEq] at he
          obtain ⟨rfl, rfl⟩ := he
          exact .inl ⟨rfl, rfl, ft rfl⟩
        | failed =>
          simp only [Prod.mk.injEq] at he
          obtain ⟨rfl, rfl⟩ := he
          exact .inr (.inl ⟨rfl, rfl, ff rfl⟩)
        | ok u =>
          dsimp only at he
          refine .inr (.inr ?_)
          have sm := luSolveC_msgs L C cb p (List.replicate n (0, 0)) b
            [Msg.init transpose n, .factor p.obj m1.ap m1.ai m1.sameSym true ((interleave (m1.x false) (m1.x true)).map C.toD)]
          obtain ⟨so, sf, st⟩ := luSolveC_spec L C cb p (List.replicate n (0, 0)) b
            [Msg.init transpose n, .factor p.obj m1.ap m1.ai m1.sameSym true ((interleave (m1.x false) (m1.x true)).map C.toD)] _ rfl
          cases hsr : luSolveC C L cb p (List.replicate n (0, 0)) b
            [Msg.init transpose n, .factor p.obj m1.ap m1.ai m1.sameSym true ((interleave (m1.x false) (m1.x true)).map C.toD)] with
          | mk h2 r2 =>
            rw [hsr] at he so sf st sm
            dsimp only at so sf st sm
            simp only [Prod.mk.injEq] at he
            obtain ⟨rfl, rfl⟩ := he
            refine ⟨sm, fo rfl, ?_⟩
            cases r2 with
            | threw => exact .inl ⟨rfl, st rfl⟩
            | failed => exact .inr (.inl ⟨rfl, (sf rfl).1⟩)
            | ok y =>
              rcases so y rfl with ⟨v, ha, hy⟩ | ⟨e1, e2, rfl⟩
              · exact .inr (.inr (.inl ⟨v, by rw [hy], ha⟩))
              · exact .inr (.inr (.inr ⟨rfl, e1, e2⟩))

/-! ### Which solver is used -/

/-- **C87**: a solver that is asked for is the one that is used, or there is an error; no other one is taken instead.  Without a request, it is
MKL if it was found, and else the custom solver, which must be set and callable. -/
theorem solver_used (L : Lib) (B : Build) (direct : Option Py) (callback : Option Bool) (s : Solver) :
    create L B direct callback = some s ↔
      match direct with
      | some o => (s = .mkl ∧ getString L o = "mkl_pardiso" ∧ B.mkl = true) ∨ (s = .superlu ∧ getString L o = "superlu" ∧ B.superlu = true) ∨
          (s = .custom ∧ getString L o = "custom" ∧ callback = some true)
      | none => (s = .mkl ∧ B.mkl = true ∧ B.mklLoaded = true) ∨
          (s = .custom ∧ ¬ (B.mkl = true ∧ B.mklLoaded = true) ∧ callback = some true) := by
  unfold create getDirectSolver
  cases direct with
  | none =>
    dsimp only
    by_cases hb : B.mkl = true ∧ B.mklLoaded = true
    · rw [if_pos (by simp [hb])]
      simp only [hb, true_and, and_true, not_true_eq_false, false_and, and_false, or_false, Option.some.injEq]
      exact eq_comm
    · rw [if_neg (by simpa using hb)]
      dsimp only
      by_cases hc : callback = some true
      · rw [if_pos hc]
        simp only [hb, hc, Option.some.injEq, and_false, false_or, not_false_eq_true, and_true]
        exact eq_comm
      · rw [if_neg hc]
        simp [hb, hc]
  | some o =>
    dsimp only
    generalize getString L o = v
    by_cases h1 : v = "mkl_pardiso"
    · subst h1
      cases hm : B.mkl <;> cases s <;> simp
    · rw [if_neg h1]
      by_cases h2 : v = "superlu"
      · subst h2
        cases hm : B.superlu <;> cases s <;> simp
      · rw [if_neg h2]
        by_cases h3 : v = "custom"
        · subst h3
          cases callback with
          | none => simp
          | some c => cases c <;> cases s <;> simp
        · rw [if_neg h3]
          simp [h1, h2, h3]

/-! ### What is taken as a complex solution -/

/-- the sixteen bytes of a complex number: real part, imaginary part, least significant byte first -/
def bytes16 (z : F64 × F64) : List Byte := enc 8 z.1.toNat ++ enc 8 z.2.toNat

/-- C85: bytes, or a vector of eight byte items (with type code `d`, or without one), that hold complex numbers are read as these numbers … -/
theorem complex_read (zs : List (F64 × F64)) (hz : zs ≠ []) (o : Py)
    (ho : arrayInfo o = some ("", 0, zs.flatMap bytes16) ∨ arrayInfo o = some ("d", 8, zs.flatMap bytes16) ∨
      arrayInfo o = some ("", 8, zs.flatMap bytes16)) : getComplexList o = some zs := by
  have hlen : ∀ n : Nat, (enc 8 n).length = 8 := fun n => enc_length 8 n
  have hc : chunks 16 (zs.flatMap bytes16) = zs.map bytes16 := by
    have := chunks_flatMap 16 (by omega) (zs.map bytes16) (by
      intro c hc
      obtain ⟨z, _, rfl⟩ := List.mem_map.mp hc
      simp [bytes16, hlen])
    rw [← List.flatMap_def] at this
    exact this
  have hl : ∀ x : F64, BitVec.ofNat 64 (le (enc 8 x.toNat)) = x := by
    exact fun x => dec64 x
  have hm : (zs.map bytes16).map (fun c => (BitVec.ofNat 64 (le (c.take 8)), BitVec.ofNat 64 (le (c.drop 8)))) = zs := by
    rw [List.map_map]
    conv => rhs; rw [← List.map_id zs]
    apply List.map_congr_left
    intro z _
    simp only [Function.comp, bytes16, id_eq]
    rw [List.take_left' (hlen _), List.drop_left' (hlen _), hl, hl]
  unfold getComplexList
  rcases ho with ho | ho | ho <;> (rw [ho]; dsimp only; rw [if_pos (by simp), hc, if_neg (by simpa using hz), hm])

/-- … and everything else is refused: lists, and vectors whose items are not eight bytes long or have another type code (so a numpy vector of
`complex128`). -/
theorem complex_refused (o : Py) (h : ∀ tc isz b, arrayInfo o = some (tc, isz, b) → (tc = "" ∧ isz ≠ 0 ∧ isz ≠ 8) ∨ (tc = "d" ∧ isz ≠ 8) ∨
    (tc ≠ "" ∧ tc ≠ "d")) : getComplexList o = none := by
  unfold getComplexList
  cases ha : arrayInfo o with
  | none => rfl
  | some p =>
    obtain ⟨tc, isz, b⟩ := p
    dsimp only
    rw [if_neg]
    rcases h tc isz b ha with ⟨h1, h2, h3⟩ | ⟨h1, h2⟩ | ⟨h1, h2⟩ <;> simp [*]

example : getComplexList (.seq [.flt 0, .flt 0]) = none := complex_refused _ (by intro _ _ _ h; simp [arrayInfo] at h)
example (b : List Byte) (l : List Py) : getComplexList (.arr none 16 b l) = none :=
  complex_refused _ (by intro _ _ _ h; simp [arrayInfo] at h; simp [← h.1, ← h.2.1])
example : getComplexList (.bytes ([(5, 7), (0, 1)].flatMap bytes16)) = some [(5, 7), (0, 1)] := complex_read _ (by simp) _ (.inl rfl)

end Verif.ExtSolver
