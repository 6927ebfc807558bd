import Verif.ExtSolver.Mat
import Verif.ExtSolver.Replies

/-!
The history of a whole solve.
-/

namespace Verif.ExtSolver
open Verif Verif.PyArg Verif.ExtSolver.Spec Verif.Matrix Verif.Matrix.Spec

variable {R : Type} [AddZeroClass R] [DecidableEq R]

theorem get_snoc {A : Type} {l : List A} {a b : A} {i : Nat} (h : (l ++ [a])[i]? = some b) :
    l[i]? = some b ∨ (i = l.length ∧ b = a) := by
  rcases lt_trichotomy i l.length with hi | hi | hi
  · rw [List.getElem?_append_left hi] at h
    exact .inl h
  · subst hi
    simp only [List.getElem?_concat_length, Option.some.injEq] at h
    exact .inr ⟨rfl, h.symm⟩
  · rw [List.getElem?_eq_none (by simp; omega)] at h
    simp at h

theorem get_app {A : Type} {l t : List A} {b : A} {i : Nat} (h : l[i]? = some b) : (l ++ t)[i]? = some b := by
  have hi : i < l.length := by
    by_contra hc
    rw [List.getElem?_eq_none (by omega)] at h
    simp at h
  rw [List.getElem?_append_left hi]
  exact h

theorem get_lt {A : Type} {l : List A} {b : A} {i : Nat} (h : l[i]? = some b) : i < l.length := by
  by_contra hc
  rw [List.getElem?_eq_none (by omega)] at h
  simp at h

theorem take_app {A : Type} {l t : List A} {k : Nat} (h : k ≤ l.length) : (l ++ t).take k = l.take k :=
  List.take_append_of_le_length h

variable {L : Lib} {C : Conv R} {cb : Callback} {p : Pre} {dr : Drive R} {symMax : Nat}

/-- a call of `factor` is made -/
theorem History.factorCall {h : List Msg} {xs : List (List R)} (H : Spec.History L C cb p dr symMax h xs) (hl : h.length = 2 * xs.length + 1)
    {ap ai : List Nat} {same : Bool} {vs : List R}
    (hrep : Represents p.n ap ai vs (byLine p.crm fun r c => value false r c 0 (dr.assemble xs)))
    (hsame : same = true → symMax ≤ xs.length ∧
      ∃ j same' ax', xs.length = j + 1 ∧ h[2 * j + 1]? = some (.factor p.obj ap ai same' false ax')) :
    Spec.History L C cb p dr symMax (h ++ [.factor p.obj ap ai same false (vs.map C.toD)]) xs := by
  refine ⟨get_app H.first, ?_, ?_, ?_, ?_⟩
  · intro i m hm
    rcases get_snoc hm with hm | ⟨hi, rfl⟩
    · obtain ⟨ap, ai, same, vs, e, r, s⟩ := H.factor i m hm
      refine ⟨ap, ai, same, vs, e, r, fun hs => ?_⟩
      obtain ⟨a, j, b, c, d, f⟩ := s hs
      exact ⟨a, j, b, c, d, get_app f⟩
    · have : i = xs.length := by omega
      subst this
      refine ⟨ap, ai, same, vs, rfl, by rw [List.take_length]; exact hrep, fun hs => ?_⟩
      obtain ⟨a, j, b, c, d, f⟩ := hsame hs
      exact ⟨a, j, b, c, d, get_app f⟩
  · intro i m hm
    rcases get_snoc hm with hm | ⟨hi, rfl⟩
    · exact H.solve i m hm
    · omega
  · intro i hi
    simp only [List.length_append, List.length_cons, List.length_nil] at hi
    rw [take_app (by omega)]
    exact H.accepted i (by omega)
  · intro i x hx
    obtain ⟨a, b⟩ := H.used i x hx
    have hi := get_lt hx
    rw [take_app (by omega)]
    exact ⟨by simp; omega, b⟩

/-- a call of `solve` is made -/
theorem History.solveCall {h : List Msg} {xs : List (List R)} (H : Spec.History L C cb p dr symMax h xs) (hl : h.length = 2 * xs.length + 2)
    (hacc : Accepted L (cb h)) :
    Spec.History L C cb p dr symMax (h ++ [.solve p.obj false ((dr.rhs xs).map C.toD)]) xs := by
  refine ⟨get_app H.first, ?_, ?_, ?_, ?_⟩
  · intro i m hm
    rcases get_snoc hm with hm | ⟨hi, rfl⟩
    · obtain ⟨ap, ai, same, vs, e, r, s⟩ := H.factor i m hm
      refine ⟨ap, ai, same, vs, e, r, fun hs => ?_⟩
      obtain ⟨a, j, b, c, d, f⟩ := s hs
      exact ⟨a, j, b, c, d, get_app f⟩
    · omega
  · intro i m hm
    rcases get_snoc hm with hm | ⟨hi, rfl⟩
    · exact H.solve i m hm
    · have : i = xs.length := by omega
      subst this
      rw [List.take_length]
  · intro i hi
    simp only [List.length_append, List.length_cons, List.length_nil] at hi
    rcases Nat.lt_or_ge (2 * i + 2) h.length with hlt | hge
    · rw [take_app (by omega)]
      exact H.accepted i hlt
    · have : 2 * i + 2 = h.length := by omega
      rw [this, List.take_left]
      exact hacc
  · intro i x hx
    obtain ⟨a, b⟩ := H.used i x hx
    have hi := get_lt hx
    rw [take_app (by omega)]
    exact ⟨by simp; omega, b⟩

/-- a solution is used -/
theorem History.use {h : List Msg} {xs : List (List R)} (H : Spec.History L C cb p dr symMax h xs) (hl : h.length = 2 * xs.length + 3)
    {x : List R} (hx : (∃ v, Answers L (getDoubleList L) (dr.rhs xs).length (cb h) v ∧ x = v.map C.ofD) ∨
      (cb h).2 = false ∧ (∃ o, (cb h).1 = .value o) ∧ x = List.replicate p.n 0) :
    Spec.History L C cb p dr symMax h (xs ++ [x]) := by
  refine ⟨H.first, ?_, ?_, H.accepted, ?_⟩
  · intro i m hm
    have := get_lt hm
    rw [take_app (by omega)]
    exact H.factor i m hm
  · intro i m hm
    have := get_lt hm
    rw [take_app (by omega)]
    exact H.solve i m hm
  · intro i y hy
    rcases get_snoc hy with hy | ⟨hi, rfl⟩
    · have := get_lt hy
      rw [take_app (by omega)]
      exact H.used i y hy
    · subst hi
      rw [take_app (Nat.le_refl _), List.take_length, List.take_of_length_le (by omega)]
      exact ⟨by omega, hx⟩

/-- How the calls end (`k`: number of the solutions that were used, `b`: length of the right hand side of the last system). -/
def Ended (L : Lib) (cb : Callback) (h : List Msg) (k b : Nat) : End → Prop
  | .threw => (h.length = 2 * k + 2 ∧ FactorRefused L (cb h)) ∨ (h.length = 2 * k + 3 ∧ SolveRefused L (getDoubleList L) b (cb h))
  | .failed => (h.length = 2 * k + 2 ∧ FactorFails L (cb h)) ∨
      (h.length = 2 * k + 3 ∧ (cb h).2 = true ∧ ¬ SolveRefused L (getDoubleList L) b (cb h))
  | .done => h.length = 2 * k + 1
  | .undef => False

/-- all entries are inside of the matrix, and the first assembly puts a non-zero number into every row and every column -/
structure Fits (n : Nat) (dr : Drive R) : Prop where
  inside : ∀ xs, ∀ o ∈ dr.assemble xs, InRange n false o ∧ IsAdd o
  full : ∀ l, l < n → ∀ crm, ∃ o ∈ dr.assemble [], Touches crm l o

theorem loop_spec (hfit : Fits p.n dr) : ∀ (fuel : Nat) (m : Mat R) (h : List Msg) (xs : List (List R)) (h' : List Msg)
    (xs' : List (List R)) (e : End), Spec.History L C cb p dr symMax h xs → h.length = 2 * xs.length + 1 →
    Ready (p.n, false, p.crm) m (decide (xs ≠ [])) →
    (∀ j, xs.length = j + 1 → ∃ same ax, h[2 * j + 1]? = some (.factor p.obj m.ap m.ai same false ax)) →
    loop L C cb p dr symMax fuel xs.length m h xs = (h', xs', e) →
    Spec.History L C cb p dr symMax h' xs' ∧ Ended L cb h' xs'.length (dr.rhs xs').length e ∧
      (e = .done → dr.go xs' = false ∨ xs'.length = xs.length + fuel) ∧ (∃ t, xs' = xs ++ t) := by
  intro fuel
  induction fuel with
  | zero =>
    intro m h xs h' xs' e H hl hm hlast he
    simp only [loop, Prod.mk.injEq] at he
    obtain ⟨rfl, rfl, rfl⟩ := he
    exact ⟨H, hl, fun _ => .inr rfl, [], by simp⟩
  | succ fuel ih =>
    intro m h xs h' xs' e H hl hm hlast he
    rw [loop] at he
    by_cases hgo : dr.go xs = true
    · rw [if_pos hgo] at he
      obtain ⟨m1, e1, cx, rep, same, nxt⟩ := round_ready hm (dr.assemble xs) (hfit.inside xs) (by
        intro hs l hln
        have : xs = [] := by simpa using hs
        subst this
        exact hfit.full l hln p.crm)
      rw [e1] at he
      dsimp only at he
      -- the matrix that is sent
      obtain ⟨b, hb, hbs⟩ : ∃ b, (if xs.length < symMax then { m1 with sameSym := false } else m1) = { m1 with sameSym := b } ∧
          (b = true → symMax ≤ xs.length ∧ m1.sameSym = true) := by
        by_cases hi : xs.length < symMax
        · exact ⟨false, by rw [if_pos hi], by simp⟩
        · exact ⟨m1.sameSym, by rw [if_neg hi], fun h => ⟨by omega, h⟩⟩
      rw [hb] at he
      have hmsg : factorMsg C p { m1 with sameSym := b } = .factor p.obj m1.ap m1.ai b false ((m1.x false).map C.toD) := by
        unfold factorMsg
        dsimp only
        rw [cx]
        simp
      have H1 : Spec.History L C cb p dr symMax (h ++ [factorMsg C p { m1 with sameSym := b }]) xs := by
        rw [hmsg]
        refine History.factorCall H hl (rep false (by simp)) ?_
        intro hbt
        obtain ⟨a, c⟩ := hbs hbt
        obtain ⟨st, d1, d2⟩ := same c
        refine ⟨a, ?_⟩
        have : xs ≠ [] := by simpa using st
        obtain ⟨j, hj⟩ : ∃ j, xs.length = j + 1 := ⟨xs.length - 1, by
          have := List.length_pos_iff.2 this
          omega⟩
        obtain ⟨sm, ax, hs⟩ := hlast j hj
        exact ⟨j, sm, ax, hj, by rw [d1, d2]; exact hs⟩
      have hl1 : (h ++ [factorMsg C p { m1 with sameSym := b }]).length = 2 * xs.length + 2 := by simp; omega
      obtain ⟨fo, ff, ft⟩ := luFactor_spec L C cb p { m1 with sameSym := b } h
      have fm := luFactor_msgs L C cb p { m1 with sameSym := b } h
      unfold directSolve at he
      cases hfr : luFactor L C cb p { m1 with sameSym := b } h with
      | mk h1 r1 =>
        rw [hfr] at he fo ff ft fm
        dsimp only at fo ff ft fm
        subst fm
        cases r1 with
        | threw =>
          simp only [Prod.mk.injEq] at he
          obtain ⟨rfl, rfl, rfl⟩ := he
          exact ⟨H1, .inl ⟨hl1, ft rfl⟩, by simp, [], by simp⟩
        | failed =>
          simp only [Prod.mk.injEq] at he
          obtain ⟨rfl, rfl, rfl⟩ := he
          exact ⟨H1, .inl ⟨hl1, ff rfl⟩, by simp, [], by simp⟩
        | ok u =>
          dsimp only at he
          have hacc := fo rfl
          generalize hh1 : h ++ [factorMsg C p { m1 with sameSym := b }] = h1 at *
          have H2 := History.solveCall H1 hl1 hacc
          obtain ⟨so, sf, st⟩ := luSolve_spec L C cb p (List.replicate p.n 0) (dr.rhs xs) h1
          have sm := luSolve_msgs L C cb p (List.replicate p.n 0) (dr.rhs xs) h1
          have hl2 : (h1 ++ [Msg.solve p.obj false ((dr.rhs xs).map C.toD)]).length = 2 * xs.length + 3 := by simp; omega
          cases hsr : luSolve L C cb p (List.replicate p.n 0) (dr.rhs xs) h1 with
          | mk h2 r2 =>
            rw [hsr] at he so sf st sm
            dsimp only at so sf st sm
            subst sm
            cases r2 with
            | threw =>
              simp only [Prod.mk.injEq] at he
              obtain ⟨rfl, rfl, rfl⟩ := he
              exact ⟨H2, .inr ⟨hl2, st rfl⟩, by simp, [], by simp⟩
            | failed =>
              simp only [Prod.mk.injEq] at he
              obtain ⟨rfl, rfl, rfl⟩ := he
              exact ⟨H2, .inr ⟨hl2, sf rfl⟩, by simp, [], by simp⟩
            | ok x =>
              dsimp only at he
              have H3 := History.use H2 hl2 (so x rfl)
              obtain ⟨rd, rap, rai⟩ := nxt b
              have hlen : (xs ++ [x]).length = xs.length + 1 := by simp
              have key := ih (clear { m1 with sameSym := b }) _ (xs ++ [x]) h' xs' e H3 (by rw [hl2, hlen]; omega)
                (by simpa using rd) (by
                  intro j hj
                  have hj' : j = xs.length := by omega
                  subst hj'
                  refine ⟨b, (m1.x false).map C.toD, ?_⟩
                  rw [rap, rai, ← hh1, hmsg, List.append_assoc]
                  have : 2 * xs.length + 1 = h.length := by omega
                  rw [this]
                  simp) (by rw [hlen]; exact he)
              obtain ⟨k1, k2, k3, t, k4⟩ := key
              refine ⟨k1, k2, ?_, x :: t, by rw [k4]; simp⟩
              intro hd
              rcases k3 hd with k | k
              · exact .inl k
              · exact .inr (by rw [k, hlen]; omega)
    · rw [if_neg hgo] at he
      simp only [Prod.mk.injEq] at he
      obtain ⟨rfl, rfl, rfl⟩ := he
      exact ⟨H, hl, fun _ => .inl (by simpa using hgo), [], by simp⟩

end Verif.ExtSolver
