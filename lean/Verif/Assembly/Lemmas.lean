import Verif.Assembly.Spec
import Mathlib.Tactic.Ring
import Mathlib.Tactic.LinearCombination
import Mathlib.Algebra.BigOperators.Ring.List

namespace Verif.Assembly

theorem collect_some {α β : Type} {l : List α} {f : α → Option (List β)} {m : List β}
    (h : collect l f = some m) :
    (∀ a ∈ l, ∃ b, f a = some b) ∧ m = l.flatMap (fun a => (f a).getD []) := by
  induction l generalizing m with
  | nil => simp [collect] at h; simp [h]
  | cons a as ih =>
    simp only [collect] at h
    cases hf : f a with
    | none => simp [hf] at h
    | some b =>
      cases hc : collect as f with
      | none => simp [hf, hc] at h
      | some c =>
        simp [hf, hc] at h
        obtain ⟨h1, h2⟩ := ih hc
        refine ⟨?_, ?_⟩
        · intro x hx
          rcases List.mem_cons.1 hx with rfl | hx
          · exact ⟨b, hf⟩
          · exact h1 x hx
        · simp [hf, ← h2, h]

theorem allSome_eq {α : Type} {l : List (Option α)} {r : List α} (h : allSome l = some r) :
    l = r.map some := by
  induction l generalizing r with
  | nil => simp [allSome] at h; simp [h]
  | cons a as ih =>
    cases a with
    | none => simp [allSome] at h
    | some a =>
      simp only [allSome, Option.map_eq_some_iff] at h
      obtain ⟨r', h1, h2⟩ := h
      rw [← h2, ih h1]; rfl

section
variable {K : Type} [CommRing K]

@[simp] theorem rowSum_nil (r : Nat) : rowSum ([] : List (VEntry K)) r = 0 := rfl
@[simp] theorem rowSum_cons (e : VEntry K) (v : List (VEntry K)) (r : Nat) :
    rowSum (e :: v) r = (if e.1 = r then e.2 else 0) + rowSum v r := rfl
theorem rowSum_append (a b : List (VEntry K)) (r : Nat) :
    rowSum (a ++ b) r = rowSum a r + rowSum b r := by simp [rowSum]
@[simp] theorem matVec_nil (d : Nat → K) (r : Nat) : matVec ([] : List (MEntry K)) d r = 0 := rfl
@[simp] theorem matVec_cons (e : MEntry K) (v : List (MEntry K)) (d : Nat → K) (r : Nat) :
    matVec (e :: v) d r = (if e.1 = r then e.2.2 * d e.2.1 else 0) + matVec v d r := rfl
theorem matVec_append (a b : List (MEntry K)) (d : Nat → K) (r : Nat) :
    matVec (a ++ b) d r = matVec a d r + matVec b d r := by simp [matVec]

theorem rowSum_flatMap {α : Type} (l : List α) (f : α → List (VEntry K)) (r : Nat) :
    rowSum (l.flatMap f) r = (l.map fun a => rowSum (f a) r).sum := by
  induction l with
  | nil => rfl
  | cons a as ih => simp [List.flatMap_cons, rowSum_append, ih]

theorem matVec_flatMap {α : Type} (l : List α) (f : α → List (MEntry K)) (d : Nat → K) (r : Nat) :
    matVec (l.flatMap f) d r = (l.map fun a => matVec (f a) d r).sum := by
  induction l with
  | nil => rfl
  | cons a as ih => simp [List.flatMap_cons, matVec_append, ih]

/-- The part of an element edge in row `r`. -/
def weight (g : Topo) (eq : Nat) (n0s n1s : K) (r : Nat) (s : Site) : K :=
  (if g.num eq s.n0 = r then n0s else 0) + (if g.num eq s.n1 = r then n1s else 0)

theorem rowSum_siteRHS (g : Topo) (eq : Nat) (sites : List Site) (flux : Nat → K) (n0s n1s : K) (r : Nat) :
    rowSum (siteRHS g eq sites flux n0s n1s) r =
      (sites.map fun s => weight g eq n0s n1s r s * flux s.idx).sum := by
  rw [siteRHS, rowSum_flatMap]
  congr 1
  refine List.map_congr_left fun s _ => ?_
  simp only [rowSum_cons, rowSum_nil, weight]
  split <;> split <;> ring

theorem list_sum_mul_left {α : Type} (l : List α) (f : α → K) (c : K) :
    (l.map fun a => c * f a).sum = c * (l.map f).sum := by
  induction l with
  | nil => simp
  | cons a as ih => simp [ih, mul_add]

theorem matVec_siteJacobian (g : Topo) (eq eqv : Nat) (sites : List Site) (d0 d1 : Nat → K)
    (dopp : List (Nat → K)) (n0s n1s : K) (d : Nat → K) (r : Nat) :
    matVec (siteJacobian g eq eqv sites d0 d1 dopp n0s n1s) d r =
      (sites.map fun s => weight g eq n0s n1s r s *
        (d0 s.idx * d (g.num eqv s.n0) + d1 s.idx * d (g.num eqv s.n1) +
          ((s.opp.zip dopp).map fun (o, f) => f s.idx * d (g.num eqv o)).sum)).sum := by
  rw [siteJacobian, matVec_flatMap]
  congr 1
  refine List.map_congr_left fun s _ => ?_
  rw [matVec_append, matVec_flatMap]
  have : (List.map (fun a => matVec
      [(g.num eq s.n0, g.num eqv a.1, n0s * a.2 s.idx),
       (g.num eq s.n1, g.num eqv a.1, n1s * a.2 s.idx)] d r) (s.opp.zip dopp)).sum =
      weight g eq n0s n1s r s * ((s.opp.zip dopp).map fun (o, f) => f s.idx * d (g.num eqv o)).sum := by
    rw [← list_sum_mul_left]
    congr 1
    refine List.map_congr_left fun a _ => ?_
    simp only [matVec_cons, matVec_nil, weight]
    split <;> split <;> ring
  rw [this]
  simp only [matVec_cons, matVec_nil, weight]
  split <;> split <;> ring

end

theorem hasDerivAt_list_sum {α : Type} (l : List α) (f : α → ℝ → ℝ) (f' : α → ℝ) (t0 : ℝ)
    (h : ∀ a ∈ l, HasDerivAt (f a) (f' a) t0) :
    HasDerivAt (fun t => (l.map fun a => f a t).sum) ((l.map f').sum) t0 := by
  induction l with
  | nil => simpa using hasDerivAt_const t0 (0 : ℝ)
  | cons a as ih =>
    simp only [List.map_cons, List.sum_cons]
    exact (h a (by simp)).add (ih fun b hb => h b (by simp [hb]))

theorem list_sum_comm {K : Type} [CommRing K] {α β : Type} (l : List α) (k : List β) (f : α → β → K) :
    (l.map fun a => (k.map fun b => f a b).sum).sum = (k.map fun b => (l.map fun a => f a b).sum).sum := by
  induction l with
  | nil => simp
  | cons a as ih =>
    simp only [List.map_cons, List.sum_cons, ih]
    rw [← List.sum_map_add]

theorem IsJacobianAlong.andThen {A B : ℝ → Option (List (MEntry ℝ) × List (VEntry ℝ))} {t0 : ℝ}
    {d : Nat → ℝ} (ha : IsJacobianAlong A t0 d) (hb : IsJacobianAlong B t0 d) :
    IsJacobianAlong (fun t => Assembly.andThen (A t) (B t)) t0 d := by
  intro out hout r
  have h1 : ∀ t, ∃ a b, A t = some a ∧ B t = some b ∧ out t = (a.1 ++ b.1, a.2 ++ b.2) := by
    intro t
    have := hout t
    cases hA : A t with
    | none => simp [Assembly.andThen, hA] at this
    | some a =>
      cases hB : B t with
      | none => simp [Assembly.andThen, hA, hB] at this
      | some b =>
        simp [Assembly.andThen, hA, hB] at this
        exact ⟨a, b, rfl, rfl, this.symm⟩
  choose a b h using h1
  have e1 : (fun t => rowSum (out t).2 r) = fun t => rowSum (a t).2 r + rowSum (b t).2 r := by
    funext t; rw [(h t).2.2]; exact rowSum_append ..
  rw [e1, (h t0).2.2, matVec_append]
  exact (ha a (fun t => (h t).1) r).add (hb b (fun t => (h t).2.1) r)

theorem IsJacobianAlong.whenA {A : ℝ → Option (List (MEntry ℝ) × List (VEntry ℝ))} {t0 : ℝ}
    {d : Nat → ℝ} {c : Bool} (ha : c = true → IsJacobianAlong A t0 d) :
    IsJacobianAlong (fun t => Assembly.whenA c (A t)) t0 d := by
  cases c with
  | true => simpa [Assembly.whenA] using ha rfl
  | false =>
    intro out hout r
    have : ∀ t, out t = ([], []) := by
      intro t; have := hout t; simp [Assembly.whenA] at this; exact this.symm
    simp only [this]
    simpa using hasDerivAt_const t0 (0 : ℝ)

theorem IsJacobianAlong.empty (t0 : ℝ) (d : Nat → ℝ) :
    IsJacobianAlong (fun _ => some ([], [])) t0 d := by
  intro out hout r
  have : ∀ t, out t = ([], []) := by
    intro t; have := hout t; simp at this; exact this.symm
  simp only [this]
  simpa using hasDerivAt_const t0 (0 : ℝ)

end Verif.Assembly
