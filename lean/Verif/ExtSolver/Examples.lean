import Verif.ExtSolver.Converge
import Mathlib.Data.BitVec

/-!
Concrete cases: a solver for systems whose matrix is the identity.
-/

namespace Verif.ExtSolver.Examples
open Verif Verif.PyArg Verif.ExtSolver Verif.ExtSolver.Spec Verif.Matrix Verif.Matrix.Spec

/-- a library that knows no texts -/
def lib : Lib := ⟨fun _ => none, fun _ => none, fun _ => none, fun _ => "", fun _ => ""⟩

/-- numbers are bit patterns -/
def conv : Conv F64 := ⟨id, id⟩

/-- the answer `{"status": True, "message": "ok", ...}` -/
def fine (more : List (Py × Py)) : Reply × Bool := (.dict ([(.str "status", .bool true), (.str "message", .str "ok")] ++ more), false)

/-- returns the right hand side -/
def cb : Callback := fun h =>
  match h.getLast? with
  | some (.init _ _) => fine [(.str "matrix_format", .str "csr"), (.str "solver_object", .int 7)]
  | some (.solve _ _ b) => fine [(.str "x", .seq (b.map .flt))]
  | _ => fine []

/-- forgets to return something for `solve` -/
def cbNone : Callback := fun h =>
  match h.getLast? with
  | some (.solve _ _ _) => (.value (.other false), false)
  | _ => cb h

/-- gives up at the second system -/
def cbStop : Callback := fun h =>
  match h.getLast? with
  | some (.factor _ _ _ true _ _) => (.dict [(.str "status", .bool false)], false)
  | _ => cb h

/-- a matrix of one row, the right hand side 5, and two systems -/
def dr : Drive F64 := ⟨fun _ => [.add false 0 0 1], fun _ => [5], fun xs => xs.length < 2⟩

theorem dr_fits : Fits 1 dr := by
  constructor
  · intro xs o ho
    have : o = .add false 0 0 1 := by simpa [dr] using ho
    subst this
    exact ⟨⟨by decide, by decide, by decide⟩, trivial⟩
  · intro l hl crm
    have : l = 0 := by omega
    subst this
    refine ⟨.add false 0 0 1, by simp [dr], ?_⟩
    cases crm <;> exact ⟨rfl, by decide⟩

/-- the calls of the solve: two systems, the second with the same structure -/
theorem run_cb : newton lib conv cb 1 dr 0 20 = ([.init false 1, .factor (.int 7) [0, 1] [0] false false [1], .solve (.int 7) false [5],
    .factor (.int 7) [0, 1] [0] true false [1], .solve (.int 7) false [5]], [[5], [5]], .done) := rfl

/-- with `symbolic_iteration_limit` 2 nothing is declared to be the same -/
theorem run_symbolic : newton lib conv cb 1 dr 2 20 = ([.init false 1, .factor (.int 7) [0, 1] [0] false false [1], .solve (.int 7) false [5],
    .factor (.int 7) [0, 1] [0] false false [1], .solve (.int 7) false [5]], [[5], [5]], .done) := rfl

/-- nothing is returned, and zero is used as the solution -/
theorem run_none : (newton lib conv cbNone 1 dr 0 20).2 = ([[0], [0]], .done) := rfl

/-- a refusal -/
theorem run_stop : (newton lib conv cbStop 1 dr 0 20).2 = ([[5]], .threw) := rfl

/-- **C85** does not hold in full: the solution that is used is not one that the solver returned -/
theorem used_is_returned_counterexample : ∃ (cb : Callback) (h : List Msg) (xs : List (List F64)) (x : List F64),
    newton lib conv cb 1 dr 0 20 = (h, xs, .done) ∧ xs[0]? = some x ∧
    ¬ ∃ v, Answers lib (getDoubleList lib) 1 (cb (h.take 3)) v := by
  refine ⟨cbNone, _, _, _, rfl, rfl, ?_⟩
  rintro ⟨v, _, _, items, h, _⟩
  exact Reply.noConfusion h

example : ∃ x, (newton lib conv cb 1 dr 0 20).2.1[1]? = some x ∧
    ∃ v, Answers lib (getDoubleList lib) 1 (cb ((newton lib conv cb 1 dr 0 20).1.take 5)) v ∧ x = v.map conv.ofD := by
  rw [run_cb]
  refine ⟨[5], rfl, ?_⟩
  exact used_is_returned_partial lib conv cb 1 dr 0 20 dr_fits _ _ _ run_cb (by
    intro g o
    unfold cb fine
    split <;> exact fun h => Reply.noConfusion h) 1 [5] rfl

/-- the refusal of the second system is the last call -/
example : (4 : Nat) = (newton lib conv cbStop 1 dr 0 20).1.length ∧ (newton lib conv cbStop 1 dr 0 20).2.2 = .threw := by
  refine refusal_stops lib conv cbStop 1 dr 0 20 dr_fits _ _ _ rfl 4 (by decide) ?_
  refine .inr ⟨_, rfl, ?_⟩
  rw [← status_iff]
  decide

/-- the answers of `cb` solve the systems -/
example (i : Nat) (x : List F64) (hx : ([[5], [5]] : List (List F64))[i]? = some x) :
    ((List.range 1).map fun c => value false 0 c 0 (dr.assemble (([[5], [5]] : List (List F64)).take i)) * (x[c]?).getD 0).sum =
      ((dr.rhs (([[5], [5]] : List (List F64)).take i))[0]?).getD 0 := by
  refine honest_solver lib conv cb 1 dr 0 20 dr_fits _ _ _ run_cb (by
    intro g o
    unfold cb fine
    split <;> exact fun h => Reply.noConfusion h) ⟨1, false, true, .int 7⟩ rfl ?_ i x hx 0 (by decide)
  intro i ap ai same vs b v k h1 h2 ha A hA r hr
  have hr0 : r = 0 := by omega
  subst hr0
  have hv : v = b ∧ vs = [1] ∧ ap = [0, 1] ∧ ai = [0] ∧ b.length = 1 := by
    obtain ⟨_, _, items, hi, _, o, ho, hg⟩ := ha
    rcases i with _ | _ | i
    · simp only [Nat.mul_zero, Nat.zero_add, List.getElem?_cons_succ, List.getElem?_cons_zero, Option.some.injEq, Msg.factor.injEq,
        Msg.solve.injEq, conv, List.map_id_fun, id] at h1 h2
      simp only [Nat.mul_zero, Nat.zero_add, List.take_succ_cons, List.take_zero] at hi
      have hi' := Reply.dict.inj hi
      subst hi'
      have := (get_hashMap lib _ "x" o).2 ho
      have : o = .seq [.flt 5] := (Option.some.inj this).symm
      subst this
      have : v = [5] := (Option.some.inj hg).symm
      obtain ⟨_, rfl, rfl, _, _, rfl⟩ := h1
      obtain ⟨_, _, rfl⟩ := h2
      exact ⟨this, rfl, rfl, rfl, rfl⟩
    · simp only [Nat.mul_one, Nat.zero_add, List.getElem?_cons_succ, List.getElem?_cons_zero, Option.some.injEq, Msg.factor.injEq,
        Msg.solve.injEq, conv, List.map_id_fun, id] at h1 h2
      have hi' := Reply.dict.inj hi
      subst hi'
      have := (get_hashMap lib _ "x" o).2 ho
      have : o = .seq [.flt 5] := (Option.some.inj this).symm
      subst this
      have : v = [5] := (Option.some.inj hg).symm
      obtain ⟨_, rfl, rfl, _, _, rfl⟩ := h1
      obtain ⟨_, _, rfl⟩ := h2
      exact ⟨this, rfl, rfl, rfl, rfl⟩
    · exfalso
      have := get_lt h1
      simp at this
      omega
  obtain ⟨rfl, rfl, rfl, rfl, hb⟩ := hv
  have hA0 : A 0 0 = 1 := by
    obtain ⟨b', e', hb', he', _, hl, _⟩ := hA.line 0 (by decide)
    simp only [List.getElem?_cons_zero, List.getElem?_cons_succ, Option.some.injEq, Nat.zero_add] at hb' he'
    subst hb' he'
    obtain ⟨k, _, hk, hx⟩ := hl 0 (by decide) (by decide)
    simp only [List.getElem?_cons_zero, Option.some.injEq] at hk hx
    rw [← hk] at hx
    exact hx.symm
  have hone : byLine true A 0 0 = 1 := hA0
  simp only [List.range_succ, List.range_zero, List.nil_append, List.map_cons, List.map_nil, List.sum_cons, List.sum_nil, hone, conv,
    List.map_id_fun, id]
  simp

/-- a complex system of one unknown: 2 + 3i, right hand side 5 + i; the answer has one number too many, which is not noticed -/
def cbAc : Callback := fun h =>
  match h.getLast? with
  | some (.solve _ _ _) => fine [(.str "x", .bytes (List.replicate 24 1))]
  | _ => cb h

theorem run_ac : acSolve lib conv cbAc 1 true [.addComplex 0 0 2 3] [(5, 1)] =
    ([.init true 1, .factor (.int 7) [0, 1] [0] false true [2, 3], .solve (.int 7) true [5, 1]],
      some (.ok [(0x0101010101010101, 0x0101010101010101)])) := rfl

/-- a list of numbers is not accepted for complex systems -/
def cbList : Callback := fun h =>
  match h.getLast? with
  | some (.solve _ _ _) => fine [(.str "x", .seq [.flt 1, .flt 2])]
  | _ => cb h

theorem run_ac_list : (acSolve lib conv cbList 1 false [.addComplex 0 0 2 3] [(5, 1)]).2 = some .threw := rfl

example : ∃ v, Answers lib getComplexList 1 (cbAc (acSolve lib conv cbAc 1 true [.addComplex 0 0 2 3] [(5, 1)]).1) v := by
  have h := ac_history lib conv cbAc 1 true [.addComplex 0 0 2 3] [(5, 1)] (by
    intro o ho
    simp only [List.mem_singleton] at ho
    subst ho
    exact ⟨⟨by decide, by decide, rfl⟩, trivial⟩) (by
    intro l hl crm
    have : l = 0 := by omega
    subst this
    refine ⟨_, List.mem_singleton.2 rfl, ?_⟩
    cases crm <;> exact ⟨rfl, .inl (by decide)⟩) _ _ run_ac
  rcases h with ⟨h, _⟩ | ⟨p, ap, ai, same, re, im, _, _, _, h⟩
  · exact absurd h (by simp [init, cbAc, cb, fine, hashMap, getString, FMap.set, FMap.get, hasKeys, status, getBoolean, FMap.has])
  · rw [run_ac]
    rcases h with ⟨_, h, _⟩ | ⟨_, h, _⟩ | ⟨h3, _, ⟨h, _⟩ | ⟨h, _⟩ | ⟨v, _, h⟩ | ⟨_, _, o, h⟩⟩
    · simp at h
    · simp at h
    · simp at h
    · simp at h
    · exact ⟨v, by rw [← h3] at h; exact h⟩
    · rw [← h3] at h
      exact Reply.noConfusion h

/-- a request that cannot be met is an error, also if another solver is there -/
example : create lib ⟨true, false, true⟩ (some (.str "superlu")) (some true) = none := by decide
example : create lib ⟨true, false, false⟩ none (some true) = some .custom := by decide

open Verif.Newton in
/-- a device with one equation, and a solver that returns nothing: `solve` reports convergence, the potential is still 1 -/
example : ∃ (P : Problem) (w w1 : World) (info : IterInfo) (r : Region), w1.devices = [[r]] ∧ r.eqs ≠ [] ∧
    r.models "V" = some (.solution fun _ => 1) ∧ NoError info ∧
    Newton.solve P ⟨1, 1, 1, 1, 20, 20⟩ ⟨.dcOnly, 0, 0, 0, 0, 0, 0, 0⟩ w = (w1, .returned true [info]) := by
  classical
  let ms : Models := fun x => if x = "V" then some (.solution fun _ => 1) else none
  let r : Region := ⟨1, 0, [⟨"e", "V", 0, .default, 1⟩], ["V"], ms⟩
  let r1 : Region := { r with models := ms.set "V_prev" fun _ => 1 }
  let h0 : History := ⟨[], [], [], [], [], []⟩
  let C : Conv ℝ := ⟨fun _ => 0, fun _ => 0⟩
  let p : Pre := ⟨1, false, false, .int 7⟩
  let P : Problem := ⟨1, fun _ _ _ => toLin (directSolve lib C cbNone p (new 1 false false) (List.replicate 1 0) [5] [.init false 1]).2,
    fun _ => none, fun _ => none, fun _ => true⟩
  have hV : r1.models "V" = some (.solution fun _ => 1) := by
    show Models.set ms "V_prev" (fun _ => 1) "V" = _
    unfold Models.set
    rw [Function.update_of_ne (by decide)]
    rfl
  have hb : backup ({ devices := [[r]], circuit := none, hist := h0 } : World) = (⟨[[r1]], none, h0⟩, true) := by
    have hbv : backupVar ms "V" = some (ms.set "V_prev" fun _ => 1) := by
      have h1 : ms "V" = some (.solution fun _ => 1) := rfl
      have h2 : ms ("V" ++ "_prev") = none := by
        show (if "V" ++ "_prev" = "V" then _ else _) = _
        rw [if_neg (by decide)]
      unfold backupVar
      rw [h1]
      dsimp only
      rw [h2]
      rfl
    simp only [backup, loopDevices, loopRegions, loopVars, r, hbv, Option.map_none]
    rfl
  obtain ⟨info, hn, hs⟩ := none_converges P ⟨1, 1, 1, 1, 20, 20⟩ ⟨.dcOnly, 0, 0, 0, 0, 0, 0, 0⟩
    ⟨[[r]], none, h0⟩ ⟨[[r1]], none, h0⟩ rfl (by norm_num) (by norm_num) (by norm_num) (by norm_num) hb
    (by
      intro d hd r' hr' e he
      simp only [List.mem_singleton] at hd
      subst hd
      simp only [List.mem_singleton] at hr'
      subst hr'
      have : e = ⟨"e", "V", 0, .default, 1⟩ := by simpa [r1, r] using he
      subst this
      exact ⟨_, hV, by intro h; simp at h⟩)
    (by intro c hc; simp at hc) rfl lib C cbNone p (new 1 false false) [5] [.init false 1] (.other false) rfl rfl rfl
  exact ⟨P, _, _, info, r1, rfl, by simp [r1, r], hV, hn, hs⟩

end Verif.ExtSolver.Examples
