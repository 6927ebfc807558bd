import Verif.Ckt.Cmds

/-! Examples and counterexamples for C94. -/
namespace Verif.Ckt.Examples
open Verif
open Verif.Ckt.Spec
open Verif.Circuit (pointerRow)

abbrev C := Cmd Nat ℚ
abbrev W := World Nat ℚ

/-- a divider: a source of 5 V, resistors of 1 and 5 Ohm; then the source is altered to 6 V and the second resistor to 2 Ohm -/
def divider : List C := [.element "V1" "1" "0" 5 1 0, .element "R1" "1" "2" 1 0 0, .element "R2" "2" "0" 5 0 0, .alter "R2" "" 2, .alter "V1" "V" 6,
  .alter "V1" "acimag" 3]
def solve : C := .solve 0 [(0, fun _ => 0)]
def solved : W := run World.init (divider ++ [solve])

theorem divider_elements : elements solved = [.voltage (some 0) none 1 6, .resistor (some 0) (some 2) 1, .resistor (some 2) none 2] ∧
    acRhs solved = [(1, 1, 3)] ∧ pointerRow solved.st "1" = some 0 ∧ pointerRow solved.st "2" = some 2 := by
  refine ⟨?_, ?_, ?_, ?_⟩ <;> rfl

/-- its solution: 6 V, 4 V and the current -2 A of the source -/
def sol : Nat → ℚ := fun i => if i = 0 then 6 else if i = 1 then -2 else if i = 2 then 4 else 0

theorem sol_solves : ∀ r, Elements.rowSum r (Elements.assembleDC (elements solved) sol).2 = 0 := by
  intro r
  rw [divider_elements.1]
  have : r = 0 ∨ r = 1 ∨ r = 2 ∨ (r ≠ 0 ∧ r ≠ 1 ∧ r ≠ 2) := by omega
  rcases this with rfl | rfl | rfl | ⟨h0, h1, h2⟩
  · norm_num [Elements.assembleDC, sol, Elements.dcRhs, Elements.rowSum, Elements.push1, Elements.volt]
  · norm_num [Elements.assembleDC, sol, Elements.dcRhs, Elements.rowSum, Elements.push1, Elements.volt]
  · norm_num [Elements.assembleDC, sol, Elements.dcRhs, Elements.rowSum, Elements.push1, Elements.volt]
  · simp [Elements.assembleDC, sol, Elements.dcRhs, Elements.rowSum, Elements.push1, Elements.volt, h0.symm, h1.symm, h2.symm]

/-- the account of the divider -/
def told : Account ℚ := fun n => if n = "V1" then some ⟨.V, "1", "0", 6, 1, 3⟩ else if n = "R1" then some ⟨.R, "1", "2", 1, 0, 0⟩
  else if n = "R2" then some ⟨.R, "2", "0", 2, 0, 0⟩ else none

theorem divider_shows : Shows solved told := by
  obtain ⟨A, _, h⟩ := story (divider ++ [solve])
  have : A = told := by
    funext n
    have he := h.elem n
    have ho := h.obj n
    have hac := h.ac n
    have e1 : (run World.init (divider ++ [solve]) : W).st.elems =
      [("V1", ⟨.V, "1", "0", some "V1.I"⟩), ("R1", ⟨.R, "1", "2", none⟩), ("R2", ⟨.R, "2", "0", none⟩)] := rfl
    have e2 : (run World.init (divider ++ [solve]) : W).objs = [("V1", .voltage 6 1 3), ("R1", .resistor 1), ("R2", .resistor 2)] := rfl
    rw [e1] at he
    rw [e2] at ho
    unfold told
    by_cases h1 : n = "V1"
    · subst h1
      rw [if_pos rfl]
      cases hA : A "V1" with
      | none => rw [hA] at ho; simp [FMap.get] at ho
      | some t =>
        rw [hA] at he ho
        obtain ⟨k, n1, n2, a, b, c⟩ := t
        simp only [FMap.get, if_true, Option.map_some, Option.some.injEq, Circuit.Elem.mk.injEq] at he ho
        obtain ⟨rfl, rfl, rfl, _⟩ := he
        simp only [make, Obj.voltage.injEq] at ho
        obtain ⟨rfl, rfl, rfl⟩ := ho
        rfl
    rw [if_neg h1]
    by_cases h2 : n = "R1"
    · subst h2
      rw [if_pos rfl]
      cases hA : A "R1" with
      | none => rw [hA] at ho; simp [FMap.get] at ho
      | some t =>
        rw [hA] at he ho
        have hac := hac t hA
        obtain ⟨k, n1, n2, a, b, c⟩ := t
        simp [FMap.get] at he ho
        obtain ⟨rfl, rfl, rfl, _⟩ := he
        simp [make, addParam] at ho hac
        obtain ⟨rfl, rfl⟩ := hac
        subst ho
        rfl
    rw [if_neg h2]
    by_cases h3 : n = "R2"
    · subst h3
      rw [if_pos rfl]
      cases hA : A "R2" with
      | none => rw [hA] at ho; simp [FMap.get] at ho
      | some t =>
        rw [hA] at he ho
        have hac := hac t hA
        obtain ⟨k, n1, n2, a, b, c⟩ := t
        simp [FMap.get] at he ho
        obtain ⟨rfl, rfl, rfl, _⟩ := he
        simp [make, addParam] at ho hac
        obtain ⟨rfl, rfl⟩ := hac
        subst ho
        rfl
    rw [if_neg h3]
    cases hA : A n with
    | none => rfl
    | some t => rw [hA] at ho; simp [FMap.get, Ne.symm h1, Ne.symm h2, Ne.symm h3] at ho
  rw [this] at h
  exact h

/-- the laws apply to it: the voltage of the source is the one it was altered to -/
example : Elements.volt sol (pointerRow solved.st "1") - Elements.volt sol (pointerRow solved.st "0") = 6 := by
  obtain ⟨l, _, _, h⟩ := solution_laws divider 0 [(0, fun _ => 0)] told divider_shows sol sol_solves
  refine h "V1" ⟨.V, "1", "0", 6, 1, 3⟩ rfl (.inl rfl) ?_
  intro e t ht
  unfold told at ht
  split at ht
  · cases ht; decide
  split at ht
  · cases ht; decide
  split at ht
  · cases ht; decide
  · cases ht

/-- elements are refused once there is a solution; a parameter can still be altered -/
theorem after_a_solution : (step solved (.element "R3" "2" "0" 1 0 0)).2 = .raised ∧ (step solved (.alter "R1" "value" 3)).2 = .empty := by
  constructor <;> rfl

/-- what is refused -/
theorem refused : (step (run World.init divider : W) (.element "R1" "1" "0" 1 0 0)).2 ≠ .empty ∧
    (step (run World.init divider : W) (.element "X1" "1" "0" 1 0 0)).2 ≠ .empty ∧
    (step (run World.init divider : W) (.element "R3" "1" "0" 1 2 0)).2 ≠ .empty ∧
    (step (run World.init divider : W) (.alter "R1" "V" 1)).2 ≠ .empty ∧
    (step (run World.init divider : W) (.alter "R4" "R" 1)).2 ≠ .empty := by
  refine ⟨?_, ?_, ?_, ?_, ?_⟩ <;> decide

/-- F141: a refused `circuit_element` leaves the nodes behind that it made, and the branch node of a refused second source: after the next
analysis each has a row in which no element puts anything. -/
theorem refused_leaves_nodes :
    (step (World.init : W) (.element "X1" "a" "b" 1 0 0)).2 ≠ .empty ∧
    (let w := run (World.init : W) [.element "X1" "a" "b" 1 0 0, solve]
     elements w = [] ∧ pointerRow w.st "a" = some 0 ∧ pointerRow w.st "b" = some 1) ∧
    (step (run World.init divider : W) (.element "R1" "c" "d" 1 0 0)).2 ≠ .empty ∧
    (run World.init (divider ++ [.element "R1" "c" "d" 1 0 0]) : W).st.table.has "c" = true := by
  refine ⟨by decide, ⟨rfl, rfl, rfl⟩, by decide, by decide⟩

/-- a source with the name of another one but in lower case is another one -/
theorem case_matters : (step (run World.init divider : W) (.element "v1" "2" "0" 1 0 0)).2 = .empty := by rfl

/-- F142: a resistor of 0 Ohm is accepted: `pow(0, -1)` is infinite (here `0⁻¹` is 0) and the equations of its nodes have no numbers -/
theorem zero_resistor : (step (run World.init divider : W) (.alter "R1" "R" 0)).2 = .empty := by rfl

end Verif.Ckt.Examples
