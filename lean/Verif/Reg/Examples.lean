import Mathlib.Tactic.NormNum
import Verif.Reg.Main
/-!
# Concrete procedures
-/
namespace Verif.Reg

/-- A Python with one procedure that counts its calls and gives the sum of its arguments and the count; it raises an exception
if the first argument is negative. -/
noncomputable def counting : Python := open Classical in
  { P := ℕ, Obj := Bool, callable := id
    invoke := fun _ xs p => (p + 1, if xs.getD 0 0 < 0 then .exception "negative" else .number (xs.sum + p)) }

/-- The procedure was called so often. -/
noncomputable def calls (n : ℕ) : counting.P := n

/-- It is registered, then a thing that cannot be called under the same name, then with no arguments. -/
def story : List (Told counting) := [⟨"f", true, 0⟩, ⟨"f", false, 2⟩, ⟨"f", true, 2⟩]

theorem story_last : Last story "f" (some (true, 2)) := by
  have h1 : ¬ (⟨"f", true, 0⟩ : Told counting).Ok := by
    rintro ⟨h, -⟩
    exact absurd h (by decide)
  have h2 : ¬ (⟨"f", false, 2⟩ : Told counting).Ok := by
    rintro ⟨-, h⟩
    exact absurd (show false = true from h) (by decide)
  have h3 : (⟨"f", true, 2⟩ : Told counting).Ok := ⟨by decide, rfl⟩
  exact .bad h1 (.bad h2 (.here h3))

theorem story_table : (after true story).dbl "f" = some (true, 2) := last_unique (registered true story "f").1 story_last

theorem story_ext : (after true story).ext "f" = some (true, 2) := by
  rw [(registered true story "f").2 rfl, story_table]

def data : List Arg := [.vector [10, 20, 30], .scalar 1]

theorem shaped : Shaped data 3 := by
  intro v hv
  simp only [data, List.mem_cons, Arg.vector.injEq, reduceCtorEq, List.not_mem_nil, or_false] at hv
  rw [hv]; rfl

theorem isData : Data data := ⟨[10, 20, 30], by simp [data]⟩

theorem the_points : points data 3 = [[10, 1], [20, 1], [30, 1]] := by
  simp [points, data, Arg.at, List.range, List.range.loop]

/-- Three calls in order. -/
theorem three (b : String → Option (List Arg → List ℝ × String)) :
    evalData (after true story).dbl b "f" data 3 (calls 0) = (calls 3, some ([11, 22, 33], "")) := by
  rw [evalData, story_table]
  have n1 : ¬ (10 : ℝ) < 0 := by norm_num
  have n2 : ¬ (20 : ℝ) < 0 := by norm_num
  have n3 : ¬ (30 : ℝ) < 0 := by norm_num
  simp [evalTcl, data, numElems, elems, loop, row, counting, calls, List.range, List.range.loop, List.replicate, n1, n2, n3]
  exact (⟨by norm_num, by norm_num, by norm_num⟩ : ((10:ℝ) + 1 = 11 ∧ (20:ℝ) + 1 + 1 = 22 ∧ (30:ℝ) + 1 + 2 = 33))

/-- The second call raises: the third is not made. -/
theorem stops (b : String → Option (List Arg → List ℝ × String)) :
    ∃ r, evalData (after true story).dbl b "f" [.vector [10, -20, 30], .scalar 1] 3 (calls 0) =
      (calls 2, some (r, "Python Command failed\nnegative")) := by
  rw [evalData, story_table]
  have n1 : ¬ (10 : ℝ) < 0 := by norm_num
  simp [evalTcl, numElems, elems, loop, row, counting, calls, List.range, List.range.loop, List.replicate, n1]

/-- F153: on data that are empty the procedure is called with an element that does not exist. -/
theorem empty_fault (b : String → Option (List Arg → List ℝ × String)) :
    (evalData (after true story).dbl b "f" [.vector [], .scalar 1] 0 (calls 0)).2 = none := by
  rw [evalData, story_table]
  simp [evalTcl, numElems, elems, loop, row, List.range, List.range.loop]

/-- F154: if there is only numbers the result has one element, however many are wanted. -/
theorem one_element (b : String → Option (List Arg → List ℝ × String)) :
    (evalData (after true story).dbl b "f" [.scalar 1, .scalar 1] 3 (calls 0)).2 = some ([2], "") := by
  rw [evalData, story_table]
  have n1 : ¬ (1 : ℝ) < 0 := by norm_num
  simp [evalTcl, numElems, elems, loop, row, counting, calls, resize1, List.range, List.range.loop, List.replicate, n1]
  exact (by norm_num : (1:ℝ) + 1 = 2)

end Verif.Reg
