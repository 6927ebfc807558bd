import Verif.Tec.Pick

/-!
# Devices that the theorems on Tecplot files speak about
-/

namespace Verif.Tec.Example
open Verif.Vtk (Text isWs EDisp)
open Verif.Tec

def fmt : Bool → Text
  | true => "1e+10".toList
  | false => "0".toList

theorem fmt_ok : FmtOK fmt where
  word := by
    have : ∀ b : Bool, fmt b ≠ [] ∧ ∀ c ∈ fmt b, wordC c = true := by decide
    exact this
  short := by
    have : ∀ b : Bool, (fmt b).length ≤ 5 := by decide
    intro b
    have := this b
    omega
  kw := by decide

/-- A triangle with models. -/
def regA : Reg Bool where
  nodes := 3
  elems := [[0, 1, 2]]
  nodeModels := [("NodeVolume".toList, false, [true, true, true]), ("Potential".toList, true, [true, false, true]),
    ("x".toList, true, [false, true, false]), ("y".toList, true, [false, false, true])]
  edgeModels := [("EField".toList, .vector, [true, true, false], [(true, false, false), (true, true, false), (false, false, true)])]
  elemModels := [("Current".toList, true, [true])]

/-- Two triangles, with fewer models. -/
def regB : Reg Bool where
  nodes := 4
  elems := [[0, 1, 2], [1, 3, 2]]
  nodeModels := [("x".toList, true, [false, true, false, true]), ("y".toList, true, [false, false, true, true])]
  edgeModels := [("Jn".toList, .scalar, [true, true, false, false], [(true, false, false), (true, true, false), (false, false, true), (true, false, false)])]
  elemModels := []

def dev : Dev Bool := ⟨2, [("bulk".toList, regA), ("gate oxide".toList, regB)]⟩

theorem name_ok (n : Text) (h : n ∈ [("NodeVolume".toList : Text), "Potential".toList, "x".toList, "y".toList, "EField".toList, "Jn".toList, "Current".toList]) :
    NameOK n ∧ n.length < 29980 := by
  have : ∀ n ∈ [("NodeVolume".toList : Text), "Potential".toList, "x".toList, "y".toList, "EField".toList, "Jn".toList, "Current".toList],
      (∀ c ∈ n, c ≠ '"' ∧ isWs c = false) ∧ n.length ≤ 20 := by decide
  obtain ⟨h1, h2⟩ := this n h
  exact ⟨h1, by omega⟩

/-- **A device of two regions meets the hypotheses.** -/
theorem dev_plain : Plain (fun _ => true) "my device".toList dev where
  dim := by decide
  sized := {
    node := by decide
    edge := by decide
    elem := by decide
    corner := by decide
    one := by decide }
  names := by
    have h : ∀ r ∈ dev.regs, (∀ m ∈ r.2.nodeModels, m.1 ∈ [("NodeVolume".toList : Text), "Potential".toList, "x".toList, "y".toList, "EField".toList, "Jn".toList, "Current".toList]) ∧
        (∀ m ∈ r.2.edgeModels, m.1 ∈ [("NodeVolume".toList : Text), "Potential".toList, "x".toList, "y".toList, "EField".toList, "Jn".toList, "Current".toList]) ∧
        ∀ m ∈ r.2.elemModels, m.1 ∈ [("NodeVolume".toList : Text), "Potential".toList, "x".toList, "y".toList, "EField".toList, "Jn".toList, "Current".toList] := by decide
    intro r hr
    obtain ⟨h1, h2, h3⟩ := h r hr
    exact ⟨fun m hm => name_ok _ (h1 m hm), fun m hm => name_ok _ (h2 m hm), fun m hm => name_ok _ (h3 m hm)⟩
  title := by decide
  regions := by decide
  vectors := by
    intro n _ hn r hr m hm hmn
    have h : ∀ r ∈ dev.regs, ∀ m ∈ r.2.edgeModels, firstOf dev.allEdge m.1 = some .vector → m.2.1 = .vector := by decide
    exact h r hr m hm (by rw [hmn]; exact hn)

/-- What the file of this device says. -/
example : ∃ x, writeTec fmt false (fun _ => true) "my device".toList dev = some x ∧ ∃ t, readTec x = some t ∧
    t.zones.map (·.name) = ["bulk".toList, "gate oxide".toList] ∧ t.zones.map (·.conn) = [[[0, 1, 2]], [[0, 1, 2], [1, 3, 2]]] := by
  obtain ⟨vs, -, -, x, hx, hr⟩ := file_read fmt_ok false dev_plain
  exact ⟨x, hx, _, hr, rfl, rfl⟩

/-- `Potential` is shown, `NodeVolume` is not. -/
example : Shown (fun _ => true) dev (.node "Potential".toList) ∧ ¬ Shown (fun _ => true) dev (.node "NodeVolume".toList) ∧
    Shown (fun _ => true) dev (.vec "EField".toList 1) ∧ Shown (fun _ => true) dev (.elem "Current".toList) :=
  ⟨by unfold Shown; decide, by unfold Shown; decide, by unfold Shown; decide, rfl, ("bulk".toList, regA), List.mem_cons_self, ("Current".toList, true, [true]), by decide, by decide⟩

/-- The same edge model is a vector in one region and a scalar in another. -/
def conflict : Dev Bool := ⟨2, [("bulk".toList, regA),
  ("gate".toList, { regB with edgeModels := [("EField".toList, .scalar, [true, true, false, false], [])] })]⟩

/-- **The program stops at a device that it could show.** -/
theorem conflict_none : writeTec fmt false (fun _ => true) "d".toList conflict = none :=
  conflict_stops (n := "EField".toList) (r := ("gate".toList, { regB with edgeModels := [("EField".toList, .scalar, [true, true, false, false], [])] }))
    (m := (.scalar, [true, true, false, false], [])) fmt false "d".toList rfl (by decide) (List.mem_cons_of_mem _ List.mem_cons_self) rfl (by decide)

/-- A model is not displayed in the first region and is in the second. -/
def hidden : Dev Bool := ⟨2, [("bulk".toList, { regA with nodeModels := [("Potential".toList, false, [true, false, true])] }), ("gate".toList, regA)]⟩

theorem hidden_lost : (∃ r ∈ hidden.regs, ∃ m ∈ r.2.nodeModels, m.1 = "Potential".toList ∧ m.2.1 = true) ∧
    .node "Potential".toList ∉ vars hidden.dim (collect (fun _ => true) hidden) :=
  ⟨⟨("gate".toList, regA), List.mem_cons_of_mem _ List.mem_cons_self, ("Potential".toList, true, [true, false, true]), by decide, rfl, rfl⟩, displayed_lost (by decide) (by decide)⟩

/-- The line of variables with a name of 30000 letters is never finished. -/
theorem long_name_hangs (k : ℕ) (hk : 30000 ≤ k) : breakLine ("VARIABLES = \"x\", ".toList ++ (quoted (List.replicate k 'a') ++ ['\n'])) = none := by
  have hlen : ("VARIABLES = \"x\", ".toList ++ (quoted (List.replicate k 'a') ++ ['\n'])).length = k + 20 := by
    rw [List.length_append, List.length_append]
    unfold quoted
    rw [List.length_append, List.length_cons, List.length_replicate]
    show 17 + (k + 1 + 1 + 1) = k + 20
    omega
  refine long_word_hangs (p := 16) ?_ (by omega) ?_ (by rw [hlen]; omega)
  · rw [List.getElem?_append_left (by decide)]
    rfl
  · intro q h1 h2 hq
    rw [List.getElem?_append_right (by show 17 ≤ q; omega)] at hq
    have hm := List.mem_of_getElem? hq
    unfold quoted at hm
    simp at hm

end Verif.Tec.Example
