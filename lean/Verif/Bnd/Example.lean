import Verif.Bnd.Command
import Verif.Geom.Examples

/-!
# Contacts and interfaces: examples
-/

namespace Verif.Bnd.Example
open Verif.Geom

theorem sq_proper : Proper sq := ⟨sq_good, sq_complete, .inr (.inl ⟨rfl, by decide, rfl⟩)⟩
theorem te_proper : Proper te := ⟨te_good, te_complete, .inr (.inr ⟨rfl, by decide⟩)⟩

/-- A line of three nodes. -/
def li : Mesh where
  n := 3
  dim := 1
  edges := [[0, 1], [1, 2]]

theorem li_proper : Proper li :=
  ⟨⟨by decide, by decide, by decide, by decide, by decide⟩, ⟨by decide, by decide⟩, .inl ⟨rfl, rfl, rfl⟩⟩

/-- Nodes 0, 1 and 2 of the square: the edges 0-1 and 0-2, but not the diagonal. -/
theorem sq_boundary : IsList [0, 1] (Boundary sq [0, 1, 2] .edges) := by
  refine ⟨by decide, fun i => ?_⟩
  by_cases hi : i < 5
  · rcases (by omega : i = 0 ∨ i = 1 ∨ i = 2 ∨ i = 3 ∨ i = 4) with rfl | rfl | rfl | rfl | rfl <;>
      simp [Boundary, Outer, Geom.sq, containing]
  · have : sq.edges[i]? = none := List.getElem?_eq_none (by simp [Geom.sq]; omega)
    simp only [Boundary, Outer, this]
    simp [SideOf, this]
    omega

/-- Nodes 0, 1 and 2 of the tetrahedron: one triangle, three edges. -/
theorem te_boundary : IsList [1] (Boundary te [0, 1, 2] .tris) ∧ IsList [0, 1, 3] (Boundary te [0, 1, 2] .edges) := by
  have ht : ∀ i, Outer te.tets te.tris [0, 1, 2] i ↔ i = 1 := by
    intro i
    by_cases hi : i < 4
    · rcases (by omega : i = 0 ∨ i = 1 ∨ i = 2 ∨ i = 3) with rfl | rfl | rfl | rfl <;> simp [Outer, te, containing]
    · have : te.tris[i]? = none := List.getElem?_eq_none (by simp [te]; omega)
      simp only [Outer, this]
      simp
      omega
  refine ⟨⟨by decide, fun i => ?_⟩, by decide, fun i => ?_⟩
  · have : te.dim = 3 := rfl
    simp [Boundary, this, ht]
  · have hd : te.dim = 3 := rfl
    simp only [Boundary, hd, SideOf, ht]
    by_cases hi : i < 6
    · rcases (by omega : i = 0 ∨ i = 1 ∨ i = 2 ∨ i = 3 ∨ i = 4 ∨ i = 5) with rfl | rfl | rfl | rfl | rfl | rfl <;> simp [te]
    · have : te.edges[i]? = none := List.getElem?_eq_none (by simp [te]; omega)
      simp only [this]
      simp
      omega

/-- A contact on these nodes: any questions get these answers. -/
example : ∃ c' as, (Con.mk "r" [0, 1, 2] "metal" [] []).askAll sq [.edges, .edges] = some (c', as) ∧ as = [[0, 1], [0, 1]] := by
  obtain ⟨c', as, h1, h2, -, -, -, h3⟩ := contact_elements sq_proper (c := Con.mk "r" [0, 1, 2] "metal" [] []) (.inl ⟨rfl, rfl⟩)
    [.edges, .edges] (by simp [Fits])
  refine ⟨c', as, h1, ?_⟩
  match as, h2 with
  | [a, b], _ =>
    rw [(h3 0 _ a rfl rfl).unique sq_boundary, (h3 1 _ b rfl rfl).unique sq_boundary]

/-- Two regions and an interface. -/
def dev (m : Mesh) (f : Itf) : Dev where
  dim := m.dim
  regions := fun n => if n = "a" ∨ n = "b" then some m else none
  contacts := fun _ => none
  interfaces := fun n => if n = "i" then some f else none

def itf (nodes : List ℕ) : Itf := { region0 := "a", region1 := "b", nodes0 := nodes, nodes1 := nodes }

theorem itf_fresh (m : Mesh) (nodes : List ℕ) : (itf nodes).Fresh m m := .inl fun b q => by cases b <;> cases q <;> rfl

/-- In three dimensions the contact on side `b` gets the triangle and its edges. -/
example : ∃ d' c f', (dev te (itf [0, 1, 2])).contactFromInterface "c" "metal" "b" "i" = .ok d' ∧
    (dev te (itf [0, 1, 2])).Gains d' "c" "i" c (itf [0, 1, 2]) f' ∧ c.nodes = [0, 1, 2] ∧ c.tris = [1] ∧ c.edges = [0, 1, 3] := by
  obtain ⟨d', c, f', h1, h2, h3, h4, h5, h6, h7⟩ := contact_from_interface_partial (d := dev te (itf [0, 1, 2])) (name := "c")
    (material := "metal") (region := "b") (interface := "i") (b := true) (by decide) (by decide) rfl rfl rfl rfl rfl ⟨rfl, by decide⟩
    te_proper te_proper rfl (by decide) (itf_fresh te _)
  have hn : c.nodes = [0, 1, 2] := h5
  rw [hn] at h6 h7
  exact ⟨d', c, f', h1, h2, h5, h7.unique te_boundary.1, h6.unique te_boundary.2⟩

/-- In one dimension the contact has nodes only. -/
example : ∃ d' c f', (dev li (itf [2])).contactFromInterface "c" "metal" "a" "i" = .ok d' ∧
    (dev li (itf [2])).Gains d' "c" "i" c (itf [2]) f' ∧ c.nodes = [2] := by
  obtain ⟨d', c, f', h1, h2, h3, h4, h5, -⟩ := contact_from_interface_partial (d := dev li (itf [2])) (name := "c")
    (material := "metal") (region := "a") (interface := "i") (b := false) (by decide) (by decide) rfl rfl rfl rfl rfl rfl
    li_proper li_proper rfl (by decide) (itf_fresh li _)
  exact ⟨d', c, f', h1, h2, h5⟩

/-- **In two dimensions the program ends.** -/
theorem two_dimensions : (dev sq (itf [0, 1, 2])).contactFromInterface "c" "metal" "a" "i" = .crash :=
  contact_from_interface_crashes (b := false) (by decide) (by decide) rfl rfl rfl rfl rfl rfl sq_proper rfl
    fun b => by cases b <;> rfl

/-- A file with elements. -/
example : ∃ d' c, (dev te ((itf [0, 1, 2]).load [1] [1] [0, 1, 3] [0, 1, 3])).contactFromInterface "c" "metal" "a" "i" = .ok d' ∧
    d'.contacts "c" = some c ∧ c.tris = [1] ∧ c.edges = [0, 1, 3] := by
  obtain ⟨d', c, h1, h2, -, -, -, h6, h7⟩ := contact_from_file (d := dev te ((itf [0, 1, 2]).load [1] [1] [0, 1, 3] [0, 1, 3]))
    (name := "c") (material := "metal") (region := "a") (interface := "i") (b := false) (by decide) (by decide) rfl rfl rfl rfl rfl rfl
    (by decide) (by intro b q; cases b <;> cases q <;> decide)
  exact ⟨d', c, h1, h2.2.2.1, h7, h6⟩

/-- A second interface; and one with the name of the first ends the program. -/
theorem new_interface : NodesOK (dev sq (itf [0, 1])) "j" "a" "b" [2, 3] [2, 3] :=
  ⟨by decide, by decide, rfl, sq, sq, rfl, rfl, by decide, by decide⟩

theorem same_name : (dev sq (itf [0, 1])).interfaceFromNodes "i" "a" "b" [2, 3] [2, 3] = .crash :=
  interface_from_nodes_crashes ⟨by decide, by decide, rfl, sq, sq, rfl, rfl, by decide, by decide⟩ (by decide)

/-- **An interface of one node pair is not in the second file.** -/
theorem one_pair : (itf [0]).write 2 sq sq = some (itf [0], .nodes [(0, 0)]) ∧
    ∃ f', ((itf [0]).load [] [] [] []).write 2 sq sq = some (f', .nothing) := by
  refine interface_lost (f := itf [0]) sq_proper sq_proper rfl (by decide) rfl (fun b q => by cases b <;> cases q <;> rfl) fun i => ?_
  change ¬ Boundary sq [0] .edges i
  by_cases hi : i < 5
  · rcases (by omega : i = 0 ∨ i = 1 ∨ i = 2 ∨ i = 3 ∨ i = 4) with rfl | rfl | rfl | rfl | rfl <;>
      simp [Boundary, Outer, Geom.sq, containing]
  · have : sq.edges[i]? = none := List.getElem?_eq_none (by simp [Geom.sq]; omega)
    simp [Boundary, Outer, SideOf, this]

/-- An interface with edges is written by them. -/
example : ((itf [0, 1]).load [] [] [0] [0]).write 2 sq sq = some ((itf [0, 1]).load [] [] [0] [0], .elems [(0, 0)]) :=
  write_elems (q := .edges) rfl (.inl ⟨rfl, rfl⟩) (by intro b; cases b <;> decide) rfl

end Verif.Bnd.Example
