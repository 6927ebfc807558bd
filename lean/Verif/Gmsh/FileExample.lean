import Verif.Gmsh.FileMore

/-!
# C71: a file
-/

namespace Verif.Gmsh.File.Example
open Verif.MeshIO (Text showNat)

/-- Numbers are not computed with here. -/
def env : MeshIO.Env Text where
  atof := id
  ofInt i := (toString i).toList
  zero := []
  topoOK _ _ _ _ _ := true
  bnames _ _ := []
  run _ _ d := (true, d)

/-- Two triangles, a boundary line and a region. The counts are wrong. -/
def doc : Doc where
  version := "2.2 0 8".toList
  counts := (7, 0, 1)
  names := [(1, 1, "top".toList), (2, 2, "bulk".toList)]
  nodes := [(1, "0".toList, "0".toList, "0".toList), (2, "1.0".toList, "0".toList, "0".toList),
    (3, "1e0".toList, "1".toList, "0".toList), (7, "-0.5".toList, "1.5e-1".toList, "0".toList)]
  elems := [(1, { ty := 1, phys := 1, nodes := [1, 2] }, [5]), (2, { ty := 2, phys := 2, nodes := [1, 2, 3] }, [6]),
    (3, { ty := 2, phys := 2, nodes := [1, 3, 7] }, [])]

theorem doc_ok : DocOK doc := by
  constructor
  · exact Or.inl rfl
  · decide
  · decide
  · have : ∀ x ∈ doc.nodes, 1 ≤ x.1 ∧ (MeshIO.isFloat x.2.1 || MeshIO.isInt x.2.1) = true ∧
      (MeshIO.isFloat x.2.2.1 || MeshIO.isInt x.2.2.1) = true ∧ (MeshIO.isFloat x.2.2.2 || MeshIO.isInt x.2.2.2) = true := by decide
    intro x hx
    obtain ⟨a, b, c, d⟩ := this x hx
    exact ⟨a, by simpa [IsNum] using b, by simpa [IsNum] using c, by simpa [IsNum] using d⟩
  · intro x hx
    simp only [doc, List.mem_cons, List.not_mem_nil, or_false] at hx
    rcases hx with rfl | rfl | rfl <;> exact ⟨by decide, ⟨by decide, rfl⟩, by decide, by decide⟩
  · decide

/-- It is read. -/
example : ∃ G, load env [] (render doc) = (true, G, []) ∧ Read env doc G :=
  let ⟨G, h1, h2, _⟩ := load_doc env doc_ok
  ⟨G, h1, h2⟩

def text (l : List String) : Text := l.flatMap fun s => s.toList ++ ['\n']

/-- The file, spelled out. -/
theorem spelled : render doc = text ["$MeshFormat", "2.2 0 8", "$EndMeshFormat", "$PhysicalNames", "7", "1 1 \"top\"",
    "2 2 \"bulk\"", "$EndPhysicalNames", "$Nodes", "0", "1 0 0 0", "2 1.0 0 0", "3 1e0 1 0", "7 -0.5 1.5e-1 0", "$EndNodes",
    "$Elements", "1", "1 1 2 1 5 1 2", "2 2 2 2 6 1 2 3", "3 2 1 2 1 3 7", "$EndElements"] := by
  decide +kernel

/-- A blank line between the nodes is an error, and the scanner stays among the nodes. -/
theorem blank_line : (load env [] (text ["$MeshFormat", "2.2 0 8", "$EndMeshFormat", "$Nodes", "2", "1 0 0 0", "", "2 1.0 0 0",
    "$EndNodes"])).1 = false ∧ (load env [] (text ["$MeshFormat", "2.2 0 8", "$EndMeshFormat", "$Nodes", "2", "1 0 0 0", "",
    "2 1.0 0 0", "$EndNodes"])).2.2 = [.nodes] := by decide +kernel

/-- A name with a blank or a hyphen in it is an error, although Gmsh writes such names. -/
theorem quoted_blank : (load env [] (text ["$MeshFormat", "2.2 0 8", "$EndMeshFormat", "$PhysicalNames", "1", "1 1 \"top gate\"",
    "$EndPhysicalNames"])).1 = false ∧ (load env [] (text ["$MeshFormat", "2.2 0 8", "$EndMeshFormat", "$PhysicalNames", "1",
    "1 1 \"top-gate\"", "$EndPhysicalNames"])).1 = false := by decide +kernel

/-- An element of an unknown type is an error; the good file that comes next is refused, too. -/
theorem unknown_type : session env [] [render doc, text ["$MeshFormat", "2.2 0 8", "$EndMeshFormat", "$Elements", "1",
    "1 3 2 1 5 1 2 3 4", "$EndElements"], render doc] = [true, false, false] := by decide +kernel

/-- A cut file and its consequence. -/
example : ∃ vs, session env [] (renderTo doc 2 :: [doc, doc].map render) = true :: vs ∧ vs.length = 2 ∧ ∀ v ∈ vs, v = false :=
  cut_poison env doc_ok 2 [doc, doc]

/-- The hypotheses of `create_from_file` are met. -/
theorem full : ∀ c ∈ [Cmd.region "bulk".toList "si".toList "Si".toList, Cmd.contact "top".toList "c".toList "si".toList "metal".toList],
    c.Full := by
  intro c hc
  simp only [List.mem_cons, List.not_mem_nil, or_false] at hc
  rcases hc with rfl | rfl <;> simp [Cmd.Full]

end Verif.Gmsh.File.Example
