import Verif.Vtk.Write

/-!
# What a VTK file means

A specification of the XML format of VTK for unstructured grids: the arrays of points, cells and data, by the paths
and attributes of the elements. `dec` reads a compressed binary array (`vtkRead` in the area Base64).
-/

namespace Verif.Vtk

/-- A grid with data: for each array of data its name, number of components and values; for each cell its points
and its type. -/
structure Vtu (D : Type) where
  npoints : ℕ
  ncells : ℕ
  points : List D
  cells : List (List ℕ × ℕ)
  pdata : List (Text × ℕ × List D)
  cdata : List (Text × ℕ × List D)

def look (a : Attrs) (k : String) : Option Text := List.lookup k.toList a

variable {D : Type}

/-- An array of numbers. -/
def readArr (dec : Text → Option (List D)) (i : Item) : Option (Text × ℕ × List D) :=
  if look i.attrs "type" = some "Float64".toList ∧ look i.attrs "format" = some "binary".toList then
    match (look i.attrs "NumberOfComponents").elim (some 1) readNat, dec (i.text.filter fun c => ! isWs c) with
    | some k, some v => some ((look i.attrs "Name").getD [], k, v)
    | _, _ => none
  else none

/-- An array of whole numbers among those of the cells. -/
def readInts (l : List Item) (name : String) : Option (List ℕ) :=
  match l.find? fun i => look i.attrs "Name" = some name.toList with
  | none => none
  | some i => if look i.attrs "format" = some "ascii".toList then readNats i.text else none

/-- The points of the cells, from the list of all and the places where cells end. -/
def cutAt (conn : List ℕ) : ℕ → List ℕ → List (List ℕ)
  | _, [] => []
  | prev, o :: os => (conn.drop prev).take (o - prev) :: cutAt conn o os

/-- The elements below a piece. -/
def inPiece (items : List Item) (l : List String) : List Item :=
  items.filter fun i => i.path = (["VTKFile", "UnstructuredGrid", "Piece"] ++ l).map String.toList

/-- All arrays have the right size. -/
def Vtu.sized (v : Vtu D) : Bool :=
  v.points.length = 3 * v.npoints && v.cells.length = v.ncells && v.pdata.all (fun p => p.2.2.length = p.2.1 * v.npoints) &&
    v.cdata.all (fun p => p.2.2.length = p.2.1 * v.ncells)

/-- The grid of a file with one piece. -/
def readVtu (dec : Text → Option (List D)) (x : Text) : Option (Vtu D) := do
  let items ← readXml x
  match inPiece items [], inPiece items ["Points", "DataArray"] with
  | [p], [pt] =>
    let np ← (look p.attrs "NumberOfPoints").bind readNat
    let nc ← (look p.attrs "NumberOfCells").bind readNat
    let pts ← readArr dec pt
    let cs := inPiece items ["Cells", "DataArray"]
    let conn ← readInts cs "connectivity"
    let offs ← readInts cs "offsets"
    let types ← readInts cs "types"
    let pd ← (inPiece items ["PointData", "DataArray"]).mapM (readArr dec)
    let cd ← (inPiece items ["CellData", "DataArray"]).mapM (readArr dec)
    let v : Vtu D := ⟨np, nc, pts.2.2, (cutAt conn 0 offs).zip types, pd, cd⟩
    if pts.2.1 = 3 ∧ offs.length = types.length ∧ v.sized then some v else none
  | _, _ => none

/-! ### The elements of the file -/

/-- Text without significance is dropped. -/
def sig (t : Text) : Text := if t.all isWs then [] else t

theorem reads_close {t tag : Text} {a : Attrs} {S : Stack} {rest : Text} {items : List Item} {s' : LS × Stack}
    (h : Reads (.lt, (tag, a, sig (t ++ ['\n'])) :: S) rest items s') :
    Reads (.txt t, (tag, a, []) :: S) ('\n' :: '<' :: rest) items s' := by
  refine Reads.cons (i := []) (s1 := (.txt (t ++ ['\n']), (tag, a, []) :: S)) (by simp [cstep, lstep, runM]) ?_
  refine Reads.cons (i := []) ?_ h
  simp only [cstep, lstep, runM, bstep, if_true]
  unfold sig
  split_ifs <;> simp

/-- An element with an array. -/
def arrAttrs (name : Text) (comps : ℕ) : Attrs :=
  [("type".toList, "Float64".toList)] ++ ((if name ≠ [] then [("Name".toList, name)] else []) ++
    ((if comps ≠ 1 then [("NumberOfComponents".toList, showNat comps)] else []) ++ [("format".toList, "binary".toList)]))

def arrItem (enc : List D → Text) (path : List Text) (vals : List D) (name : Text) (comps : ℕ) : Item :=
  ⟨path ++ ["DataArray".toList], arrAttrs name comps, sig ('\n' :: enc vals ++ ['\n'])⟩

/-- The encoding uses neither `<` nor `&` (for base64 see the area Base64). -/
def EncText (enc : List D → Text) : Prop := ∀ v, ∀ c ∈ enc v, c ≠ '<' ∧ c ≠ '&'

theorem reads_arr {enc : List D → Text} (he : EncText enc) {S : Stack} {name : Text} (hn : AttrOK name) (vals : List D) (comps : ℕ) :
    Reads (.txt ['\n'], S) (writeArr enc vals name comps) [arrItem enc (Stack.path S) vals name comps] (.txt ['\n'], S) := by
  unfold writeArr arrItem arrAttrs
  have h1 : Reads (.txt ['\n'], S) "<DataArray type=\"Float64\"".toList [] (.sp "DataArray".toList [("type".toList, "Float64".toList)], S) := rfl
  have h2 : ∀ a, Reads (.sp "DataArray".toList a, S) (if name ≠ [] then " Name=\"".toList ++ (name ++ "\"".toList) else []) []
      (.sp "DataArray".toList (a ++ (if name ≠ [] then [("Name".toList, name)] else [])), S) := by
    intro a
    split_ifs
    · have e1 : Reads (.sp "DataArray".toList a, S) " Name=\"".toList [] (.av "DataArray".toList a "Name".toList [], S) := rfl
      have e2 := reads_val (t := "DataArray".toList) (a := a) (n := "Name".toList) (v := []) (k := S) hn
      have e3 : Reads (.av "DataArray".toList a "Name".toList ([] ++ name), S) "\"".toList []
        (.sp "DataArray".toList (a ++ [("Name".toList, name)]), S) := rfl
      exact e1.append (e2.append e3)
    · rw [List.append_nil]; exact Reads.nil _
  have h3 : ∀ a, Reads (.sp "DataArray".toList a, S) (if comps ≠ 1 then " NumberOfComponents=\"".toList ++ (showNat comps ++ "\"".toList) else []) []
      (.sp "DataArray".toList (a ++ (if comps ≠ 1 then [("NumberOfComponents".toList, showNat comps)] else [])), S) := by
    intro a
    split_ifs
    · have e1 : Reads (.sp "DataArray".toList a, S) " NumberOfComponents=\"".toList [] (.av "DataArray".toList a "NumberOfComponents".toList [], S) := rfl
      have e2 := reads_val (t := "DataArray".toList) (a := a) (n := "NumberOfComponents".toList) (v := []) (k := S) (showNat_attr comps)
      have e3 : Reads (.av "DataArray".toList a "NumberOfComponents".toList ([] ++ showNat comps), S) "\"".toList []
        (.sp "DataArray".toList (a ++ [("NumberOfComponents".toList, showNat comps)]), S) := rfl
      exact e1.append (e2.append e3)
    · rw [List.append_nil]; exact Reads.nil _
  have h4 : ∀ a, Reads (.sp "DataArray".toList a, S) " format=\"binary\">\n".toList []
      (.txt ['\n'], ("DataArray".toList, a ++ [("format".toList, "binary".toList)], []) :: S) := fun _ => rfl
  have h5 : ∀ a, Reads (.txt ['\n'], ("DataArray".toList, a, []) :: S) (enc vals ++ "\n</DataArray>\n".toList)
      [⟨Stack.path S ++ ["DataArray".toList], a, sig ('\n' :: enc vals ++ ['\n'])⟩] (.txt ['\n'], S) := by
    intro a
    have e1 := reads_text (t := ['\n']) (k := ("DataArray".toList, a, []) :: S) (he vals)
    have e2 : Reads (.lt, ("DataArray".toList, a, sig ('\n' :: enc vals ++ ['\n'])) :: S) "/DataArray>\n".toList
      [⟨Stack.path S ++ ["DataArray".toList], a, sig ('\n' :: enc vals ++ ['\n'])⟩] (.txt ['\n'], S) := rfl
    exact e1.append (reads_close (t := ['\n'] ++ enc vals) e2)
  have := h1.append ((h2 _).append ((h3 _).append ((h4 _).append (h5 _))))
  simpa only [List.nil_append, List.append_assoc] using this

/-! ### The arrays that are written -/

/-- Data at the points. -/
def pData (inc : Text → Bool) (r : Reg D) : List (Text × ℕ × List D) :=
  ((r.nodeModels.filter fun m => inc m.1 && m.2.1).map fun m => (m.1, 1, m.2.2)) ++
  (((r.edgeModels.filter fun m => inc m.1 && m.2.1 = .scalar).map fun m => (m.1, 1, m.2.2.1)) ++
  ((r.edgeModels.filter fun m => m.2.1 = .vector).map fun m => (m.1, 3, flat3 m.2.2.2)))

/-- Data on the cells. -/
def cData (inc : Text → Bool) (r : Reg D) : List (Text × ℕ × List D) :=
  if r.dim = 2 ∨ r.dim = 3 then
    ((r.triModels.filter fun m => inc m.1 && m.2.1).map fun m => (m.1, 1, m.2.2)) ++
    ((r.tetModels.filter fun m => m.2.1).map fun m => (m.1, 1, m.2.2))
  else []

def arrText (enc : List D → Text) (p : Text × ℕ × List D) : Text := writeArr enc p.2.2 p.1 p.2.1

theorem flatMap_filter {α β : Type} (l : List α) (p : α → Bool) (f : α → List β) (g : α → List β) (h : ∀ a, p a = true → g a = f a)
    (h' : ∀ a, p a = false → g a = []) : l.flatMap g = (l.filter p).flatMap f := by
  induction l with
  | nil => rfl
  | cons a l ih =>
    rw [List.flatMap_cons, ih, List.filter_cons]
    cases hp : p a with
    | true => rw [h a hp]; simp
    | false => rw [h' a hp]; simp

theorem pointData_eq (enc : List D → Text) (inc : Text → Bool) (r : Reg D) :
    nodeData enc inc r ++ (edgeScalarData enc inc r ++ (edgeVectorData enc r ++ "</PointData>\n".toList)) =
      (pData inc r).flatMap (arrText enc) ++ "</PointData>\n".toList := by
  unfold pData nodeData edgeScalarData edgeVectorData
  rw [List.flatMap_append, List.flatMap_append, List.flatMap_map, List.flatMap_map, List.flatMap_map, List.append_assoc, List.append_assoc]
  refine congrArg₂ _ ?_ (congrArg₂ _ ?_ (congrArg₂ _ ?_ rfl))
  · refine flatMap_filter _ _ _ _ (fun m hm => ?_) (fun m hm => ?_)
    · simp only [Bool.and_eq_true] at hm
      simp [hm.1, hm.2, arrText]
    · simp only [Bool.and_eq_false_iff] at hm
      rcases hm with hm | hm <;> simp [hm]
  · refine flatMap_filter _ _ _ _ (fun m hm => ?_) (fun m hm => ?_)
    · simp only [Bool.and_eq_true, decide_eq_true_eq] at hm
      simp [hm.1, hm.2, arrText]
    · simp only [Bool.and_eq_false_iff, decide_eq_false_iff_not] at hm
      rcases hm with hm | hm <;> simp [hm]
  · refine flatMap_filter _ _ _ _ (fun m hm => ?_) (fun m hm => ?_)
    · simp only [decide_eq_true_eq] at hm
      simp [hm, arrText]
    · simp only [decide_eq_false_iff_not] at hm
      simp [hm]

theorem elementData_eq (enc : List D → Text) (inc : Text → Bool) (r : Reg D) (hd : r.dim = 2 ∨ r.dim = 3) :
    (r.triModels.flatMap fun m => if ¬ inc m.1 then [] else if m.2.1 then writeArr enc m.2.2 m.1 1 else []) ++
    ((r.tetModels.flatMap fun m => if m.2.1 then writeArr enc m.2.2 m.1 1 else []) ++ "</CellData>\n".toList) =
      (cData inc r).flatMap (arrText enc) ++ "</CellData>\n".toList := by
  unfold cData
  rw [if_pos hd, List.flatMap_append, List.flatMap_map, List.flatMap_map, List.append_assoc]
  refine congrArg₂ _ ?_ (congrArg₂ _ ?_ rfl)
  · refine flatMap_filter _ _ _ _ (fun m hm => ?_) (fun m hm => ?_)
    · simp only [Bool.and_eq_true] at hm
      simp [hm.1, hm.2, arrText]
    · simp only [Bool.and_eq_false_iff] at hm
      rcases hm with hm | hm <;> simp [hm]
  · refine flatMap_filter _ _ _ _ (fun m hm => ?_) (fun m hm => ?_)
    · simp [hm, arrText]
    · simp [hm]

/-- The points of the cells. -/
def cellPts (r : Reg D) : List (List ℕ) :=
  if r.dim = 1 then r.edges.map fun e => [e.1, e.2]
  else if r.dim = 2 then r.tris.map fun e => [e.1, e.2.1, e.2.2]
  else r.tets.map fun e => [e.1, e.2.1, e.2.2.1, e.2.2.2]

/-- The type of a cell in VTK: `VTK_LINE`, `VTK_TRIANGLE`, `VTK_TETRA`. -/
def vtkType (dim : ℕ) : ℕ := if dim = 1 then 3 else if dim = 2 then 5 else 10

theorem offsetsText_eq (k : ℕ) : ∀ (n off : ℕ), offsetsText k off n = spaced (((List.range n).map fun i => off + i * k).map showNat)
  | 0, _ => rfl
  | n + 1, off => by
    rw [offsetsText, offsetsText_eq k n (off + k), List.range_succ_eq_map]
    simp only [List.map_cons, List.map_map, spaced, List.flatMap_cons]
    simp only [Nat.zero_mul, Nat.add_zero]
    congr 3
    funext i
    simp only [Function.comp]
    congr 1
    rw [Nat.succ_mul]
    omega

theorem spaced_append (a b : List Text) : spaced (a ++ b) = spaced a ++ spaced b := by simp [spaced]

theorem conn_spaced {α : Type} (l : List α) (f : α → List ℕ) (g : α → Text) (h : ∀ a, g a = spaced ((f a).map showNat)) :
    l.flatMap g = spaced ((l.flatMap f).map showNat) := by
  induction l with
  | nil => rfl
  | cons a l ih => rw [List.flatMap_cons, List.flatMap_cons, List.map_append, spaced_append, ih, h]

/-- The text of the cells, by the numbers in it. -/
def cellsText (r : Reg D) : Text :=
  writeCells (spaced (((cellPts r).flatten).map showNat))
    (spaced (((List.range (cellPts r).length).map fun i => (r.dim + 1) + i * (r.dim + 1)).map showNat))
    (spaced (((List.range (cellPts r).length).map fun _ => vtkType r.dim).map showNat))

theorem const_spaced {α : Type} (l : List α) (n : ℕ) (t : Text) (h : t = ' ' :: showNat n) :
    (l.flatMap fun _ => t) = spaced (((List.range l.length).map fun _ => n).map showNat) := by
  subst h
  induction l with
  | nil => rfl
  | cons a l ih =>
    rw [List.flatMap_cons, ih, List.length_cons, List.range_succ_eq_map]
    simp [spaced, Function.comp_def]

theorem cells_eq (r : Reg D) (hd : r.dim = 1 ∨ r.dim = 2 ∨ r.dim = 3) :
    (if r.dim = 1 then writeLines r else if r.dim = 2 then writeTriangles r else if r.dim = 3 then writeTetrahedrons r else []) =
      cellsText r := by
  unfold cellsText cellPts vtkType
  rcases hd with hd | hd | hd
  · simp only [hd, if_true]
    unfold writeLines
    rw [conn_spaced r.edges (fun e => [e.1, e.2]) _ (fun e => by simp [spaced]), offsetsText_eq, const_spaced r.edges 3 " 3".toList rfl,
      List.flatten_eq_flatMap, List.flatMap_map]
    simp
  · simp only [hd, if_true, if_neg (show ¬ (2 : ℕ) = 1 by norm_num)]
    unfold writeTriangles
    rw [conn_spaced r.tris (fun e => [e.1, e.2.1, e.2.2]) _ (fun e => by simp [spaced]), offsetsText_eq, const_spaced r.tris 5 " 5".toList rfl,
      List.flatten_eq_flatMap, List.flatMap_map]
    simp
  · simp only [hd, if_true, if_neg (show ¬ (3 : ℕ) = 1 by norm_num), if_neg (show ¬ (3 : ℕ) = 2 by norm_num)]
    unfold writeTetrahedrons
    rw [conn_spaced r.tets (fun e => [e.1, e.2.1, e.2.2.1, e.2.2.2]) _ (fun e => by simp [spaced]), offsetsText_eq, const_spaced r.tets 10 " 10".toList rfl,
      List.flatten_eq_flatMap, List.flatMap_map]
    simp

/-! ### The elements of the file, all together -/

def intItem (path : List Text) (ty name : String) (ns : List ℕ) : Item :=
  ⟨path ++ ["DataArray".toList], [("type".toList, ty.toList), ("Name".toList, name.toList), ("format".toList, "ascii".toList)],
    sig ('\n' :: spaced (ns.map showNat) ++ ['\n'])⟩

theorem reads_cells {S : Stack} (a b c : List ℕ) :
    Reads (.txt ['\n'], S) (writeCells (spaced (a.map showNat)) (spaced (b.map showNat)) (spaced (c.map showNat)))
      [intItem (Stack.path S ++ ["Cells".toList]) "Int32" "connectivity" a, intItem (Stack.path S ++ ["Cells".toList]) "Int32" "offsets" b,
        intItem (Stack.path S ++ ["Cells".toList]) "UInt8" "types" c, ⟨Stack.path S ++ ["Cells".toList], [], []⟩] (.txt ['\n'], S) := by
  unfold writeCells
  have hp : Stack.path (("Cells".toList, [], []) :: S) = Stack.path S ++ ["Cells".toList] := by simp [Stack.path]
  have body : ∀ (as : Attrs) (ns : List ℕ), Reads (.txt ['\n'], ("DataArray".toList, as, []) :: ("Cells".toList, [], []) :: S)
      (spaced (ns.map showNat) ++ "\n</DataArray>\n".toList)
      [⟨Stack.path (("Cells".toList, [], []) :: S) ++ ["DataArray".toList], as, sig ('\n' :: spaced (ns.map showNat) ++ ['\n'])⟩]
      (.txt ['\n'], ("Cells".toList, [], []) :: S) := by
    intro as ns
    have e1 := reads_text (t := ['\n']) (k := ("DataArray".toList, as, []) :: ("Cells".toList, [], []) :: S) (spaced_text ns)
    have e2 : Reads (.lt, ("DataArray".toList, as, sig ('\n' :: spaced (ns.map showNat) ++ ['\n'])) :: ("Cells".toList, [], []) :: S) "/DataArray>\n".toList
      [⟨Stack.path (("Cells".toList, [], []) :: S) ++ ["DataArray".toList], as, sig ('\n' :: spaced (ns.map showNat) ++ ['\n'])⟩] (.txt ['\n'], ("Cells".toList, [], []) :: S) := rfl
    exact e1.append (reads_close (t := ['\n'] ++ spaced (ns.map showNat)) e2)
  have h0 : Reads (.txt ['\n'], S) "<Cells>\n".toList [] (.txt ['\n'], ("Cells".toList, [], []) :: S) := rfl
  have h1 : Reads (.txt ['\n'], ("Cells".toList, [], []) :: S) "<DataArray type=\"Int32\" Name=\"connectivity\" format=\"ascii\">\n".toList []
    (.txt ['\n'], ("DataArray".toList, [("type".toList, "Int32".toList), ("Name".toList, "connectivity".toList), ("format".toList, "ascii".toList)], []) :: ("Cells".toList, [], []) :: S) := rfl
  have h2 : Reads (.txt ['\n'], ("Cells".toList, [], []) :: S) "<DataArray type=\"Int32\" Name=\"offsets\" format=\"ascii\">\n".toList []
    (.txt ['\n'], ("DataArray".toList, [("type".toList, "Int32".toList), ("Name".toList, "offsets".toList), ("format".toList, "ascii".toList)], []) :: ("Cells".toList, [], []) :: S) := rfl
  have h3 : Reads (.txt ['\n'], ("Cells".toList, [], []) :: S) "<DataArray type=\"UInt8\" Name=\"types\" format=\"ascii\">\n".toList []
    (.txt ['\n'], ("DataArray".toList, [("type".toList, "UInt8".toList), ("Name".toList, "types".toList), ("format".toList, "ascii".toList)], []) :: ("Cells".toList, [], []) :: S) := rfl
  have h4 : Reads (.txt ['\n'], ("Cells".toList, [], []) :: S) "</Cells>\n".toList [⟨Stack.path S ++ ["Cells".toList], [], []⟩] (.txt ['\n'], S) := rfl
  have := h0.append (h1.append ((body _ a).append (h2.append ((body _ b).append (h3.append ((body _ c).append h4))))))
  simp only [List.append_assoc, List.nil_append, hp] at this
  simpa only [List.append_assoc, List.nil_append, List.cons_append, intItem] using this

/-- Data in a section. -/
def secItems (enc : List D → Text) (path : List Text) (sec : String) (empty : Prop) [Decidable empty] (l : List (Text × ℕ × List D)) : List Item :=
  if empty then [] else l.map (fun p => arrItem enc (path ++ [sec.toList]) p.2.2 p.1 p.2.1) ++ [⟨path ++ [sec.toList], [], []⟩]

theorem reads_arrs {enc : List D → Text} (he : EncText enc) {S : Stack} (l : List (Text × ℕ × List D)) (hn : ∀ p ∈ l, AttrOK p.1) :
    Reads (.txt ['\n'], S) (l.flatMap (arrText enc)) (l.map fun p => arrItem enc (Stack.path S) p.2.2 p.1 p.2.1) (.txt ['\n'], S) := by
  have := Reads.flatMap (s := (.txt ['\n'], S)) (f := arrText enc) (g := fun p => [arrItem enc (Stack.path S) p.2.2 p.1 p.2.1]) l
    (fun p hp => reads_arr he (hn p hp) _ _)
  rw [List.map_eq_flatMap]
  exact this

/-- The names of models can be written. -/
def NamesOK (r : Reg D) : Prop :=
  (∀ m ∈ r.nodeModels, AttrOK m.1) ∧ (∀ m ∈ r.edgeModels, AttrOK m.1) ∧ (∀ m ∈ r.triModels, AttrOK m.1) ∧ ∀ m ∈ r.tetModels, AttrOK m.1

theorem pData_names {r : Reg D} (h : NamesOK r) (inc : Text → Bool) : ∀ p ∈ pData inc r, AttrOK p.1 := by
  intro p hp
  unfold pData at hp
  rcases List.mem_append.1 hp with hp | hp
  · obtain ⟨m, hm, rfl⟩ := List.mem_map.1 hp
    exact h.1 m (List.mem_filter.1 hm).1
  · rcases List.mem_append.1 hp with hp | hp <;>
    · obtain ⟨m, hm, rfl⟩ := List.mem_map.1 hp
      exact h.2.1 m (List.mem_filter.1 hm).1

theorem cData_names {r : Reg D} (h : NamesOK r) (inc : Text → Bool) : ∀ p ∈ cData inc r, AttrOK p.1 := by
  intro p hp
  unfold cData at hp
  split at hp
  · rcases List.mem_append.1 hp with hp | hp
    · obtain ⟨m, hm, rfl⟩ := List.mem_map.1 hp
      exact h.2.2.1 m (List.mem_filter.1 hm).1
    · obtain ⟨m, hm, rfl⟩ := List.mem_map.1 hp
      exact h.2.2.2 m (List.mem_filter.1 hm).1
  · simp at hp

/-- The attributes of the root. -/
def rootAttrs : Attrs :=
  [("type".toList, "UnstructuredGrid".toList), ("version".toList, "0.1".toList), ("byte_order".toList, "LittleEndian".toList),
    ("compressor".toList, "vtkZLibDataCompressor".toList)]

def rootStack : Stack := [("UnstructuredGrid".toList, [], []), ("VTKFile".toList, rootAttrs, [])]

def pieceAttrs (r : Reg D) : Attrs :=
  [("NumberOfPoints".toList, showNat r.pos.length), ("NumberOfCells".toList, showNat (numCells r))]

def pieceStack (r : Reg D) : Stack := ("Piece".toList, pieceAttrs r, []) :: rootStack

def piecePath : List Text := ["VTKFile", "UnstructuredGrid", "Piece"].map String.toList

/-- All elements of the file. -/
def fileItems (enc : List D → Text) (inc : Text → Bool) (r : Reg D) : List Item :=
  [arrItem enc (piecePath ++ ["Points".toList]) (flat3 r.pos) [] 3, ⟨piecePath ++ ["Points".toList], [], []⟩] ++
  ([intItem (piecePath ++ ["Cells".toList]) "Int32" "connectivity" (cellPts r).flatten,
    intItem (piecePath ++ ["Cells".toList]) "Int32" "offsets" ((List.range (cellPts r).length).map fun i => (r.dim + 1) + i * (r.dim + 1)),
    intItem (piecePath ++ ["Cells".toList]) "UInt8" "types" ((List.range (cellPts r).length).map fun _ => vtkType r.dim),
    ⟨piecePath ++ ["Cells".toList], [], []⟩] ++
  (secItems enc piecePath "PointData" (r.nodeModels = [] ∧ r.edgeModels = []) (pData inc r) ++
  (secItems enc piecePath "CellData" (¬ (r.dim = 2 ∨ r.dim = 3) ∨ (r.triModels = [] ∧ r.tetModels = [])) (cData inc r) ++
  [⟨piecePath, pieceAttrs r, []⟩, ⟨["VTKFile".toList, "UnstructuredGrid".toList], [], []⟩, ⟨["VTKFile".toList], rootAttrs, []⟩])))

/-- The text before the data. -/
def frontText (enc : List D → Text) (r : Reg D) : Text :=
  writeHeader ++ (("<Piece NumberOfPoints=\"".toList ++ (showNat r.pos.length ++ ("\" NumberOfCells=\"".toList ++ (showNat (numCells r) ++ ("\">\n".toList))))) ++
    (writePoints enc r ++ cellsText r))

def frontItems (enc : List D → Text) (r : Reg D) : List Item :=
  [arrItem enc (piecePath ++ ["Points".toList]) (flat3 r.pos) [] 3, ⟨piecePath ++ ["Points".toList], [], []⟩] ++
  [intItem (piecePath ++ ["Cells".toList]) "Int32" "connectivity" (cellPts r).flatten,
    intItem (piecePath ++ ["Cells".toList]) "Int32" "offsets" ((List.range (cellPts r).length).map fun i => (r.dim + 1) + i * (r.dim + 1)),
    intItem (piecePath ++ ["Cells".toList]) "UInt8" "types" ((List.range (cellPts r).length).map fun _ => vtkType r.dim),
    ⟨piecePath ++ ["Cells".toList], [], []⟩]

set_option maxRecDepth 8000 in
theorem reads_front {enc : List D → Text} (he : EncText enc) {r : Reg D} (hd : r.dim = 1 ∨ r.dim = 2 ∨ r.dim = 3) :
    Reads (.txt [], []) (frontText enc r) (frontItems enc r) (.txt ['\n'], pieceStack r) := by
  have hpath : Stack.path (pieceStack r) = piecePath := rfl
  have hhead : Reads (.txt [], []) writeHeader [] (.txt ['\n'], rootStack) := rfl
  have hpiece : Reads (.txt ['\n'], rootStack) ("<Piece NumberOfPoints=\"".toList ++ (showNat r.pos.length ++ ("\" NumberOfCells=\"".toList ++ (showNat (numCells r) ++ ("\">\n".toList)))))
      [] (.txt ['\n'], pieceStack r) := by
    have e1 : Reads (.txt ['\n'], rootStack) "<Piece NumberOfPoints=\"".toList [] (.av "Piece".toList [] "NumberOfPoints".toList [], rootStack) := rfl
    have e2 := reads_val (t := "Piece".toList) (a := []) (n := "NumberOfPoints".toList) (v := []) (k := rootStack) (showNat_attr r.pos.length)
    have e3 : Reads (.av "Piece".toList [] "NumberOfPoints".toList ([] ++ showNat r.pos.length), rootStack) "\" NumberOfCells=\"".toList []
      (.av "Piece".toList [("NumberOfPoints".toList, showNat r.pos.length)] "NumberOfCells".toList [], rootStack) := rfl
    have e4 := reads_val (t := "Piece".toList) (a := [("NumberOfPoints".toList, showNat r.pos.length)]) (n := "NumberOfCells".toList) (v := []) (k := rootStack) (showNat_attr (numCells r))
    have e5 : Reads (.av "Piece".toList [("NumberOfPoints".toList, showNat r.pos.length)] "NumberOfCells".toList ([] ++ showNat (numCells r)), rootStack) "\">\n".toList []
      (.txt ['\n'], pieceStack r) := rfl
    exact e1.append (e2.append (e3.append (e4.append e5)))
  have hpoints : Reads (.txt ['\n'], pieceStack r) (writePoints enc r)
      [arrItem enc (piecePath ++ ["Points".toList]) (flat3 r.pos) [] 3, ⟨piecePath ++ ["Points".toList], [], []⟩] (.txt ['\n'], pieceStack r) := by
    have e1 : Reads (.txt ['\n'], pieceStack r) "<Points>\n".toList [] (.txt ['\n'], ("Points".toList, [], []) :: pieceStack r) := rfl
    have e2 := reads_arr (S := ("Points".toList, [], []) :: pieceStack r) (name := []) he (by intro c hc; simp at hc) (flat3 r.pos) 3
    have e3 : Reads (.txt ['\n'], ("Points".toList, [], []) :: pieceStack r) "</Points>\n".toList [⟨piecePath ++ ["Points".toList], [], []⟩] (.txt ['\n'], pieceStack r) := rfl
    exact e1.append (e2.append e3)
  have hcells := reads_cells (S := pieceStack r) (cellPts r).flatten ((List.range (cellPts r).length).map fun i => (r.dim + 1) + i * (r.dim + 1))
    ((List.range (cellPts r).length).map fun _ => vtkType r.dim)
  rw [hpath] at hcells
  exact hhead.append (hpiece.append (hpoints.append hcells))

set_option maxRecDepth 8000 in
open Classical in
theorem reads_file {enc : List D → Text} (he : EncText enc) {inc : Text → Bool} {r : Reg D} (hd : r.dim = 1 ∨ r.dim = 2 ∨ r.dim = 3)
    (hn : NamesOK r) : readXml (vtuFile enc inc r) = some (fileItems enc inc r) := by
  have hfront := reads_front he hd (r := r)
  have hpd : Reads (.txt ['\n'], pieceStack r) (writePointData enc inc r)
      (secItems enc piecePath "PointData" (r.nodeModels = [] ∧ r.edgeModels = []) (pData inc r)) (.txt ['\n'], pieceStack r) := by
    unfold writePointData secItems
    by_cases h : r.nodeModels = [] ∧ r.edgeModels = []
    · rw [if_pos h, if_pos h]; exact Reads.nil _
    · rw [if_neg h, if_neg h, pointData_eq]
      have e1 : Reads (.txt ['\n'], pieceStack r) "<PointData>\n".toList [] (.txt ['\n'], ("PointData".toList, [], []) :: pieceStack r) := rfl
      have e2 := reads_arrs (S := ("PointData".toList, [], []) :: pieceStack r) he (pData inc r) (pData_names hn inc)
      have e3 : Reads (.txt ['\n'], ("PointData".toList, [], []) :: pieceStack r) "</PointData>\n".toList [⟨piecePath ++ ["PointData".toList], [], []⟩] (.txt ['\n'], pieceStack r) := rfl
      exact e1.append (e2.append e3)
  have hcd : Reads (.txt ['\n'], pieceStack r) (if r.dim = 2 ∨ r.dim = 3 then writeElementData enc inc r else [])
      (secItems enc piecePath "CellData" (¬ (r.dim = 2 ∨ r.dim = 3) ∨ (r.triModels = [] ∧ r.tetModels = [])) (cData inc r)) (.txt ['\n'], pieceStack r) := by
    unfold secItems
    by_cases hd' : r.dim = 2 ∨ r.dim = 3
    · rw [if_pos hd']
      unfold writeElementData
      by_cases h : r.triModels = [] ∧ r.tetModels = []
      · rw [if_pos h, if_pos (Or.inr h)]; exact Reads.nil _
      · rw [if_neg h, if_neg (by rintro (h1 | h1); exacts [h1 hd', h h1]), elementData_eq enc inc r hd']
        have e1 : Reads (.txt ['\n'], pieceStack r) "<CellData>\n".toList [] (.txt ['\n'], ("CellData".toList, [], []) :: pieceStack r) := rfl
        have e2 := reads_arrs (S := ("CellData".toList, [], []) :: pieceStack r) he (cData inc r) (cData_names hn inc)
        have e3 : Reads (.txt ['\n'], ("CellData".toList, [], []) :: pieceStack r) "</CellData>\n".toList [⟨piecePath ++ ["CellData".toList], [], []⟩] (.txt ['\n'], pieceStack r) := rfl
        exact e1.append (e2.append e3)
    · rw [if_neg hd', if_pos (Or.inl hd')]; exact Reads.nil _
  have hend : Reads (.txt ['\n'], pieceStack r) ("</Piece>\n".toList ++ (writeFooter ++ "\n".toList))
    [⟨piecePath, pieceAttrs r, []⟩, ⟨["VTKFile".toList, "UnstructuredGrid".toList], [], []⟩, ⟨["VTKFile".toList], rootAttrs, []⟩] (.txt ['\n', '\n'], []) := rfl
  have hall := hfront.append (hpd.append (hcd.append hend))
  have htext : vtuFile enc inc r = frontText enc r ++
      (writePointData enc inc r ++ ((if r.dim = 2 ∨ r.dim = 3 then writeElementData enc inc r else []) ++ ("</Piece>\n".toList ++ (writeFooter ++ "\n".toList)))) := by
    unfold vtuFile writeRegion frontText
    rw [cells_eq r hd]
    simp only [List.append_assoc]
  unfold readXml
  rw [htext]
  unfold Reads at hall
  rw [hall]
  simp only
  rw [if_pos (by decide)]
  rfl

end Verif.Vtk
