import Verif.Vtk.Read

/-!
# A VTK file is read as the region that was written
-/

namespace Verif.Vtk

variable {D : Type}

/-- All values of a model are there: one for each node, or for each element. -/
structure Sized (r : Reg D) : Prop where
  node : ∀ m ∈ r.nodeModels, m.2.2.length = r.pos.length
  edge : ∀ m ∈ r.edgeModels, m.2.2.1.length = r.pos.length ∧ m.2.2.2.length = r.pos.length
  tri : r.dim = 2 → (∀ m ∈ r.triModels, m.2.2.length = r.tris.length) ∧ r.tetModels = []
  tet : r.dim = 3 → (∀ m ∈ r.tetModels, m.2.2.length = r.tets.length) ∧ r.triModels = []

/-- The encoding of arrays: its text has no markup and no blanks. -/
structure EncOK (enc : List D → Text) : Prop where
  text : EncText enc
  blank : ∀ v, ∀ c ∈ enc v, isWs c = false

/-- What the files should say about a region. -/
def meant (inc : Text → Bool) (r : Reg D) : Vtu D :=
  { npoints := r.pos.length, ncells := (cellPts r).length, points := flat3 r.pos,
    cells := (cellPts r).map fun c => (c, vtkType r.dim), pdata := pData inc r, cdata := cData inc r }

theorem inPiece_append (a b : List Item) (l : List String) : inPiece (a ++ b) l = inPiece a l ++ inPiece b l := List.filter_append _ _

theorem inPiece_all {a : List Item} {l : List String} (h : ∀ i ∈ a, i.path = (["VTKFile", "UnstructuredGrid", "Piece"] ++ l).map String.toList) :
    inPiece a l = a := List.filter_eq_self.2 fun i hi => by simpa using h i hi

theorem inPiece_none {a : List Item} {l : List String} (h : ∀ i ∈ a, i.path ≠ (["VTKFile", "UnstructuredGrid", "Piece"] ++ l).map String.toList) :
    inPiece a l = [] := List.filter_eq_nil_iff.2 fun i hi => by simpa using h i hi

theorem secItems_paths {enc : List D → Text} {path : List Text} {sec : String} {e : Prop} [Decidable e] {l : List (Text × ℕ × List D)} {i : Item}
    (h : i ∈ secItems enc path sec e l) : i.path = path ++ [sec.toList] ++ ["DataArray".toList] ∨ i.path = path ++ [sec.toList] := by
  unfold secItems at h
  split at h
  · simp at h
  · rcases List.mem_append.1 h with h | h
    · obtain ⟨p, -, rfl⟩ := List.mem_map.1 h
      exact Or.inl rfl
    · rw [List.mem_singleton.1 h]
      exact Or.inr rfl

theorem secItems_arrays {enc : List D → Text} {sec : String} {e : Prop} [Decidable e] {l : List (Text × ℕ × List D)} (he : e → l = [])
    (hne : piecePath ++ [sec.toList] ≠ (["VTKFile", "UnstructuredGrid", "Piece"] ++ [sec, "DataArray"]).map String.toList) :
    inPiece (secItems enc piecePath sec e l) [sec, "DataArray"] = l.map fun p => arrItem enc (piecePath ++ [sec.toList]) p.2.2 p.1 p.2.1 := by
  unfold secItems
  split
  · rw [he ‹_›]; rfl
  · rw [inPiece_append, inPiece_all, inPiece_none, List.append_nil]
    · intro i hi
      rw [List.mem_singleton.1 hi]
      exact hne
    · intro i hi
      obtain ⟨p, -, rfl⟩ := List.mem_map.1 hi
      rfl

theorem filter_sig (t : Text) : (sig t).filter (fun c => ! isWs c) = t.filter fun c => ! isWs c := by
  unfold sig
  split_ifs with h
  · symm
    rw [List.filter_nil, List.filter_eq_nil_iff]
    intro c hc
    simpa using List.all_eq_true.1 h c hc
  · rfl

theorem words_all_ws {t : Text} (h : t.all isWs = true) : words t = [] := by
  unfold words
  induction t with
  | nil => rfl
  | cons c t ih =>
    simp only [List.all_cons, Bool.and_eq_true] at h
    rw [wordsFrom, if_pos h.1, if_pos rfl, ih h.2]
    rfl

theorem readNats_sig (t : Text) : readNats (sig t) = readNats t := by
  unfold sig
  split_ifs with h
  · unfold readNats
    rw [words_all_ws h]
    rfl
  · rfl

theorem look_arr_name (name : Text) (comps : ℕ) : (look (arrAttrs name comps) "Name").getD [] = name := by
  unfold arrAttrs
  by_cases hn : name = []
  · by_cases hc : comps = 1
    · subst hn hc; rfl
    · rw [if_neg (not_not.2 hn), if_pos hc]; rw [hn]; rfl
  · rw [if_pos hn]; rfl

theorem look_arr_comps (name : Text) (comps : ℕ) : (look (arrAttrs name comps) "NumberOfComponents").elim (some 1) readNat = some comps := by
  unfold arrAttrs
  have key : ∀ x : Attrs, look ([("type".toList, "Float64".toList)] ++ ((if name ≠ [] then [("Name".toList, name)] else []) ++ x)) "NumberOfComponents" =
      look x "NumberOfComponents" := by
    intro x
    split_ifs <;> rfl
  rw [key]
  by_cases hc : comps = 1
  · subst hc; rfl
  · rw [if_pos hc]
    exact readNat_showNat comps

theorem look_arr_type (name : Text) (comps : ℕ) : look (arrAttrs name comps) "type" = some "Float64".toList := rfl

theorem look_arr_format (name : Text) (comps : ℕ) : look (arrAttrs name comps) "format" = some "binary".toList := by
  unfold arrAttrs
  by_cases hn : name = [] <;> by_cases hc : comps = 1
  · rw [if_neg (not_not.2 hn), if_neg (not_not.2 hc)]; rfl
  · rw [if_neg (not_not.2 hn), if_pos hc]; rfl
  · rw [if_pos hn, if_neg (not_not.2 hc)]; rfl
  · rw [if_pos hn, if_pos hc]; rfl

theorem readArr_arrItem {enc : List D → Text} {dec : Text → Option (List D)} (he : EncOK enc) (path : List Text) {vals : List D}
    (hv : dec (enc vals) = some vals) (name : Text) (comps : ℕ) :
    readArr dec (arrItem enc path vals name comps) = some (name, comps, vals) := by
  unfold readArr arrItem
  simp only
  have hf : ('\n' :: enc vals ++ ['\n']).filter (fun c => ! isWs c) = enc vals := by
    rw [List.cons_append, List.filter_cons, if_neg (by decide), List.filter_append, List.filter_eq_self.2 (fun c hc => by rw [he.blank vals c hc]; rfl)]
    simp [isWs]
  rw [if_pos ⟨look_arr_type _ _, look_arr_format _ _⟩, filter_sig, hf, look_arr_comps, hv]
  simp only
  rw [look_arr_name]

theorem mapM_arr {enc : List D → Text} {dec : Text → Option (List D)} (he : EncOK enc) (path : List Text) (l : List (Text × ℕ × List D))
    (hv : ∀ p ∈ l, dec (enc p.2.2) = some p.2.2) :
    (l.map fun p => arrItem enc path p.2.2 p.1 p.2.1).mapM (readArr dec) = some l := by
  induction l with
  | nil => rfl
  | cons p l ih =>
    rw [List.map_cons, List.mapM_cons, readArr_arrItem he path (hv p (by simp)), ih fun q hq => hv q (by simp [hq])]
    rfl

theorem cutAt_offsets (k : ℕ) (cs : List (List ℕ)) (h : ∀ c ∈ cs, c.length = k) : ∀ (pre : List ℕ) (m : ℕ), pre.length = m →
    cutAt (pre ++ cs.flatten) m ((List.range cs.length).map fun i => (m + k) + i * k) = cs := by
  induction cs with
  | nil => intro pre m _; rfl
  | cons c cs ih =>
    intro pre m hm
    have hc := h c (by simp)
    rw [List.length_cons, List.range_succ_eq_map, List.map_cons, cutAt]
    congr 1
    · rw [List.flatten_cons, Nat.zero_mul, Nat.add_zero, Nat.add_sub_cancel_left, ← hm, List.drop_left, ← hc, List.take_left]
    · have := ih (fun d hd => h d (by simp [hd])) (pre ++ c) (m + k) (by rw [List.length_append, hm, hc])
      rw [List.append_assoc] at this
      rw [List.flatten_cons, List.map_map, Nat.zero_mul, Nat.add_zero]
      refine Eq.trans ?_ this
      congr 2
      funext i
      simp only [Function.comp]
      rw [Nat.succ_mul]
      omega

theorem cellPts_length {r : Reg D} : ∀ c ∈ cellPts r, (r.dim = 1 ∨ r.dim = 2 ∨ r.dim = 3) → c.length = r.dim + 1 := by
  intro c hc hd
  unfold cellPts at hc
  rcases hd with hd | hd | hd
  · simp [hd] at hc ⊢
    obtain ⟨a, b, -, rfl⟩ := hc
    rfl
  · simp [hd] at hc ⊢
    obtain ⟨a, b, c, -, rfl⟩ := hc
    rfl
  · simp [hd] at hc ⊢
    obtain ⟨a, b, c, d, -, rfl⟩ := hc
    rfl

theorem flat3_length (l : List (D × D × D)) : (flat3 l).length = 3 * l.length := by
  unfold flat3
  induction l with
  | nil => rfl
  | cons a l ih => rw [List.flatMap_cons, List.length_append, ih, List.length_cons]; simp; omega

theorem numCells_eq {r : Reg D} (hd : r.dim = 1 ∨ r.dim = 2 ∨ r.dim = 3) : numCells r = (cellPts r).length := by
  unfold numCells cellPts
  rcases hd with hd | hd | hd <;> simp [hd]

theorem meant_sized {r : Reg D} (hs : Sized r) (inc : Text → Bool) : (meant inc r).sized = true := by
  unfold meant Vtu.sized
  simp only [Bool.and_eq_true, decide_eq_true_eq, List.all_eq_true]
  refine ⟨⟨⟨flat3_length _, by simp⟩, ?_⟩, ?_⟩
  · intro p hp
    unfold pData at hp
    rcases List.mem_append.1 hp with hp | hp
    · obtain ⟨m, hm, rfl⟩ := List.mem_map.1 hp
      simpa using hs.node m (List.mem_filter.1 hm).1
    · rcases List.mem_append.1 hp with hp | hp
      · obtain ⟨m, hm, rfl⟩ := List.mem_map.1 hp
        simpa using (hs.edge m (List.mem_filter.1 hm).1).1
      · obtain ⟨m, hm, rfl⟩ := List.mem_map.1 hp
        simp only
        rw [flat3_length, (hs.edge m (List.mem_filter.1 hm).1).2]
  · intro p hp
    unfold cData at hp
    split at hp
    · rename_i hd
      have hcell : (cellPts r).length = if r.dim = 2 then r.tris.length else r.tets.length := by
        unfold cellPts
        rcases hd with hd | hd <;> simp [hd]
      rw [hcell]
      rcases hd with hd | hd
      · obtain ⟨h1, h2⟩ := hs.tri hd
        rw [h2] at hp
        simp only [List.filter_nil, List.map_nil, List.append_nil] at hp
        obtain ⟨m, hm, rfl⟩ := List.mem_map.1 hp
        simpa [hd] using h1 m (List.mem_filter.1 hm).1
      · obtain ⟨h1, h2⟩ := hs.tet hd
        rw [h2] at hp
        simp only [List.filter_nil, List.map_nil, List.nil_append] at hp
        obtain ⟨m, hm, rfl⟩ := List.mem_map.1 hp
        simpa [hd] using h1 m (List.mem_filter.1 hm).1
    · simp at hp

theorem zip_const {α : Type} (l : List α) (n : ℕ) : l.zip ((List.range l.length).map fun _ => n) = l.map fun c => (c, n) := by
  rw [List.map_const', List.length_range]
  induction l with
  | nil => rfl
  | cons a l ih => simp [List.replicate_succ, ih]

/-- **The file of a region says what the region is**: a reader of VTK gets the points, cells and data that are
meant. -/
theorem vtu_read {enc : List D → Text} {dec : Text → Option (List D)} (he : EncOK enc) {inc : Text → Bool} {r : Reg D}
    (hd : r.dim = 1 ∨ r.dim = 2 ∨ r.dim = 3) (hn : NamesOK r) (hs : Sized r) (hpos : dec (enc (flat3 r.pos)) = some (flat3 r.pos))
    (hp : ∀ p ∈ pData inc r, dec (enc p.2.2) = some p.2.2) (hc : ∀ p ∈ cData inc r, dec (enc p.2.2) = some p.2.2) :
    readVtu dec (vtuFile enc inc r) = some (meant inc r) := by
  unfold readVtu
  rw [reads_file he.text hd hn]
  simp only [Option.bind_eq_bind, Option.bind_some]
  have hPD : (r.nodeModels = [] ∧ r.edgeModels = []) → pData inc r = [] := by
    rintro ⟨h1, h2⟩; simp [pData, h1, h2]
  have hCD : (¬ (r.dim = 2 ∨ r.dim = 3) ∨ (r.triModels = [] ∧ r.tetModels = [])) → cData inc r = [] := by
    rintro (h | ⟨h1, h2⟩)
    · unfold cData; rw [if_neg h]
    · unfold cData; simp [h1, h2]
  have hother : ∀ {sec : String} {e : Prop} [Decidable e] {l : List (Text × ℕ × List D)} (k : List String),
      (piecePath ++ [sec.toList] ++ ["DataArray".toList] ≠ (["VTKFile", "UnstructuredGrid", "Piece"] ++ k).map String.toList) →
      (piecePath ++ [sec.toList] ≠ (["VTKFile", "UnstructuredGrid", "Piece"] ++ k).map String.toList) →
      inPiece (secItems enc piecePath sec e l) k = [] := by
    intro sec e _ l k h1 h2
    refine inPiece_none fun i hi => ?_
    rcases secItems_paths hi with h | h <;> rw [h] <;> assumption
  have i1 : inPiece (fileItems enc inc r) [] = [⟨piecePath, pieceAttrs r, []⟩] := by
    unfold fileItems
    rw [inPiece_append, inPiece_append, inPiece_append, inPiece_append, hother [] (by decide) (by decide), hother [] (by decide) (by decide)]
    rfl
  have i2 : inPiece (fileItems enc inc r) ["Points", "DataArray"] = [arrItem enc (piecePath ++ ["Points".toList]) (flat3 r.pos) [] 3] := by
    unfold fileItems
    rw [inPiece_append, inPiece_append, inPiece_append, inPiece_append, hother _ (by decide) (by decide), hother _ (by decide) (by decide)]
    rfl
  have i3 : inPiece (fileItems enc inc r) ["Cells", "DataArray"] =
      [intItem (piecePath ++ ["Cells".toList]) "Int32" "connectivity" (cellPts r).flatten,
        intItem (piecePath ++ ["Cells".toList]) "Int32" "offsets" ((List.range (cellPts r).length).map fun i => (r.dim + 1) + i * (r.dim + 1)),
        intItem (piecePath ++ ["Cells".toList]) "UInt8" "types" ((List.range (cellPts r).length).map fun _ => vtkType r.dim)] := by
    unfold fileItems
    rw [inPiece_append, inPiece_append, inPiece_append, inPiece_append, hother _ (by decide) (by decide), hother _ (by decide) (by decide)]
    rfl
  have i4 : inPiece (fileItems enc inc r) ["PointData", "DataArray"] = (pData inc r).map fun p => arrItem enc (piecePath ++ ["PointData".toList]) p.2.2 p.1 p.2.1 := by
    unfold fileItems
    rw [inPiece_append, inPiece_append, inPiece_append, inPiece_append, secItems_arrays hPD (by decide), hother _ (by decide) (by decide)]
    simp only [List.nil_append]
    exact List.append_nil _
  have i5 : inPiece (fileItems enc inc r) ["CellData", "DataArray"] = (cData inc r).map fun p => arrItem enc (piecePath ++ ["CellData".toList]) p.2.2 p.1 p.2.1 := by
    unfold fileItems
    rw [inPiece_append, inPiece_append, inPiece_append, inPiece_append, secItems_arrays hCD (by decide), hother _ (by decide) (by decide)]
    simp only [List.nil_append]
    exact List.append_nil _
  rw [i1, i2, i3, i4, i5, mapM_arr he _ _ hp, mapM_arr he _ _ hc]
  have l1 : (look (pieceAttrs r) "NumberOfPoints").bind readNat = some r.pos.length := readNat_showNat _
  have l2 : (look (pieceAttrs r) "NumberOfCells").bind readNat = some (numCells r) := readNat_showNat _
  have hints : ∀ (ty name : String) (ns : List ℕ), readNats (intItem (piecePath ++ ["Cells".toList]) ty name ns).text = some ns := by
    intro ty name ns
    unfold intItem
    simp only
    rw [readNats_sig, readNats_spaced]
  have c1 : ∀ a b c, readInts [intItem (piecePath ++ ["Cells".toList]) "Int32" "connectivity" a, intItem (piecePath ++ ["Cells".toList]) "Int32" "offsets" b,
      intItem (piecePath ++ ["Cells".toList]) "UInt8" "types" c] "connectivity" = some a := fun a b c => hints _ _ a
  have c2 : ∀ a b c, readInts [intItem (piecePath ++ ["Cells".toList]) "Int32" "connectivity" a, intItem (piecePath ++ ["Cells".toList]) "Int32" "offsets" b,
      intItem (piecePath ++ ["Cells".toList]) "UInt8" "types" c] "offsets" = some b := fun a b c => hints _ _ b
  have c3 : ∀ a b c, readInts [intItem (piecePath ++ ["Cells".toList]) "Int32" "connectivity" a, intItem (piecePath ++ ["Cells".toList]) "Int32" "offsets" b,
      intItem (piecePath ++ ["Cells".toList]) "UInt8" "types" c] "types" = some c := fun a b c => hints _ _ c
  simp only [l1, l2, c1, c2, c3, readArr_arrItem he _ hpos, Option.bind_some]
  have hcut := cutAt_offsets (r.dim + 1) (cellPts r) (fun c hc => cellPts_length c hc hd) [] 0 rfl
  rw [List.nil_append] at hcut
  simp only [Nat.zero_add] at hcut
  rw [hcut, zip_const, numCells_eq hd]
  have := meant_sized hs inc
  unfold meant at this ⊢
  rw [if_pos ⟨trivial, by simp, this⟩]

end Verif.Vtk
