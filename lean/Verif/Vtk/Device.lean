import Verif.Vtk.Main

/-!
# The files of a device

A reader of the files `.vtm` (ParaView) and `.visit` (VisIt), and what it gets from the files that are written.
-/

namespace Verif.Vtk

variable {D : Type}

/-! ### Specification -/

/-- The files that a file `.vtm` lists: groups are numbered from 0. -/
def readVtm (x : Text) : Option (List Text) := do
  let items ← readXml x
  let sets := items.filter fun i => i.path = ["VTKFile", "vtkMultiBlockDataSet", "DataSet"].map String.toList
  let l ← sets.mapM fun i => do
    let g ← (look i.attrs "group").bind readNat
    let f ← look i.attrs "file"
    some (g, f)
  if l.map (·.1) = List.range l.length then some (l.map (·.2)) else none

/-- The part of a name before its last component. -/
def dirOf (name : Text) : Text := (name.reverse.dropWhile (· ≠ '/')).reverse

/-- A name in a file is meant relative to where the file is, unless it begins with `/`. -/
def resolve (file name : Text) : Text := if name.head? = some '/' then name else dirOf file ++ name

/-- The grids of a device, by its file `.vtm`. -/
def readDevice (dec : Text → Option (List D)) (filename : Text) (files : List (Text × Text)) : Option (List (Vtu D)) := do
  let x ← files.lookup (filename ++ ".vtm".toList)
  let names ← readVtm x
  names.mapM fun n => (files.lookup (resolve (filename ++ ".vtm".toList) n)).bind (readVtu dec)

/-- The lines of a text; each ends with a newline. -/
def linesFrom : Text → Text → List Text
  | l, [] => if l = [] then [] else [l]
  | l, c :: cs => if c = '\n' then l :: linesFrom [] cs else linesFrom (l ++ [c]) cs

/-- The files that a file `.visit` lists. -/
def readVisit (x : Text) : Option (List Text) :=
  match linesFrom [] x with
  | [] => none
  | h :: ls => if "!NBLOCKS ".toList.isPrefixOf h = true ∧ readNat (h.drop 9) = some ls.length then some ls else none

/-! ### The file `.vtm` -/

def setItem (p : Text × ℕ) : Item :=
  ⟨["VTKFile", "vtkMultiBlockDataSet", "DataSet"].map String.toList,
    [("group".toList, showNat p.2), ("dataset".toList, "0".toList), ("file".toList, p.1)], []⟩

def vtmAttrs : Attrs :=
  [("type".toList, "vtkMultiBlockDataSet".toList), ("version".toList, "0.1".toList), ("byte_order".toList, "LittleEndian".toList),
    ("compressor".toList, "vtkZLibDataCompressor".toList)]

def vtmStack : Stack := [("vtkMultiBlockDataSet".toList, [], []), ("VTKFile".toList, vtmAttrs, [])]

set_option maxRecDepth 8000 in
theorem vtm_items {names : List Text} (hn : ∀ n ∈ names, AttrOK n) :
    readXml (vtmFile names) = some (names.zipIdx.map setItem ++
      [⟨["VTKFile", "vtkMultiBlockDataSet"].map String.toList, [], []⟩, ⟨["VTKFile".toList], vtmAttrs, []⟩]) := by
  have h0 : Reads (.txt [], []) ("<?xml version=\"1.0\"?>\n" ++
  "<VTKFile type=\"vtkMultiBlockDataSet\" version=\"0.1\" byte_order=\"LittleEndian\" compressor=\"vtkZLibDataCompressor\">\n" ++
  "  <vtkMultiBlockDataSet>\n").toList [] (.txt ['\n'], vtmStack) := rfl
  have h1 : Reads (.txt ['\n'], vtmStack) (names.zipIdx.flatMap fun p => "    <DataSet group=\"".toList ++ (showNat p.2 ++ ("\" dataset=\"".toList ++ (showNat 0 ++ ("\" file=\"".toList ++
    (p.1 ++ "\"/>\n".toList)))))) (names.zipIdx.map setItem) (.txt ['\n'], vtmStack) := by
    rw [List.map_eq_flatMap]
    refine Reads.flatMap _ fun p hp => ?_
    have hp1 : AttrOK p.1 := hn _ (List.fst_mem_of_mem_zipIdx hp)
    have e1 : Reads (.txt ['\n'], vtmStack) "    <DataSet group=\"".toList [] (.av "DataSet".toList [] "group".toList [], vtmStack) := rfl
    have e2 := reads_val (t := "DataSet".toList) (a := []) (n := "group".toList) (v := []) (k := vtmStack) (showNat_attr p.2)
    have e3 : Reads (.av "DataSet".toList [] "group".toList ([] ++ showNat p.2), vtmStack) "\" dataset=\"".toList []
      (.av "DataSet".toList [("group".toList, showNat p.2)] "dataset".toList [], vtmStack) := rfl
    have e4 : Reads (.av "DataSet".toList [("group".toList, showNat p.2)] "dataset".toList [], vtmStack) (showNat 0) []
      (.av "DataSet".toList [("group".toList, showNat p.2)] "dataset".toList "0".toList, vtmStack) := rfl
    have e5 : Reads (.av "DataSet".toList [("group".toList, showNat p.2)] "dataset".toList "0".toList, vtmStack) "\" file=\"".toList []
      (.av "DataSet".toList [("group".toList, showNat p.2), ("dataset".toList, "0".toList)] "file".toList [], vtmStack) := rfl
    have e6 := reads_val (t := "DataSet".toList) (a := [("group".toList, showNat p.2), ("dataset".toList, "0".toList)]) (n := "file".toList) (v := []) (k := vtmStack) hp1
    have e7 : Reads (.av "DataSet".toList [("group".toList, showNat p.2), ("dataset".toList, "0".toList)] "file".toList ([] ++ p.1), vtmStack) "\"/>\n".toList
      [setItem p] (.txt ['\n'], vtmStack) := rfl
    exact e1.append (e2.append (e3.append (e4.append (e5.append (e6.append e7)))))
  have h2 : Reads (.txt ['\n'], vtmStack) "  </vtkMultiBlockDataSet>\n</VTKFile>\n".toList
    [⟨["VTKFile", "vtkMultiBlockDataSet"].map String.toList, [], []⟩, ⟨["VTKFile".toList], vtmAttrs, []⟩] (.txt ['\n'], []) := rfl
  have hall := h0.append (h1.append h2)
  unfold readXml vtmFile
  unfold Reads at hall
  rw [hall]
  simp only [List.nil_append]
  rw [if_pos (by decide)]

/-- **The file `.vtm` lists the files**, in order. -/
theorem vtm_read {names : List Text} (hn : ∀ n ∈ names, AttrOK n) : readVtm (vtmFile names) = some names := by
  unfold readVtm
  rw [vtm_items hn]
  simp only [Option.bind_eq_bind, Option.bind_some]
  rw [List.filter_append, List.filter_eq_self.2, List.filter_eq_nil_iff.2, List.append_nil]
  · have hm : ∀ l : List (Text × ℕ), (l.map setItem).mapM (fun i => (((look i.attrs "group").bind readNat).bind fun g =>
        (look i.attrs "file").bind fun f => some (g, f))) = some (l.map fun p => (p.2, p.1)) := by
      intro l
      induction l with
      | nil => rfl
      | cons p l ih =>
        rw [List.map_cons, List.mapM_cons, ih]
        have l1 : (look (setItem p).attrs "group").bind readNat = some p.2 := readNat_showNat _
        have l2 : look (setItem p).attrs "file" = some p.1 := rfl
        rw [l1, l2]
        rfl
    rw [hm]
    simp only [Option.bind_some]
    rw [if_pos, List.map_map]
    · congr 1
      have : ((fun x : ℕ × Text => x.2) ∘ fun p : Text × ℕ => (p.2, p.1)) = Prod.fst := rfl
      rw [this]
      exact List.zipIdx_map_fst _ _
    · rw [List.map_map]
      have : ((fun x : ℕ × Text => x.1) ∘ fun p : Text × ℕ => (p.2, p.1)) = Prod.snd := rfl
      rw [this, List.zipIdx_map_snd]
      simp [List.range_eq_range']
  · intro i hi
    rcases List.mem_cons.1 hi with rfl | hi
    · simp only [decide_eq_true_eq]; decide
    · rw [List.mem_singleton.1 hi]
      simp only [decide_eq_true_eq]; decide
  · intro i hi
    obtain ⟨p, -, rfl⟩ := List.mem_map.1 hi
    exact decide_eq_true rfl

/-! ### The file `.visit` -/

theorem linesFrom_line {w : Text} (hw : '\n' ∉ w) : ∀ (l x : Text), linesFrom l (w ++ '\n' :: x) = (l ++ w) :: linesFrom [] x := by
  induction w with
  | nil => intro l x; rw [List.nil_append, linesFrom, if_pos rfl, List.append_nil]
  | cons c w ih =>
    intro l x
    simp only [List.mem_cons, not_or] at hw
    rw [List.cons_append, linesFrom, if_neg fun h => hw.1 h.symm, ih hw.2]
    simp

/-- **The file `.visit` lists the files**, in order. -/
theorem visit_read {names : List Text} (hn : ∀ n ∈ names, '\n' ∉ n) : readVisit (visitFile names) = some names := by
  have hl : ∀ names : List Text, (∀ n ∈ names, '\n' ∉ n) → linesFrom [] (names.flatMap fun n => n ++ ['\n']) = names := by
    intro names hn
    induction names with
    | nil => rfl
    | cons n names ih =>
      rw [List.flatMap_cons, List.append_assoc, List.singleton_append, linesFrom_line (hn n (by simp)), ih fun m hm => hn m (by simp [hm])]
      rfl
  have hd : '\n' ∉ "!NBLOCKS ".toList ++ showNat names.length := by
    intro h
    rcases List.mem_append.1 h with h | h
    · revert h; decide
    · have := showNat_digits _ _ h
      revert this; decide
  have hpre : ∀ p x : Text, p.isPrefixOf (p ++ x) = true := fun p x => List.isPrefixOf_iff_prefix.2 (List.prefix_append _ _)
  have hdrop : ("!NBLOCKS ".toList ++ showNat names.length).drop 9 = showNat names.length := rfl
  have hlines : linesFrom [] (visitFile names) = ("!NBLOCKS ".toList ++ showNat names.length) :: names := by
    unfold visitFile
    rw [← List.append_assoc, linesFrom_line hd, hl names hn, List.nil_append]
  unfold readVisit
  rw [hlines]
  exact if_pos ⟨hpre _ _, (congrArg readNat hdrop).trans (readNat_showNat _)⟩

/-! ### All files -/

theorem showNat_inj {a b : ℕ} (h : showNat a = showNat b) : a = b := by
  have := readNat_showNat a
  rw [h, readNat_showNat] at this
  exact (Option.some.inj this).symm

theorem vtuName_inj {f : Text} {a b : ℕ} (h : vtuName f a = vtuName f b) : a = b := by
  unfold vtuName at h
  exact showNat_inj (List.append_cancel_right (List.append_cancel_left (List.append_cancel_left h)))

theorem lookup_zip_range {β : Type} {f : ℕ → Text} (hf : ∀ a b, f a = f b → a = b) (l : List β) (rest : List (Text × β)) {i n : ℕ} (hn : n = l.length)
    (hi : i < l.length) : (((List.range n).map f).zip l ++ rest).lookup (f i) = some l[i] := by
  subst hn
  induction l generalizing f i with
  | nil => simp at hi
  | cons b l ih =>
    rw [List.length_cons, List.range_succ_eq_map, List.map_cons, List.zip_cons_cons, List.cons_append]
    cases i with
    | zero => rw [List.lookup_cons_self]; rfl
    | succ i =>
      have hne : (f (i + 1) == f 0) = false := by
        rw [beq_eq_false_iff_ne]
        intro h
        have := hf _ _ h
        omega
      rw [List.lookup_cons, hne, List.map_map]
      exact ih (f := f ∘ Nat.succ) (fun a b h => Nat.succ.inj (hf _ _ h)) (by simpa using hi)

theorem lookup_skip {β : Type} {k : Text} {l rest : List (Text × β)} (h : ∀ p ∈ l, p.1 ≠ k) : (l ++ rest).lookup k = rest.lookup k := by
  induction l with
  | nil => rfl
  | cons p l ih =>
    obtain ⟨a, b⟩ := p
    have hne : (k == a) = false := by
      rw [beq_eq_false_iff_ne]
      exact fun h' => h (a, b) (by simp) h'.symm
    rw [List.cons_append, List.lookup_cons, hne]
    exact ih fun q hq => h q (by simp [hq])

theorem ends_vtm (f : Text) (i : ℕ) (g : Text) : vtuName f i ≠ g ++ ".vtm".toList := by
  intro h
  have := congrArg List.getLast? h
  unfold vtuName at this
  rw [show f ++ ("_".toList ++ (showNat i ++ ".vtu".toList)) = (f ++ ("_".toList ++ (showNat i ++ ".vt".toList))) ++ ['u'] by simp,
    show g ++ ".vtm".toList = (g ++ ".vt".toList) ++ ['m'] by simp, List.getLast?_append, List.getLast?_append] at this
  simp at this

/-- The first character of a path. -/
theorem resolve_self {f : Text} (hf : f.head? = some '/' ∨ '/' ∉ f) (i : ℕ) :
    resolve (f ++ ".vtm".toList) (vtuName f i) = vtuName f i := by
  unfold resolve
  rcases hf with hf | hf
  · rw [if_pos]
    unfold vtuName
    cases f with
    | nil => simp at hf
    | cons c f => exact hf
  · split
    · rfl
    · have : dirOf (f ++ ".vtm".toList) = [] := by
        unfold dirOf
        rw [List.reverse_eq_nil_iff]
        have : ∀ l : Text, '/' ∉ l → l.dropWhile (· ≠ '/') = [] := by
          intro l hl
          induction l with
          | nil => rfl
          | cons c l ih =>
            simp only [List.mem_cons, not_or] at hl
            rw [List.dropWhile_cons, if_pos (by simpa using fun h : c = '/' => hl.1 h.symm), ih hl.2]
        refine this _ ?_
        rw [List.mem_reverse, List.mem_append]
        rintro (hc | hc)
        · exact hf hc
        · revert hc; decide
      rw [this, List.nil_append]

/-- What is needed of a region to be read. -/
structure RegOK (enc : List D → Text) (dec : Text → Option (List D)) (inc : Text → Bool) (r : Reg D) : Prop where
  dim : r.dim = 1 ∨ r.dim = 2 ∨ r.dim = 3
  names : NamesOK r
  sized : Sized r
  pos : dec (enc (flat3 r.pos)) = some (flat3 r.pos)
  pdata : ∀ p ∈ pData inc r, dec (enc p.2.2) = some p.2.2
  cdata : ∀ p ∈ cData inc r, dec (enc p.2.2) = some p.2.2

theorem vtuName_attr {f : Text} (hf : AttrOK f) (i : ℕ) : AttrOK (vtuName f i) := by
  unfold vtuName
  intro c hc
  rcases List.mem_append.1 hc with hc | hc
  · exact hf c hc
  rcases List.mem_append.1 hc with hc | hc
  · exact (by decide : ∀ c ∈ "_".toList, c ≠ '<' ∧ c ≠ '&' ∧ c ≠ '"') c hc
  rcases List.mem_append.1 hc with hc | hc
  · exact showNat_attr _ c hc
  · exact (by decide : ∀ c ∈ ".vtu".toList, c ≠ '<' ∧ c ≠ '&' ∧ c ≠ '"') c hc

/-- **The files of a device say what its regions are**, in their order, when the name of the file is a name in the
current directory or begins with `/`. -/
theorem device_read {enc : List D → Text} {dec : Text → Option (List D)} (he : EncOK enc) {inc : Text → Bool} {f : Text} {regs : List (Text × Reg D)}
    {canOpen : Text → Bool} (hopen : ∀ n, canOpen n = true) (hf : f.head? = some '/' ∨ '/' ∉ f) (ha : AttrOK f)
    (hr : ∀ r ∈ regs, RegOK enc dec inc r.2) :
    (writeDevice canOpen enc inc f (some regs)).1 = true ∧
    readDevice dec f (writeDevice canOpen enc inc f (some regs)).2 = some (regs.map fun r => meant inc r.2) := by
  refine ⟨rfl, ?_⟩
  unfold readDevice writeDevice
  dsimp only
  rw [List.filter_eq_self.2 fun p _ => hopen p.1]
  have hlen : (regs.map fun r => vtuFile enc inc r.2).length = regs.length := List.length_map _
  rw [lookup_skip (k := f ++ ".vtm".toList)]
  · rw [List.lookup_cons_self]
    simp only [Option.bind_eq_bind, Option.bind_some]
    rw [vtm_read]
    · simp only [Option.bind_some]
      rw [List.mapM_map]
      have key : ∀ i (hi : i < regs.length), ((((List.range regs.length).map (vtuName f)).zip (regs.map fun r => vtuFile enc inc r.2) ++
          [(f ++ ".vtm".toList, vtmFile ((List.range regs.length).map (vtuName f))), (f ++ ".visit".toList, visitFile ((List.range regs.length).map (vtuName f)))]).lookup
          (resolve (f ++ ".vtm".toList) (vtuName f i))).bind (readVtu dec) = some (meant inc regs[i].2) := by
        intro i hi
        have := lookup_zip_range (f := vtuName f) (fun a b => vtuName_inj) (regs.map fun r => vtuFile enc inc r.2)
          [(f ++ ".vtm".toList, vtmFile ((List.range regs.length).map (vtuName f))), (f ++ ".visit".toList, visitFile ((List.range regs.length).map (vtuName f)))]
          (i := i) hlen.symm (by rw [hlen]; exact hi)
        rw [resolve_self hf, this, Option.bind_some, List.getElem_map]
        have := hr regs[i] (List.getElem_mem hi)
        exact vtu_read he this.dim this.names this.sized this.pos this.pdata this.cdata
      generalize ((((List.range regs.length).map (vtuName f)).zip (regs.map fun r => vtuFile enc inc r.2) ++
          [(f ++ ".vtm".toList, vtmFile ((List.range regs.length).map (vtuName f))), (f ++ ".visit".toList, visitFile ((List.range regs.length).map (vtuName f)))])) = files at key ⊢
      have : ∀ (l : List ℕ), (∀ i ∈ l, i < regs.length) → l.mapM (fun i => (files.lookup (resolve (f ++ ".vtm".toList) (vtuName f i))).bind (readVtu dec)) =
          some (l.map fun i => if h : i < regs.length then meant inc regs[i].2 else meant inc ⟨0, [], [], [], [], [], [], [], []⟩) := by
        intro l hl
        induction l with
        | nil => rfl
        | cons i l ih =>
          rw [List.mapM_cons, key i (hl i (by simp)), ih fun j hj => hl j (by simp [hj]), List.map_cons, dif_pos (hl i (by simp))]
          rfl
      refine (this _ fun i hi => List.mem_range.1 hi).trans ?_
      congr 1
      refine List.ext_getElem (by simp) fun i h1 h2 => ?_
      simp only [List.length_map, List.length_range] at h1
      simp [h1]
    · intro n hn
      obtain ⟨i, -, rfl⟩ := List.mem_map.1 hn
      exact vtuName_attr ha i
  · intro p hp
    obtain ⟨i, -, hi⟩ := List.mem_map.1 (List.of_mem_zip hp).1
    rw [← hi]
    exact ends_vtm _ _ _

end Verif.Vtk
