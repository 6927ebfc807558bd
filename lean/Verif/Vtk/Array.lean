import Verif.Vtk.Device
import Verif.Base64.Props

/-!
# Arrays in VTK files

`convertVectorToZlibBase64` as a text, a reader for it, and the theorem on the files of a device for this encoding.
-/

namespace Verif.Vtk
open Verif.Base64

variable {D : Type}

/-- Bytes of an `unsigned int`, as in memory of a little endian machine. -/
def le32 (n : ℕ) : List UInt8 := [UInt8.ofNat n, UInt8.ofNat (n / 256), UInt8.ofNat (n / 65536), UInt8.ofNat (n / 16777216)]

def chars (l : List UInt8) : Text := l.map fun b => Char.ofNat b.toNat

/-- `convertVectorToZlibBase64` (`base64.cc:72-119`): the header and the compressed data, each in base64. -/
def encArr (compress : List D → List UInt8) (x : List D) : Text :=
  chars (encode ((zlibParts compress x).1.flatMap le32) ++ encode (zlibParts compress x).2)

/-! ### Specification of the reader -/

def bytes (t : Text) : List UInt8 := t.map fun c => UInt8.ofNat c.toNat

/-- Words of 4 bytes. -/
def readWords : List UInt8 → List ℕ
  | a :: b :: c :: d :: l => (a.toNat + 256 * b.toNat + 65536 * c.toNat + 16777216 * d.toNat) :: readWords l
  | _ => []

/-- A reader of compressed arrays: the first word is the number of blocks; it gives the length of the header, after
whose base64 the data begin. -/
def decArr (decompress : List UInt8 → Option (List D)) (t : Text) : Option (List D) := do
  let first ← rfcDecode ((bytes t).take 8)
  match readWords first with
  | [] => none
  | nb :: _ =>
    let hchars := 4 * ((4 * (3 + nb) + 2) / 3)
    let head ← rfcDecode ((bytes t).take hchars)
    let data ← rfcDecode ((bytes t).drop hchars)
    vtkRead decompress (readWords head, data)

/-! ### The proof -/

theorem toNat_ofNat8 (n : ℕ) : (UInt8.ofNat n).toNat = n % 256 := by simp

theorem readWords_le32 {l : List ℕ} (h : ∀ n ∈ l, n < 4294967296) : readWords (l.flatMap le32) = l := by
  induction l with
  | nil => rfl
  | cons n l ih =>
    rw [List.flatMap_cons]
    simp only [le32, List.cons_append, List.nil_append, readWords]
    have h1 := h n (by simp)
    rw [ih fun m hm => h m (by simp [hm]), toNat_ofNat8, toNat_ofNat8, toNat_ofNat8, toNat_ofNat8]
    congr 1
    omega

theorem le32_length (l : List ℕ) : (l.flatMap le32).length = 4 * l.length := by
  induction l with
  | nil => rfl
  | cons n l ih => rw [List.flatMap_cons, List.length_append, ih, List.length_cons]; simp [le32]; omega

theorem alphabet_ok : ∀ i : Fin 64, (rfcChar i.val).toNat < 128 ∧ rfcChar i.val ∉ whiteSpace ∧ isWs (Char.ofNat (rfcChar i.val).toNat) = false ∧
    Char.ofNat (rfcChar i.val).toNat ≠ '<' ∧ Char.ofNat (rfcChar i.val).toNat ≠ '&' := by decide +kernel

theorem encode_chars (bs : List UInt8) : ∀ c ∈ encode bs, c.toNat < 128 ∧ c ∉ whiteSpace ∧ isWs (Char.ofNat c.toNat) = false ∧
    Char.ofNat c.toNat ≠ '<' ∧ Char.ofNat c.toNat ≠ '&' := by
  intro c hc
  rcases encode_alphabet bs c hc with rfl | ⟨i, hi, rfl⟩
  · decide +kernel
  · exact alphabet_ok ⟨i, hi⟩

theorem rfcDecode_encode (bs : List UInt8) : rfcDecode (encode bs) = some bs := by
  have h := decode_is_rfc4648 (encode bs) fun c hc => (encode_chars bs c hc).1
  rw [decode_encode, List.filter_eq_self.2 fun c hc => by simpa using (encode_chars bs c hc).2.1] at h
  cases hr : rfcDecode (encode bs) with
  | none => rw [hr] at h; simp at h
  | some o => rw [hr] at h; rw [Result.success.inj h]

theorem char_byte : ∀ c : Fin 128, UInt8.ofNat (Char.ofNat c.val).toNat = UInt8.ofNat c.val := by decide +kernel

theorem bytes_chars {l : List UInt8} (h : ∀ c ∈ l, c.toNat < 128) : bytes (chars l) = l := by
  unfold bytes chars
  rw [List.map_map]
  conv_rhs => rw [← List.map_id l]
  refine List.map_congr_left fun c hc => ?_
  have hc := h c hc
  simp only [Function.comp, id]
  rw [char_byte ⟨c.toNat, hc⟩]
  simp

theorem encode_take {bs : List UInt8} (h : 6 ≤ bs.length) : (encode bs).take 8 = encode (bs.take 6) := by
  match bs, h with
  | a :: b :: c :: d :: e :: f :: l, _ => simp [encode, encode3]

theorem encArr_ok (compress : List D → List UInt8) : EncOK (encArr compress) := by
  have hall : ∀ v : List D, ∀ c ∈ encArr compress v, isWs c = false ∧ c ≠ '<' ∧ c ≠ '&' := by
    intro v c hc
    obtain ⟨b, hb, rfl⟩ := List.mem_map.1 hc
    rcases List.mem_append.1 hb with hb | hb
    · exact (encode_chars _ b hb).2.2
    · exact (encode_chars _ b hb).2.2
  exact ⟨fun v c hc => (hall v c hc).2, fun v c hc => (hall v c hc).1⟩

/-- The words of the header fit: the blocks are fewer than `2^32` and so are the bytes of each, compressed. -/
def Fits (compress : List D → List UInt8) (x : List D) : Prop :=
  x.length < 4294967296 ∧ ∀ b ∈ blocks x, (compress b).length < 4294967296

/-- **What the reader gets from an array** is what `vtkRead` gets from the header and the data. -/
theorem decArr_encArr {compress : List D → List UInt8} {decompress : List UInt8 → Option (List D)} {x : List D} (hf : Fits compress x) :
    decArr decompress (encArr compress x) = vtkRead decompress (zlibParts compress x) := by
  have hb : bytes (encArr compress x) = encode ((zlibParts compress x).1.flatMap le32) ++ encode (zlibParts compress x).2 := by
    refine bytes_chars fun c hc => ?_
    rcases List.mem_append.1 hc with hc | hc <;> exact (encode_chars _ c hc).1
  have hnb : numberOfBlocks x.length < 4294967296 := by
    have := hf.1
    unfold numberOfBlocks
    rw [perBlock_eq]
    split <;> omega
  have hw : ∀ n ∈ (zlibParts compress x).1, n < 4294967296 := by
    intro n hn
    unfold zlibParts at hn
    simp only [List.mem_append, List.mem_cons, List.not_mem_nil, or_false, List.mem_map] at hn
    rcases hn with (rfl | rfl | rfl) | ⟨b, hb, rfl⟩
    · exact hnb
    · unfold blockSize; norm_num
    · rw [perBlock_eq]; omega
    · exact hf.2 b hb
  have hl : (zlibParts compress x).1.length = 3 + numberOfBlocks x.length := by
    unfold zlibParts blocks
    simp
    omega
  obtain ⟨rest, hz⟩ : ∃ rest, (zlibParts compress x).1 = numberOfBlocks x.length :: blockSize :: ((x.length % perBlock) * 8) :: rest := ⟨_, rfl⟩
  unfold decArr
  rw [hb]
  have h8 : (encode ((zlibParts compress x).1.flatMap le32) ++ encode (zlibParts compress x).2).take 8 =
      encode (((zlibParts compress x).1.flatMap le32).take 6) := by
    rw [List.take_append_of_le_length, encode_take]
    · rw [le32_length, hl]; omega
    · rw [encode_length, le32_length, hl]; omega
  rw [h8, rfcDecode_encode]
  simp only [Option.bind_eq_bind, Option.bind_some]
  have hfirst : readWords (((zlibParts compress x).1.flatMap le32).take 6) = [numberOfBlocks x.length] := by
    rw [hz, List.flatMap_cons, List.flatMap_cons]
    have := readWords_le32 (l := [numberOfBlocks x.length]) (by simpa using hnb)
    simp only [le32, List.flatMap_cons, List.flatMap_nil, List.cons_append, List.nil_append, readWords, List.take_succ_cons, List.take_zero] at this ⊢
    exact this
  rw [hfirst]
  simp only
  have hlen : (encode ((zlibParts compress x).1.flatMap le32)).length = 4 * ((4 * (3 + numberOfBlocks x.length) + 2) / 3) := by
    rw [encode_length, le32_length, hl]
  rw [← hlen, List.take_left, List.drop_left, rfcDecode_encode, rfcDecode_encode]
  simp only [Option.bind_some]
  rw [readWords_le32 hw]

/-- An array can be read: the length of the data is not a multiple of 4096 (C09), and the header fits. -/
def ArrOK (compress : List D → List UInt8) (x : List D) : Prop := Fits compress x ∧ (x = [] ∨ x.length % 4096 ≠ 0)

theorem arr_read {compress : List D → List UInt8} {decompress : List UInt8 → Option (List D)} (hcd : ∀ b, decompress (compress b) = some b)
    {x : List D} (h : ArrOK compress x) : decArr decompress (encArr compress x) = some x := by
  rw [decArr_encArr h.1]
  exact vtk_roundtrip_partial compress decompress hcd x h.2

/-- **An array with a length that is a multiple of 4096 cannot be read.** -/
theorem arr_unreadable {compress : List D → List UInt8} {decompress : List UInt8 → Option (List D)} (hcd : ∀ b, decompress (compress b) = some b)
    {x : List D} (hf : Fits compress x) (hne : x ≠ []) (h : x.length % 4096 = 0) : decArr decompress (encArr compress x) = none := by
  rw [decArr_encArr hf]
  exact vtk_reader_fails_on_full_blocks compress decompress hcd x hne h

/-! ### What a user asks for -/

/-- Components of vectors, as VTK has them: those of the first, then those of the second, ... -/
def xyz (l : List (D × D × D)) : List D := (l.map fun p => [p.1, p.2.1, p.2.2]).flatten

theorem flat3_xyz (l : List (D × D × D)) : flat3 l = xyz l := List.flatMap_def ..

/-- What the file of a region should say: all models that are shown and that the user asked for. -/
def wanted (inc : Text → Bool) (r : Reg D) : Vtu D :=
  { npoints := r.pos.length
    ncells := (cellPts r).length
    points := xyz r.pos
    cells := (cellPts r).map fun c => (c, vtkType r.dim)
    pdata := ((r.nodeModels.filter fun m => inc m.1 && m.2.1).map fun m => (m.1, 1, m.2.2)) ++
      (((r.edgeModels.filter fun m => inc m.1 && m.2.1 = .scalar).map fun m => (m.1, 1, m.2.2.1)) ++
      ((r.edgeModels.filter fun m => inc m.1 && m.2.1 = .vector).map fun m => (m.1, 3, xyz m.2.2.2)))
    cdata := if r.dim = 2 then (r.triModels.filter fun m => inc m.1 && m.2.1).map fun m => (m.1, 1, m.2.2)
      else if r.dim = 3 then (r.tetModels.filter fun m => inc m.1 && m.2.1).map fun m => (m.1, 1, m.2.2)
      else [] }

/-- What the code does with the models that the user did not ask for: vectors on edges and models on tetrahedra
are written all the same. -/
def AskedAll (inc : Text → Bool) (r : Reg D) : Prop :=
  (∀ m ∈ r.edgeModels, m.2.1 = .vector → inc m.1 = true) ∧ (r.dim = 3 → ∀ m ∈ r.tetModels, m.2.1 = true → inc m.1 = true)

theorem meant_wanted {inc : Text → Bool} {r : Reg D} (hs : Sized r) (ha : AskedAll inc r) : meant inc r = wanted inc r := by
  unfold meant wanted pData cData
  simp only [flat3_xyz]
  congr 1
  · congr 3
    refine List.filter_congr fun m hm => ?_
    by_cases h : m.2.1 = .vector
    · simp [h, ha.1 m hm h]
    · simp [h]
  · by_cases h2 : r.dim = 2
    · rw [if_pos (Or.inl h2), if_pos h2, (hs.tri h2).2]
      simp
    · by_cases h3 : r.dim = 3
      · rw [if_pos (Or.inr h3), if_neg h2, if_pos h3, (hs.tet h3).2]
        simp only [List.filter_nil, List.map_nil, List.nil_append]
        congr 1
        refine List.filter_congr fun m hm => ?_
        cases h : m.2.1 with
        | true => simp [ha.2 h3 m hm h]
        | false => simp
      · rw [if_neg (by omega), if_neg h2, if_neg h3]

/-- What is needed of a region to be written faithfully. -/
structure RegWell (compress : List D → List UInt8) (inc : Text → Bool) (r : Reg D) : Prop where
  dim : r.dim = 1 ∨ r.dim = 2 ∨ r.dim = 3
  names : NamesOK r
  sized : Sized r
  asked : AskedAll inc r
  pos : ArrOK compress (flat3 r.pos)
  pdata : ∀ p ∈ (wanted inc r).pdata, ArrOK compress p.2.2
  cdata : ∀ p ∈ (wanted inc r).cdata, ArrOK compress p.2.2

/-- **Writing a device and reading its files gives its regions**: their points, cells and the models that were
asked for, in order. Full strength would be this for all regions and names; it is false in each case that `RegWell` and the
condition on the name leave out (`vector_not_asked`, `tet_not_asked`, `arr_unreadable`, `name_unreadable`,
`relative_dir_unreadable`, `failed_open_not_reported`). -/
theorem device_files_partial {compress : List D → List UInt8} {decompress : List UInt8 → Option (List D)} (hcd : ∀ b, decompress (compress b) = some b)
    {inc : Text → Bool} {f : Text} {regs : List (Text × Reg D)} {canOpen : Text → Bool} (hopen : ∀ n, canOpen n = true)
    (hf : f.head? = some '/' ∨ '/' ∉ f) (ha : AttrOK f) (hr : ∀ r ∈ regs, RegWell compress inc r.2) :
    (writeDevice canOpen (encArr compress) inc f (some regs)).1 = true ∧
    readDevice (decArr decompress) f (writeDevice canOpen (encArr compress) inc f (some regs)).2 = some (regs.map fun r => wanted inc r.2) := by
  have hm : ∀ r ∈ regs, meant inc r.2 = wanted inc r.2 := fun r hr' => meant_wanted (hr r hr').sized (hr r hr').asked
  have := device_read (dec := decArr decompress) (encArr_ok compress) (inc := inc) hopen hf ha (regs := regs) (fun r hr' => by
    have h := hr r hr'
    have e := hm r hr'
    refine ⟨h.dim, h.names, h.sized, arr_read hcd h.pos, ?_, ?_⟩
    · intro p hp
      exact arr_read hcd (h.pdata p (by rw [← e]; exact hp))
    · intro p hp
      exact arr_read hcd (h.cdata p (by rw [← e]; exact hp)))
  refine ⟨this.1, this.2.trans ?_⟩
  congr 1
  exact List.map_congr_left hm

/-- The file for VisIt lists the same files. -/
theorem visit_lists {enc : List D → Text} {inc : Text → Bool} {f : Text} {regs : List (Text × Reg D)} {canOpen : Text → Bool}
    (hopen : ∀ n, canOpen n = true) (hf : '\n' ∉ f) :
    ∃ x, (f ++ ".visit".toList, x) ∈ (writeDevice canOpen enc inc f (some regs)).2 ∧
      readVisit x = some ((List.range regs.length).map (vtuName f)) := by
  refine ⟨visitFile ((List.range regs.length).map (vtuName f)), ?_, visit_read ?_⟩
  · unfold writeDevice
    dsimp only
    rw [List.filter_eq_self.2 fun p _ => hopen p.1]
    simp
  · intro n hn
    obtain ⟨i, -, rfl⟩ := List.mem_map.1 hn
    unfold vtuName
    intro h
    rcases List.mem_append.1 h with h | h
    · exact hf h
    rcases List.mem_append.1 h with h | h
    · revert h; decide
    rcases List.mem_append.1 h with h | h
    · have := showNat_digits _ _ h
      revert this; decide
    · revert h; decide

/-! ### What goes wrong -/

/-- **A vector that was not asked for is written.** -/
theorem vector_not_asked (inc : Text → Bool) (r : Reg D) (m) (hm : m ∈ r.edgeModels) (hv : m.2.1 = .vector) (hi : inc m.1 = false) :
    (m.1, 3, flat3 m.2.2.2) ∈ (meant inc r).pdata ∧ (m.1, 3, xyz m.2.2.2) ∉ (wanted inc r).pdata := by
  refine ⟨?_, ?_⟩
  · unfold meant pData
    refine List.mem_append_right _ (List.mem_append_right _ (List.mem_map.2 ⟨m, List.mem_filter.2 ⟨hm, by simpa using hv⟩, rfl⟩))
  · intro h
    unfold wanted at h
    rcases List.mem_append.1 h with h | h
    · obtain ⟨a, -, ha⟩ := List.mem_map.1 h
      simp at ha
    · rcases List.mem_append.1 h with h | h
      · obtain ⟨a, -, ha⟩ := List.mem_map.1 h
        simp at ha
      · obtain ⟨a, ha, he⟩ := List.mem_map.1 h
        have := (List.mem_filter.1 ha).2
        simp only [Bool.and_eq_true] at this
        have h1 : a.1 = m.1 := (Prod.mk.inj he).1
        rw [h1, hi] at this
        simp at this

/-- **A model on tetrahedra that was not asked for is written.** -/
theorem tet_not_asked (inc : Text → Bool) (r : Reg D) (hd : r.dim = 3) (m) (hm : m ∈ r.tetModels) (hv : m.2.1 = true) (hi : inc m.1 = false) :
    (m.1, 1, m.2.2) ∈ (meant inc r).cdata ∧ (m.1, 1, m.2.2) ∉ (wanted inc r).cdata := by
  refine ⟨?_, ?_⟩
  · unfold meant cData
    rw [if_pos (Or.inr hd)]
    exact List.mem_append_right _ (List.mem_map.2 ⟨m, List.mem_filter.2 ⟨hm, hv⟩, rfl⟩)
  · intro h
    unfold wanted at h
    simp [hd, hi] at h

/-- **A name with `<` or `&` cannot be read**: names are written as they are. -/
theorem name_unreadable {enc : List D → Text} {dec : Text → Option (List D)} (he : EncOK enc) {inc : Text → Bool} {r : Reg D}
    (hd : r.dim = 1 ∨ r.dim = 2 ∨ r.dim = 3) {a b : Text} {c : Char} {v : List D} {rest} (hc : c = '<' ∨ c = '&') (ha : AttrOK a)
    (hm : r.nodeModels = (a ++ c :: b, true, v) :: rest) (hi : inc (a ++ c :: b) = true) : readVtu dec (vtuFile enc inc r) = none := by
  have h1 := reads_front he.text hd (r := r)
  have h2 : Reads (.txt ['\n'], pieceStack r) ("<PointData>\n<DataArray type=\"Float64\" Name=\"".toList) []
    (.av "DataArray".toList [("type".toList, "Float64".toList)] "Name".toList [], ("PointData".toList, [], []) :: pieceStack r) := rfl
  have h3 := reads_val (t := "DataArray".toList) (a := [("type".toList, "Float64".toList)]) (n := "Name".toList) (v := [])
    (k := ("PointData".toList, [], []) :: pieceStack r) ha
  obtain ⟨t1, e1⟩ : ∃ t1, writeArr enc v (a ++ c :: b) 1 = "<DataArray type=\"Float64\" Name=\"".toList ++ (a ++ c :: t1) := by
    refine ⟨b ++ ("\"".toList ++ (" format=\"binary\">\n".toList ++ (enc v ++ "\n</DataArray>\n".toList))), ?_⟩
    unfold writeArr
    rw [if_pos (by simp), if_neg (by simp)]
    simp only [List.append_assoc, List.cons_append, List.nil_append]
    rfl
  obtain ⟨t2, e2⟩ : ∃ t2, nodeData enc inc r = writeArr enc v (a ++ c :: b) 1 ++ t2 := by
    unfold nodeData
    rw [hm, List.flatMap_cons]
    dsimp only
    rw [if_neg (by simp [hi]), if_pos rfl]
    exact ⟨_, rfl⟩
  obtain ⟨t3, e3⟩ : ∃ t3, writePointData enc inc r = "<PointData>\n".toList ++ (nodeData enc inc r ++ t3) := by
    unfold writePointData
    rw [if_neg (by rw [hm]; simp)]
    exact ⟨_, rfl⟩
  obtain ⟨t4, e4⟩ : ∃ t4, vtuFile enc inc r = frontText enc r ++ (writePointData enc inc r ++ t4) := by
    refine ⟨(if r.dim = 2 ∨ r.dim = 3 then writeElementData enc inc r else []) ++ ("</Piece>\n".toList ++ (writeFooter ++ "\n".toList)), ?_⟩
    unfold vtuFile writeRegion frontText
    rw [cells_eq r hd]
    simp only [List.append_assoc]
  obtain ⟨tail, ht⟩ : ∃ tail, vtuFile enc inc r = (frontText enc r ++ ("<PointData>\n<DataArray type=\"Float64\" Name=\"".toList ++ a)) ++ c :: tail := by
    refine ⟨t1 ++ (t2 ++ (t3 ++ t4)), ?_⟩
    rw [e4, e3, e2, e1]
    simp only [List.append_assoc, List.cons_append]
    rfl
  have hnone := runM_none (y := tail) (h1.append (h2.append h3)) (c := c) (by
    rcases hc with rfl | rfl <;> rfl)
  unfold readVtu readXml
  rw [ht, hnone]
  rfl

/-- **A file that could not be opened is not reported.** -/
theorem failed_open_not_reported (enc : List D → Text) (inc : Text → Bool) (f : Text) (regs : List (Text × Reg D)) :
    writeDevice (fun _ => false) enc inc f (some regs) = (true, []) := by
  unfold writeDevice
  simp

/-- **A name with a relative directory cannot be read**: the files are named relative to the directory of the
process and are looked up relative to that of the file. -/
theorem relative_dir_unreadable {enc : List D → Text} {dec : Text → Option (List D)} {inc : Text → Bool} {f : Text} {regs : List (Text × Reg D)}
    (hne : regs ≠ []) (hf : '/' ∈ f) (hrel : f.head? ≠ some '/') (ha : AttrOK f) :
    readDevice dec f (writeDevice (fun _ => true) enc inc f (some regs)).2 = none := by
  unfold readDevice writeDevice
  dsimp only
  rw [List.filter_eq_self.2 fun p _ => rfl]
  rw [lookup_skip (k := f ++ ".vtm".toList)]
  · rw [List.lookup_cons_self]
    simp only [Option.bind_eq_bind, Option.bind_some]
    rw [vtm_read]
    · simp only [Option.bind_some]
      obtain ⟨r, rs, rfl⟩ := List.exists_cons_of_ne_nil hne
      rw [List.length_cons, List.range_succ_eq_map]
      have hdc : 1 ≤ (dirOf (f ++ ".vtm".toList)).count '/' := by
        have key : ∀ l : Text, '/' ∈ l → '/' ∈ l.dropWhile (· ≠ '/') := by
          intro l hl
          induction l with
          | nil => simp at hl
          | cons c l ih =>
            rw [List.dropWhile_cons]
            split
            · rename_i hc
              refine ih ?_
              rcases List.mem_cons.1 hl with h | h
              · simp [← h] at hc
              · exact h
            · exact hl
        refine List.count_pos_iff.2 ?_
        unfold dirOf
        rw [List.mem_reverse]
        refine key _ ?_
        rw [List.mem_reverse]
        exact List.mem_append_left _ hf
      have hres : resolve (f ++ ".vtm".toList) (vtuName f 0) = dirOf (f ++ ".vtm".toList) ++ vtuName f 0 := by
        unfold resolve
        rw [if_neg]
        unfold vtuName
        cases f with
        | nil => simp at hf
        | cons c f => exact hrel
      have hcnt : ∀ i, (vtuName f i).count '/' = f.count '/' := by
        intro i
        unfold vtuName
        rw [List.count_append, List.count_append, List.count_append]
        have h1 : (showNat i).count '/' = 0 := List.count_eq_zero.2 fun h => by
          have := showNat_digits _ _ h
          revert this; decide
        rw [h1]
        rfl
      have hnone : ∀ (k : Text) (l : List (Text × Text)), (∀ p ∈ l, p.1.count '/' = f.count '/') → k.count '/' ≠ f.count '/' → l.lookup k = none := by
        intro k l hl hk
        have := lookup_skip (k := k) (l := l) (rest := []) fun p hp h => hk (by rw [← h]; exact hl p hp)
        rw [List.append_nil] at this
        rw [this]
        rfl
      rw [List.map_cons, List.mapM_cons, hnone]
      · rfl
      · intro p hp
        rcases List.mem_append.1 hp with hp | hp
        · have := (List.of_mem_zip hp).1
          rcases List.mem_cons.1 this with h | h
          · rw [h]; exact hcnt 0
          · obtain ⟨i, -, hi⟩ := List.mem_map.1 h
            rw [← hi]; exact hcnt i
        · rcases List.mem_cons.1 hp with rfl | hp
          · simp only [List.count_append]; rfl
          · rw [List.mem_singleton.1 hp]
            simp only [List.count_append]; rfl
      · rw [hres, List.count_append, hcnt]
        omega
    · intro n hn
      obtain ⟨i, -, rfl⟩ := List.mem_map.1 hn
      exact vtuName_attr ha i
  · intro p hp
    obtain ⟨i, -, hi⟩ := List.mem_map.1 (List.of_mem_zip hp).1
    rw [← hi]
    exact ends_vtm _ _ _

/-! ### An example -/

/-- A triangle with a potential and a field. -/
def exReg : Reg UInt8 where
  dim := 2
  pos := [(0, 0, 0), (1, 0, 0), (0, 1, 0)]
  edges := [(0, 1), (0, 2), (1, 2)]
  tris := [(0, 1, 2)]
  tets := []
  nodeModels := [("Potential".toList, true, [5, 6, 7]), ("NodeVolume".toList, true, [1, 1, 1])]
  edgeModels := [("EField".toList, .vector, [1, 2, 3], [(1, 0, 0), (0, 1, 0), (0, 0, 0)])]
  triModels := [("J".toList, true, [9])]
  tetModels := []

theorem fits_id {x : List UInt8} (h : x.length < 4096) : Fits id x := by
  refine ⟨by omega, fun b hb => ?_⟩
  obtain ⟨i, -, rfl⟩ := List.mem_map.1 hb
  unfold block
  simp only [id, List.length_take, List.length_drop]
  omega

/-- The conditions of `device_files_partial` can be met: a model is left out and a field is asked for. -/
example : readDevice (decArr some) "d".toList
    (writeDevice (fun _ => true) (encArr id) (fun n => n ≠ "NodeVolume".toList) "d".toList (some [("Si".toList, exReg), ("Ox".toList, exReg)])).2 =
      some [wanted (fun n => n ≠ "NodeVolume".toList) exReg, wanted (fun n => n ≠ "NodeVolume".toList) exReg] := by
  refine (device_files_partial (fun _ => rfl) (fun _ => rfl) (Or.inr (by decide)) (by unfold AttrOK; decide) ?_).2
  have hw : RegWell id (fun n => n ≠ "NodeVolume".toList) exReg := by
    refine ⟨Or.inr (Or.inl rfl), ⟨by unfold AttrOK; decide, by unfold AttrOK; decide, by unfold AttrOK; decide, by intro m hm; simp [exReg] at hm⟩,
      ⟨by decide, by decide, fun _ => ⟨by decide, rfl⟩, fun h => by simp [exReg] at h⟩, ⟨by decide, fun h => by simp [exReg] at h⟩, ?_, ?_, ?_⟩
    · exact ⟨fits_id (by decide), Or.inr (by decide)⟩
    · have : ∀ p ∈ (wanted (fun n => n ≠ "NodeVolume".toList) exReg).pdata, p.2.2.length < 4096 ∧ p.2.2.length % 4096 ≠ 0 := by decide +kernel
      exact fun p hp => ⟨fits_id (this p hp).1, Or.inr (this p hp).2⟩
    · have : ∀ p ∈ (wanted (fun n => n ≠ "NodeVolume".toList) exReg).cdata, p.2.2.length < 4096 ∧ p.2.2.length % 4096 ≠ 0 := by decide +kernel
      exact fun p hp => ⟨fits_id (this p hp).1, Or.inr (this p hp).2⟩
  intro r hr
  rcases List.mem_cons.1 hr with rfl | hr
  · exact hw
  · rw [List.mem_singleton.1 hr]; exact hw

/-- The potential is in it and the volume is not. -/
example : (wanted (fun n => n ≠ "NodeVolume".toList) exReg).pdata =
    [("Potential".toList, 1, [5, 6, 7]), ("EField".toList, 3, [1, 0, 0, 0, 1, 0, 0, 0, 0])] := by decide +kernel

end Verif.Vtk
