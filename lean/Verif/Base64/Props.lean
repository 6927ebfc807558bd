import Verif.Base64.Lemmas
import Verif.Base64.Decode
/-
Properties C08 (base64 round trip) and C09 (compressed arrays contain every byte).
-/
namespace Verif.Base64

/-! ## C08 -/

/-- The encoder is RFC 4648 base64 on every byte sequence. -/
theorem encode_is_rfc4648 (bs : List UInt8) : encode bs = rfcEncode bs := by
  fun_induction encode bs with
  | case1 a b c rest ih =>
    have ha := toNat_lt a; have hb := toNat_lt b; have hc := toNat_lt c
    rw [encode3_eq, rfcEncode, ih]
    simp only [List.cons_append, List.nil_append]
    rw [sextet_eq _ (by omega), sextet_eq _ (by omega), sextet_eq _ (by omega), sextet_eq _ (by omega)]
    congr 2
    · omega
    congr 1
    · congr 1; omega
    congr 1
    · congr 1; omega
    congr 1
    · congr 1; omega
  | case2 a b =>
    have ha := toNat_lt a; have hb := toNat_lt b
    rw [encode2_eq, rfcEncode]
    rw [sextet_eq _ (by omega), sextet_eq _ (by omega), sextet_eq _ (by omega)]
    congr 2
    · omega
    congr 1
    · congr 1; omega
    congr 1
    · congr 1; omega
  | case3 a =>
    have ha := toNat_lt a
    rw [encode1_eq, rfcEncode]
    rw [sextet_eq _ (by omega), sextet_eq _ (by omega)]
    congr 2
    · omega
    congr 1
    · congr 1; omega
  | case4 => rfl

/-- Round trip: decoding the encoding of any byte sequence succeeds and returns it. -/
theorem decode_encode (bs : List UInt8) : decode (encode bs) = .success bs := by
  have := decodeGo_encode bs []
  simp only [List.nil_append] at this
  rcases this with h | h <;> simp [decode, h]

/-- Encoded length is `4 * ⌈n/3⌉`. -/
theorem encode_length (bs : List UInt8) : (encode bs).length = 4 * ((bs.length + 2) / 3) := by
  fun_induction encode bs with
  | case1 a b c rest ih => simp [encode3, ih]; omega
  | case2 a b => simp [encode2]
  | case3 a => simp [encode1]
  | case4 => simp

/-- The text uses only the base64 alphabet and `=`. -/
theorem encode_alphabet (bs : List UInt8) :
    ∀ c ∈ encode bs, c = 61 ∨ ∃ i < 64, c = rfcChar i := by
  have key : ∀ i < 64, sextetChar i = 61 ∨ ∃ j < 64, sextetChar i = rfcChar j :=
    fun i hi => .inr ⟨i, hi, sextet_eq i hi⟩
  fun_induction encode bs with
  | case1 a b c rest ih =>
    have ha := toNat_lt a; have hb := toNat_lt b; have hc := toNat_lt c
    intro d hd
    rw [encode3_eq] at hd
    simp only [List.cons_append, List.nil_append, List.mem_cons] at hd
    rcases hd with rfl | rfl | rfl | rfl | hd
    · exact key _ (by omega)
    · exact key _ (by omega)
    · exact key _ (by omega)
    · exact key _ (by omega)
    · exact ih d hd
  | case2 a b =>
    have ha := toNat_lt a; have hb := toNat_lt b
    intro d hd
    rw [encode2_eq] at hd
    simp only [List.mem_cons, List.not_mem_nil, or_false] at hd
    rcases hd with rfl | rfl | rfl | rfl
    · exact key _ (by omega)
    · exact key _ (by omega)
    · exact key _ (by omega)
    · exact .inl rfl
  | case3 a =>
    have ha := toNat_lt a
    intro d hd
    rw [encode1_eq] at hd
    simp only [List.mem_cons, List.not_mem_nil, or_false] at hd
    rcases hd with rfl | rfl | rfl | rfl
    · exact key _ (by omega)
    · exact key _ (by omega)
    · exact .inl rfl
    · exact .inl rfl
  | case4 => simp

/-- Distinct byte sequences have distinct texts. -/
theorem encode_injective (as bs : List UInt8) (h : encode as = encode bs) : as = bs := by
  have h1 := decode_encode as
  rw [h, decode_encode] at h1
  exact (Result.success.inj h1).symm

/-- Complete behaviour of the decoder on 7-bit text: it is RFC 4648 decoding of the text without its white space, and a
malformed text is refused. -/
theorem decode_is_rfc4648 (s : List UInt8) (hs : ∀ c ∈ s, c.toNat < 128) :
    decode s = match rfcDecode (s.filter (fun c => c ∉ whiteSpace)) with
      | some o => .success o
      | none => .failure := by
  have e : s.filter (fun c => isSpace c = some false) = s.filter (fun c => c ∉ whiteSpace) := by
    apply List.filter_congr
    intro c hc
    rw [isSpace_eq c (hs c hc)]
    by_cases h : c ∈ whiteSpace <;> simp [h]
  have h := decodeGo_spec _ (s.filter (fun c => isSpace c = some false)) [] (Nat.le_refl _)
    (fun c hc => hs c ((List.mem_filter.1 hc).1)) (fun c hc => by simpa using (List.mem_filter.1 hc).2)
  unfold decode
  rw [decodeGo_filter s [] [] hs]
  rw [e] at h ⊢
  revert h
  generalize decodeGo (s.filter (fun c => c ∉ whiteSpace)) [] [] = r
  cases rfcDecode (s.filter (fun c => c ∉ whiteSpace)) with
  | none => rcases r with ⟨st, o⟩; intro h; simp only [specStatus] at h; subst h; rfl
  | some o =>
    rcases r with ⟨st, o'⟩; rintro ⟨h1, h2⟩
    simp only [List.nil_append] at h1 h2
    rcases h1 with rfl | rfl <;> rw [h2]

-- refused: '=' in second position, `xx=y`, a lone character; accepted: missing padding
example : rfcDecode [84, 61, 61, 61] = none ∧ rfcDecode [84, 87, 61, 84] = none ∧ rfcDecode [84] = none ∧
    rfcDecode [84, 87, 70] = some [77, 97] := by decide +kernel

/-- White space inserted anywhere in 7-bit text does not change the result of decoding. -/
theorem decode_ignores_whitespace (s t : List UInt8) (hs : ∀ c ∈ s, c.toNat < 128)
    (ht : ∀ c ∈ t, c.toNat < 128)
    (h : s.filter (fun c => c ∉ whiteSpace) = t.filter (fun c => c ∉ whiteSpace)) :
    decode s = decode t := by
  rw [decode_is_rfc4648 s hs, decode_is_rfc4648 t ht, h]

example : decode [84, 10, 87, 70, 32, 49] = .success [77, 97, 117] := by decide +kernel

/-- No 7-bit text makes the decoder read outside its table. -/
theorem decode_no_ub_ascii (s : List UInt8) (h : ∀ c ∈ s, c.toNat < 128) :
    decode s ≠ .undefinedBehaviour := by
  have := decodeGo_ne_ub s [] [] h (by simp)
  unfold decode
  split <;> simp_all

example : decode [42, 42, 42, 42] = .failure := by decide +kernel

/-- Disagreement with the code: the decoder is not safe on arbitrary bytes — a byte ≥ 0x80 indexes the
table with a negative `char` converted to `size_t`. -/
theorem decode_ub_witness : ∃ s : List UInt8, decode s = .undefinedBehaviour :=
  ⟨[0xC3], by decide +kernel⟩

/-- ... and the very table lookup of `decode4` is out of bounds for such a byte, independently of `isspace`. -/
theorem decode4_ub_witness : (decode4 0xC3 65 65 65).1 = .ub := by decide +kernel

/-! ## C09 -/

/-- Exact characterisation, all lengths: the blocks handed to the compressor concatenate to the array iff the
array is empty or its length is not a multiple of the 4096 elements of a block. -/
theorem blocks_concat_iff {α : Type} (x : List α) :
    (blocks x).flatten = x ↔ (x = [] ∨ x.length % 4096 ≠ 0) := by
  by_cases h : x.length % perBlock = 0
  · have h' := h
    rw [perBlock_eq] at h'
    constructor
    · intro hx
      by_cases he : x = []
      · exact .inl he
      · exfalso
        have hpos : 0 < x.length := List.length_pos_iff.mpr he
        have hn : numberOfBlocks x.length = x.length / 4096 := by
          simp [numberOfBlocks, perBlock_eq, h']
        have hk := blocks_flatten_full x h (x.length / 4096 - 1) (by omega)
        unfold blocks at hx
        rw [hn, show x.length / 4096 = x.length / 4096 - 1 + 1 by omega, List.range_succ, List.map_append,
          List.flatten_append, hk] at hx
        have hb : block x (x.length / 4096 - 1) = [] := by
          unfold block
          simp [hn, perBlock_eq, h']
        simp only [List.map_cons, List.map_nil, List.flatten_cons, List.flatten_nil, List.append_nil, hb,
          perBlock_eq] at hx
        have := congrArg List.length hx
        rw [List.length_take] at this
        omega
    · rintro (rfl | h2)
      · simp [blocks, numberOfBlocks]
      · exact absurd h' h2
  · have h' := h
    rw [perBlock_eq] at h'
    simp only [h', not_false_eq_true, or_true, iff_true, ne_eq]
    unfold blocks
    rw [blocks_flatten_partial x h _ (Nat.le_refl _)]
    apply List.take_of_length_le
    simp [numberOfBlocks, perBlock_eq, h']; omega

/-- Negation of C09 on the code as written: a non-empty array whose length is a multiple of 4096 loses its
last 4096 elements. -/
theorem blocks_drop_last_full {α : Type} (x : List α) (hne : x ≠ []) (h : x.length % 4096 = 0) :
    (blocks x).flatten = x.take (x.length - 4096) := by
  have hpos : 0 < x.length := List.length_pos_iff.mpr hne
  have hp : x.length % perBlock = 0 := by rw [perBlock_eq]; exact h
  have hn : numberOfBlocks x.length = x.length / 4096 := by
    simp [numberOfBlocks, perBlock_eq, h]
  have hk := blocks_flatten_full x hp (x.length / 4096 - 1) (by omega)
  unfold blocks
  rw [hn, show x.length / 4096 = x.length / 4096 - 1 + 1 by omega, List.range_succ, List.map_append,
    List.flatten_append, hk]
  have hb : block x (x.length / 4096 - 1) = [] := by
    unfold block
    simp [hn, perBlock_eq, h]
  simp only [List.map_cons, List.map_nil, List.flatten_cons, List.flatten_nil, List.append_nil, hb, perBlock_eq]
  rw [show 4096 * (x.length / 4096 - 1) = x.length - 4096 by omega]

/-- e.g. an array of exactly 4096 values is written as nothing at all -/
example : (blocks (List.replicate 4096 (1 : Nat))).flatten = [] := by
  rw [blocks_drop_last_full _ (List.ne_nil_of_length_pos (by rw [List.length_replicate]; omega))
    (by rw [List.length_replicate])]
  rw [List.length_replicate, Nat.sub_self, List.take_zero]

/-- C09 at full strength would be: *for every* `x`, a VTK reader recovers `x`.  It is false for non-empty
multiples of 4096 (`vtk_reader_fails_on_full_blocks`); this is the rest: for every other length the reader recovers exactly the array,
whatever the (lossless) compressor. -/
theorem vtk_roundtrip_partial {α : Type} (compress : List α → List UInt8)
    (decompress : List UInt8 → Option (List α)) (hcd : ∀ b, decompress (compress b) = some b)
    (x : List α) (hx : x = [] ∨ x.length % 4096 ≠ 0) :
    vtkRead decompress (zlibParts compress x) = some x := by
  have hflat := (blocks_concat_iff x).mpr hx
  unfold zlibParts vtkRead
  simp only [List.cons_append, List.nil_append]
  have hl : (blocks x).length = numberOfBlocks x.length := by simp [blocks]
  rw [if_pos (by simp [hl])]
  rw [vtkReadBlocks_ok compress decompress hcd]
  · rw [hflat]
  · intro i hi
    rw [hl] at hi
    rcases hx with rfl | hx
    · simp [numberOfBlocks] at hi
    have hn : numberOfBlocks x.length = x.length / 4096 + 1 := by
      simp [numberOfBlocks, perBlock_eq, hx]
    simp only [hl, perBlock_eq, blockSize]
    simp only [blocks, List.getElem_map, List.getElem_range, block, hn, List.length_take, List.length_drop, perBlock_eq]
    rw [hn] at hi
    have hm : (x.length % 4096) * 8 / 8 = x.length % 4096 := Nat.mul_div_cancel _ (by omega)
    by_cases hlast : i + 1 = x.length / 4096 + 1
    · rw [if_pos (by omega), if_pos hlast, if_neg (by omega), hm]; omega
    · rw [if_neg (by omega), if_neg hlast]; omega

/-- a concrete (un)compressor and array meeting the hypotheses -/
example : vtkRead (α := UInt8) some (zlibParts id (List.replicate 5000 7)) = some (List.replicate 5000 7) :=
  vtk_roundtrip_partial id some (fun _ => rfl) _ (.inr (by rw [List.length_replicate]; omega))

/-- Negation of C09: for every lossless compressor and every non-empty array whose length is a multiple of 4096
the VTK reader does not recover the array. -/
theorem vtk_reader_fails_on_full_blocks {α : Type} (compress : List α → List UInt8)
    (decompress : List UInt8 → Option (List α)) (hcd : ∀ b, decompress (compress b) = some b)
    (x : List α) (hne : x ≠ []) (h : x.length % 4096 = 0) :
    vtkRead decompress (zlibParts compress x) = none := by
  have hpos : 0 < x.length := List.length_pos_iff.mpr hne
  have hp : x.length % perBlock = 0 := by rw [perBlock_eq]; exact h
  have hn : numberOfBlocks x.length = x.length / 4096 := by
    simp [numberOfBlocks, perBlock_eq, h]
  have hb : block x (x.length / 4096 - 1) = [] := by
    unfold block
    simp [hn, perBlock_eq, h]
  have hbl : blocks x = (List.range (x.length / 4096 - 1)).map (block x) ++ [[]] := by
    unfold blocks
    rw [hn, show x.length / 4096 = x.length / 4096 - 1 + 1 by omega, List.range_succ, List.map_append,
      List.map_singleton]
    rw [show x.length / 4096 - 1 + 1 - 1 = x.length / 4096 - 1 by omega, hb]
  unfold zlibParts vtkRead
  simp only [List.cons_append, List.nil_append]
  have hl : (blocks x).length = numberOfBlocks x.length := by simp [blocks]
  rw [if_pos (by simp [hl])]
  rw [hbl]
  simp only [perBlock_eq, h, blockSize]
  -- a list of blocks ending with an empty one cannot be read
  have key : ∀ bl : List (List α), vtkReadBlocks decompress 4096 4096
      ((bl ++ [[]]).map (fun b => (compress b).length)) (((bl ++ [[]]).map compress).flatten) = none := by
    intro bl
    induction bl with
    | nil => simp [vtkReadBlocks, hcd]
    | cons b bl ih =>
      simp only [List.cons_append, List.map_cons, List.flatten_cons, vtkReadBlocks, List.take_left, List.drop_left,
        hcd, ih, ite_self]
  simpa using key ((List.range (x.length / 4096 - 1)).map (block x))

end Verif.Base64
