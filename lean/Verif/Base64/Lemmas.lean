import Verif.Base64.Spec
namespace Verif.Base64

theorem toNat_lt (a : UInt8) : a.toNat < 256 := a.toNat_lt

theorem and63 (n : Nat) : n &&& 0x3F = n % 64 := by
  have := Nat.and_two_pow_sub_one_eq_mod n 6; simpa using this

theorem or_shift (a b k : Nat) (hb : b < 2 ^ k) : (a <<< k) ||| b = a * 2 ^ k + b := by
  rw [Nat.shiftLeft_eq]
  rw [Nat.mul_comm]
  exact (Nat.two_pow_add_eq_or_of_lt hb a).symm

theorem sextet_table : ∀ i : Fin 64, sextetChar i.val = rfcChar i.val := by decide +kernel

theorem sextet_eq (i : Nat) (h : i < 64) : sextetChar i = rfcChar i := sextet_table ⟨i, h⟩

/-- The four sextets of a group, arithmetically. -/
theorem sx0 (a : Nat) (h : a < 256) : (a >>> 2) &&& 0x3F = a / 4 := by
  rw [and63, Nat.shiftRight_eq_div_pow]; omega
theorem sx1 (a b : Nat) (hb : b < 256) : ((a <<< 4) ||| (b >>> 4)) &&& 0x3F = a % 4 * 16 + b / 16 := by
  rw [and63, or_shift _ _ _ (by rw [Nat.shiftRight_eq_div_pow]; omega), Nat.shiftRight_eq_div_pow]; omega
theorem sx2 (b c : Nat) (hc : c < 256) : ((b <<< 2) ||| (c >>> 6)) &&& 0x3F = b % 16 * 4 + c / 64 := by
  rw [and63, or_shift _ _ _ (by rw [Nat.shiftRight_eq_div_pow]; omega), Nat.shiftRight_eq_div_pow]; omega
theorem sx3 (c : Nat) : c &&& 0x3F = c % 64 := and63 c
theorem sx1' (a : Nat) : (a <<< 4) &&& 0x3F = a % 4 * 16 := by
  rw [and63, Nat.shiftLeft_eq]; omega
theorem sx2' (b : Nat) : (b <<< 2) &&& 0x3F = b % 16 * 4 := by
  rw [and63, Nat.shiftLeft_eq]; omega

theorem lookup_sextet : ∀ i : Fin 64, lookup (sextetChar i.val) = some (UInt8.ofNat i.val) ∧
    sextetChar i.val ≠ padChar ∧ isSpace (sextetChar i.val) = some false ∧ UInt8.ofNat i.val ≠ 0xFF := by
  decide +kernel

theorem lookup_pad : lookup padChar = some 0 ∧ isSpace padChar = some false := by decide +kernel

theorem ofNat_toNat_lt (n : Nat) (h : n < 256) : (UInt8.ofNat n).toNat = n := by
  simp only [UInt8.toNat_ofNat']; omega

theorem b0 (x y : Nat) (hx : x < 64) (hy : y < 64) :
    ((x <<< 2) &&& 0xFC) ||| ((y >>> 4) &&& 0x03) = x * 4 + y / 16 := by
  have h : ∀ x y : Fin 64, ((x.val <<< 2) &&& 0xFC) ||| ((y.val >>> 4) &&& 0x03) = x.val * 4 + y.val / 16 := by
    decide +kernel
  exact h ⟨x, hx⟩ ⟨y, hy⟩
theorem b1 (x y : Nat) (hx : x < 64) (hy : y < 64) :
    ((x <<< 4) &&& 0xF0) ||| ((y >>> 2) &&& 0x0F) = x % 16 * 16 + y / 4 := by
  have h : ∀ x y : Fin 64, ((x.val <<< 4) &&& 0xF0) ||| ((y.val >>> 2) &&& 0x0F) = x.val % 16 * 16 + y.val / 4 := by
    decide +kernel
  exact h ⟨x, hx⟩ ⟨y, hy⟩
theorem b2 (x y : Nat) (hx : x < 64) (hy : y < 64) :
    ((x <<< 6) &&& 0xC0) ||| ((y >>> 0) &&& 0x3F) = x % 4 * 64 + y := by
  have h : ∀ x y : Fin 64, ((x.val <<< 6) &&& 0xC0) ||| ((y.val >>> 0) &&& 0x3F) = x.val % 4 * 64 + y.val := by
    decide +kernel
  exact h ⟨x, hx⟩ ⟨y, hy⟩

theorem dec4_full (w x y z : Nat) (hw : w < 64) (hx : x < 64) (hy : y < 64) (hz : z < 64) :
    decode4 (sextetChar w) (sextetChar x) (sextetChar y) (sextetChar z) =
      (.ok, [UInt8.ofNat (w * 4 + x / 16), UInt8.ofNat (x % 16 * 16 + y / 4), UInt8.ofNat (y % 4 * 64 + z)]) := by
  obtain ⟨w1, w2, _, w4⟩ := lookup_sextet ⟨w, hw⟩
  obtain ⟨x1, x2, _, x4⟩ := lookup_sextet ⟨x, hx⟩
  obtain ⟨y1, y2, _, y4⟩ := lookup_sextet ⟨y, hy⟩
  obtain ⟨z1, z2, _, z4⟩ := lookup_sextet ⟨z, hz⟩
  simp only [] at *
  simp only [decode4, decodeLoop, w1, x1, y1, z1, w4, x4, y4, z4, w2, x2, y2, z2, if_false, and_false,
    false_and, ne_eq, not_true_eq_false, not_false_eq_true, if_true]
  simp only [List.getD_cons_zero, List.getD_cons_succ, ofNat_toNat_lt w (by omega),
    ofNat_toNat_lt x (by omega), ofNat_toNat_lt y (by omega), ofNat_toNat_lt z (by omega), b0 w x hw hx, b1 x y hx hy,
    b2 y z hy hz, List.cons_append, List.nil_append]

theorem dec4_two (w x y : Nat) (hw : w < 64) (hx : x < 64) (hy : y < 64) :
    decode4 (sextetChar w) (sextetChar x) (sextetChar y) padChar =
      (.done, [UInt8.ofNat (w * 4 + x / 16), UInt8.ofNat (x % 16 * 16 + y / 4)]) := by
  obtain ⟨w1, w2, _, w4⟩ := lookup_sextet ⟨w, hw⟩
  obtain ⟨x1, x2, _, x4⟩ := lookup_sextet ⟨x, hx⟩
  obtain ⟨y1, y2, _, y4⟩ := lookup_sextet ⟨y, hy⟩
  have z1 := lookup_pad.1
  simp only [] at *
  have z4 : (0 : UInt8) ≠ 0xFF := by decide
  have h23 : ¬ ((0 : Nat) + 1 + 1 + 1 < 2) := by omega
  simp only [decode4, decodeLoop, w1, x1, y1, z1, w4, x4, y4, z4, w2, x2, y2, if_false, and_false, h23,
    false_and, ne_eq, not_true_eq_false, not_false_eq_true, if_true]
  simp only [List.getD_cons_zero, List.getD_cons_succ, ofNat_toNat_lt w (by omega),
    ofNat_toNat_lt x (by omega), ofNat_toNat_lt y (by omega), b0 w x hw hx, b1 x y hx hy,
    List.cons_append, List.nil_append]

theorem dec4_one (w x : Nat) (hw : w < 64) (hx : x < 64) :
    decode4 (sextetChar w) (sextetChar x) padChar padChar =
      (.done, [UInt8.ofNat (w * 4 + x / 16)]) := by
  obtain ⟨w1, w2, _, w4⟩ := lookup_sextet ⟨w, hw⟩
  obtain ⟨x1, x2, _, x4⟩ := lookup_sextet ⟨x, hx⟩
  have z1 := lookup_pad.1
  simp only [] at *
  have z4 : (0 : UInt8) ≠ 0xFF := by decide
  have h23 : ¬ ((0 : Nat) + 1 + 1 + 1 < 2) := by omega
  have h22 : ¬ ((0 : Nat) + 1 + 1 < 2) := by omega
  simp only [decode4, decodeLoop, w1, x1, z1, w4, x4, z4, w2, x2, if_false, and_false, h23, h22,
    false_and, ne_eq, not_true_eq_false, if_true]
  simp only [List.getD_cons_zero, List.getD_cons_succ, ofNat_toNat_lt w (by omega),
    ofNat_toNat_lt x (by omega), b0 w x hw hx, List.cons_append, List.nil_append]

theorem uint8_ext_nat {a : UInt8} {n : Nat} (h : n = a.toNat) : UInt8.ofNat n = a := by
  subst h; simp

theorem encode3_eq (a b c : UInt8) : encode3 a b c =
    [sextetChar (a.toNat / 4), sextetChar (a.toNat % 4 * 16 + b.toNat / 16),
     sextetChar (b.toNat % 16 * 4 + c.toNat / 64), sextetChar (c.toNat % 64)] := by
  simp only [encode3, sx0 _ (toNat_lt a), sx1 _ _ (toNat_lt b), sx2 _ _ (toNat_lt c), sx3]

theorem encode2_eq (a b : UInt8) : encode2 a b =
    [sextetChar (a.toNat / 4), sextetChar (a.toNat % 4 * 16 + b.toNat / 16),
     sextetChar (b.toNat % 16 * 4), padChar] := by
  simp only [encode2, sx0 _ (toNat_lt a), sx1 _ _ (toNat_lt b), sx2']

theorem encode1_eq (a : UInt8) : encode1 a =
    [sextetChar (a.toNat / 4), sextetChar (a.toNat % 4 * 16), padChar, padChar] := by
  simp only [encode1, sx0 _ (toNat_lt a), sx1']

/-- Feeding one non-space character when fewer than three are pending. -/
theorem go_sextet (i : Nat) (h : i < 64) (cs : List UInt8) (out : List UInt8) :
    decodeGo (sextetChar i :: cs) [] out = decodeGo cs [sextetChar i] out := by
  have := (lookup_sextet ⟨i, h⟩).2.2.1
  simp only [] at this
  simp [decodeGo, this]
theorem go_sextet1 (i : Nat) (h : i < 64) (p : UInt8) (cs : List UInt8) (out : List UInt8) :
    decodeGo (sextetChar i :: cs) [p] out = decodeGo cs [p, sextetChar i] out := by
  have := (lookup_sextet ⟨i, h⟩).2.2.1
  simp only [] at this
  simp [decodeGo, this]
theorem go_sextet2 (i : Nat) (h : i < 64) (p q : UInt8) (cs : List UInt8) (out : List UInt8) :
    decodeGo (sextetChar i :: cs) [p, q] out = decodeGo cs [p, q, sextetChar i] out := by
  have := (lookup_sextet ⟨i, h⟩).2.2.1
  simp only [] at this
  simp [decodeGo, this]
theorem go_pad2 (p q : UInt8) (cs : List UInt8) (out : List UInt8) :
    decodeGo (padChar :: cs) [p, q] out = decodeGo cs [p, q, padChar] out := by
  simp [decodeGo, lookup_pad.2]

theorem go_group (w x y z : Nat) (hw : w < 64) (hx : x < 64) (hy : y < 64) (hz : z < 64)
    (cs out : List UInt8) :
    decodeGo (sextetChar w :: sextetChar x :: sextetChar y :: sextetChar z :: cs) [] out =
      decodeGo cs [] (out ++ [UInt8.ofNat (w * 4 + x / 16), UInt8.ofNat (x % 16 * 16 + y / 4),
        UInt8.ofNat (y % 4 * 64 + z)]) := by
  rw [go_sextet w hw, go_sextet1 x hx, go_sextet2 y hy]
  have := (lookup_sextet ⟨z, hz⟩).2.2.1
  simp only [] at this
  simp only [decodeGo, this, dec4_full w x y z hw hx hy hz, if_true]

theorem decodeGo_encode (bs out : List UInt8) :
    decodeGo (encode bs) [] out = (.ok, out ++ bs) ∨ decodeGo (encode bs) [] out = (.done, out ++ bs) := by
  fun_induction encode bs generalizing out with
  | case1 a b c rest ih =>
    have ha := toNat_lt a; have hb := toNat_lt b; have hc := toNat_lt c
    rw [encode3_eq]
    simp only [List.cons_append, List.nil_append]
    rw [go_group _ _ _ _ (by omega) (by omega) (by omega) (by omega)]
    have e0 : UInt8.ofNat (a.toNat / 4 * 4 + (a.toNat % 4 * 16 + b.toNat / 16) / 16) = a :=
      uint8_ext_nat (by omega)
    have e1 : UInt8.ofNat ((a.toNat % 4 * 16 + b.toNat / 16) % 16 * 16 + (b.toNat % 16 * 4 + c.toNat / 64) / 4) = b :=
      uint8_ext_nat (by omega)
    have e2 : UInt8.ofNat ((b.toNat % 16 * 4 + c.toNat / 64) % 4 * 64 + c.toNat % 64) = c :=
      uint8_ext_nat (by omega)
    rw [e0, e1, e2]
    simpa [List.append_assoc] using ih (out ++ [a, b, c])
  | case2 a b =>
    have ha := toNat_lt a; have hb := toNat_lt b
    right
    rw [encode2_eq, go_sextet _ (by omega), go_sextet1 _ (by omega), go_sextet2 _ (by omega)]
    simp only [decodeGo, lookup_pad.2, dec4_two _ _ _ (show a.toNat / 4 < 64 by omega)
      (show a.toNat % 4 * 16 + b.toNat / 16 < 64 by omega) (show b.toNat % 16 * 4 < 64 by omega)]
    have e0 : UInt8.ofNat (a.toNat / 4 * 4 + (a.toNat % 4 * 16 + b.toNat / 16) / 16) = a :=
      uint8_ext_nat (by omega)
    have e1 : UInt8.ofNat ((a.toNat % 4 * 16 + b.toNat / 16) % 16 * 16 + (b.toNat % 16 * 4) / 4) = b :=
      uint8_ext_nat (by omega)
    rw [e0, e1]; simp
  | case3 a =>
    have ha := toNat_lt a
    right
    rw [encode1_eq, go_sextet _ (by omega), go_sextet1 _ (by omega), go_pad2]
    simp only [decodeGo, lookup_pad.2, dec4_one _ _ (show a.toNat / 4 < 64 by omega)
      (show a.toNat % 4 * 16 < 64 by omega)]
    have e0 : UInt8.ofNat (a.toNat / 4 * 4 + (a.toNat % 4 * 16) / 16) = a :=
      uint8_ext_nat (by omega)
    rw [e0]; simp
  | case4 => left; simp [decodeGo, decodeTail]

/-- the decoder never reaches undefined behaviour on 7-bit input -/
theorem decodeLoop_ne_none (i : Nat) (cs : List UInt8) (h : ∀ c ∈ cs, c.toNat < 128) :
    decodeLoop i cs ≠ none := by
  induction cs generalizing i with
  | nil => simp [decodeLoop]
  | cons c cs ih =>
    have hc := h c (by simp)
    have := ih (i + 1) (fun c hc => h c (by simp [hc]))
    simp only [decodeLoop, lookup, show ¬ (c.toNat ≥ 128) by omega, if_false]
    split
    · simp
    · split
      · simp
      · split <;> simp_all

theorem decode4_ne_ub (c0 c1 c2 c3 : UInt8) (h : ∀ c ∈ [c0, c1, c2, c3], c.toNat < 128) :
    (decode4 c0 c1 c2 c3).1 ≠ .ub := by
  have := decodeLoop_ne_none 0 _ h
  unfold decode4
  split
  · contradiction
  · simp
  · simp only
    split
    · simp
    · split <;> split <;> simp

theorem pad_lt : padChar.toNat < 128 := by decide

theorem decodeGo_ne_ub (cs tin out : List UInt8) (h : ∀ c ∈ cs, c.toNat < 128)
    (ht : ∀ c ∈ tin, c.toNat < 128) : (decodeGo cs tin out).1 ≠ .ub := by
  induction cs generalizing tin out with
  | nil =>
    have hg : ∀ (l : List UInt8) (i : Nat), (∀ c ∈ l, c.toNat < 128) → (l.getD i padChar).toNat < 128 := by
      intro l i hl
      rw [List.getD_eq_getElem?_getD]
      cases hx : l[i]? with
      | none => exact pad_lt
      | some v => exact hl v (List.mem_of_getElem? hx)
    unfold decodeGo decodeTail
    split
    · simp
    · rename_i c0 r
      simp only
      have hr : ∀ c ∈ r, c.toNat < 128 := fun c hc => ht c (by simp [hc])
      apply decode4_ne_ub
      intro c hc
      simp only [List.mem_cons, List.not_mem_nil, or_false] at hc
      rcases hc with rfl | rfl | rfl | rfl
      · exact ht _ (by simp)
      · exact hg r 0 hr
      · exact hg r 1 hr
      · exact hg r 2 hr
  | cons c cs ih =>
    have hc := h c (by simp)
    have hcs : ∀ c ∈ cs, c.toNat < 128 := fun c hc => h c (by simp [hc])
    unfold decodeGo
    simp only [isSpace, show ¬ (c.toNat ≥ 128) by omega, if_false]
    split
    · simp_all
    · exact ih _ _ hcs ht
    · split
      · rename_i c0 c1 c2
        split
        · exact ih _ _ hcs (by simp)
        · apply decode4_ne_ub
          intro c' hc'
          simp only [List.mem_cons, List.not_mem_nil, or_false] at hc'
          rcases hc' with rfl | rfl | rfl | rfl
          · exact ht _ (by simp)
          · exact ht _ (by simp)
          · exact ht _ (by simp)
          · exact hc
      · exact ih _ _ hcs (by
          intro c' hc'
          simp only [List.mem_append, List.mem_singleton] at hc'
          rcases hc' with h1 | rfl
          · exact ht _ h1
          · exact hc)

/-- whitespace is skipped -/
theorem decodeGo_filter (cs tin out : List UInt8) (h : ∀ c ∈ cs, c.toNat < 128) :
    decodeGo cs tin out = decodeGo (cs.filter (fun c => isSpace c = some false)) tin out := by
  induction cs generalizing tin out with
  | nil => rfl
  | cons c cs ih =>
    have hcs : ∀ c ∈ cs, c.toNat < 128 := fun c hc => h c (by simp [hc])
    cases hs : isSpace c with
    | none =>
      have hc := h c (by simp)
      simp only [isSpace, show ¬ (c.toNat ≥ 128) by omega, if_false] at hs
      cases hs
    | some b =>
      cases b with
      | true => simp only [decodeGo, hs, List.filter_cons]; simpa using ih tin out hcs
      | false =>
        simp only [List.filter_cons, hs, decide_true, if_true]
        rcases tin with _ | ⟨c0, _ | ⟨c1, _ | ⟨c2, _ | ⟨c3, r⟩⟩⟩⟩
        · simp only [decodeGo, hs]; exact ih _ _ hcs
        · simp only [decodeGo, hs]; exact ih _ _ hcs
        · simp only [decodeGo, hs]; exact ih _ _ hcs
        · simp only [decodeGo, hs]
          split
          · exact ih _ _ hcs
          · rfl
        · simp only [decodeGo, hs]; exact ih _ _ hcs

/-! compressed blocks -/

theorem perBlock_eq : perBlock = 4096 := by decide

theorem blocks_flatten_partial {α : Type} (x : List α) (h : x.length % perBlock ≠ 0) :
    ∀ k, k ≤ numberOfBlocks x.length →
      ((List.range k).map (block x)).flatten = x.take (perBlock * k) := by
  rw [perBlock_eq] at h
  have hn : numberOfBlocks x.length = x.length / 4096 + 1 := by
    simp [numberOfBlocks, perBlock_eq, h]
  intro k
  induction k with
  | zero => simp
  | succ k ih =>
    intro hk
    rw [List.range_succ, List.map_append, List.flatten_append, ih (by omega)]
    simp only [List.map_cons, List.map_nil, List.flatten_cons, List.flatten_nil, List.append_nil]
    unfold block
    simp only [hn, perBlock_eq]
    split
    · rename_i hlast
      have : x.length - 4096 * k = x.length % 4096 := by omega
      have e : (x.drop (4096 * k)).take (x.length % 4096) = x.drop (4096 * k) := by
        apply List.take_of_length_le; rw [List.length_drop]; omega
      rw [e, List.take_append_drop, List.take_of_length_le (by omega)]
    · rw [Nat.mul_add, Nat.mul_one, List.take_add]

theorem blocks_flatten_full {α : Type} (x : List α) (h : x.length % perBlock = 0) :
    ∀ k, k < numberOfBlocks x.length →
      ((List.range k).map (block x)).flatten = x.take (perBlock * k) := by
  rw [perBlock_eq] at h
  have hn : numberOfBlocks x.length = x.length / 4096 := by
    simp [numberOfBlocks, perBlock_eq, h]
  intro k
  induction k with
  | zero => simp
  | succ k ih =>
    intro hk
    rw [List.range_succ, List.map_append, List.flatten_append, ih (by omega)]
    simp only [List.map_cons, List.map_nil, List.flatten_cons, List.flatten_nil, List.append_nil]
    unfold block
    simp only [hn, perBlock_eq]
    rw [if_neg (by omega), Nat.mul_add, Nat.mul_one, List.take_add]

theorem vtkReadBlocks_ok {α : Type} (compress : List α → List UInt8)
    (decompress : List UInt8 → Option (List α)) (hcd : ∀ b, decompress (compress b) = some b)
    (full last : Nat) (bl : List (List α))
    (hlen : ∀ i (hi : i < bl.length), (bl[i]).length = if i + 1 = bl.length then last else full) :
    vtkReadBlocks decompress full last (bl.map (fun b => (compress b).length))
      ((bl.map compress).flatten) = some bl.flatten := by
  induction bl with
  | nil => simp [vtkReadBlocks]
  | cons b bl ih =>
    have ih' := ih (by
      intro i hi
      have := hlen (i + 1) (by simp; omega)
      simpa using this)
    have h0 := hlen 0 (by simp)
    simp only [List.getElem_cons_zero, List.length_cons] at h0
    simp only [List.map_cons, List.flatten_cons, vtkReadBlocks, List.take_left, List.drop_left, hcd, ih']
    rw [if_pos]
    rw [h0]
    cases bl <;> simp

end Verif.Base64
