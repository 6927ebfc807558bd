import Verif.Base64.Lemmas
/-! Complete characterisation of the decoder on 7-bit text. -/
namespace Verif.Base64

/-- the three classes of 7-bit characters -/
theorem char_class : ∀ c : Fin 128,
    (∃ v : Fin 64, rfcValue (UInt8.ofNat c.val) = some v.val ∧ UInt8.ofNat c.val = sextetChar v.val) ∨
    (rfcValue (UInt8.ofNat c.val) = none ∧ UInt8.ofNat c.val = padChar) ∨
    (rfcValue (UInt8.ofNat c.val) = none ∧ UInt8.ofNat c.val ≠ padChar ∧ lookup (UInt8.ofNat c.val) = some 0xFF) := by
  decide +kernel

theorem char_cases (c : UInt8) (h : c.toNat < 128) :
    (∃ v, v < 64 ∧ rfcValue c = some v ∧ c = sextetChar v) ∨ (rfcValue c = none ∧ c = padChar) ∨
    (rfcValue c = none ∧ c ≠ padChar ∧ lookup c = some 0xFF) := by
  have e : UInt8.ofNat c.toNat = c := by simp
  have := char_class ⟨c.toNat, h⟩
  simp only [e] at this
  rcases this with ⟨v, h1, h2⟩ | h | h
  · exact .inl ⟨v.val, v.isLt, h1, h2⟩
  · exact .inr (.inl h)
  · exact .inr (.inr h)

theorem isSpace_iff : ∀ c : Fin 128, isSpace (UInt8.ofNat c.val) = some (decide (UInt8.ofNat c.val ∈ whiteSpace)) := by
  decide +kernel

theorem isSpace_eq (c : UInt8) (h : c.toNat < 128) : isSpace c = some (decide (c ∈ whiteSpace)) := by
  have e : UInt8.ofNat c.toNat = c := by simp
  have := isSpace_iff ⟨c.toNat, h⟩
  simpa only [e] using this

theorem rfcBytes3 (w x y z : Nat) (hw : w < 64) (hx : x < 64) (hy : y < 64) (hz : z < 64) :
    rfcBytes 3 w x y z =
      [UInt8.ofNat (w * 4 + x / 16), UInt8.ofNat (x % 16 * 16 + y / 4), UInt8.ofNat (y % 4 * 64 + z)] := by
  have h1 : (((w * 64 + x) * 64 + y) * 64 + z) / 65536 = w * 4 + x / 16 := by omega
  have h2 : (((w * 64 + x) * 64 + y) * 64 + z) / 256 % 256 = x % 16 * 16 + y / 4 := by omega
  have h3 : (((w * 64 + x) * 64 + y) * 64 + z) % 256 = y % 4 * 64 + z := by omega
  simp only [rfcBytes, h1, h2, h3, List.take_succ_cons, List.take_zero]

theorem rfcBytes2 (w x y : Nat) (hw : w < 64) (hx : x < 64) (hy : y < 64) :
    rfcBytes 2 w x y 0 = [UInt8.ofNat (w * 4 + x / 16), UInt8.ofNat (x % 16 * 16 + y / 4)] := by
  have h1 : (((w * 64 + x) * 64 + y) * 64 + 0) / 65536 = w * 4 + x / 16 := by omega
  have h2 : (((w * 64 + x) * 64 + y) * 64 + 0) / 256 % 256 = x % 16 * 16 + y / 4 := by omega
  simp only [rfcBytes, h1, h2, List.take_succ_cons, List.take_zero]

theorem rfcBytes1 (w x : Nat) (hw : w < 64) (hx : x < 64) :
    rfcBytes 1 w x 0 0 = [UInt8.ofNat (w * 4 + x / 16)] := by
  have h1 : (((w * 64 + x) * 64 + 0) * 64 + 0) / 65536 = w * 4 + x / 16 := by omega
  simp only [rfcBytes, h1, List.take_succ_cons, List.take_zero]

/-- Meaning of a group of four. -/
def groupSpec (c0 c1 c2 c3 : UInt8) : Status × List UInt8 :=
  match rfcValue c0, rfcValue c1 with
  | some v0, some v1 =>
    if c2 = 61 ∧ c3 = 61 then (.done, rfcBytes 1 v0 v1 0 0)
    else match rfcValue c2 with
      | some v2 =>
        if c3 = 61 then (.done, rfcBytes 2 v0 v1 v2 0)
        else match rfcValue c3 with
          | some v3 => (.ok, rfcBytes 3 v0 v1 v2 v3)
          | none => (.bad, [])
      | none => (.bad, [])
  | _, _ => (.bad, [])

theorem pad_eq : padChar = 61 := rfl
theorem rfcValue_pad : rfcValue 61 = none := by decide +kernel

/-- A group whose validation loop reports `BAD`. -/
theorem decode4_bad (c0 c1 c2 c3 : UInt8) (h : decodeLoop 0 [c0, c1, c2, c3] = some none) :
    decode4 c0 c1 c2 c3 = (.bad, []) := by
  simp only [decode4, h]

theorem decodeLoop_bad_here (i : Nat) (c : UInt8) (cs : List UInt8) (h : lookup c = some 0xFF) :
    decodeLoop i (c :: cs) = some none := by
  simp [decodeLoop, h]

theorem decodeLoop_pad_here (i : Nat) (cs : List UInt8) (h : i < 2) :
    decodeLoop i (padChar :: cs) = some none := by
  have : (0 : UInt8) ≠ 0xFF := by decide
  simp [decodeLoop, lookup_pad.1, h]

theorem decodeLoop_sextet (i v : Nat) (hv : v < 64) (cs : List UInt8) (h : decodeLoop (i + 1) cs = some none) :
    decodeLoop i (sextetChar v :: cs) = some none := by
  obtain ⟨w1, w2, _, w4⟩ := lookup_sextet ⟨v, hv⟩
  simp only [] at *
  simp [decodeLoop, w1, w2, w4, h]

theorem decodeLoop_pad_later (i : Nat) (hi : 2 ≤ i) (cs : List UInt8) (h : decodeLoop (i + 1) cs = some none) :
    decodeLoop i (padChar :: cs) = some none := by
  have h' : ¬ i < 2 := by omega
  have : (0 : UInt8) ≠ 0xFF := by decide
  simp [decodeLoop, lookup_pad.1, h', h]

theorem dec4_pad_char (w x z : Nat) (hw : w < 64) (hx : x < 64) (hz : z < 64) :
    decode4 (sextetChar w) (sextetChar x) padChar (sextetChar z) = (.bad, []) := by
  obtain ⟨w1, w2, _, w4⟩ := lookup_sextet ⟨w, hw⟩
  obtain ⟨x1, x2, _, x4⟩ := lookup_sextet ⟨x, hx⟩
  obtain ⟨z1, z2, _, z4⟩ := lookup_sextet ⟨z, hz⟩
  have p1 := lookup_pad.1
  simp only [] at *
  have p4 : (0 : UInt8) ≠ 0xFF := by decide
  have h22 : ¬ ((0 : Nat) + 1 + 1 < 2) := by omega
  simp only [decode4, decodeLoop, w1, x1, z1, p1, w4, x4, z4, p4, w2, x2, z2, if_false, and_false, h22,
    false_and, ne_eq, not_false_eq_true, if_true, and_self]

theorem dec4_spec (c0 c1 c2 c3 : UInt8) (h0 : c0.toNat < 128) (h1 : c1.toNat < 128) (h2 : c2.toNat < 128)
    (h3 : c3.toNat < 128) : decode4 c0 c1 c2 c3 = groupSpec c0 c1 c2 c3 := by
  rcases char_cases c0 h0 with ⟨v0, l0, e0, q0⟩ | ⟨e0, q0⟩ | ⟨e0, n0, q0⟩
  · rcases char_cases c1 h1 with ⟨v1, l1, e1, q1⟩ | ⟨e1, q1⟩ | ⟨e1, n1, q1⟩
    · simp only [groupSpec, e0, e1, ← pad_eq]
      rcases char_cases c2 h2 with ⟨v2, l2, e2, q2⟩ | ⟨e2, q2⟩ | ⟨e2, n2, q2⟩
      · have n2 : c2 ≠ padChar := by rw [q2]; exact (lookup_sextet ⟨v2, l2⟩).2.1
        rcases char_cases c3 h3 with ⟨v3, l3, e3, q3⟩ | ⟨e3, q3⟩ | ⟨e3, n3, q3⟩
        · have n3 : c3 ≠ padChar := by rw [q3]; exact (lookup_sextet ⟨v3, l3⟩).2.1
          simp only [e2, e3, n2, n3, false_and, if_false, rfcBytes3 _ _ _ _ l0 l1 l2 l3]
          rw [q0, q1, q2, q3, dec4_full _ _ _ _ l0 l1 l2 l3]
        · simp only [e2, n2, false_and, if_false, q3, if_true, rfcBytes2 _ _ _ l0 l1 l2]
          rw [q0, q1, q2, dec4_two _ _ _ l0 l1 l2]
        · simp only [e2, e3, n2, n3, false_and, if_false]
          rw [q0, q1, q2]
          exact decode4_bad _ _ _ _ (decodeLoop_sextet _ _ l0 _ (decodeLoop_sextet _ _ l1 _
            (decodeLoop_sextet _ _ l2 _ (decodeLoop_bad_here _ _ _ q3))))
      · rcases char_cases c3 h3 with ⟨v3, l3, e3, q3⟩ | ⟨e3, q3⟩ | ⟨e3, n3, q3⟩
        · have n3 : c3 ≠ padChar := by rw [q3]; exact (lookup_sextet ⟨v3, l3⟩).2.1
          simp only [e2, n3, and_false, if_false]
          rw [q0, q1, q2, q3]; exact dec4_pad_char _ _ _ l0 l1 l3
        · simp only [q2, q3, and_self, if_true, rfcBytes1 _ _ l0 l1]
          rw [q0, q1, dec4_one _ _ l0 l1]
        · simp only [e2, n3, and_false, if_false]
          rw [q0, q1, q2]
          exact decode4_bad _ _ _ _ (decodeLoop_sextet _ _ l0 _ (decodeLoop_sextet _ _ l1 _
            (decodeLoop_pad_later _ (by omega) _ (decodeLoop_bad_here _ _ _ q3))))
      · simp only [e2, n2, false_and, if_false]
        rw [q0, q1]
        exact decode4_bad _ _ _ _ (decodeLoop_sextet _ _ l0 _ (decodeLoop_sextet _ _ l1 _
            (decodeLoop_bad_here _ _ _ q2)))
    · simp only [groupSpec, e0, e1]
      rw [q0, q1]
      exact decode4_bad _ _ _ _ (decodeLoop_sextet _ _ l0 _ (decodeLoop_pad_here _ _ (by omega)))
    · simp only [groupSpec, e0, e1]
      rw [q0]
      exact decode4_bad _ _ _ _ (decodeLoop_sextet _ _ l0 _ (decodeLoop_bad_here _ _ _ q1))
  · simp only [groupSpec, e0]
    rw [q0]
    exact decode4_bad _ _ _ _ (decodeLoop_pad_here _ _ (by omega))
  · simp only [groupSpec, e0]
    exact decode4_bad _ _ _ _ (decodeLoop_bad_here _ _ _ q0)

/-- what the decoder returns for text without white space -/
def specStatus (out : List UInt8) : Option (List UInt8) → (Status × List UInt8) → Prop
  | some o, r => (r.1 = .ok ∨ r.1 = .done) ∧ r.2 = out ++ o
  | none, r => r.1 = .bad

theorem decodeGo_spec : ∀ (n : Nat) (s out : List UInt8), s.length ≤ n → (∀ c ∈ s, c.toNat < 128) →
    (∀ c ∈ s, isSpace c = some false) → specStatus out (rfcDecode s) (decodeGo s [] out)
  | 0, [], out, _, _, _ => by simp [rfcDecode, decodeGo, decodeTail, specStatus]
  | n + 1, [], out, _, _, _ => by simp [rfcDecode, decodeGo, decodeTail, specStatus]
  | n + 1, [c0], out, _, ha, hs => by
    have s0 := hs c0 (by simp)
    have h0 := ha c0 (by simp)
    simp only [decodeGo, s0, List.nil_append, decodeTail, rfcDecode, specStatus, List.getD_nil]
    rw [dec4_spec _ _ _ _ h0 pad_lt pad_lt pad_lt]
    unfold groupSpec
    rw [show rfcValue padChar = none from rfcValue_pad]
    split <;> simp_all
  | n + 1, [c0, c1], out, _, ha, hs => by
    have s0 := hs c0 (by simp); have s1 := hs c1 (by simp)
    have h0 := ha c0 (by simp); have h1 := ha c1 (by simp)
    simp only [decodeGo, s0, s1, List.nil_append, List.singleton_append, decodeTail, rfcDecode, List.getD_nil,
      List.getD_cons_zero, List.getD_cons_succ]
    rw [dec4_spec _ _ _ _ h0 h1 pad_lt pad_lt]
    unfold groupSpec
    simp only [← pad_eq, and_self, if_true]
    cases rfcValue c0 <;> cases rfcValue c1 <;> simp [specStatus]
  | n + 1, [c0, c1, c2], out, _, ha, hs => by
    have s0 := hs c0 (by simp); have s1 := hs c1 (by simp); have s2 := hs c2 (by simp)
    have h0 := ha c0 (by simp); have h1 := ha c1 (by simp); have h2 := ha c2 (by simp)
    simp only [decodeGo, s0, s1, s2, List.nil_append, List.cons_append, decodeTail, rfcDecode, List.getD_nil,
      List.getD_cons_zero, List.getD_cons_succ]
    rw [dec4_spec _ _ _ _ h0 h1 h2 pad_lt]
    unfold groupSpec
    simp only [← pad_eq, and_true]
    cases rfcValue c0 <;> cases rfcValue c1 <;> simp [specStatus]
    by_cases hp : c2 = padChar
    · simp [hp]
    · simp only [hp, if_false]
      cases rfcValue c2 <;> simp [specStatus]
  | n + 1, c0 :: c1 :: c2 :: c3 :: rest, out, hl, ha, hs => by
    have s0 := hs c0 (by simp); have s1 := hs c1 (by simp); have s2 := hs c2 (by simp); have s3 := hs c3 (by simp)
    have h0 := ha c0 (by simp); have h1 := ha c1 (by simp); have h2 := ha c2 (by simp); have h3 := ha c3 (by simp)
    simp only [decodeGo, s0, s1, s2, s3, List.nil_append, List.cons_append]
    rw [dec4_spec _ _ _ _ h0 h1 h2 h3]
    unfold groupSpec rfcDecode
    simp only [← pad_eq]
    cases rfcValue c0 <;> cases rfcValue c1 <;> simp [specStatus]
    rename_i v0 v1
    by_cases hp : c2 = padChar ∧ c3 = padChar
    · simp [hp]
    · simp only [hp, if_false]
      cases rfcValue c2 with
      | none => simp [specStatus]
      | some v2 =>
        simp only [Option.bind_some]
        by_cases h3 : c3 = padChar
        · simp [h3, specStatus]
        · simp only [h3, if_false]
          cases rfcValue c3 with
          | none => simp [specStatus]
          | some v3 =>
            have ih := decodeGo_spec n rest (out ++ rfcBytes 3 v0 v1 v2 v3) (by simp at hl; omega)
              (fun c hc => ha c (by simp [hc])) (fun c hc => hs c (by simp [hc]))
            simp only [Option.bind_some, if_true]
            cases hr : rfcDecode rest with
            | none => simpa [hr, specStatus] using ih
            | some o => simpa [hr, specStatus, List.append_assoc] using ih

end Verif.Base64
