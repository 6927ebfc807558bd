/-
Model of `/repo/src/utility/base64.cc` (encoder, decoder, compressed-block writer).

`char`/`unsigned char` are `UInt8`; arithmetic that C++ performs after promotion to `int` is done on
`Nat` (no operand exceeds 255 and no shift exceeds 6 bits, so `int` cannot overflow), and a store into a
`char` truncates with `UInt8.ofNat`.  `char` is taken to be signed (x86/ARM-mac ABI): a byte ≥ 0x80 used as
`size_t` index is an out-of-bounds read, which is the distinct outcome `ub`.
-/
namespace Verif.Base64

/-- base64.cc:16-19 `base64Chars` (ASCII codes of "A–Z a–z 0–9 + /"). -/
def base64Chars : List UInt8 :=
  [65,66,67,68,69,70,71,72,73,74,75,76,77,78,79,80,81,82,83,84,85,86,87,88,89,90,
   97,98,99,100,101,102,103,104,105,106,107,108,109,110,111,112,113,114,115,116,117,118,119,120,121,122,
   48,49,50,51,52,53,54,55,56,57,43,47]

/-- `'='` -/
def padChar : UInt8 := 61

/-- base64.cc:37-40: `base64Chars[i]`; callers mask the index with `& 0x3F`, so it is in range
(`sextetChar_lt` in `Lemmas`). -/
def sextetChar (i : Nat) : UInt8 := base64Chars.getD i 0

/-- base64.cc:35-42, one iteration of the loop over triplets. -/
def encode3 (a b c : UInt8) : List UInt8 :=
  [ sextetChar ((a.toNat >>> 2) &&& 0x3F),
    sextetChar (((a.toNat <<< 4) ||| (b.toNat >>> 4)) &&& 0x3F),
    sextetChar (((b.toNat <<< 2) ||| (c.toNat >>> 6)) &&& 0x3F),
    sextetChar (c.toNat &&& 0x3F) ]

/-- base64.cc:44-51, remainder of one byte. -/
def encode1 (a : UInt8) : List UInt8 :=
  [ sextetChar ((a.toNat >>> 2) &&& 0x3F), sextetChar ((a.toNat <<< 4) &&& 0x3F), padChar, padChar ]

/-- base64.cc:52-59, remainder of two bytes. -/
def encode2 (a b : UInt8) : List UInt8 :=
  [ sextetChar ((a.toNat >>> 2) &&& 0x3F),
    sextetChar (((a.toNat <<< 4) ||| (b.toNat >>> 4)) &&& 0x3F),
    sextetChar ((b.toNat <<< 2) &&& 0x3F), padChar ]

/-- base64.cc:23-63 `encodeBase64`.  The index loop over `i += 3` up to `length - length % 3` is the
structural recursion on three bytes at a time. -/
def encode : List UInt8 → List UInt8
  | a :: b :: c :: rest => encode3 a b c ++ encode rest
  | [a, b] => encode2 a b
  | [a] => encode1 a
  | [] => []

/-- base64.cc:124-158 `decodeBase64Table`. -/
def decodeTable : List UInt8 :=
  [0xFF,0xFF,0xFF,0xFF,0xFF,0xFF,0xFF,0xFF,
   0xFF,0xFF,0xFF,0xFF,0xFF,0xFF,0xFF,0xFF,
   0xFF,0xFF,0xFF,0xFF,0xFF,0xFF,0xFF,0xFF,
   0xFF,0xFF,0xFF,0xFF,0xFF,0xFF,0xFF,0xFF,
   0xFF,0xFF,0xFF,0xFF,0xFF,0xFF,0xFF,0xFF,
   0xFF,0xFF,0xFF,0x3E,0xFF,0xFF,0xFF,0x3F,
   0x34,0x35,0x36,0x37,0x38,0x39,0x3A,0x3B,
   0x3C,0x3D,0xFF,0xFF,0xFF,0x00,0xFF,0xFF,
   0xFF,0x00,0x01,0x02,0x03,0x04,0x05,0x06,
   0x07,0x08,0x09,0x0A,0x0B,0x0C,0x0D,0x0E,
   0x0F,0x10,0x11,0x12,0x13,0x14,0x15,0x16,
   0x17,0x18,0x19,0xFF,0xFF,0xFF,0xFF,0xFF,
   0xFF,0x1A,0x1B,0x1C,0x1D,0x1E,0x1F,0x20,
   0x21,0x22,0x23,0x24,0x25,0x26,0x27,0x28,
   0x29,0x2A,0x2B,0x2C,0x2D,0x2E,0x2F,0x30,
   0x31,0x32,0x33,0xFF,0xFF,0xFF,0xFF,0xFF] ++ List.replicate 128 0xFF

/-- base64.cc:161 `decode_enum`, with the extra outcome `ub` for undefined behaviour. -/
inductive Status where | bad | ok | done | ub
  deriving DecidableEq, Repr

/-- base64.cc:171-172: `size_t char_index = in[i]; decodeBase64Table[char_index]`.
`none` when `in[i]` is a negative `char` (the index is then about 2^64: out of bounds). -/
def lookup (c : UInt8) : Option UInt8 :=
  if c.toNat ≥ 128 then none else some (decodeTable.getD c.toNat 0xFF)

/-- base64.cc:169-184, the validation loop of `decode4` from position `i` on:
`none` = undefined behaviour, `some none` = `BAD`, `some (some ts)` = the table values. -/
def decodeLoop : Nat → List UInt8 → Option (Option (List UInt8))
  | _, [] => some (some [])
  | i, c :: cs =>
    match lookup c with
    | none => none
    | some t =>
      if t = 0xFF then some none
      else if i < 2 ∧ c = padChar then some none
      else match decodeLoop (i + 1) cs with
        | none => none
        | some none => some none
        | some (some ts) => some (some (t :: ts))

/-- base64.cc:163-213 `decode4`: status and the bytes appended to `out`. -/
def decode4 (c0 c1 c2 c3 : UInt8) : Status × List UInt8 :=
  match decodeLoop 0 [c0, c1, c2, c3] with
  | none => (.ub, [])
  | some none => (.bad, [])
  | some (some ts) =>
    let t (i : Nat) : Nat := (ts.getD i 0).toNat
    if c2 = padChar ∧ c3 ≠ padChar then (.bad, [])
    else
      let o0 := [UInt8.ofNat (((t 0 <<< 2) &&& 0xFC) ||| ((t 1 >>> 4) &&& 0x03))]
      let (s1, o1) :=
        if c2 ≠ padChar then
          (Status.ok, [UInt8.ofNat (((t 1 <<< 4) &&& 0xF0) ||| ((t 2 >>> 2) &&& 0x0F))])
        else (Status.done, [])
      let (s2, o2) :=
        if c3 ≠ padChar then
          (s1, [UInt8.ofNat (((t 2 <<< 6) &&& 0xC0) ||| ((t 3 >>> 0) &&& 0x3F))])
        else (Status.done, [])
      (s2, o0 ++ o1 ++ o2)

/-- base64.cc:232 `isspace(c)` in the "C" locale; `none` for a negative `char`, for which the C standard
leaves `isspace` undefined. -/
def isSpace (c : UInt8) : Option Bool :=
  if c.toNat ≥ 128 then none
  else some (c = 32 ∨ (9 ≤ c.toNat ∧ c.toNat ≤ 13))

/-- base64.cc:247-256, after the loop: pad an incomplete group with `'='` and decode it. -/
def decodeTail (tin : List UInt8) (out : List UInt8) : Status × List UInt8 :=
  match tin with
  | [] => (.ok, out)
  | c0 :: r =>
    let (s, o) := decode4 c0 (r.getD 0 padChar) (r.getD 1 padChar) (r.getD 2 padChar)
    (s, out ++ o)

/-- base64.cc:229-246, the character loop.  `tin` holds the `j < 4` characters collected so far. -/
def decodeGo : List UInt8 → List UInt8 → List UInt8 → Status × List UInt8
  | [], tin, out => decodeTail tin out
  | c :: cs, tin, out =>
    match isSpace c with
    | none => (.ub, out)
    | some true => decodeGo cs tin out
    | some false =>
      match tin with
      | [c0, c1, c2] =>
        let (s, o) := decode4 c0 c1 c2 c
        if s = .ok then decodeGo cs [] (out ++ o) else (s, out ++ o)
      | _ => decodeGo cs (tin ++ [c]) out

/-- Result of `bool decodeBase64(input, output)` (base64.cc:216-258). -/
inductive Result where
  | undefinedBehaviour
  | failure
  | success (output : List UInt8)
  deriving DecidableEq, Repr

/-- base64.cc:216-258 `decodeBase64`: returns `true` iff the status is `OK` or `DONE`. -/
def decode (input : List UInt8) : Result :=
  match decodeGo input [] [] with
  | (.ub, _) => .undefinedBehaviour
  | (.bad, _) => .failure
  | (_, out) => .success out

/-! ### Compressed data arrays -/

/-- base64.cc:74 `blockSize`. -/
def blockSize : Nat := 32768
/-- base64.cc:76 `numberOfTPerBlock` for `T = double` (the only instantiation, base64.cc:122). -/
def perBlock : Nat := blockSize / 8

/-- base64.cc:80-88 -/
def numberOfBlocks (n : Nat) : Nat :=
  n / perBlock + (if n % perBlock ≠ 0 then 1 else 0)

/-- base64.cc:98-106: the elements handed to the compressor for block `i`: starting at
`numberOfTPerBlock * i`, and of length `maxLength`, except for the last block, whose length is that of the
partial block. Lengths are counted in array elements instead of bytes. -/
def block {α : Type} (x : List α) (i : Nat) : List α :=
  let len := if i = numberOfBlocks x.length - 1 then x.length % perBlock else perBlock
  (x.drop (perBlock * i)).take len

/-- base64.cc:98-114: all the blocks handed to the compressor, in order. -/
def blocks {α : Type} (x : List α) : List (List α) :=
  (List.range (numberOfBlocks x.length)).map (block x)

/-- base64.cc:90-94,112: header and compressed payload (before base64).  `compress` stands for
`DEVSIMZlibCompress` (ZlibCompress.cc:18-73, Python's `zlib.compress`); header words are unbounded here, `unsigned int` in the code. -/
def zlibParts {α : Type} (compress : List α → List UInt8) (x : List α) : List Nat × List UInt8 :=
  ([numberOfBlocks x.length, blockSize, (x.length % perBlock) * 8] ++
      (blocks x).map (fun b => (compress b).length),
   ((blocks x).map compress).flatten)

end Verif.Base64
