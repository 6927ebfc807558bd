import Verif.Base64.Model
/-
Independent specifications: RFC 4648 base64 by arithmetic on 24-bit groups, and a reader for VTK compressed
arrays following the VTK XML file format description
([#blocks][#u-size][#p-size][#c-size-1]...[#c-size-#blocks][DATA]; #p-size is the size of the last partial
block, zero if it is not needed, i.e. the last block is full).
-/
namespace Verif.Base64

/-- The base64 alphabet, RFC 4648 table 1, as a string. -/
def rfcAlphabet : String := "ABCDEFGHIJKLMNOPQRSTUVWXYZabcdefghijklmnopqrstuvwxyz0123456789+/"

def rfcChar (n : Nat) : UInt8 := (rfcAlphabet.toList.getD n ' ').toNat.toUInt8

/-- RFC 4648 section 4. -/
def rfcEncode : List UInt8 → List UInt8
  | a :: b :: c :: rest =>
    let n := a.toNat * 65536 + b.toNat * 256 + c.toNat
    [rfcChar (n / 262144), rfcChar (n / 4096 % 64), rfcChar (n / 64 % 64), rfcChar (n % 64)] ++ rfcEncode rest
  | [a, b] =>
    let n := a.toNat * 65536 + b.toNat * 256
    [rfcChar (n / 262144), rfcChar (n / 4096 % 64), rfcChar (n / 64 % 64), 61]
  | [a] =>
    let n := a.toNat * 65536
    [rfcChar (n / 262144), rfcChar (n / 4096 % 64), 61, 61]
  | [] => []

/-- Value of a character of the alphabet (RFC 4648 table 1). -/
def rfcValue (c : UInt8) : Option Nat := (List.range 64).find? (fun i => rfcChar i = c)

/-- White space: blank, tab, newline, vertical tab, form feed, carriage return. -/
def whiteSpace : List UInt8 := [32, 9, 10, 11, 12, 13]

/-- The first `k` bytes of the 24-bit group with digits `v0 v1 v2 v3` in base 64. -/
def rfcBytes (k v0 v1 v2 v3 : Nat) : List UInt8 :=
  let n := ((v0 * 64 + v1) * 64 + v2) * 64 + v3
  [UInt8.ofNat (n / 65536), UInt8.ofNat (n / 256 % 256), UInt8.ofNat (n % 256)].take k

/-- RFC 4648 decoding of text without white space, tolerant of a missing final padding and ignoring what follows
the padding; `none` = malformed. -/
def rfcDecode : List UInt8 → Option (List UInt8)
  | [] => some []
  | [_] => none
  | [c0, c1] => do
    let v0 ← rfcValue c0
    let v1 ← rfcValue c1
    return rfcBytes 1 v0 v1 0 0
  | [c0, c1, c2] => do
    let v0 ← rfcValue c0
    let v1 ← rfcValue c1
    if c2 = 61 then return rfcBytes 1 v0 v1 0 0
    else
      let v2 ← rfcValue c2
      return rfcBytes 2 v0 v1 v2 0
  | c0 :: c1 :: c2 :: c3 :: rest => do
    let v0 ← rfcValue c0
    let v1 ← rfcValue c1
    if c2 = 61 ∧ c3 = 61 then return rfcBytes 1 v0 v1 0 0
    else
      let v2 ← rfcValue c2
      if c3 = 61 then return rfcBytes 2 v0 v1 v2 0
      else
        let v3 ← rfcValue c3
        let o ← rfcDecode rest
        return rfcBytes 3 v0 v1 v2 v3 ++ o

/-- Reader of the blocks of a VTK compressed array: `sizes` are the compressed sizes of the blocks,
`full` the number of elements of a full block and `last` of the last one. A block which does not decompress
to the announced number of elements is an error. -/
def vtkReadBlocks {α : Type} (decompress : List UInt8 → Option (List α)) (full last : Nat) :
    List Nat → List UInt8 → Option (List α)
  | [], _ => some []
  | s :: ss, data =>
    match decompress (data.take s) with
    | none => none
    | some b =>
      if b.length = (if ss = [] then last else full) then
        match vtkReadBlocks decompress full last ss (data.drop s) with
        | none => none
        | some r => some (b ++ r)
      else none

/-- Reader of the header and payload of a compressed array of 8-byte elements. -/
def vtkRead {α : Type} (decompress : List UInt8 → Option (List α)) :
    List Nat × List UInt8 → Option (List α)
  | (nb :: usize :: psize :: sizes, data) =>
    if sizes.length = nb then
      vtkReadBlocks decompress (usize / 8) (if psize = 0 then usize / 8 else psize / 8) sizes data
    else none
  | _ => none

end Verif.Base64
