import Verif.Archive.Huffman
import Verif.Stream.Input

/-!
# Huffman coded blocks of JPEG files

Model of `HuffmanTable`, `HuffmanCode` and `JpegHuffmanImageUnit` of
/repo/hachoir/parser/image/jpeg.py.  Addresses and sizes are in bits, addresses absolute.
-/

namespace Hachoir.Formats.Jpeg
open Hachoir Hachoir.Stream Hachoir.Archive

/-- `UInt8` fields in a row. -/
def readOctets (s : InputStream) : Nat → Nat → Except PyErr (List Nat)
  | 0, _ => .ok []
  | n + 1, addr =>
    match readBits s addr 8 .big with
    | .error e => .error e
    | .ok v =>
      match readOctets s n (addr + 8) with
      | .error e => .error e
      | .ok l => .ok (v :: l)

/-- The list `lengths`, /repo/hachoir/parser/image/jpeg.py:271-280, from the count of length `i` on. -/
def lengthsFrom : Nat → List Nat → List Nat
  | _, [] => []
  | i, c :: counts => List.replicate c i ++ lengthsFrom (i + 1) counts

/-- `HuffmanTable`, /repo/hachoir/parser/image/jpeg.py:259-283: class, index, tree and size in bits. -/
def readTable (s : InputStream) (addr : Nat) : Except PyErr (Nat × Nat × Table × Nat) :=
  match readBits s addr 4 .big with
  | .error e => .error e
  | .ok cls =>
    match readBits s (addr + 4) 4 .big with
    | .error e => .error e
    | .ok index =>
      match readOctets s 16 (addr + 8) with
      | .error e => .error e
      | .ok counts =>
        let lengths := lengthsFrom 1 counts
        match readOctets s lengths.length (addr + 136) with
        | .error e => .error e
        | .ok values =>
          match buildTree lengths with
          | .error e => .error e
          | .ok t => .ok (cls, index, t.map (fun p => (p.1, values.getD p.2 0)), 136 + 8 * lengths.length)

/-- The head of the loop of `HuffmanCode.__init__`, /repo/hachoir/parser/image/jpeg.py:305-314: the
address of the next bit, and whether a byte has been skipped. -/
def skipStuffed (s : InputStream) (addr : Nat) : Except PyErr (Nat × Bool) :=
  if addr % 8 = 0 then
    match readBytes s ((addr : Int) - 8) 1 with
    | .error e => .error e
    | .ok last =>
      if last = [0xff] then
        match readBytes s addr 1 with
        | .error e => .error e
        | .ok next => if next ≠ [0] then .error .field else .ok (addr + 8, true)
      else .ok (addr, false)
  else .ok (addr, false)

/-- The loop of `HuffmanCode.__init__`, /repo/hachoir/parser/image/jpeg.py:304-323: the size of the
field, its value and `realvalue`.  `fuel` bounds the number of bits; the code has no bound but the
end of the stream. -/
def codeLoop (s : InputStream) (tree : Table) : Nat → Nat → Nat → Nat → Bool → Except PyErr (Nat × Nat × Nat)
  | fuel, addr, size, value, met =>
    match tree.get (size, value) with
    | some real => .ok (if met then size + 8 else size, value, real)
    | none =>
      match fuel with
      | 0 => .error .endless
      | fuel + 1 =>
        match skipStuffed s addr with
        | .error e => .error e
        | .ok (addr, skipped) =>
          match readBits s addr 1 .big with
          | .error e => .error e
          | .ok bit => codeLoop s tree fuel (addr + 1) (size + 1) ((value <<< 1) + bit) (met || skipped)

/-- `HuffmanCode`, /repo/hachoir/parser/image/jpeg.py:292-323. -/
def readCode (s : InputStream) (tree : Table) (fuel addr : Nat) : Except PyErr (Nat × Nat × Nat) :=
  codeLoop s tree fuel addr 0 0 false

/-- `corrected_value`, /repo/hachoir/parser/image/jpeg.py:341-344 and 365-368. -/
def corrected (n value : Nat) : Int := if value < 2 ^ (n - 1) then (value : Int) + (-(2 ^ n)) + 1 else value

/-- A field of a block: a code with value and `realvalue`, or extra bits with the corrected value. -/
inductive Fld
  | code (addr size value real : Nat)
  | extra (addr size : Nat) (value : Int)
  deriving DecidableEq, Repr

/-- The loop over the AC codes, /repo/hachoir/parser/image/jpeg.py:347-375, where `data` has `n`
values: the fields, the values added to `data`, and the end.  `left` bounds the number of codes;
each adds a value at least. -/
def acLoop (s : InputStream) (tree : Table) (fuel : Nat) : Nat → Nat → Nat → Except PyErr (List Fld × List Int × Nat)
  | left, addr, n =>
    if n < 63 then
      match left with
      | 0 => .error .endless
      | left + 1 =>
        match readCode s tree fuel addr with
        | .error e => .error e
        | .ok (size, value, real) =>
          let r := real >>> 4
          let sz := real &&& 0x0f
          if r = 0 ∧ sz = 0 then .ok ([.code addr size value real], [], addr + size)
          else if sz ≠ 0 then
            match readBits s ((addr + size : Nat) : Int) sz .big with
            | .error e => .error e
            | .ok v =>
              match acLoop s tree fuel left (addr + size + sz) (n + r + 1) with
              | .error e => .error e
              | .ok (flds, data, stop) =>
                .ok (.code addr size value real :: .extra (addr + size) sz (corrected sz v) :: flds,
                  List.replicate r 0 ++ corrected sz v :: data, stop)
          else
            match acLoop s tree fuel left (addr + size) (n + r + 1) with
            | .error e => .error e
            | .ok (flds, data, stop) => .ok (.code addr size value real :: flds, List.replicate r 0 ++ 0 :: data, stop)
    else .ok ([], [], addr)

/-- `JpegHuffmanImageUnit.createFields`, /repo/hachoir/parser/image/jpeg.py:334-375: the fields, the
corrected value of the DC coefficient, `data` and the end.  The block lies within its parent. -/
def readBlock (s : InputStream) (dc ac : Table) (fuel addr : Nat) : Except PyErr (List Fld × Int × List Int × Nat) :=
  match readCode s dc fuel addr with
  | .error e => .error e
  | .ok (size, value, real) =>
    if real ≠ 0 then
      match readBits s ((addr + size : Nat) : Int) real .big with
      | .error e => .error e
      | .ok v =>
        match acLoop s ac fuel 63 (addr + size + real) 0 with
        | .error e => .error e
        | .ok (flds, data, stop) =>
          .ok (.code addr size value real :: .extra (addr + size) real (corrected real v) :: flds, corrected real v, data, stop)
    else
      match acLoop s ac fuel 63 (addr + size) 0 with
      | .error e => .error e
      | .ok (flds, data, stop) => .ok (.code addr size value real :: flds, 0, data, stop)

end Hachoir.Formats.Jpeg
