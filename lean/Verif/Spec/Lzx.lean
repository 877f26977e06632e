import Verif.Spec.Huffman

/-!
# Specification: the LZX format

What a sequence of LZX blocks stands for and how it may be written in bits, after Microsoft's
description of LZX in cabinet files.  The bits are taken from 16-bit little endian words, from the
most significant bit to the least significant one.  Only lists and arithmetic.
-/

namespace Spec.Lzx
open Spec

/-- The bytes of each 16-bit word exchanged. -/
def words : List UInt8 → List UInt8
  | a :: b :: rest => b :: a :: words rest
  | l => l

/-- The bits of a file. -/
def fileBits (file : List UInt8) : List Bool := bitsMSB (words file)

/-- Extra bits of a position slot. -/
def slotExtra (n : Nat) : Nat := if n < 4 then 0 else if n < 36 then n / 2 - 1 else 17

/-- First position of a slot. -/
def slotBase (n : Nat) : Nat :=
  if n < 4 then n else if n < 36 then (2 + n % 2) * 2 ^ (n / 2 - 1) else 262144 + (n - 36) * 131072

/-- The number of position slots is such that they cover a window of `2 ^ level` bytes. -/
def Slots (level n : Nat) : Prop := 15 ≤ level ∧ level ≤ 21 ∧ slotBase n = 2 ^ level

/-! ## Code lengths -/

/-- Symbols for code lengths: difference to the old length, zeros in two ways, the same difference
`n` times. -/
inductive TreeRun where
  | delta (v : Nat)
  | zeros (n : Nat)
  | manyZeros (n : Nat)
  | same (n v : Nat)
  deriving DecidableEq, Repr

/-- Counts in range, and codes that exist. -/
def TreeRun.Valid (pre : List Nat) : TreeRun → Prop
  | .delta v => v ≤ 16 ∧ HasCode pre v
  | .zeros n => 4 ≤ n ∧ n ≤ 19 ∧ HasCode pre 17
  | .manyZeros n => 20 ≤ n ∧ n ≤ 51 ∧ HasCode pre 18
  | .same n v => 4 ≤ n ∧ n ≤ 5 ∧ v ≤ 16 ∧ HasCode pre 19 ∧ HasCode pre v

/-- Its bits. -/
def TreeRun.bits (pre : List Nat) : TreeRun → List Bool
  | .delta v => codeWord pre v
  | .zeros n => codeWord pre 17 ++ toBitsMSB 4 (n - 4)
  | .manyZeros n => codeWord pre 18 ++ toBitsMSB 5 (n - 20)
  | .same n v => codeWord pre 19 ++ (toBitsMSB 1 (n - 4) ++ codeWord pre v)

/-- The new length for an old one and a difference. -/
def newLength (old v : Nat) : Nat := (old + 17 - v) % 17

/-- The new lengths, from the old ones. -/
inductive Lengths : List Nat → List TreeRun → List Nat → Prop where
  | nil : Lengths [] [] []
  | delta (x v : Nat) (old : List Nat) (rs : List TreeRun) (new : List Nat) : Lengths old rs new →
      Lengths (x :: old) (.delta v :: rs) (newLength x v :: new)
  | zeros (n : Nat) (a old : List Nat) (rs : List TreeRun) (new : List Nat) : a.length = n → Lengths old rs new →
      Lengths (a ++ old) (.zeros n :: rs) (List.replicate n 0 ++ new)
  | manyZeros (n : Nat) (a old : List Nat) (rs : List TreeRun) (new : List Nat) : a.length = n → Lengths old rs new →
      Lengths (a ++ old) (.manyZeros n :: rs) (List.replicate n 0 ++ new)
  | same (n v x : Nat) (a old : List Nat) (rs : List TreeRun) (new : List Nat) : a.length + 1 = n → Lengths old rs new →
      Lengths (x :: a ++ old) (.same n v :: rs) (List.replicate n (newLength x v) ++ new)

/-- The bits that turn the old lengths into the new ones: the 20 lengths of the codes for the
symbols, then the symbols. -/
inductive TreeBits (old new : List Nat) : List Bool → Prop where
  | mk (pre : List Nat) (rs : List TreeRun) : pre.length = 20 → (∀ x ∈ pre, x < 16) → Kraft pre →
      (∀ r ∈ rs, r.Valid pre) → Lengths old rs new →
      TreeBits old new (pre.flatMap (toBitsMSB 4) ++ rs.flatMap (TreeRun.bits pre))

/-! ## Codes -/

/-- Code lengths of a block: literals and matches, lengths of matches, low bits of positions (not
in verbatim blocks). -/
structure Coding where
  main : List Nat
  lens : List Nat
  aligned : Option (List Nat)

/-- The bits of the length of a match and the part of it in the symbol. -/
inductive LengthBits (c : Coding) : Nat → Nat → List Bool → Prop where
  | short (k : Nat) : k < 7 → LengthBits c (k + 2) k []
  | long (k : Nat) : k < 249 → HasCode c.lens k → LengthBits c (k + 9) 7 (codeWord c.lens k)

/-- The bits of `x` in a position slot with some extra bits. -/
inductive ExtraBits (c : Coding) : Nat → Nat → List Bool → Prop where
  | verbatim (extra x : Nat) : x < 2 ^ extra → (c.aligned = none ∨ extra < 3) →
      ExtraBits c extra x (toBitsMSB extra x)
  | aligned (al : List Nat) (extra x : Nat) : x < 2 ^ extra → c.aligned = some al → 3 ≤ extra → HasCode al (x % 8) →
      ExtraBits c extra x (toBitsMSB (extra - 3) (x / 8) ++ codeWord al (x % 8))

/-- The three most recent distances. -/
abbrev Recent := Nat × Nat × Nat

/-- The bits of a distance: the slot, the bits behind the length, the new recent distances. -/
inductive DistanceBits (c : Coding) : Recent → Nat → Nat → List Bool → Recent → Prop where
  | first (r0 r1 r2 : Nat) : DistanceBits c (r0, r1, r2) r0 0 [] (r0, r1, r2)
  | second (r0 r1 r2 : Nat) : DistanceBits c (r0, r1, r2) r1 1 [] (r1, r0, r2)
  | third (r0 r1 r2 : Nat) : DistanceBits c (r0, r1, r2) r2 2 [] (r2, r1, r0)
  | new (r0 r1 r2 d slot x : Nat) (b : List Bool) : 3 ≤ slot → d + 2 = slotBase slot + x →
      ExtraBits c (slotExtra slot) x b → DistanceBits c (r0, r1, r2) d slot b (d, r0, r1)

/-- A frame of output. -/
def frame : Nat := 32768

/-- One code: data and recent distances before, bits, data and recent distances behind. -/
inductive CodeBits (level slots : Nat) (c : Coding) : List UInt8 → Recent → List Bool → List UInt8 → Recent → Prop where
  | lit (data : List UInt8) (r : Recent) (b : UInt8) : HasCode c.main b.toNat →
      CodeBits level slots c data r (codeWord c.main b.toNat) (data ++ [b]) r
  | copy (data : List UInt8) (r r' : Recent) (n k d slot : Nat) (lb db : List Bool) : LengthBits c n k lb →
      DistanceBits c r d slot db r' → slot < slots → 0 < d → d ≤ data.length → d ≤ 2 ^ level →
      data.length / frame = (data.length + n - 1) / frame → HasCode c.main (256 + 8 * slot + k) →
      CodeBits level slots c data r (codeWord c.main (256 + 8 * slot + k) ++ (lb ++ db)) (lzCopy data d n) r'

/-- The codes of a block from bit `pos`.  The codes of every frame end at a 16-bit boundary. -/
inductive CodesBits (level slots : Nat) (c : Coding) :
    Nat → List UInt8 → Recent → List Bool → List UInt8 → Recent → Prop where
  | nil (pos : Nat) (data : List UInt8) (r : Recent) : CodesBits level slots c pos data r [] data r
  | cons (pos : Nat) (data data' data'' : List UInt8) (r r' r'' : Recent) (b pad bs : List Bool) :
      CodeBits level slots c data r b data' r' →
      (if data'.length % frame = 0 then pad.length < 16 ∧ (pos + b.length + pad.length) % 16 = 0 else pad = []) →
      CodesBits level slots c (pos + b.length + pad.length) data' r' bs data'' r'' →
      CodesBits level slots c pos data r (b ++ (pad ++ bs)) data'' r''

/-! ## Blocks -/

/-- What is known between two blocks. -/
structure State where
  data : List UInt8
  recent : Recent
  start : List Nat
  rest : List Nat
  lens : List Nat

/-- 32-bit little endian number. -/
def le32 (v : Nat) : List UInt8 :=
  [UInt8.ofNat (v % 256), UInt8.ofNat (v / 256 % 256), UInt8.ofNat (v / 65536 % 256), UInt8.ofNat (v / 16777216 % 256)]

/-- What a reader may want to know about a block: whether its bytes are stored, how many there are,
and whether the byte E8 may occur. -/
structure Info where
  stored : Bool
  size : Nat
  e8 : Bool
  deriving DecidableEq, Repr

/-- The bits of the trees and codes of a block that begins at bit `pos`. -/
inductive PackedBits (level slots pos : Nat) (al : Option (List Nat)) (s t : State) : List Bool → Prop where
  | mk (b1 b2 b3 bs : List Bool) : TreeBits s.start t.start b1 → TreeBits s.rest t.rest b2 →
      TreeBits s.lens t.lens b3 → Kraft (t.start ++ t.rest) → Kraft t.lens →
      CodesBits level slots ⟨t.start ++ t.rest, t.lens, al⟩ (pos + (b1 ++ b2 ++ b3).length) s.data s.recent bs
        t.data t.recent →
      PackedBits level slots pos al s t (b1 ++ b2 ++ b3 ++ bs)

/-- The bits of a block that begins at bit `pos`. -/
inductive BlockBits (level slots pos : Nat) : State → Info → State → List Bool → Prop where
  | verbatim (s t : State) (size : Nat) (bs : List Bool) : 0 < size → size < 2 ^ 24 →
      t.data.length = s.data.length + size → PackedBits level slots (pos + 27) none s t bs →
      BlockBits level slots pos s ⟨false, size, t.start.getD 0xE8 0 ≠ 0⟩ t (toBitsMSB 3 1 ++ (toBitsMSB 24 size ++ bs))
  | aligned (s t : State) (size : Nat) (al : List Nat) (bs : List Bool) : 0 < size → size < 2 ^ 24 →
      t.data.length = s.data.length + size → al.length = 8 → (∀ x ∈ al, x < 8) → Kraft al →
      PackedBits level slots (pos + 51) (some al) s t bs →
      BlockBits level slots pos s ⟨false, size, t.start.getD 0xE8 0 ≠ 0⟩ t
        (toBitsMSB 3 2 ++ (toBitsMSB 24 size ++ (al.flatMap (toBitsMSB 3) ++ bs)))
  | stored (s : State) (bytes fill : List UInt8) (r0 r1 r2 : Nat) (pad : List Bool) : 0 < bytes.length →
      bytes.length < 2 ^ 24 → r0 < 2 ^ 32 → r1 < 2 ^ 32 → r2 < 2 ^ 32 → 0 < pad.length → pad.length ≤ 16 →
      (pos + 27 + pad.length) % 16 = 0 → fill.length = bytes.length % 2 →
      BlockBits level slots pos s ⟨true, bytes.length, true⟩
        { s with data := s.data ++ bytes, recent := (r0, r1, r2) }
        (toBitsMSB 3 3 ++ (toBitsMSB 24 bytes.length ++
          (pad ++ fileBits (le32 r0 ++ le32 r1 ++ le32 r2 ++ bytes ++ fill))))

/-- The bits of some blocks from bit `pos`. -/
inductive BlocksBits (level slots : Nat) : Nat → State → List Info → State → List Bool → Prop where
  | nil (pos : Nat) (s : State) : BlocksBits level slots pos s [] s []
  | cons (pos : Nat) (s t u : State) (i : Info) (is : List Info) (b bs : List Bool) :
      BlockBits level slots pos s i t b → BlocksBits level slots (pos + b.length) t is u bs →
      BlocksBits level slots pos s (i :: is) u (b ++ bs)

/-- The beginning. -/
def State.init (slots : Nat) : State :=
  ⟨[], (1, 1, 1), List.replicate 256 0, List.replicate (8 * slots) 0, List.replicate 249 0⟩

/-- `filesize`: the size for the translation of jumps, if there is one. -/
def headBits : Option Nat → List Bool
  | none => [false]
  | some n => true :: toBitsMSB 32 n

/-- A file with some blocks, of which the bytes are `raw` (before the translation of jumps). -/
structure File (level : Nat) (filesize : Option Nat) (infos : List Info) (raw file : List UInt8) : Prop where
  even : file.length % 2 = 0
  size : ∀ n, filesize = some n → n < 2 ^ 32
  some : infos ≠ []
  bits : ∃ slots u bs pad, Slots level slots ∧ u.data = raw ∧ List.length pad < 16 ∧
    BlocksBits level slots (headBits filesize).length (State.init slots) infos u bs ∧
    fileBits file = headBits filesize ++ (bs ++ pad)

/-- No block begins at the end of a frame, but a stored one behind a stored one. -/
def Apart : Nat → List Info → Prop
  | n, i :: j :: l => ((n + i.size) % 32768 = 0 → i.stored = true ∧ j.stored = true) ∧ Apart (n + i.size) (j :: l)
  | _, _ => True

end Spec.Lzx
