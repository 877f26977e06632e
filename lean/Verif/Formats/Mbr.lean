import Verif.Field.Seek
import Verif.Stream.Input

/-!
# Partition tables

Model of /repo/hachoir/parser/file_system/mbr.py.  All addresses and sizes are in bits, addresses
of fields relative to their field set.
-/

namespace Hachoir.Formats.Mbr
open Hachoir Hachoir.Stream

/-- The fields of `PartitionHeader`, /repo/hachoir/parser/file_system/mbr.py:138-151. -/
structure Entry where
  bootable : Nat
  startHead : Nat
  startSector : Nat
  startCylinder : Nat
  system : Nat
  endHead : Nat
  endSector : Nat
  endCylinder : Nat
  lba : Nat
  size : Nat
  deriving DecidableEq, Repr

/-- `CylinderNumber.createValue`, /repo/hachoir/parser/file_system/mbr.py:31-34; the parser is
little endian (217). -/
def readCylinder (s : InputStream) (addr : Int) : Except PyErr Nat :=
  match readBits s addr 10 .little with
  | .error e => .error e
  | .ok i => .ok ((i >>> 2) ||| ((i % 4) <<< 8))

/-- A head, sector and cylinder (`UInt8`, `Bits` of 6, `CylinderNumber`),
/repo/hachoir/parser/file_system/mbr.py:143-145 and 147-149. -/
def readChs (s : InputStream) (addr : Int) : Except PyErr (Nat × Nat × Nat) :=
  match readBits s addr 8 .little with
  | .error e => .error e
  | .ok h =>
    match readBits s (addr + 8) 6 .little with
    | .error e => .error e
    | .ok c =>
      match readCylinder s (addr + 14) with
      | .error e => .error e
      | .ok y => .ok (h, c, y)

/-- `PartitionHeader`, /repo/hachoir/parser/file_system/mbr.py:138-151. -/
def readEntry (s : InputStream) (addr : Int) : Except PyErr Entry :=
  match readBits s addr 8 .little with
  | .error e => .error e
  | .ok b =>
    match readChs s (addr + 8) with
    | .error e => .error e
    | .ok (h1, s1, c1) =>
      match readBits s (addr + 32) 8 .little with
      | .error e => .error e
      | .ok t =>
        match readChs s (addr + 40) with
        | .error e => .error e
        | .ok (h2, s2, c2) =>
          match readBits s (addr + 64) 32 .little with
          | .error e => .error e
          | .ok l =>
            match readBits s (addr + 96) 32 .little with
            | .error e => .error e
            | .ok n => .ok ⟨b, h1, s1, c1, t, h2, s2, c2, l, n⟩

/-- The numbered headers (`enumerate(mbr.headers)`), /repo/hachoir/parser/file_system/mbr.py:169-180
and 195, `n` of them from number `i` on. -/
def readEntries (s : InputStream) (addr : Int) : Nat → Nat → Except PyErr (List (Nat × Entry))
  | _, 0 => .ok []
  | i, n + 1 =>
    match readEntry s (addr + 446 * 8 + 128 * i) with
    | .error e => .error e
    | .ok h =>
      match readEntries s addr (i + 1) n with
      | .error e => .error e
      | .ok hs => .ok ((i, h) :: hs)

/-- `isUsed`, /repo/hachoir/parser/file_system/mbr.py:153-154. -/
def Entry.isUsed (h : Entry) : Bool := h.system != 0

/-- The order of the tuples `(LBA, index, header)`; two headers never have the same index, so
the headers are not compared, /repo/hachoir/parser/file_system/mbr.py:194-195. -/
def before (p q : Nat × Entry) : Bool := p.2.lba < q.2.lba || (p.2.lba == q.2.lba && p.1 ≤ q.1)

/-- `sorted`. -/
def insertEntry (p : Nat × Entry) : List (Nat × Entry) → List (Nat × Entry)
  | [] => [p]
  | q :: l => if before p q then p :: q :: l else q :: insertEntry p l

def sortEntries : List (Nat × Entry) → List (Nat × Entry)
  | [] => []
  | p :: l => insertEntry p (sortEntries l)

/-- What a field of a `Partition` is. -/
inductive Kind
  | mbr
  | padding
  | raw (index : Nat)
  | partition (index : Nat)
  | last
  deriving DecidableEq, Repr

/-- A field. -/
structure Fld where
  kind : Kind
  addr : Nat
  size : Nat
  deriving DecidableEq, Repr

/-- The fields behind the boot record, /repo/hachoir/parser/file_system/mbr.py:194-213, of a field
set of `n` bits of which `cur` are read.  A field that does not fit is not added
(`_addField`, properties C19 and C20); what the field set does then is not modelled here, all such
cases are an error.  `RawBytes` is limited to 0 < length (/repo/hachoir/field/byte_field.py:22-26),
a field set without a bit is refused as well (/repo/hachoir/field/generic_field_set.py:156-158). -/
def makeFields (n : Nat) : Nat → List (Nat × Entry) → Except PyErr (List Fld)
  | cur, [] =>
    if cur < n then
      match Seek.seekBit 0 cur n true false with
      | .error e => .error e
      | .ok none => .ok []
      | .ok (some p) => .ok [⟨.last, cur, (p.1.bits p.2).toNat⟩]
    else .ok []
  | cur, (i, h) :: l =>
    match Seek.seekByte 0 cur (h.lba * 512) true false with
    | .error e => .error e
    | .ok none =>
      if h.size = 0 ∨ n < cur + h.size * 512 * 8 then .error .parser
      else
        match makeFields n (cur + h.size * 512 * 8) l with
        | .error e => .error e
        | .ok fs => .ok (⟨if h.system = 5 then .partition i else .raw i, cur, h.size * 512 * 8⟩ :: fs)
    | .ok (some p) =>
      let next := cur + (p.1.bits p.2).toNat
      if h.size = 0 ∨ n < next + h.size * 512 * 8 then .error .parser
      else
        match makeFields n (next + h.size * 512 * 8) l with
        | .error e => .error e
        | .ok fs =>
          .ok (⟨.padding, cur, (p.1.bits p.2).toNat⟩ ::
            ⟨if h.system = 5 then .partition i else .raw i, next, h.size * 512 * 8⟩ :: fs)

/-- `Partition.createFields`, /repo/hachoir/parser/file_system/mbr.py:185-213, of the field set of
`n` bits at the absolute address `base`. -/
def partitionFields (s : InputStream) (base n : Nat) : Except PyErr (List Fld) :=
  if n < 4096 then .error .parser
  else if n = 4096 then .ok [⟨.mbr, 0, 4096⟩]
  else
    match readEntries s base 0 4 with
    | .error e => .error e
    | .ok hs =>
      match makeFields n 4096 (sortEntries (hs.filter fun p => p.2.isUsed)) with
      | .error e => .error e
      | .ok fs => .ok (⟨.mbr, 0, 4096⟩ :: fs)

/-- The absolute address and size of the field named by a path `partition[i]/partition[j]/…`:
lookup of the first name, then inside of the found field set
(/repo/hachoir/field/generic_field_set.py:262-300).  Raw bytes have no fields. -/
def locate (s : InputStream) (base n : Nat) : List Nat → Except PyErr (Kind × Nat × Nat)
  | [] => .error .missingField
  | i :: path =>
    match partitionFields s base n with
    | .error e => .error e
    | .ok fs =>
      match fs.find? fun f => f.kind == .raw i || f.kind == .partition i with
      | none => .error .missingField
      | some f =>
        match path with
        | [] => .ok (f.kind, base + f.addr, f.size)
        | j :: path =>
          match f.kind with
          | .partition _ => locate s (base + f.addr) f.size (j :: path)
          | _ => .error .missingField

/-- `validate`, /repo/hachoir/parser/file_system/mbr.py:228-236, of a file: accepted or not. -/
def validate (s : InputStream) : Except PyErr Bool :=
  match readBytes s (510 * 8) 2 with
  | .error e => .error e
  | .ok m =>
    if m ≠ [0x55, 0xAA] then .ok false
    else
      match readEntries s 0 0 4 with
      | .error e => .error e
      | .ok hs =>
        if hs.any fun p => p.2.bootable != 0 && p.2.bootable != 0x80 then .ok false
        else .ok (hs.any fun p => p.2.isUsed)

end Hachoir.Formats.Mbr
