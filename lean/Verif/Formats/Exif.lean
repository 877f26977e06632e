import Verif.Stream.Input

/-!
# Directories of EXIF and TIFF files

/repo/hachoir/parser/image/exif.py:22-128 (types and entries), 344-389 (`IFD`), 404-440 (`TIFF`).
A directory is modelled by its entries and the values of its entries; where its fields lie is the
subject of C76.  Simplifications: numbers in floating point are their bytes, rational numbers are
pairs, texts and raw values are their bytes; a value that reaches behind the end of the input is
taken for missing.
-/

set_option linter.unusedVariables false

namespace Hachoir.Formats.Exif
open Hachoir Hachoir.Stream

/-- The field types of `ENTRY_FORMAT`. -/
inductive Kind where
  | bytes                                  -- `Bytes`, `ASCIIString`: one field for all
  | int (signed : Bool) (bits : Nat)
  | ratio (signed : Bool)
  | float (bytes : Nat)
deriving Repr, DecidableEq

/-- `ENTRY_FORMAT.get(type, Bytes)`, exif.py:84-98, 105. -/
def kindOf : Nat → Kind
  | 1 => .int false 8
  | 2 => .bytes
  | 3 => .int false 16
  | 4 => .int false 32
  | 5 => .ratio false
  | 6 => .int true 8
  | 7 => .bytes
  | 8 => .int true 16
  | 9 => .int true 32
  | 10 => .ratio true
  | 11 => .float 4
  | 12 => .float 8
  | _ => .bytes

/-- `value_size`, exif.py:106-109: `static_size` of the type, 8 for bytes. -/
def Kind.size : Kind → Nat
  | .bytes => 8
  | .int _ bits => bits
  | .ratio _ => 64
  | .float n => 8 * n

/-- A number of an array. -/
inductive Item where
  | int (v : Int)
  | ratio (num den : Int)
  | float (raw : Bytes)
deriving Repr, DecidableEq

/-- The values of an entry. -/
inductive Value where
  | bytes (b : Bytes)
  | items (l : List Item)
deriving Repr, DecidableEq

/-- One field of the type at an address. -/
def readItem (s : InputStream) (e : Endian) (k : Kind) (addr : Int) : Except PyErr Item :=
  match k with
  | .int signed bits =>
    match readInteger s addr signed bits e with
    | .error x => .error x
    | .ok v => .ok (.int v)
  | .ratio signed =>
    match readInteger s addr signed 32 e with
    | .error x => .error x
    | .ok num =>
      match readInteger s (addr + 32) signed 32 e with
      | .error x => .error x
      | .ok den => .ok (.ratio num den)
  | .float n =>
    match readBytes s addr n with
    | .error x => .error x
    | .ok b => .ok (.float b)
  | .bytes =>
    match readBytes s addr 1 with
    | .error x => .error x
    | .ok b => .ok (.float b)

/-- `ValueArray.createFields`, exif.py:65-67. -/
def readItems (s : InputStream) (e : Endian) (k : Kind) : Nat → Int → Except PyErr (List Item)
  | 0, _ => .ok []
  | n + 1, addr =>
    match readItem s e k addr with
    | .error x => .error x
    | .ok v =>
      match readItems s e k n (addr + k.size) with
      | .error x => .error x
      | .ok l => .ok (v :: l)

/-- The field `value` or `value[i]`, exif.py:116-122 and 367-374, read through
`getEntryValues`, exif.py:376-389: the items of a `ValueArray`, or one field.  `xmp` is true for
an entry named XMPPacket whose value is not in the entry. -/
def readValue (s : InputStream) (e : Endian) (k : Kind) (count : Nat) (xmp : Bool) (addr : Int) : Except PyErr Value :=
  if k = .bytes ∨ xmp then
    match readBytes s addr count with
    | .error x => .error x
    | .ok b => .ok (.bytes b)
  else if count = 1 then
    match readItem s e k addr with
    | .error x => .error x
    | .ok v => .ok (.items [v])
  else
    match readItems s e k count addr with
    | .error x => .error x
    | .ok l => .ok (.items l)

/-- What an entry has behind its count: nothing, its value, or the offset of the value. -/
inductive Place where
  | padding
  | inside (v : Value)
  | offset (o : Nat)
deriving Repr, DecidableEq

/-- The fields of an entry. -/
structure Entry where
  tag : Nat
  type : Nat
  count : Nat
  place : Place
deriving Repr, DecidableEq

/-- `BasicIFDEntry.createFields`, exif.py:102-126, at an address. -/
def readEntry (s : InputStream) (e : Endian) (addr : Int) : Except PyErr Entry :=
  match readBits s addr 16 e with
  | .error x => .error x
  | .ok tag =>
    match readBits s (addr + 16) 16 e with
    | .error x => .error x
    | .ok type =>
      match readBits s (addr + 32) 32 e with
      | .error x => .error x
      | .ok count =>
        let totalsize := (kindOf type).size * count
        if count = 0 then .ok ⟨tag, type, count, .padding⟩
        else if totalsize ≤ 32 then
          match readValue s e (kindOf type) count false (addr + 64) with
          | .error x => .error x
          | .ok v => .ok ⟨tag, type, count, .inside v⟩
        else
          match readBits s (addr + 64) 32 e with
          | .error x => .error x
          | .ok o => .ok ⟨tag, type, count, .offset o⟩

/-- The entries of `IFD.createFields`, exif.py:356-357. -/
def readEntries (s : InputStream) (e : Endian) : Nat → Int → Except PyErr (List Entry)
  | 0, _ => .ok []
  | n + 1, addr =>
    match readEntry s e addr with
    | .error x => .error x
    | .ok entry =>
      match readEntries s e n (addr + 96) with
      | .error x => .error x
      | .ok l => .ok (entry :: l)

/-- One round of the loop of exif.py:359-374 for an entry whose value is not in the entry, with the
seek of exif.py:363-364 (`seekByte` with an absolute address: one before the directory is refused,
seekable_field_set.py:40-45). -/
def farValue (s : InputStream) (e : Endian) (xmpTag : Option Nat) (addr base : Int) (entry : Entry) (o : Nat) :
    Except PyErr Value :=
  let address := (o + base / 8) * 8
  if address - addr < 0 then .error .parser
  else readValue s e (kindOf entry.type) entry.count (some entry.tag = xmpTag) address

/-- The loop of exif.py:359-374 and `getEntryValues` of each entry, exif.py:376-389.  `alive` is
false behind the first exception: the field set is finished then, the later values outside of
their entries are missing. -/
def entryValues (s : InputStream) (e : Endian) (xmpTag : Option Nat) (addr base : Int) :
    Bool → List Entry → List (Nat × Nat × Option Value)
  | _, [] => []
  | alive, entry :: l =>
    match entry.place with
    | .padding => (entry.tag, entry.type, none) :: entryValues s e xmpTag addr base alive l
    | .inside v => (entry.tag, entry.type, some v) :: entryValues s e xmpTag addr base alive l
    | .offset o =>
      match alive, farValue s e xmpTag addr base entry o with
      | true, .ok v => (entry.tag, entry.type, some v) :: entryValues s e xmpTag addr base true l
      | _, _ => (entry.tag, entry.type, none) :: entryValues s e xmpTag addr base false l

/-- The class of a directory: only in `IFDEntry.TAG_INFO` is a tag named XMPPacket. -/
inductive DirKind where
  | ifd | exif | gps | interop
deriving Repr, DecidableEq

def DirKind.xmpTag : DirKind → Option Nat
  | .ifd => some 0x02bc
  | _ => none

/-- A directory: tags, types and values of its entries, and the offset of the next one. -/
structure Dir where
  entries : List (Nat × Nat × Option Value)
  next : Nat
deriving Repr, DecidableEq

/-- `IFD.createFields`, exif.py:351-374, of a directory at `addr` with the offsets counted from
`base` (both in bits).  An error is a directory without the field `next` (exif.py:438 fails). -/
def readDir (s : InputStream) (e : Endian) (kind : DirKind) (addr base : Int) : Except PyErr Dir :=
  match readBits s addr 16 e with
  | .error x => .error x
  | .ok count =>
    if count = 0 then .error .parser
    else
      match readEntries s e count (addr + 16) with
      | .error x => .error x
      | .ok entries =>
        match readBits s (addr + 16 + 96 * count) 32 e with
        | .error x => .error x
        | .ok next =>
          .ok ⟨entryValues s e kind.xmpTag addr base true entries, next⟩

/-- A field whose value is an offset: `.value` of the first field, exif.py:430-433.  The value of
another type of field is not a number: adding it to an offset is a TypeError, which the model has
as soon as the entry is met (a rational number is a float and fails in `seekByte`; the model has
TypeError there too). -/
def firstOffset : Option Value → Except PyErr Int
  | some (.items (.int v :: _)) => .ok v
  | some (.items []) => .error .index
  | _ => .error .type

/-- `val.value` for all fields of an entry, exif.py:435-436. -/
def itemOffsets : List Item → Except PyErr (List Int)
  | [] => .ok []
  | .int v :: l =>
    match itemOffsets l with
    | .error x => .error x
    | .ok r => .ok (v :: r)
  | _ :: _ => .error .type

/-- The offsets of exif.py:434-436: all fields of the entry. -/
def allOffsets : Option Value → Except PyErr (List Int)
  | some (.items l) => itemOffsets l
  | _ => .error .type

/-- The directories that the entries of a directory point to, exif.py:428-436. -/
def pointed : List (Nat × Nat × Option Value) → Except PyErr (List (Int × DirKind))
  | [] => .ok []
  | (tag, _, v) :: l =>
    let found : Except PyErr (List (Int × DirKind)) :=
      if tag = 0x8769 then (firstOffset v).map fun o => [(o, .exif)]
      else if tag = 0x8825 then (firstOffset v).map fun o => [(o, .gps)]
      else if tag = 0xA005 then (firstOffset v).map fun o => [(o, .interop)]
      else if tag = 0x014A then (allOffsets v).map fun os => os.map fun o => (o, .ifd)
      else .ok []
    match found with
    | .error x => .error x
    | .ok a =>
      match pointed l with
      | .error x => .error x
      | .ok r => .ok (a ++ r)

/-- Loop of `TIFF`, exif.py:423-439: the directories read, in their order, with their offsets, and
the exception that ends the reading.  `n` bounds the number of directories in the model; `none`
behind it means that the loop goes on. -/
def walk (s : InputStream) (e : Endian) (start : Int) : Nat → List (Int × DirKind) →
    List (Int × DirKind × Dir) × Option (Except PyErr Unit)
  | _, [] => ([], some (.ok ()))
  | 0, _ :: _ => ([], none)
  | n + 1, (offset, kind) :: offsets =>
    match readDir s e kind ((offset + start / 8) * 8) start with
    | .error x => ([], some (.error x))
    | .ok dir =>
      match pointed dir.entries with
      | .error x => ([(offset, kind, dir)], some (.error x))
      | .ok more =>
        let offsets := offsets ++ more ++ (if dir.next ≠ 0 then [((dir.next : Int), .ifd)] else [])
        let (l, r) := walk s e start n offsets
        ((offset, kind, dir) :: l, r)

/-- `TIFF`, exif.py:411-439, of a structure that begins at `start`, from its first two bytes. -/
def tiff (s : InputStream) (n : Nat) (start : Int) : Except PyErr (List (Int × DirKind × Dir) × Option (Except PyErr Unit)) :=
  match readBytes s start 2 with
  | .error x => .error x
  | .ok mark =>
    if mark ≠ [73, 73] ∧ mark ≠ [77, 77] then .error .parser
    else
      let e : Endian := if mark = [73, 73] then .little else .big
      match readBits s (start + 32) 32 e with
      | .error x => .error x
      | .ok first => .ok (walk s e start n [((first : Int), .ifd)])

end Hachoir.Formats.Exif
