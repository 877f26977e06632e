import Verif.Formats.Reader

/-!
# Simple archives: Microsoft (`parser/archive/mar.py`), Mozilla (`mozilla_ar.py`), Starfighter (`prs_pak.py`)
-/

namespace Hachoir.Formats.Archives
open Hachoir Hachoir.Stream Hachoir.Field Hachoir.Formats

/-- A `String` with `truncate="\0"`. -/
def cutName (b : Bytes) : Bytes := textValue b (some [0]) none

/-- `FileIndex`, mar.py:16-23. -/
structure MarFile where
  name : Bytes
  size : Nat
  crc : Nat
  offset : Nat
  deriving DecidableEq, Repr

def marIndex : Rd MarFile := do
  let name ← Rd.text .little .fixed .eightBit (some 56)
  let size ← Rd.int 4 .little
  let crc ← Rd.int 4 .little
  let offset ← Rd.int 4 .little
  pure ⟨cutName name, size, crc, offset⟩

structure MarHead where
  magic : Bytes
  version : Nat
  files : List MarFile
  deriving DecidableEq, Repr

def marHead : Rd MarHead := do
  let magic ← Rd.text .little .fixed .eightBit (some 4)
  let version ← Rd.int 4 .little
  let n ← Rd.int 4 .little
  let files ← Rd.times marIndex n
  pure ⟨magic, version, files⟩

/-- The data of the files that are not empty, in the order of their offsets, mar.py:55-68. -/
def marData (files : List MarFile) : Rd (List (MarFile × Bytes)) :=
  Rd.each (fun f => Rd.seek f.offset >>= fun _ => do
    let b ← Rd.raw f.size
    pure (f, b)) ((files.filter (fun f => f.size != 0)).mergeSort (fun f g => f.offset ≤ g.offset))

/-- `createFields`, mar.py:51-68. -/
def mar : Rd (MarHead × List (MarFile × Bytes)) := do
  let h ← marHead
  let d ← marData h.files
  pure (h, d)

/-- `validate`, mar.py:42-49. -/
def marValid (h : MarHead) : Bool := h.magic == [77, 65, 82, 67] && h.version == 3 && (1 ≤ h.files.length && h.files.length ≤ 100000)

/-- `IndexEntry`, mozilla_ar.py:16-22, and the file, line 65. -/
structure MozFile where
  offset : Nat
  length : Nat
  flags : Nat
  name : Bytes
  data : Bytes
  deriving DecidableEq, Repr

/-- One round of the loop, mozilla_ar.py:57-65; the size of the entry is `entry.size // 8`. -/
def mozFile (index current : Nat) : Rd (MozFile × Nat) := do
  Rd.jump (index + current + 4)
  let offset ← Rd.int 4 .big
  let length ← Rd.int 4 .big
  let flags ← Rd.int 4 .big
  let name ← Rd.text .big .c .eightBit none
  let stop ← Rd.place
  Rd.jump offset
  let data ← Rd.raw length
  pure (⟨offset, length, flags, name, data⟩, current + (stop / 8 - (index + current + 4)))

/-- The loop, mozilla_ar.py:56-65; `fuel` bounds the number of rounds. -/
def mozFiles (index size : Nat) : Nat → Nat → Rd (List MozFile)
  | 0, _ => Rd.fail .endless
  | fuel + 1, current =>
    if current < size then do
      let r ← mozFile index current
      let fs ← mozFiles index size fuel r.2
      pure (r.1 :: fs)
    else pure []

/-- `createFields`, mozilla_ar.py:51-65. -/
def moz (fuel : Nat) : Rd (Bytes × List MozFile) := do
  let magic ← Rd.text .big .fixed .eightBit (some 4)
  let index ← Rd.int 4 .big
  Rd.jump index
  let size ← Rd.int 4 .big
  let fs ← mozFiles index size fuel 0
  pure (magic, fs)

/-- `FileEntry`, prs_pak.py:16-21. -/
def pakFile : Rd (Bytes × Bytes) := do
  let name ← Rd.text .little .fixed .eightBit (some 56)
  let n ← Rd.int 4 .little
  let data ← Rd.raw n
  pure (cutName name, data)

/-- `createFields`, prs_pak.py:46-51. -/
def pak (fuel : Nat) : Rd (List (Bytes × Bytes)) := do
  let _ ← Rd.text .little .fixed .eightBit (some 4)
  Rd.whileNotEof pakFile fuel

end Hachoir.Formats.Archives
