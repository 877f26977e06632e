import Verif.Formats.Asf

/-!
# RAR archives (`parser/archive/rar.py`)

An archive is a row of blocks; the size of each is worked out from its first fields (`Block.__init__`), so that its end is known whatever is found inside.
Checksums, dates and names of enumerations are numbers and bytes here.
-/

namespace Hachoir.Formats.Rar
open Hachoir Hachoir.Field

/-- `ArchiveFlags`, rar.py:73-87. -/
def archiveFlags : List Nat := [1, 1, 1, 1, 1, 1, 1, 1, 1, 1, 6]

/-- `FileFlags`, rar.py:141-159: `continued_from`, `continued_in`, `is_encrypted`, `has_comment`, `is_solid`, `dictionary_size`, `has_added_size`, `is_ignorable`,
`is_large`, `is_unicode`, `has_salt`, `uses_file_version`, `has_ext_time`, `has_ext_flags`. -/
def fileFlags : List Nat := [1, 1, 1, 1, 1, 3, 1, 1, 1, 1, 1, 1, 1, 1]

/-- `EndFlags`, rar.py:236-247. -/
def endFlags : List Nat := [1, 1, 1, 1, 4, 1, 1, 6]

/-- `BlockFlags`, rar.py:254-261. -/
def blockFlags : List Nat := [8, 1, 1, 6]

/-- `BLOCK_INFO`, rar.py:265-278, `parseFlags`. -/
def flagsOf (t : Nat) : List Nat :=
  if t = 0x73 then archiveFlags else if t = 0x74 ∨ t = 0x7A then fileFlags else if t = 0x7B then endFlags else blockFlags

/-- One of the four times of `ExtTime`, rar.py:171-177: the time and the remainder. -/
def timePart (flags index : Nat) : Rd (Option Nat × Bytes) :=
  let rmode := flags / 2 ^ ((3 - index) * 4)
  if rmode / 8 % 2 = 0 then pure (none, []) else do
    let t ← (if index = 0 then pure none else do
      let t ← Rd.int 4 .little
      pure (some t) : Rd (Option Nat))
    let r ← Cab.rawOr (rmode % 4)
    pure (t, r)

/-- `ExtTime`, rar.py:166-177. -/
def extTime : Rd (Nat × List (Option Nat × Bytes)) := do
  let flags ← Rd.int 2 .little
  let ts ← Rd.each (timePart flags) [0, 1, 2, 3]
  pure (flags, ts)

inductive Content where
  /-- Sizes, system, checksum, time, version, method, length of the name and attributes; `large_size`; the name and whether it is UTF-8; the salt; the times; the rest of
  the head; the data. -/
  | file (ns : List Nat) (large : Option Nat) (utf8 : Bool) (name : Bytes) (salt : Option Nat) (times : Option (Nat × List (Option Nat × Bytes))) (unknown data : Bytes)
  /-- Any other block: the numbers of its head and the rest of the head. -/
  | other (ns : List Nat) (unknown : Bytes)
  deriving DecidableEq, Repr

structure Block where
  crc : Nat
  type : Nat
  flags : List Nat
  size : Nat
  content : Content
  deriving DecidableEq, Repr

/-- A field that is there when a flag is set. -/
def when {α : Type} (flag : Nat) (r : Rd α) : Rd (Option α) := if flag = 0 then pure none else do
  let v ← r
  pure (some v)

def name (utf8 : Bool) (n : Nat) : Rd Bytes := if n = 0 then pure [] else Rd.text .little .fixed (if utf8 then .utf8 else .eightBit) (some n)

/-- The rest of the head of `size` bytes of a block that begins at the byte `base`, rar.py:321-324. -/
def unknown (base size : Nat) : Rd Bytes := do
  let a ← Rd.place
  Cab.rawOr (size - (a / 8 - base))

/-- `specialHeader` behind its numbers, with the rest of the head and the data, rar.py:194-224. -/
def fileMore (base size t : Nat) (flags ns : List Nat) (large : Option Nat) : Rd Content := do
  let nm ← name (decide (flags.getD 9 0 ≠ 0)) (ns.getD 7 0)
  let salt ← when (if t = 0x74 then flags.getD 10 0 else 0) (Rd.int 1 .little)
  let times ← when (if t = 0x74 then flags.getD 12 0 else 0) extTime
  let u ← unknown base size
  let d ← Cab.rawOr (ns.getD 0 0 + large.getD 0)
  pure (.file ns large (decide (flags.getD 9 0 ≠ 0)) nm salt times u d)

def fileNumbers : List Nat := [4, 4, 1, 4, 4, 1, 1, 2, 4]

/-- The numbers of the heads of the other blocks, rar.py:94-131 and 335-339; those of 0x76 and 0x77 raise an exception behind their first fields, and are
not told here. A body behind the head (rar.py:341-349, 107-110) has no room in the block, and is dropped. -/
def numbersOf (t : Nat) (flags : List Nat) : List Nat :=
  if t = 0x73 then [2, 4] else if t = 0x75 then [2, 2, 1, 1, 2] else if t = 0x78 then [4, 1, 2, 4, 8] else if t = 0x79 then [4, 2, 2]
  else if t = 0x76 ∨ t = 0x77 then []
  else if t = 0x7B then (if flags.getD 5 0 = 0 then [] else [4])
  else if flags.getD 1 0 = 0 then [] else [4]

def otherContent (base size t : Nat) (flags : List Nat) : Rd Content := do
  let ns ← Asf.numbers (numbersOf t flags)
  let u ← unknown base size
  pure (.other ns u)

/-- `_size` in bytes, rar.py:299-305: `has_added_size` is looked for in the block and not in its flags, so that the added size never counts. -/
def total (size : Nat) (ns : List Nat) (large : Option Nat) : Nat := size + ns.getD 0 0 + large.getD 0

/-- A file or a new sub-block behind flags and size, with the size of the block found on the way, rar.py:300-303. -/
def fileBlock (base size t : Nat) (flags : List Nat) : Rd Content := do
  let ns ← Asf.numbers fileNumbers
  let large ← when (flags.getD 8 0) (Rd.int 8 .little)
  let a ← Rd.place
  Rd.within (total size ns large - (a / 8 - base)) (fileMore base size t flags ns large)

/-- `Block`, rar.py:264-327, of known place. -/
def body (base size t : Nat) (flags : List Nat) : Rd Content :=
  if t = 0x74 ∨ t = 0x7A then fileBlock base size t flags else Rd.within (size - 7) (otherContent base size t flags)

def block : Rd Block := do
  let a ← Rd.place
  let crc ← Rd.int 2 .little
  let t ← Rd.int 1 .little
  let flags ← Rd.bits .little (flagsOf t)
  let size ← Rd.int 2 .little
  let c ← body (a / 8) size t flags
  pure ⟨crc, t, flags, size, c⟩

/-- `createFields`, rar.py:371-373; `n` bounds the number of blocks. -/
def file (n : Nat) : Rd (List Block) := Rd.whileNotEof block n

/-- `validate`, rar.py:365-369. -/
def valid (data : Bytes) : Bool := data.take 7 == [0x52, 0x61, 0x72, 0x21, 0x1A, 0x07, 0x00]

/-- `formatRARVersion`, rar.py:61-65. -/
def version (v : Nat) : String := toString (v / 10) ++ "." ++ toString (v % 10)

end Hachoir.Formats.Rar
