import Verif.Stream.Input

/-!
# Run lists of NTFS attributes

/repo/hachoir/parser/file_system/ntfs.py:97-145.  The parser is `LITTLE_ENDIAN`
(ntfs.py:371).  Simplification: an entry that cannot be read ends the reading with the error of
the stream, while the code keeps the fields read so far (C20).
-/

set_option linter.unusedVariables false

namespace Hachoir.Formats
open Hachoir Hachoir.Stream

/-- The fields of a `RunListEntry`: `header`, `length` and `offset` (absent when their width is
zero) and the size of `offset` in bits. -/
structure RunEntry where
  header : Nat
  length : Option Nat
  offset : Option (Nat × Nat)
deriving Repr, DecidableEq

/-- A field `Bits(self, name, nbytes * 8)` that is made only if `nbytes` is not zero,
ntfs.py:107-110. -/
def optBits (s : InputStream) (addr : Int) (nbytes : Nat) : Except PyErr (Option Nat) :=
  if nbytes = 0 then .ok none
  else
    match readBits s addr (nbytes * 8) .little with
    | .error e => .error e
    | .ok v => .ok (some v)

/-- `RunListEntry.createFields`, ntfs.py:98-110, with the size of the entry in bits. -/
def runEntry (s : InputStream) (addr : Int) : Except PyErr (RunEntry × Nat) :=
  match readBits s addr 8 .little with
  | .error e => .error e
  | .ok header =>
    if header = 0 then .ok (⟨0, none, none⟩, 8)
    else
      let offlen := header >>> 4
      let lenlen := header &&& 0xf
      match optBits s (addr + 8) lenlen with
      | .error e => .error e
      | .ok length =>
        match optBits s (addr + 8 + lenlen * 8) offlen with
        | .error e => .error e
        | .ok offset =>
          .ok (⟨header, length, offset.map fun v => (v, offlen * 8)⟩, 8 + lenlen * 8 + offlen * 8)

/-- The length in `RunListEntry.createValue`, ntfs.py:113-116. -/
def runLength : Option Nat → Nat
  | some l => l
  | none => 0

/-- The offset in `RunListEntry.createValue`, ntfs.py:118-124. -/
def runOffset : Option (Nat × Nat) → Int
  | some (offset, offlen) =>
    if offset &&& (1 <<< (offlen - 1)) ≠ 0 then (offset : Int) - (1 <<< offlen : Nat) else offset
  | none => 0

/-- `RunListEntry.createValue`, ntfs.py:112-126. -/
def RunEntry.value (e : RunEntry) : Nat × Int := (runLength e.length, runOffset e.offset)

/-- `RunList.createFields`, ntfs.py:130-135: the entries and their size in bits.  `n` bounds the
iterations of the model. -/
def runEntries (s : InputStream) : Nat → Int → Except PyErr (List RunEntry × Nat)
  | 0, _ => .error .endless
  | n + 1, addr =>
    match runEntry s addr with
    | .error e => .error e
    | .ok (entry, size) =>
      if entry.header = 0 then .ok ([entry], size)
      else
        match runEntries s n (addr + size) with
        | .error e => .error e
        | .ok (l, size') => .ok (entry :: l, size + size')

/-- Loop of `RunList.createValue`, ntfs.py:140-144; `curoff` is the location reached. -/
def runValues (curoff : Int) : List RunEntry → List (Nat × Int)
  | [] => []
  | entry :: l =>
    let curoff := curoff + entry.value.2
    if entry.header ≠ 0 then (entry.value.1, curoff) :: runValues curoff l
    else runValues curoff l

/-- `RunList`, ntfs.py:129-145: its value and its size in bits. -/
def runList (s : InputStream) (n : Nat) (addr : Int) : Except PyErr (List (Nat × Int) × Nat) :=
  match runEntries s n addr with
  | .error e => .error e
  | .ok (l, size) => .ok (runValues 0 l, size)

end Hachoir.Formats
