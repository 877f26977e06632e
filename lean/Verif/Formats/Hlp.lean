import Verif.Formats.Asf

/-!
# Help files of Windows (`parser/misc/hlp.py`)
-/

namespace Hachoir.Formats.Hlp
open Hachoir Hachoir.Stream Hachoir.Field Hachoir.Formats

/-- `FileEntry`, hlp.py:22-47. -/
structure Entry where
  reserved : Nat
  used : Nat
  fileFlags : Nat
  magic : Nat
  flags : Nat
  pageSize : Nat
  structure_ : Bytes
  zero : Bytes
  splits : Nat
  rootPage : Nat
  /-- the bytes that follow, which are one field -/
  rest : Bytes
  deriving DecidableEq, Repr

/-- Python's `assert` of `PaddingBytes.__init__`, /repo/hachoir/field/padding.py:69: a pattern must be bytes; that of hlp.py:40 is a text. -/
def paddingAllowed (patternIsBytes : Bool) : Bool := patternIsBytes

/-- What is left of a field set of known size when an exception is raised: one field of raw bytes (/repo/hachoir/field/generic_field_set.py:267-305). -/
def leftover (n : Nat) : Rd Bytes := if n = 0 then Rd.pure [] else Rd.raw n

/-- The numbers behind the padding, hlp.py:40-47, if the padding is allowed; their bytes are given. -/
def behind (n : Nat) : Rd (Option (List Nat) × Bytes) :=
  if paddingAllowed false then
    Rd.bind (Rd.raw 2) fun _ => Rd.bind (Asf.numbers [2, 2, 2]) fun ns => Rd.bind (leftover (n - 8)) fun b => Rd.pure (some ns, b)
  else Rd.bind (leftover n) fun b => Rd.pure (none, b)

/-- `FileEntry.createFields`, hlp.py:28-47: an entry that has no room for the fields before the padding (37 bytes) is not modelled. -/
def entry : Rd (Entry × Option (List Nat)) :=
  Rd.bind (Rd.int 4 .little) fun res =>
  Rd.bind (Rd.int 4 .little) fun used =>
  Rd.bind (Rd.int 1 .little) fun ff =>
  Rd.bind (Rd.int 2 .little) fun magic =>
  Rd.bind (Rd.int 2 .little) fun flags =>
  Rd.bind (Rd.int 2 .little) fun page =>
  Rd.bind (Rd.text .little .fixed .eightBit (some 16)) fun str =>
  Rd.bind (Rd.raw 2) fun zero =>
  Rd.bind (Rd.int 2 .little) fun splits =>
  Rd.bind (Rd.int 2 .little) fun root =>
  Rd.bind (behind (res - 37)) fun b =>
  Rd.pure (⟨res, used, ff, magic, flags, page, str, zero, splits, root, b.2⟩, b.1)

/-- `HlpFile`, hlp.py:50-78. -/
structure File where
  magic : Nat
  dirStart : Nat
  firstFree : Int
  size : Nat
  entry : Entry
  counts : Option (List Nat)
  deriving DecidableEq, Repr

/-- `createFields`, hlp.py:67-74. -/
def file : Rd File := do
  let m ← Rd.int 4 .little
  let d ← Rd.int 4 .little
  let f ← Rd.signed 4 .little
  let n ← Rd.int 4 .little
  let _ ← Rd.seek d
  let e ← entry
  pure ⟨m, d, f, n, e.1, e.2⟩

/-- `validate`, hlp.py:60-65: `size` is that of the stream in bits. -/
def validate (f : File) (size : Nat) : Bool := f.magic == 0x00035F3F && f.size == size / 8

end Hachoir.Formats.Hlp
