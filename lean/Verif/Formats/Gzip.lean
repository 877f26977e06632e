import Verif.Field.StringField
import Verif.Formats.Zip

/-!
# gzip archives

Model of /repo/hachoir/parser/archive/gzip_parser.py.  Addresses and sizes are in bits.  A text is the list of
its bytes (the conversion is C70), a time the number of its 32 bits (C45).  Not modelled: the inflating of the
content (C36, C41) and the name given to it.  Simplification: an error inside the header is an error here,
while the code keeps the fields read so far (C20).
-/

namespace Hachoir.Formats.Gzip
open Hachoir Hachoir.Stream Hachoir.Field Hachoir.Formats.Zip

/-- The fields of the header; `stop` is the address behind them. -/
structure Header where
  compression : Nat
  isText : Bool
  hasCrc : Bool
  hasExtra : Bool
  hasName : Bool
  hasComment : Bool
  reserved0 : Nat
  mtime : Nat
  reserved1 : Nat
  slowest : Bool
  fastest : Bool
  reserved2 : Nat
  os : Nat
  extra : Option (Nat × Nat)
  name : Option Bytes
  comment : Option Bytes
  crc16 : Option Nat
  stop : Nat
  deriving DecidableEq, Repr

/-- An optional field: its value and the address behind it. -/
def optional {α : Type} (c : Bool) (addr : Nat) (read : Except PyErr (α × Nat)) : Except PyErr (Option α × Nat) :=
  if c then
    match read with
    | .error e => .error e
    | .ok (v, stop) => .ok (some v, stop)
  else .ok (none, addr)

/-- `extra_length` and `extra`, /repo/hachoir/parser/archive/gzip_parser.py:87-88.  `RawBytes` refuses the
length 0 (byte_field.py:23-24). -/
def readExtra (s : InputStream) (addr : Nat) : Except PyErr ((Nat × Nat) × Nat) :=
  match number s addr 0 2 with
  | .error e => .error e
  | .ok n => if n = 0 then .error .field else .ok ((addr + 16, 8 * n), addr + 16 + 8 * n)

/-- A field `CString` in a charset of 8 bits. -/
def readCString (s : InputStream) (addr : Nat) : Except PyErr (Bytes × Nat) :=
  match genericString s .little addr .c .eightBit none with
  | .error e => .error e
  | .ok sizes =>
    match stringContent s addr sizes with
    | .error e => .error e
    | .ok b => .ok (b, addr + sizes.size.toNat)

/-- `hdr_crc16`, /repo/hachoir/parser/archive/gzip_parser.py:94-95. -/
def readCrc16 (s : InputStream) (addr : Nat) : Except PyErr (Nat × Nat) :=
  match number s addr 0 2 with
  | .error e => .error e
  | .ok v => .ok (v, addr + 16)

/-- `GzipParser.createFields` up to the content, /repo/hachoir/parser/archive/gzip_parser.py:64-95.  A
signature with other bytes is refused by `validate`. -/
def readHeader (s : InputStream) : Except PyErr Header := do
  let compression ← number s 0 2 1
  let isText ← flag s 0 24
  let hasCrc ← flag s 0 25
  let hasExtra ← flag s 0 26
  let hasName ← flag s 0 27
  let hasComment ← flag s 0 28
  let reserved0 ← readBits s 29 3 .little
  let mtime ← number s 0 4 4
  let reserved1 ← readBits s 64 1 .little
  let slowest ← flag s 0 65
  let fastest ← flag s 0 66
  let reserved2 ← readBits s 67 5 .little
  let os ← number s 0 9 1
  let (extra, a1) ← optional hasExtra 80 (readExtra s 80)
  let (name, a2) ← optional hasName a1 (readCString s a1)
  let (comment, a3) ← optional hasComment a2 (readCString s a2)
  let (crc16, a4) ← optional hasCrc a3 (readCrc16 s a3)
  return ⟨compression, isText, hasCrc, hasExtra, hasName, hasComment, reserved0, mtime, reserved1, slowest, fastest, reserved2, os,
    extra, name, comment, crc16, a4⟩

/-- `GzipParser.validate`, /repo/hachoir/parser/archive/gzip_parser.py:51-62. -/
def valid (s : InputStream) (h : Header) : Except PyErr Bool :=
  match readBytes s 0 2 with
  | .error e => .error e
  | .ok b => .ok (b = [0x1f, 0x8b] ∧ h.compression = 8 ∧ h.reserved0 = 0 ∧ h.reserved1 = 0 ∧ h.reserved2 = 0)

/-- The content and the footer: address and size of `file`, if there is one, `crc32` and `size`. -/
structure Body where
  file : Option (Nat × Nat)
  crc : Nat
  size : Nat
  deriving DecidableEq, Repr

/-- The rest of `GzipParser.createFields`, /repo/hachoir/parser/archive/gzip_parser.py:97-117, in a file of `total`
bits. -/
def readBody (s : InputStream) (start total : Nat) : Except PyErr Body :=
  let n : Int := ((total : Int) - start) / 8 - 8
  let foot := if 0 < n then start + 8 * n.toNat else start
  match number s foot 0 4, number s foot 4 4 with
  | .ok crc, .ok size => .ok ⟨if 0 < n then some (start, 8 * n.toNat) else none, crc, size⟩
  | .error e, _ => .error e
  | _, .error e => .error e

/-- What `GzipMetadata.useHeader` tells, /repo/hachoir/metadata/archive.py:44-56: time (a field of time is true
if it is not zero, timestamp.py:20-21), name, comment, compressed size and size in bytes. -/
def shown (h : Header) (b : Body) : Option Nat × Option Bytes × Option Bytes × Option Nat × Option Nat :=
  match b.file with
  | none => (if h.mtime ≠ 0 then some h.mtime else none, h.name, h.comment, none, none)
  | some (_, n) => (if h.mtime ≠ 0 then some h.mtime else none, h.name, h.comment, some (n / 8), some b.size)

end Hachoir.Formats.Gzip
