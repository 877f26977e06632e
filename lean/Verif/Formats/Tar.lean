import Verif.Field.StringField
import Verif.Formats.Bencode
import Verif.Core.Tools

/-!
# Tar archives

Model of `FileEntry` and `TarFile` of /repo/hachoir/parser/archive/tar.py.  Addresses and sizes are in bits,
addresses absolute.  A text is the list of its characters 0..255: the columns are decoded as ISO-8859-1 or as
ASCII, which falls back to ISO-8859-1 (string_field.py:238-260).  Simplification: an entry that does not fit
in the file and a content of negative size are errors here, while the code keeps the fields read so far (C20).
-/

namespace Hachoir.Formats.Tar
open Hachoir Hachoir.Stream Hachoir.Formats Hachoir.Tools

/-- The digits of `int(text, 8)`, with single underscores between digits. -/
def octDigits : Nat → Bool → Bytes → Option Nat
  | acc, afterDigit, [] => if afterDigit then some acc else none
  | acc, afterDigit, c :: cs =>
    if 48 ≤ c.toNat ∧ c.toNat ≤ 55 then octDigits (acc * 8 + (c.toNat - 48)) true cs
    else if c.toNat = 95 ∧ afterDigit then octDigits acc false cs
    else none

/-- The number of `int(text, 8)` behind its sign: the prefix `0o`, perhaps with an underscore, is allowed. -/
def octBody : Bytes → Option Nat
  | c :: d :: e :: cs =>
    if c.toNat = 48 ∧ (d.toNat = 111 ∨ d.toNat = 79) then
      if e.toNat = 95 then octDigits 0 false cs else octDigits 0 false (e :: cs)
    else octDigits 0 false (c :: d :: e :: cs)
  | cs => octDigits 0 false cs

/-- Python's `int(text, 8)` for a text of characters 0..255; `none` for `ValueError`. -/
def pyOct (t : Bytes) : Option Int :=
  match ((t.dropWhile isPySpace).reverse.dropWhile isPySpace).reverse with
  | [] => none
  | c :: cs =>
    if c.toNat = 45 then (octBody cs).map fun n : Nat => -(n : Int)
    else if c.toNat = 43 then (octBody cs).map Int.ofNat
    else (octBody (c :: cs)).map Int.ofNat

/-- `FileEntry.octal2int`, /repo/hachoir/parser/archive/tar.py:71-75. -/
def octal2int (t : Bytes) : Int := (pyOct t).getD 0

/-- The characters removed by `strip="\0"`. -/
def isNul (c : UInt8) : Bool := c == 0

/-- The characters removed by `strip=" \0"`. -/
def isBlank (c : UInt8) : Bool := c == 0 || c == 32

/-- A field `String` of fixed length, here `n` bytes at the byte `off` of the entry, with the option `strip`. -/
def column (s : InputStream) (addr off n : Nat) (strip : UInt8 → Bool) : Except PyErr Bytes :=
  match readBytes s ((addr + 8 * off : Nat) : Int) n with
  | .error e => .error e
  | .ok b => .ok (Field.stripText strip b)

/-- The fields of a `FileEntry` with texts. -/
structure Header where
  name : Bytes
  mode : Bytes
  uid : Bytes
  gid : Bytes
  size : Bytes
  mtime : Bytes
  checkSum : Bytes
  type : Nat
  lname : Bytes
  magic : Bytes
  uname : Bytes
  gname : Bytes
  devMajor : Bytes
  devMinor : Bytes
  pre : Bytes
  deriving DecidableEq, Repr

/-- The head of `FileEntry.createFields`, /repo/hachoir/parser/archive/tar.py:40-56. -/
def readHeader (s : InputStream) (addr : Nat) : Except PyErr Header := do
  let name ← column s addr 0 100 isNul
  let mode ← column s addr 100 8 isBlank
  let uid ← column s addr 108 8 isBlank
  let gid ← column s addr 116 8 isBlank
  let size ← column s addr 124 12 isBlank
  let mtime ← column s addr 136 12 isBlank
  let checkSum ← column s addr 148 8 isBlank
  let type ← readBits s ((addr + 8 * 156 : Nat) : Int) 8 .big
  let lname ← column s addr 157 100 isBlank
  let magic ← column s addr 257 8 isBlank
  let uname ← column s addr 265 32 isBlank
  let gname ← column s addr 297 32 isBlank
  let devMajor ← column s addr 329 8 isBlank
  let devMinor ← column s addr 337 8 isBlank
  let pre ← column s addr 345 155 isNul
  return ⟨name, mode, uid, gid, size, mtime, checkSum, type, lname, magic, uname, gname, devMajor, devMinor, pre⟩

/-- A `FileEntry`: its header, its address and size, and address and size of the field `content`. -/
structure Entry where
  header : Header
  addr : Nat
  size : Nat
  content : Option (Nat × Nat)
  deriving DecidableEq, Repr

/-- `FileEntry.createFields`, /repo/hachoir/parser/archive/tar.py:40-64, in a file that ends at `stop`. -/
def readEntry (s : InputStream) (addr stop : Nat) : Except PyErr Entry :=
  match readHeader s addr with
  | .error e => .error e
  | .ok h =>
    let n := octal2int h.size
    if n < 0 then .error .field
    else
      match paddingSize (512 + n) 512 with
      | .error e => .error e
      | .ok p =>
        let size := 8 * (512 + n.toNat + p.toNat)
        if stop < addr + size then .error .parser
        else .ok ⟨h, addr, size, if n = 0 then none else some (addr + 8 * 512, 8 * n.toNat)⟩

/-- `TarFile.createFields`, /repo/hachoir/parser/archive/tar.py:115-123: the entries and the address of the
terminator, if there is one.  `fuel` bounds the number of entries. -/
def readEntries (s : InputStream) : Nat → Nat → Nat → Except PyErr (List Entry × Option Nat)
  | 0, _, _ => .error .endless
  | fuel + 1, addr, stop =>
    if addr < stop then
      match column s addr 0 100 isNul with
      | .error e => .error e
      | .ok [] => if stop < addr + 8 * 512 then .error .parser else .ok ([], some addr)
      | .ok _ =>
        match readEntry s addr stop with
        | .error e => .error e
        | .ok x =>
          match readEntries s fuel (addr + x.size) stop with
          | .error e => .error e
          | .ok (xs, t) => .ok (x :: xs, t)
    else .ok ([], none)

/-- `TarFile.createContentSize`, /repo/hachoir/parser/archive/tar.py:125-126; without a terminator
`MissingField`. -/
def contentSize (s : InputStream) (fuel stop : Nat) : Except PyErr Nat :=
  match readEntries s fuel 0 stop with
  | .error e => .error e
  | .ok (_, none) => .error .missingField
  | .ok (_, some t) => .ok (t + 8 * 512)

/-- The expression `ustar *\0` at the beginning of a text. -/
def ustarMark (b : Bytes) : Bool :=
  b.take 5 == [117, 115, 116, 97, 114] && ((b.drop 5).dropWhile (· == 32)).head? == some 0

/-- The expression `[ \0]*$`: blanks up to the end or up to a line feed at the end. -/
def blankMark (b : Bytes) : Bool :=
  let rest := b.dropWhile isBlank
  rest == [] || rest == [10]

/-- `TarFile.validate`, /repo/hachoir/parser/archive/tar.py:101-113: whether the archive is accepted. -/
def validate (s : InputStream) (stop : Nat) : Except PyErr Bool :=
  match readBytes s ((257 * 8 : Nat) : Int) 8 with
  | .error e => .error e
  | .ok m =>
    if ustarMark m || blankMark m then
      match column s 0 0 100 isNul with
      | .error e => .error e
      | .ok [] => .ok false
      | .ok _ =>
        match readEntry s 0 stop with
        | .error e => .error e
        | .ok x => .ok ((pyOct x.header.uid).isSome && (pyOct x.header.gid).isSome && (pyOct x.header.size).isSome)
    else .ok false

/-- The name of a file in its description, `FileEntry.createDescription`,
/repo/hachoir/parser/archive/tar.py:81-83. -/
def describedName (h : Header) : Bytes :=
  if h.pre = [] then h.name else h.pre ++ 47 :: h.name

/-- The name of a file of the field `content` (/repo/hachoir/parser/archive/tar.py:60) and of the metadata
(`TarMetadata.extractFile`, /repo/hachoir/metadata/archive.py:116). -/
def fileName (h : Header) : Bytes := h.name

end Hachoir.Formats.Tar
