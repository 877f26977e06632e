import Verif.Field.StringField
import Verif.Formats.Bencode

/-!
# Unix archives (`.a`, `.deb`)

Model of /repo/hachoir/parser/archive/ar.py.  Addresses and sizes are in bits.  Simplifications: the header of
a file is taken as one character for each byte (which it is in ASCII and ISO-8859-1, C70); an error inside a
file is an error here, while the code keeps the fields read so far (C20).
-/

namespace Hachoir.Formats.Ar
open Hachoir Hachoir.Stream Hachoir.Field Hachoir.Formats

/-- The white space of `str.split`, among the characters 0..255. -/
def isSpace (c : UInt8) : Bool :=
  (9 ≤ c.toNat && c.toNat ≤ 13) || (28 ≤ c.toNat && c.toNat ≤ 32) || c.toNat == 0x85 || c.toNat == 0xa0

/-- Python's `text.split()`; `cur` is the word read so far. -/
def words (cur : Bytes) : Bytes → List Bytes
  | [] => if cur = [] then [] else [cur]
  | c :: cs => if isSpace c then (if cur = [] then words [] cs else cur :: words [] cs) else words (cur ++ [c]) cs

/-- An `ArchiveFileEntry`: the header, address and size of the content, size of the whole. -/
structure Entry where
  header : Bytes
  content : Option (Nat × Nat)
  size : Nat
  deriving DecidableEq, Repr

/-- The size told in a header: `int(info[-2])`, /repo/hachoir/parser/archive/ar.py:15-19. -/
def headerSize (line : Bytes) : Except PyErr Int :=
  let info := words [] line
  if info.length < 3 then .error .parser
  else
    match info[info.length - 2]? with
    | none => .error .index
    | some t =>
      match pyInt t with
      | none => .error .value
      | some n => .ok n

/-- `ArchiveFileEntry.createFields`, /repo/hachoir/parser/archive/ar.py:13-21. -/
def readEntry (s : InputStream) (addr : Nat) : Except PyErr Entry :=
  match genericString s .big addr .unixLine .eightBit none with
  | .error e => .error e
  | .ok sizes =>
    match stringContent s addr sizes with
    | .error e => .error e
    | .ok line =>
      match headerSize line with
      | .error e => .error e
      | .ok n =>
        let at_ := addr + sizes.size.toNat
        if 0 < n then .ok ⟨line, some (at_, 8 * n.toNat), sizes.size.toNat + 8 * n.toNat⟩
        else .ok ⟨line, none, sizes.size.toNat⟩

/-- A field of an archive: an empty line or a file. -/
inductive Item
  | line
  | file (e : Entry)
  deriving DecidableEq, Repr

/-- The loop of `ArchiveFile.createFields`, /repo/hachoir/parser/archive/ar.py:50-55, up to `stop`: the addresses
of the fields.  `fuel` bounds their number. -/
def readItems (s : InputStream) : Nat → Nat → Nat → Except PyErr (List (Nat × Item))
  | 0, _, _ => .error .endless
  | fuel + 1, addr, stop =>
    if addr < stop then
      match readBytes s addr 1 with
      | .error e => .error e
      | .ok b =>
        if b = [10] then
          match readItems s fuel (addr + 8) stop with
          | .error e => .error e
          | .ok l => .ok ((addr, .line) :: l)
        else
          match readEntry s addr with
          | .error e => .error e
          | .ok f =>
            if stop < addr + f.size then .error .parser
            else
              match readItems s fuel (addr + f.size) stop with
              | .error e => .error e
              | .ok l => .ok ((addr, .file f) :: l)
    else .ok []

/-- `ArchiveFile.createFields`, /repo/hachoir/parser/archive/ar.py:49-55, behind `id`. -/
def readArchive (s : InputStream) (fuel stop : Nat) : Except PyErr (List (Nat × Item)) := readItems s fuel 64 stop

/-- `ArchiveFile.validate`, /repo/hachoir/parser/archive/ar.py:43-46. -/
def valid (s : InputStream) : Except PyErr Bool :=
  match readBytes s 0 8 with
  | .error e => .error e
  | .ok b => .ok (b = [0x21, 0x3c, 0x61, 0x72, 0x63, 0x68, 0x3e, 10])

end Hachoir.Formats.Ar
