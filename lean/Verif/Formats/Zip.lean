import Verif.Stream.Input

/-!
# ZIP archives

Model of /repo/hachoir/parser/archive/zip.py.  Addresses and sizes are in bits, addresses absolute.  A text
is the list of its bytes (the conversion is C70), a time the number of its 32 bits (C45).  Simplification: an
error inside a record is an error here, while the code keeps the fields read so far (C20).
-/

namespace Hachoir.Formats.Zip
open Hachoir Hachoir.Stream

/-- An unsigned number of `n` bytes at the byte `off` of a record, little endian. -/
def number (s : InputStream) (addr off n : Nat) : Except PyErr Nat := readBits s ((addr + 8 * off : Nat) : Int) (8 * n) .little

/-- A field `Bit` at the bit `off` of a record. -/
def flag (s : InputStream) (addr off : Nat) : Except PyErr Bool :=
  match readBits s ((addr + off : Nat) : Int) 1 .little with
  | .error e => .error e
  | .ok v => .ok (v ≠ 0)

/-- A text of `n` bytes at an address; `String` refuses the length 0 (string_field.py:140-142). -/
def text (s : InputStream) (addr n : Nat) : Except PyErr Bytes :=
  if n = 0 then .error .field else readBytes s addr n

/-- `PascalString16`: the text and its size in bits. -/
def pascal16 (s : InputStream) (addr : Nat) : Except PyErr (Bytes × Nat) :=
  match readBits s addr 16 .little with
  | .error e => .error e
  | .ok n =>
    match readBytes s ((addr + 16 : Nat) : Int) n with
    | .error e => .error e
    | .ok b => .ok (b, 16 + 8 * n)

/-- The fields that files and entries of the directory have in common. -/
structure Common where
  version : Nat
  host : Nat
  encrypted : Bool
  hasDescriptor : Bool
  unicode : Bool
  incomplete : Bool
  method : Nat
  stamp : Nat
  crc : Nat
  compressed : Nat
  uncompressed : Nat
  nameLength : Nat
  extraLength : Nat
  deriving DecidableEq, Repr

/-- `ZipStartCommonFields`, `ZipVersion`, `ZipGeneralFlags`, /repo/hachoir/parser/archive/zip.py:53-116 and
163-172; of the flags those with an effect. -/
def readCommon (s : InputStream) (addr : Nat) : Except PyErr Common := do
  let version ← number s addr 0 1
  let host ← number s addr 1 1
  let encrypted ← flag s addr 16
  let hasDescriptor ← flag s addr 19
  let unicode ← flag s addr 27
  let incomplete ← flag s addr 28
  let method ← number s addr 4 2
  let stamp ← number s addr 6 4
  let crc ← number s addr 10 4
  let compressed ← number s addr 14 4
  let uncompressed ← number s addr 18 4
  let nameLength ← number s addr 22 2
  let extraLength ← number s addr 24 2
  return ⟨version, host, encrypted, hasDescriptor, unicode, incomplete, method, stamp, crc, compressed, uncompressed, nameLength, extraLength⟩

/-- The size of the common fields in bits. -/
def commonSize : Nat := 26 * 8

/-- `ZipDataDescriptor`, /repo/hachoir/parser/archive/zip.py:248-259: check sum, compressed and uncompressed
size. -/
structure Descriptor where
  crc : Nat
  compressed : Nat
  uncompressed : Nat
  deriving DecidableEq, Repr

def readDescriptor (s : InputStream) (addr : Nat) : Except PyErr Descriptor := do
  let crc ← number s addr 0 4
  let compressed ← number s addr 4 4
  let uncompressed ← number s addr 8 4
  return ⟨crc, compressed, uncompressed⟩

/-- A `FileEntry`: name, address and size of extra fields and data, descriptor, size of the whole. -/
structure File where
  common : Common
  name : Bytes
  extra : Option (Nat × Nat)
  data : Option (Nat × Nat)
  desc : Option Descriptor
  size : Nat
  deriving DecidableEq, Repr

/-- `ZipDataDescriptor.HEADER_STRING`, /repo/hachoir/parser/archive/zip.py:249. -/
def descriptorMark : Bytes := [0x50, 0x4b, 0x07, 0x08]

/-- `FileEntry.resync`, /repo/hachoir/parser/archive/zip.py:277-294, from the address `pos`: the data, the
descriptor and the address behind it.  `None <= 0` is TypeError. -/
def resync (s : InputStream) (c : Common) (pos : Nat) : Except PyErr ((Nat × Nat) × Descriptor × Nat) :=
  match searchBytesLength s descriptorMark false pos none with
  | .error e => .error e
  | .ok none => .error .type
  | .ok (some size) =>
    if size ≤ 0 then .error .parser
    else
      match readDescriptor s (pos + 8 * size.toNat + 32) with
      | .error e => .error e
      | .ok d =>
        if c.crc = 0 ∧ d.compressed ≠ size.toNat then .error .parser
        else .ok ((pos, 8 * size.toNat), d, pos + 8 * size.toNat + 32 + 96)

/-- The end of `FileEntry.createFields`, /repo/hachoir/parser/archive/zip.py:309-315.  A second descriptor,
behind that of `resync`, is renamed (generic_field_set.py:193-199). -/
def fileTail (s : InputStream) (c : Common) (pos : Nat) : Except PyErr (Option (Nat × Nat) × Option Descriptor × Nat) :=
  if 0 < c.compressed then
    let stop := pos + 8 * c.compressed
    if c.hasDescriptor && c.crc == 0 then
      match readDescriptor s stop with
      | .error e => .error e
      | .ok d => .ok (some (pos, 8 * c.compressed), some d, stop + 96)
    else .ok (some (pos, 8 * c.compressed), none, stop)
  else if c.incomplete then
    match resync s c pos with
    | .error e => .error e
    | .ok (data, d, stop) =>
      if c.hasDescriptor && c.crc == 0 then
        match readDescriptor s stop with
        | .error e => .error e
        | .ok _ => .ok (some data, some d, stop + 96)
      else .ok (some data, some d, stop)
  else if c.hasDescriptor && c.crc == 0 then
    match readDescriptor s pos with
    | .error e => .error e
    | .ok d => .ok (none, some d, pos + 96)
  else .ok (none, none, pos)

/-- `FileEntry.createFields`, /repo/hachoir/parser/archive/zip.py:296-315, at the address behind the header. -/
def readFile (s : InputStream) (addr : Nat) : Except PyErr File :=
  match readCommon s addr with
  | .error e => .error e
  | .ok c =>
    match readBytes s ((addr + commonSize : Nat) : Int) c.nameLength with
    | .error e => .error e
    | .ok name =>
      let extraAt := addr + commonSize + 8 * c.nameLength
      match fileTail s c (extraAt + 8 * c.extraLength) with
      | .error e => .error e
      | .ok (data, desc, stop) =>
        .ok ⟨c, name, if c.extraLength = 0 then none else some (extraAt, 8 * c.extraLength), data, desc, stop - addr⟩

/-- `ExtraFields`, /repo/hachoir/parser/archive/zip.py:119-160: identifier, address and bytes of the data, from
`addr` to `stop`.  `fuel` bounds their number. -/
def readExtras (s : InputStream) : Nat → Nat → Nat → Except PyErr (List (Nat × Nat × Nat))
  | 0, _, _ => .error .endless
  | fuel + 1, addr, stop =>
    if addr < stop then
      match number s addr 0 2, number s addr 2 2 with
      | .ok id, .ok n =>
        match readExtras s fuel (addr + 32 + 8 * n) stop with
        | .error e => .error e
        | .ok l => .ok ((id, addr + 32, n) :: l)
      | .error e, _ => .error e
      | _, .error e => .error e
    else .ok []

/-- A `ZipCentralDirectory`. -/
structure Central where
  madeVersion : Nat
  madeHost : Nat
  common : Common
  disk : Nat
  internalAttr : Nat
  externalAttr : Nat
  offset : Nat
  name : Bytes
  extra : Option (Nat × Nat)
  comment : Option Bytes
  size : Nat
  deriving DecidableEq, Repr

/-- The field `comment` of a `ZipCentralDirectory`. -/
def readComment (s : InputStream) (addr n : Nat) : Except PyErr (Option Bytes) :=
  if n = 0 then .ok none
  else
    match text s addr n with
    | .error e => .error e
    | .ok b => .ok (some b)

/-- `ZipCentralDirectory.createFields`, /repo/hachoir/parser/archive/zip.py:186-205. -/
def readCentral (s : InputStream) (addr : Nat) : Except PyErr Central := do
  let madeVersion ← number s addr 0 1
  let madeHost ← number s addr 1 1
  let c ← readCommon s (addr + 16)
  let commentLength ← number s addr 28 2
  let disk ← number s addr 30 2
  let internalAttr ← number s addr 32 2
  let externalAttr ← number s addr 34 4
  let offset ← number s addr 38 4
  let name ← text s (addr + 8 * 42) c.nameLength
  let extraAt := addr + 8 * 42 + 8 * c.nameLength
  let comment ← readComment s (extraAt + 8 * c.extraLength) commentLength
  return ⟨madeVersion, madeHost, c, disk, internalAttr, externalAttr, offset, name,
    if c.extraLength = 0 then none else some (extraAt, 8 * c.extraLength), comment,
    8 * (42 + c.nameLength + c.extraLength + commentLength)⟩

/-- A `ZipEndCentralDirectory`. -/
structure EndDir where
  disk : Nat
  disk2 : Nat
  entries : Nat
  entries2 : Nat
  dirSize : Nat
  dirOffset : Nat
  comment : Bytes
  size : Nat
  deriving DecidableEq, Repr

/-- `ZipEndCentralDirectory.createFields`, /repo/hachoir/parser/archive/zip.py:236-245. -/
def readEnd (s : InputStream) (addr : Nat) : Except PyErr EndDir := do
  let disk ← number s addr 0 2
  let disk2 ← number s addr 2 2
  let entries ← number s addr 4 2
  let entries2 ← number s addr 6 2
  let dirSize ← number s addr 8 4
  let dirOffset ← number s addr 12 4
  let (comment, n) ← pascal16 s (addr + 8 * 16)
  return ⟨disk, disk2, entries, entries2, dirSize, dirOffset, comment, 8 * 16 + n⟩

/-- A `Zip64EndCentralDirectory`, /repo/hachoir/parser/archive/zip.py:211-230. -/
structure End64 where
  rest : Nat
  entries : Nat
  dirSize : Nat
  dirOffset : Nat
  size : Nat
  deriving DecidableEq, Repr

def readEnd64 (s : InputStream) (addr : Nat) : Except PyErr End64 := do
  let rest ← number s addr 0 8
  let entries ← number s addr 28 8
  let dirSize ← number s addr 36 8
  let dirOffset ← number s addr 44 8
  return ⟨rest, entries, dirSize, dirOffset, 8 * (52 + rest)⟩

/-- A record: the fields of /repo/hachoir/parser/archive/zip.py behind a header. -/
inductive Record
  | file (f : File)
  | descriptor (d : Descriptor)
  | central (c : Central)
  | endDir (e : EndDir)
  | end64 (e : End64)
  | signature (t : Bytes) (size : Nat)
  | locator (disk offset disks : Nat)
  deriving DecidableEq, Repr

/-- The size of a record in bits. -/
def Record.size : Record → Nat
  | .file f => f.size
  | .descriptor _ => 96
  | .central c => c.size
  | .endDir e => e.size
  | .end64 e => e.size
  | .signature _ n => n
  | .locator .. => 128

/-- `Zip64EndCentralDirectoryLocator.createFields`, /repo/hachoir/parser/archive/zip.py:336-341. -/
def readLocator (s : InputStream) (addr : Nat) : Except PyErr Record := do
  let disk ← number s addr 0 4
  let offset ← number s addr 4 8
  let disks ← number s addr 12 4
  return .locator disk offset disks

/-- `ZipFile.CHUNK_TYPES`, /repo/hachoir/parser/archive/zip.py:400-409. -/
def headers : List Nat :=
  [0x04034b50, 0x08074b50, 0x30304b50, 0x02014b50, 0x06054b50, 0x06064b50, 0x05054b50, 0x07064b50]

/-- The record behind a header of `CHUNK_TYPES`. -/
def readRecord (s : InputStream) (header addr : Nat) : Except PyErr Record :=
  if header = 0x04034b50 then (readFile s addr).map .file
  else if header = 0x08074b50 ∨ header = 0x30304b50 then (readDescriptor s addr).map .descriptor
  else if header = 0x02014b50 then (readCentral s addr).map .central
  else if header = 0x06054b50 then (readEnd s addr).map .endDir
  else if header = 0x06064b50 then (readEnd64 s addr).map .end64
  else if header = 0x05054b50 then (pascal16 s addr).map fun p => .signature p.1 p.2
  else readLocator s addr

/-- The inner loop of `ZipFile.createFields`, /repo/hachoir/parser/archive/zip.py:438-452: address and value of
the next header.  `fuel` bounds the number of attempts. -/
def nextHeader (s : InputStream) : Nat → Nat → Except PyErr (Option (Nat × Nat))
  | 0, _ => .error .endless
  | fuel + 1, pos =>
    match readBits s pos 32 .little with
    | .error .readStream => .ok none
    | .error e => .error e
    | .ok h =>
      if h ∈ headers then .ok (some (pos, h))
      else
        match searchBytes s [0x50, 0x4b] ((pos + 8 : Nat) : Int) none with
        | .error .readStream => .ok none
        | .error e => .error e
        | .ok none => .ok none
        | .ok (some p) => nextHeader s fuel p.toNat

/-- `ZipFile.createFields`, /repo/hachoir/parser/archive/zip.py:432-460, in a file that ends at `stop`: the
addresses of the headers and the records.  What is between them are the fields `unparsed[]`. -/
def readRecords (s : InputStream) : Nat → Nat → Nat → Except PyErr (List (Nat × Record))
  | 0, _, _ => .error .endless
  | fuel + 1, addr, stop =>
    if addr < stop then
      match nextHeader s (stop + 1) addr with
      | .error e => .error e
      | .ok none => if addr = 0 then .error .parser else .ok []
      | .ok (some (pos, h)) =>
        match readRecord s h (pos + 32) with
        | .error e => .error e
        | .ok r =>
          if stop < pos + 32 + r.size then .error .parser
          else
            match readRecords s fuel (pos + 32 + r.size) stop with
            | .error e => .error e
            | .ok l => .ok ((pos, r) :: l)
    else .ok []

/-- `MAX_FILESIZE`, /repo/hachoir/parser/archive/zip.py:22, in bits. -/
def maxBits : Nat := 1000 * 1024 * 1024 * 8

/-- `ZipFile.createContentSize`, /repo/hachoir/parser/archive/zip.py:475-481. -/
def contentSize (s : InputStream) : Except PyErr (Option Int) :=
  match searchBytes s [0x50, 0x4b, 5, 6] 0 (some maxBits) with
  | .error e => .error e
  | .ok none => .ok none
  | .ok (some pos) => .ok (some (pos + 22 * 8))

/-- The sizes of `ZipMetadata.processFile`, /repo/hachoir/metadata/archive.py:85-92: uncompressed and
compressed. -/
def shownSizes (f : File) : Nat × Option Nat :=
  match f.desc with
  | some d => (d.uncompressed, if d.compressed = 0 then none else some d.compressed)
  | none => (f.common.uncompressed, if f.common.compressed = 0 then none else some f.common.compressed)

end Hachoir.Formats.Zip
