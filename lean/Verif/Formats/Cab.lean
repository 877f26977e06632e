import Verif.Formats.Reader

/-!
# Microsoft cabinets (`parser/archive/cab.py`)

Descriptions and the enumerations of names are left out.  What is inside compressed data blocks is in `Archive/Deflate.lean` and `Archive/Lzx.lean`.
-/

namespace Hachoir.Formats.Cab
open Hachoir Hachoir.Stream Hachoir.Field Hachoir.Formats

/-- The reserved areas, cab.py:217-222: the one of the cabinet, and the sizes of those of folders and data blocks. -/
structure Reserved where
  header : Bytes
  folder : Nat
  data : Nat
  deriving DecidableEq, Repr

/-- The header up to `cabinet_serial`, cab.py:203-215, and what the flags add, 217-228. -/
structure Head where
  magic : Bytes
  hdrChecksum : Nat
  filesize : Nat
  fldChecksum : Nat
  offFile : Nat
  filesChecksum : Nat
  minor : Nat
  major : Nat
  nbFolder : Nat
  nbFiles : Nat
  /-- `has_previous`, `has_next`, `has_reserved`, `padding`, cab.py:91-98. -/
  flags : List Nat
  setid : Nat
  serial : Nat
  reserved : Option Reserved
  previous : Option (Bytes × Bytes)
  next : Option (Bytes × Bytes)
  deriving DecidableEq, Repr

/-- A field that is there if its size is not 0. -/
def rawOr (n : Nat) : Rd Bytes := if n = 0 then pure [] else Rd.raw n

def reserved (flag : Nat) : Rd (Option Reserved) :=
  if flag = 0 then pure none
  else do
    let h ← Rd.int 2 .little
    let f ← Rd.int 1 .little
    let d ← Rd.int 1 .little
    let b ← rawOr h
    pure (some ⟨b, f, d⟩)

/-- The names of the previous or next cabinet and disk, cab.py:223-228. -/
def neighbour (flag : Nat) : Rd (Option (Bytes × Bytes)) :=
  if flag = 0 then pure none
  else do
    let c ← Rd.text .little .c .eightBit none
    let d ← Rd.text .little .c .eightBit none
    pure (some (c, d))

def head : Rd Head := do
  let magic ← Rd.text .little .fixed .eightBit (some 4)
  let hdrChecksum ← Rd.int 4 .little
  let filesize ← Rd.int 4 .little
  let fldChecksum ← Rd.int 4 .little
  let offFile ← Rd.int 4 .little
  let filesChecksum ← Rd.int 4 .little
  let minor ← Rd.int 1 .little
  let major ← Rd.int 1 .little
  let nbFolder ← Rd.int 2 .little
  let nbFiles ← Rd.int 2 .little
  let flags ← Rd.bits .little [1, 1, 1, 13]
  let setid ← Rd.int 2 .little
  let serial ← Rd.int 2 .little
  let res ← reserved (flags.getD 2 0)
  let previous ← neighbour (flags.getD 0 0)
  let next ← neighbour (flags.getD 1 0)
  pure ⟨magic, hdrChecksum, filesize, fldChecksum, offFile, filesChecksum, minor, major, nbFolder, nbFiles, flags, setid, serial, res, previous, next⟩

/-- `Folder`, cab.py:34-47; `level` is there for methods 2 and 3. -/
structure Folder where
  offset : Nat
  blocks : Nat
  method : Nat
  level : Option Nat
  reserved : Bytes
  deriving DecidableEq, Repr

/-- The bits behind the method, cab.py:40-45. -/
def level (method : Nat) : Rd (Option Nat) :=
  if method = 2 ∨ method = 3 then do
    let bs ← Rd.bits .little [4, 5, 3]
    pure (some (bs.getD 1 0))
  else do
    let _ ← Rd.bits .little [12]
    pure none

/-- The method and the level, cab.py:39-45. -/
def methodLevel : Rd (Nat × Option Nat) := do
  let method ← Rd.bit .little 4
  let l ← level method
  pure (method, l)

def folder (res : Option Reserved) : Rd Folder := do
  let offset ← Rd.int 4 .little
  let blocks ← Rd.int 2 .little
  let m ← methodLevel
  let r ← rawOr ((res.map (·.folder)).getD 0)
  pure ⟨offset, blocks, m.1, m.2, r⟩

/-- `File`, cab.py:70-84. -/
structure File where
  filesize : Nat
  folderOffset : Nat
  folderIndex : Nat
  timestamp : Nat
  /-- `readonly`, `hidden`, `system`, reserved, `archive`, `exec`, `name_is_utf`, reserved, cab.py:57-67. -/
  attributes : List Nat
  name : Bytes
  deriving DecidableEq, Repr

/-- The charset of a name, cab.py:81-84. -/
def nameCharset (attributes : List Nat) : Charset := if attributes.getD 6 0 = 0 then .eightBit else .utf8

def file : Rd File := do
  let filesize ← Rd.int 4 .little
  let folderOffset ← Rd.int 4 .little
  let folderIndex ← Rd.int 2 .little
  let timestamp ← Rd.int 4 .little
  let attributes ← Rd.bits .little [1, 1, 1, 2, 1, 1, 1, 8]
  let name ← Rd.text .little .c (nameCharset attributes) none
  pure ⟨filesize, folderOffset, folderIndex, timestamp, attributes, name⟩

/-- `DataBlock`, cab.py:101-136: the `size` bytes of data are one field, or the fields of compressed data. -/
structure Block where
  crc : Nat
  uncompressed : Nat
  reserved : Bytes
  data : Bytes
  deriving DecidableEq, Repr

def block (res : Option Reserved) : Rd Block := do
  let crc ← Rd.int 4 .little
  let size ← Rd.int 2 .little
  let uncompressed ← Rd.int 2 .little
  let r ← rawOr ((res.map (·.data)).getD 0)
  let d ← rawOr size
  pure ⟨crc, uncompressed, r, d⟩

/-- `FolderData`, cab.py:150-177, up to the next folder or the end, cab.py:244-258; for every folder its index and its blocks. -/
def folderData (res : Option Reserved) : List (Nat × Folder) → Rd (List (Nat × List Block))
  | [] => pure []
  | (i, f) :: rest => do
    Rd.seek f.offset
    let stop ← Rd.limit
    let bs ← Rd.within ((rest.head?.map (fun p => p.2.offset)).getD (stop / 8) - f.offset) (Rd.times (block res) f.blocks)
    let more ← folderData res rest
    pure ((i, bs) :: more)

/-- `enumerate`. -/
def numbered {α : Type} (l : List α) : List (Nat × α) := l.mapIdx fun i x => (i, x)

structure Cabinet where
  head : Head
  folders : List Folder
  files : List File
  data : List (Nat × List Block)
  deriving DecidableEq, Repr

/-- `createFields`, cab.py:202-262. -/
def cab : Rd Cabinet := do
  let h ← head
  let folders ← Rd.times (folder h.reserved) h.nbFolder
  let files ← Rd.times file h.nbFiles
  let data ← folderData h.reserved ((numbered folders).mergeSort (fun p q => p.2.offset ≤ q.2.offset))
  pure ⟨h, folders, files, data⟩

/-- `validate`, cab.py:193-200. -/
def valid (h : Head) : Bool := h.magic == [77, 83, 67, 70] && (h.major == 1 && h.minor == 3) && (1 ≤ h.nbFolder && h.nbFolder ≤ 30)

/-- `createContentSize`, cab.py:264-265. -/
def contentSize (h : Head) : Nat := h.filesize * 8

/-! ## What the sub stream of a folder needs -/

/-- The files of folder `index`, cab.py:249-252: the loop runs over the list it has just emptied. -/
def folderFiles (_all : List File) (index : Nat) : List File := ([] : List File).filter fun f => f.folderIndex == index

/-- `uncompressed_data`: a text or bytes. -/
inductive Data
  | str (s : String)
  | bytes (b : Bytes)
  deriving DecidableEq, Repr

/-- A block adds its data, cab.py:117-126; `inflate` is the content of a MSZIP block after what is there already.  `"" += b"…"` and `bytearray("")` are
TypeErrors. -/
def addBlock (inflate : Bytes → Bytes → Except PyErr Bytes) (method : Nat) (b : Block) : Data → Except PyErr Data
  | .str s => if method = 0 ∧ b.data ≠ [] ∨ method = 1 then .error .type else .ok (.str s)
  | .bytes d =>
    if method = 0 then .ok (.bytes (d ++ b.data))
    else if method = 1 then (inflate d b.data).map .bytes
    else .ok (.bytes d)

/-- An exception in a block, whose size is known, ends this block only (field/generic_field_set.py:311-319). -/
def afterBlock (inflate : Bytes → Bytes → Except PyErr Bytes) (method : Nat) (d : Data) (b : Block) : Data :=
  match addBlock inflate method b d with
  | .error _ => d
  | .ok d => d

/-- `uncompressed_data` when all blocks were read, cab.py:171-177. -/
def uncompressed (inflate : Bytes → Bytes → Except PyErr Bytes) (method : Nat) (bs : List Block) : Data :=
  bs.foldl (afterBlock inflate method) (.str "")

end Hachoir.Formats.Cab
