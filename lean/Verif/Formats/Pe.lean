import Verif.Formats.Reader

/-!
# Windows and MS-DOS programs (`parser/program/exe.py`, `exe_pe.py`, `exe_ne.py`)

The resources inside a section (`exe_res.py`) are taken as bytes; the search for a version in 16-bit programs (exe.py:109-115), names of fields and descriptions are left out.
-/

namespace Hachoir.Formats.Pe
open Hachoir Hachoir.Stream Hachoir.Field Hachoir.Formats

/-- `MSDosHeader`, exe.py:25-45. -/
structure Dos where
  header : Bytes
  sizeMod : Nat
  sizeDiv : Nat
  relocEntries : Nat
  codeOffset : Nat
  neededMemory : Nat
  maxMemory : Nat
  initSsSp : Nat
  checksum : Nat
  initCsIp : Nat
  relocOffset : Nat
  overlay : Nat
  reserved : Bytes
  oemId : Nat
  oemInfo : Nat
  reserved2 : Bytes
  next : Nat
  deriving DecidableEq, Repr

def dos : Rd Dos := do
  let header ← Rd.text .little .fixed .eightBit (some 2)
  let sizeMod ← Rd.int 2 .little
  let sizeDiv ← Rd.int 2 .little
  let relocEntries ← Rd.int 2 .little
  let codeOffset ← Rd.int 2 .little
  let neededMemory ← Rd.int 2 .little
  let maxMemory ← Rd.int 2 .little
  let initSsSp ← Rd.int 4 .little
  let checksum ← Rd.int 2 .little
  let initCsIp ← Rd.int 4 .little
  let relocOffset ← Rd.int 2 .little
  let overlay ← Rd.int 2 .little
  let reserved ← Rd.raw 8
  let oemId ← Rd.int 2 .little
  let oemInfo ← Rd.int 2 .little
  let reserved2 ← Rd.raw 20
  let next ← Rd.int 4 .little
  pure ⟨header, sizeMod, sizeDiv, relocEntries, codeOffset, neededMemory, maxMemory, initSsSp, checksum, initCsIp, relocOffset, overlay, reserved, oemId, oemInfo, reserved2, next⟩

/-- `MSDosHeader.isValid`, exe.py:47-58: whether there is no error. -/
def dosValid (d : Dos) : Bool :=
  if 512 ≤ d.sizeMod then false
  else if d.codeOffset < 4 then false
  else if d.sizeDiv < 4 then
    if d.checksum ≠ 0 then false
    else decide (80 ≤ d.next ∧ d.next ≤ 1024)
  else true

/-- `PE_Header`, exe_pe.py:116-142: `flags` are the bits from 127 on. -/
structure Header where
  cpu : Nat
  nbSection : Nat
  date : Nat
  ptrToSym : Nat
  nbSymbols : Nat
  optSize : Nat
  flags : List Nat
  deriving DecidableEq, Repr

/-- Behind the signature. -/
def header2 : Rd Header := do
  let cpu ← Rd.int 2 .little
  let nbSection ← Rd.int 2 .little
  let date ← Rd.int 4 .little
  let ptrToSym ← Rd.int 4 .little
  let nbSymbols ← Rd.int 4 .little
  let optSize ← Rd.int 2 .little
  let flags ← Rd.bits .little [1, 1, 1, 1, 1, 1, 1, 1, 1, 1, 1, 1, 1, 1, 1, 1]
  pure ⟨cpu, nbSection, date, ptrToSym, nbSymbols, optSize, flags⟩

def header : Rd Header := do
  let signature ← Rd.raw 4
  if signature ≠ [0x50, 0x45, 0, 0] then Rd.fail .parser else header2

/-- `is_dll` (exe_pe.py:140) is the 14th bit. -/
def isDll (h : Header) : Bool := h.flags[13]? == some 1

/-- `PE_OptHeader`, exe_pe.py:177-220. -/
structure Opt where
  signature : Nat
  linkerMajor : Nat
  linkerMinor : Nat
  sizeCode : Nat
  sizeInit : Nat
  sizeUninit : Nat
  entryPoint : Nat
  baseCode : Nat
  baseData : Option Nat
  imageBase : Nat
  sectAlign : Nat
  fileAlign : Nat
  versions : List Nat
  reserved : Bytes
  sizeImage : Nat
  sizeHeaders : Nat
  checksum : Nat
  subsystem : Nat
  dllFlags : Nat
  reserves : List Nat
  loaderFlags : Nat
  directories : List (Nat × Nat)
  deriving DecidableEq, Repr

/-- `DataDirectory`, exe_pe.py:81-83. -/
def directory : Rd (Nat × Nat) := do
  let rva ← Rd.int 4 .little
  let size ← Rd.int 4 .little
  pure (rva, size)

/-- Line 192-193. -/
def baseDataOf (plus : Bool) : Rd (Option Nat) :=
  if plus then pure none
  else do
    let n ← Rd.int 4 .little
    pure (some n)

/-- Behind the signature; `plus` is `is_pe32plus`, `w` the size of `VarUInt`. -/
def opt2 (signature : Nat) (plus : Bool) (w : Nat) : Rd Opt := do
  let linkerMajor ← Rd.int 1 .little
  let linkerMinor ← Rd.int 1 .little
  let sizeCode ← Rd.int 4 .little
  let sizeInit ← Rd.int 4 .little
  let sizeUninit ← Rd.int 4 .little
  let entryPoint ← Rd.int 4 .little
  let baseCode ← Rd.int 4 .little
  let baseData ← baseDataOf plus
  let imageBase ← Rd.int w .little
  let sectAlign ← Rd.int 4 .little
  let fileAlign ← Rd.int 4 .little
  let versions ← Rd.times (Rd.int 2 .little) 6
  let reserved ← Rd.raw 4
  let sizeImage ← Rd.int 4 .little
  let sizeHeaders ← Rd.int 4 .little
  let checksum ← Rd.int 4 .little
  let subsystem ← Rd.int 2 .little
  let dllFlags ← Rd.int 2 .little
  let reserves ← Rd.times (Rd.int w .little) 4
  let loaderFlags ← Rd.int 4 .little
  let nb ← Rd.int 4 .little
  let directories ← Rd.times directory nb
  pure ⟨signature, linkerMajor, linkerMinor, sizeCode, sizeInit, sizeUninit, entryPoint, baseCode, baseData, imageBase, sectAlign, fileAlign, versions, reserved, sizeImage,
    sizeHeaders, checksum, subsystem, dllFlags, reserves, loaderFlags, directories⟩

def opt : Rd Opt := do
  let signature ← Rd.int 2 .little
  if signature ≠ 0x10b ∧ signature ≠ 0x20b then Rd.fail .parser
  else opt2 signature (signature == 0x20b) (if signature = 0x20b then 8 else 4)

/-- exe.py:121-125: the optional header takes the bytes it is told to have.  An exception inside makes the rest raw in the code; here it is one. -/
def optional (size : Nat) : Rd (Option Opt) :=
  if size = 0 then pure none
  else do
    let o ← Rd.within size opt
    pure (some o)

/-- `SectionHeader`, exe_pe.py:8-49: `flags` are the bits from line 20 on. -/
structure Section where
  name : Bytes
  memSize : Nat
  rva : Nat
  physSize : Nat
  physOff : Nat
  reserved : Bytes
  flags : List Nat
  deriving DecidableEq, Repr

/-- exe_pe.py:20-49. -/
def sectionBits : List Nat := [4, 1, 1, 1, 1, 1, 1, 1, 1, 1, 1, 1, 1, 4, 4, 1, 1, 1, 1, 1, 1, 1, 1]

def sectionHeader : Rd Section := do
  let name ← Rd.text .little .fixed .eightBit (some 8)
  let memSize ← Rd.int 4 .little
  let rva ← Rd.int 4 .little
  let physSize ← Rd.int 4 .little
  let physOff ← Rd.int 4 .little
  let reserved ← Rd.raw 12
  let flags ← Rd.bits .little sectionBits
  pure ⟨name, memSize, rva, physSize, physOff, reserved, flags⟩

/-- `rva2file`, exe_pe.py:51-52. -/
def rva2file (h : Section) (rva : Int) : Int := h.physOff + (rva - h.rva)

/-- exe.py:130-138: the headers of sections with bytes in the file, by their places (`sort` keeps the order of equal ones). -/
def sorted (hs : List Section) : List Section := (hs.filter fun h => h.physSize != 0).mergeSort fun a b => decide (a.physOff ≤ b.physOff)

/-- exe.py:140-147. -/
def sectionBytes (h : Section) : Rd (Section × Bytes) := do
  Rd.jump h.physOff
  let b ← Rd.raw h.physSize
  pure (h, b)

structure Portable where
  header : Header
  opt : Option Opt
  headers : List Section
  sections : List (Section × Bytes)
  deriving DecidableEq, Repr

/-- `parsePortableExecutable`, exe.py:117-147. -/
def portable : Rd Portable := do
  let h ← header
  let o ← optional h.optSize
  let hs ← Rd.times sectionHeader h.nbSection
  let ss ← Rd.each sectionBytes (sorted hs)
  pure ⟨h, o, hs, ss⟩

/-- `NE_Header`, exe_ne.py:10-61: integers and bits alike as numbers. -/
structure New where
  signature : Bytes
  link : List Nat
  reserved : Bytes
  values : List Nat
  reserved2 : Bytes
  version : Nat
  deriving DecidableEq, Repr

/-- exe_ne.py:12-15. -/
def newLink : List Nat := [8, 8, 16, 16]

/-- exe_ne.py:18-58. -/
def newValues : List Nat := [1, 1, 9, 1, 1, 1, 1, 1, 16, 16, 16, 32, 32, 16, 16, 16, 16, 16, 16, 16, 16, 32, 16, 16, 16, 1, 1, 1, 6, 1, 1, 1, 4, 16, 16]

def new : Rd New := do
  let signature ← Rd.raw 2
  let link ← Rd.bits .little newLink
  let reserved ← Rd.raw 4
  let values ← Rd.bits .little newValues
  let reserved2 ← Rd.raw 2
  let version ← Rd.int 2 .little
  pure ⟨signature, link, reserved, values, reserved2, version⟩

/-- `isPE` and `isNE`, exe.py:149-167: a header of `size` bytes with this signature fits at `o`, which is at least `min`. -/
def signatureAt (min size : Nat) (magic : Bytes) (o : Nat) : Rd Bool := do
  let stop ← Rd.limit
  if min * 8 ≤ o * 8 ∧ o * 8 + size * 8 ≤ stop then do
    Rd.jump o
    let m ← Rd.raw magic.length
    pure (m == magic)
  else pure false

inductive Kind where
  | portable (p : Portable)
  | new (n : New)
  | dos
  deriving DecidableEq, Repr

structure File where
  dos : Dos
  kind : Kind
  deriving DecidableEq, Repr

/-- exe.py:94-104. -/
def body (d : Dos) (pe ne : Bool) : Rd File :=
  if pe then do
    Rd.jump d.next
    let p ← portable
    pure ⟨d, .portable p⟩
  else if ne then do
    Rd.jump d.next
    let n ← new
    pure ⟨d, .new n⟩
  else pure ⟨d, .dos⟩

/-- `createFields`, exe.py:91-104. -/
def file : Rd File := do
  let d ← dos
  let pe ← signatureAt 2 24 [0x50, 0x45, 0, 0] d.next
  let ne ← signatureAt 64 64 [0x4E, 0x45] d.next
  body d pe ne

/-- `validate`, exe.py:79-89. -/
def valid (f : File) : Bool :=
  f.dos.header == [0x4D, 0x5A] && dosValid f.dos && (match f.kind with
    | .portable p => decide (p.header.nbSection ≤ 100)
    | _ => true)

/-- exe.py:202-212. -/
def portableSize (hs : List Section) : Nat :=
  hs.foldl (fun size h => if h.physSize = 0 then size else if size ≠ 0 then max size ((h.physSize + h.physOff) * 8) else (h.physSize + h.physOff) * 8) 0

/-- `createContentSize`, exe.py:200-225. -/
def contentSize (f : File) : Option Int :=
  match f.kind with
  | .portable p => if portableSize p.headers ≠ 0 then some (portableSize p.headers) else none
  | .new _ => none
  | .dos =>
    let size : Int := f.dos.sizeMod + ((f.dos.sizeDiv : Int) - 1) * 512
    if size < 0 then none else some (size * 8)

end Hachoir.Formats.Pe
