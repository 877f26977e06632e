import Verif.Formats.Reader

/-!
# Discs of ISO 9660 and swap files (`parser/file_system/iso9660.py`, `linux_swap.py`)

Descriptions are left out.
-/

namespace Hachoir.Formats.Iso
open Hachoir Hachoir.Stream Hachoir.Field Hachoir.Formats

/-- `PrimaryVolumeDescriptor`, iso9660.py:19-52. -/
structure Primary where
  unused : Bytes
  systemId : Bytes
  volumeId : Bytes
  unused2 : Bytes
  spaceSize : Nat
  unused3 : Bytes
  setSize : Nat
  seqNum : Nat
  blockSize : Nat
  pathTableSize : Nat
  lpath : Nat
  optLpath : Nat
  mpath : Nat
  optMpath : Nat
  root : Bytes
  /-- `vol_set_id`, `publisher`, `data_preparer`, `application` -/
  texts : List Bytes
  /-- `copyright`, `abstract`, `biographic` -/
  files : List Bytes
  /-- `creation_ts`, `modification_ts`, `expiration_ts`, `effective_ts` -/
  dates : List Bytes
  structVer : Nat
  unused4 : Bytes
  appUse : Bytes
  unused5 : Bytes
  deriving DecidableEq, Repr

def str (n : Nat) : Rd Bytes := Rd.text .big .fixed .eightBit (some n)

def primary : Rd Primary := do
  let unused ← Rd.raw 1
  let systemId ← str 32
  let volumeId ← str 32
  let unused2 ← Rd.raw 8
  let spaceSize ← Rd.int 8 .big
  let unused3 ← Rd.raw 32
  let setSize ← Rd.int 4 .big
  let seqNum ← Rd.int 4 .big
  let blockSize ← Rd.int 4 .big
  let pathTableSize ← Rd.int 8 .big
  let lpath ← Rd.int 4 .big
  let optLpath ← Rd.int 4 .big
  let mpath ← Rd.int 4 .big
  let optMpath ← Rd.int 4 .big
  let root ← Rd.raw 34
  let texts ← Rd.times (str 128) 4
  let files ← Rd.times (str 37) 3
  let dates ← Rd.times (str 17) 4
  let structVer ← Rd.int 1 .big
  let unused4 ← Rd.raw 1
  let appUse ← str 512
  let unused5 ← Rd.raw 653
  pure ⟨unused, systemId, volumeId, unused2, spaceSize, unused3, setSize, seqNum, blockSize, pathTableSize, lpath, optLpath, mpath, optMpath, root, texts, files, dates, structVer,
    unused4, appUse, unused5⟩

/-- What is in a descriptor: `BootRecord` (iso9660.py:55-61), `Terminator` (64-68), others (98). -/
inductive Content where
  | boot (sysId bootId use : Bytes)
  | primary (p : Primary)
  | terminator (null : Bytes)
  | other (b : Bytes)
  deriving DecidableEq, Repr

def content (type : Nat) : Rd Content :=
  if type = 0 then do
    let a ← str 31
    let b ← str 31
    let c ← Rd.raw 1979
    pure (.boot a b c)
  else if type = 1 then do
    let p ← primary
    pure (.primary p)
  else if type = 255 then do
    let b ← Rd.raw 2041
    pure (.terminator b)
  else do
    let b ← Rd.raw 2041
    pure (.other b)

structure Volume where
  type : Nat
  version : Nat
  content : Content
  deriving DecidableEq, Repr

/-- iso9660.py:93-98. -/
def volume2 (type : Nat) : Rd Volume := do
  let version ← Rd.int 1 .big
  let c ← content type
  pure ⟨type, version, c⟩

/-- `Volume`, iso9660.py:88-98.  A wrong signature is an exception here; in the code the rest of the volume is left unread and the next one follows. -/
def volume : Rd Volume := do
  let type ← Rd.int 1 .big
  let signature ← Rd.raw 5
  if signature ≠ [0x43, 0x44, 0x30, 0x30, 0x31] then Rd.fail .parser else volume2 type

/-- iso9660.py:121-125; `fuel` bounds the rounds. -/
def volumes : Nat → Rd (List Volume)
  | 0 => Rd.fail .endless
  | fuel + 1 => do
    let v ← volume
    if v.type = 255 then pure [v]
    else do
      let vs ← volumes fuel
      pure (v :: vs)

/-- `ISO9660`, iso9660.py:118-125. -/
def disc (fuel : Nat) : Rd (List Volume) := do
  Rd.seek 0x8000
  volumes fuel

end Hachoir.Formats.Iso

namespace Hachoir.Formats.Swap
open Hachoir Hachoir.Stream Hachoir.Field Hachoir.Formats

/-- `MAX_SWAP_BADPAGES`, linux_swap.py:24. -/
def maxBad : Nat := ((4096 - 10) - 1536) / 4

/-- `LinuxSwapFile`, linux_swap.py:88-114. -/
structure File where
  boot : Bytes
  version : Nat
  lastPage : Nat
  nbBad : Nat
  uuid : Bytes
  volume : Bytes
  reserved : Bytes
  bad : List Nat
  magic : Bytes
  pages : List Bytes
  deriving DecidableEq, Repr

/-- linux_swap.py:101-105. -/
def badPages (count : Nat) : Rd (List Nat) :=
  if count ≠ 0 then if maxBad < count then Rd.fail .parser else Rd.times (Rd.int 4 .little) count
  else pure []

/-- linux_swap.py:114: a vector of no pages is refused (`GenericVector`, field/vector.py). -/
def pagesOf (n : Nat) : Rd (List Bytes) := if n = 0 then Rd.fail .parser else Rd.times (Rd.raw 4096) n

def file : Rd File := do
  let boot ← Rd.raw 1024
  let version ← Rd.int 4 .little
  let lastPage ← Rd.int 4 .little
  let nbBad ← Rd.int 4 .little
  let uuid ← Rd.raw 16
  let volume ← Rd.raw 16
  let reserved ← Rd.raw 468
  let bad ← badPages nbBad
  Rd.seek 4086
  let magic ← Rd.text .little .fixed .eightBit (some 10)
  let pages ← pagesOf lastPage
  pure ⟨boot, version, lastPage, nbBad, uuid, volume, reserved, bad, magic, pages⟩

/-- `getPageCount`, linux_swap.py:69-75. -/
def pageCount (f : File) : Int := (f.lastPage : Int) - f.nbBad - 1

/-- `validate`, linux_swap.py:61-67. -/
def valid (f : File) : Bool :=
  (f.magic == [0x53, 0x57, 0x41, 0x50, 0x2D, 0x53, 0x50, 0x41, 0x43, 0x45] || f.magic == [0x53, 0x57, 0x41, 0x50, 0x53, 0x50, 0x41, 0x43, 0x45, 0x32] ||
    f.magic == [0x53, 0x31, 0x53, 0x55, 0x53, 0x50, 0x45, 0x4E, 0x44, 0]) && decide (f.nbBad ≤ maxBad)

end Hachoir.Formats.Swap
