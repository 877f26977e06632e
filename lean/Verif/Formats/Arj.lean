import Verif.Formats.Reader

/-!
# ARJ archives (`parser/archive/arj.py`)

Names of enumerations and descriptions are left out.
-/

namespace Hachoir.Formats.Arj
open Hachoir Hachoir.Stream Hachoir.Field Hachoir.Formats

/-- The fields all headers begin with, arj.py:52-56. -/
structure Start where
  firstSize : Nat
  archiver : Nat
  minArchiver : Nat
  hostOs : Nat
  flags : Nat
  deriving DecidableEq, Repr

def start : Rd Start := do
  let firstSize ← Rd.int 1 .little
  let archiver ← Rd.int 1 .little
  let minArchiver ← Rd.int 1 .little
  let hostOs ← Rd.int 1 .little
  let flags ← Rd.int 1 .little
  pure ⟨firstSize, archiver, minArchiver, hostOs, flags⟩

/-- The fields all headers end with, arj.py:58-78. -/
structure End where
  lastChapter : Nat
  reserved : Bytes
  filename : Bytes
  comment : Bytes
  crc : Nat
  extended : List (Bytes × Nat)
  deriving DecidableEq, Repr

/-- arj.py:60-64: in both headers `last_chapter` is 29 bytes behind `first_hdr_size`. -/
def reservedOf (firstSize : Nat) : Rd Bytes := if 30 < firstSize then Rd.raw (firstSize - 30) else pure []

/-- arj.py:76-77. -/
def extendedOf (size : Nat) : Rd (Bytes × Nat) := do
  let b ← Rd.raw size
  let crc ← Rd.int 4 .little
  pure (b, crc)

/-- arj.py:70-78; `fuel` bounds the rounds. -/
def extendeds : Nat → Rd (List (Bytes × Nat))
  | 0 => Rd.fail .endless
  | fuel + 1 => do
    let e ← Rd.eof
    if e then pure []
    else do
      let size ← Rd.int 2 .little
      if size = 0 then pure []
      else do
        let x ← extendedOf size
        let xs ← extendeds fuel
        pure (x :: xs)

def «end» (fuel firstSize : Nat) : Rd End := do
  let lastChapter ← Rd.int 1 .little
  let reserved ← reservedOf firstSize
  let filename ← Rd.text .little .c .eightBit none
  let comment ← Rd.text .little .c .eightBit none
  let crc ← Rd.int 4 .little
  let extended ← extendeds fuel
  pure ⟨lastChapter, reserved, filename, comment, crc, extended⟩

/-- `Header`, arj.py:86-100. -/
structure Main where
  headerSize : Nat
  start : Start
  security : Nat
  fileType : Nat
  reserved : Nat
  created : Nat
  modified : Nat
  archiveSize : Nat
  envelopePosition : Nat
  filespec : Nat
  envelopeLength : Nat
  encryption : Nat
  «end» : End
  deriving DecidableEq, Repr

def main (fuel headerSize : Nat) : Rd Main := do
  let s ← start
  let security ← Rd.int 1 .little
  let fileType ← Rd.int 1 .little
  let reserved ← Rd.int 1 .little
  let created ← Rd.int 4 .little
  let modified ← Rd.int 4 .little
  let archiveSize ← Rd.int 4 .little
  let envelopePosition ← Rd.int 4 .little
  let filespec ← Rd.int 2 .little
  let envelopeLength ← Rd.int 2 .little
  let encryption ← Rd.int 1 .little
  let e ← «end» fuel s.firstSize
  pure ⟨headerSize, s, security, fileType, reserved, created, modified, archiveSize, envelopePosition, filespec, envelopeLength, encryption, e⟩

/-- `Block`, arj.py:108-125. -/
structure Block where
  headerSize : Nat
  start : Start
  method : Nat
  fileType : Nat
  reserved : Nat
  modified : Nat
  originalSize : Nat
  crc : Nat
  filespec : Nat
  access : Nat
  firstChapter : Nat
  «end» : End
  data : Bytes
  deriving DecidableEq, Repr

/-- arj.py:123-125. -/
def dataOf (size : Nat) : Rd Bytes := if 0 < size then Rd.raw size else pure []

def block (fuel headerSize : Nat) : Rd Block := do
  let s ← start
  let method ← Rd.int 1 .little
  let fileType ← Rd.int 1 .little
  let reserved ← Rd.int 1 .little
  let modified ← Rd.int 4 .little
  let size ← Rd.int 4 .little
  let originalSize ← Rd.int 4 .little
  let crc ← Rd.int 4 .little
  let filespec ← Rd.int 2 .little
  let access ← Rd.int 2 .little
  let firstChapter ← Rd.int 1 .little
  let e ← «end» fuel s.firstSize
  let data ← dataOf size
  pure ⟨headerSize, s, method, fileType, reserved, modified, originalSize, crc, filespec, access, firstChapter, e, data⟩

/-- `_header_start_fields`, arj.py:46-51, and what follows if the header is not empty. -/
def headed {α : Type} (r : Nat → Rd α) : Rd (Option α) := do
  let magic ← Rd.raw 2
  if magic ≠ [0x60, 0xEA] then Rd.fail .parser
  else do
    let size ← Rd.int 2 .little
    if size = 0 then pure none
    else do
      let a ← r size
      pure (some a)

/-- arj.py:151-155: the blocks, and whether an empty one is at the end. -/
def blocks (fuel : Nat) : Nat → Rd (List Block × Bool)
  | 0 => Rd.fail .endless
  | n + 1 => do
    let e ← Rd.eof
    if e then pure ([], false)
    else do
      let b ← headed (block fuel)
      match b with
      | none => pure ([], true)
      | some b => do
        let bs ← blocks fuel n
        pure (b :: bs.1, bs.2)

structure Archive where
  main : Option Main
  files : List Block
  ended : Bool
  deriving DecidableEq, Repr

/-- arj.py:150-155. -/
def filesOf (fuel : Nat) (m : Option Main) : Rd Archive :=
  if m.isSome then do
    let bs ← blocks fuel fuel
    pure ⟨m, bs.1, bs.2⟩
  else pure ⟨m, [], false⟩

/-- `ArjParser`, arj.py:148-155. -/
def archive (fuel : Nat) : Rd Archive := do
  let m ← headed (main fuel)
  filesOf fuel m

end Hachoir.Formats.Arj
