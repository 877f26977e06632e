import Verif.Formats.Elf

/-!
# Mac OS programs (`parser/program/macho.py`)

Names of enumerations, descriptions and displays are left out.
-/

namespace Hachoir.Formats.Macho
open Hachoir Hachoir.Stream Hachoir.Field Hachoir.Formats

/-- `MachoHeader`, macho.py:79-97: the flags from the lowest bit on, the reserved ones last. -/
structure Header where
  magic : Bytes
  cpuType : Int
  cpuSubtype : Int
  fileType : Nat
  ncmds : Nat
  sizeofcmds : Nat
  flags : List Nat
  reserved : Option Nat
  deriving DecidableEq, Repr

/-- The 25 flags and the 7 reserved bits, macho.py:69-77, 87-94. -/
def headerFlags : List Nat := [1, 1, 1, 1, 1, 1, 1, 1, 1, 1, 1, 1, 1, 1, 1, 1, 1, 1, 1, 1, 1, 1, 1, 1, 1, 7]

/-- Lines 96-97. -/
def reservedOf (e : Endian) (is64 : Bool) : Rd (Option Nat) :=
  if is64 then do
    let n ← Rd.int 4 e
    pure (some n)
  else pure none

def header (e : Endian) (is64 : Bool) : Rd Header := do
  let magic ← Rd.raw 4
  let cpuType ← Rd.signed 4 e
  let cpuSubtype ← Rd.signed 4 e
  let fileType ← Rd.int 4 e
  let ncmds ← Rd.int 4 e
  let sizeofcmds ← Rd.int 4 e
  let flags ← Elf.bitFields e headerFlags
  let reserved ← reservedOf e is64
  pure ⟨magic, cpuType, cpuSubtype, fileType, ncmds, sizeofcmds, flags, reserved⟩

/-- `MachoSection` and `MachoSection64`, macho.py:252-264, 273-287. -/
structure Section where
  name : Bytes
  segment : Bytes
  addr : Nat
  size : Nat
  words : List Nat
  padding : Bytes
  deriving DecidableEq, Repr

/-- Line 287. -/
def sectionPadding (is64 : Bool) : Rd Bytes := if is64 then Rd.raw 4 else pure []

def «section» (e : Endian) (is64 : Bool) : Rd Section := do
  let name ← Rd.text e .fixed .eightBit (some 16)
  let segment ← Rd.text e .fixed .eightBit (some 16)
  let addr ← Rd.int (if is64 then 8 else 4) e
  let size ← Rd.int (if is64 then 8 else 4) e
  let words ← Rd.times (Rd.int 4 e) 7
  let padding ← sectionPadding is64
  pure ⟨name, segment, addr, size, words, padding⟩

/-- `SegmentCommand` and `SegmentCommand64`, macho.py:124-137, 146-159: `places` are the address, the size, the place and the size in the file, `words` the protections and
flags. -/
structure Segment where
  name : Bytes
  places : List Nat
  maxprot : Nat
  initprot : Nat
  flags : Nat
  sections : List Section
  deriving DecidableEq, Repr

def segment (e : Endian) (is64 : Bool) : Rd Segment := do
  let name ← Rd.text e .fixed .eightBit (some 16)
  let places ← Rd.times (Rd.int (if is64 then 8 else 4) e) 4
  let maxprot ← Rd.int 4 e
  let initprot ← Rd.int 4 e
  let nsects ← Rd.int 4 e
  let flags ← Rd.int 4 e
  let sections ← Rd.times («section» e is64) nsects
  pure ⟨name, places, maxprot, initprot, flags, sections⟩

/-- What is in a command. -/
inductive Data where
  | segment (is64 : Bool) (s : Segment)
  | words (ws : List Nat)
  | named (ws : List Nat) (name : Bytes)
  | raw (b : Bytes)
  deriving DecidableEq, Repr

/-- `LOAD_COMMANDS`, macho.py:351-397: the layout of a command. -/
inductive Layout where
  | segment (is64 : Bool)
  | words (n : Nat)
  | named (n : Nat)
  | uuid
  deriving DecidableEq, Repr

/-- Symbols (168-173), segment of symbols (176-179), dynamic symbols (182-201), linker (204-207), versions (213-216), information for the linker (226-237), libraries (240-246). -/
def layout (cmd : Nat) : Option Layout :=
  if cmd = 1 then some (.segment false)
  else if cmd = 2 then some (.words 4)
  else if cmd = 3 then some (.words 2)
  else if cmd = 0xb then some (.words 18)
  else if cmd = 0xc then some (.named 4)
  else if cmd = 0xe then some (.named 1)
  else if cmd = 0x19 then some (.segment true)
  else if cmd = 0x1b then some .uuid
  else if cmd = 0x22 ∨ cmd = 0x80000022 then some (.words 10)
  else if cmd = 0x24 ∨ cmd = 0x25 then some (.words 2)
  else none

def data (e : Endian) : Layout → Rd Data
  | .segment is64 => do
    let s ← segment e is64
    pure (.segment is64 s)
  | .words n => do
    let ws ← Rd.times (Rd.int 4 e) n
    pure (.words ws)
  | .named n => do
    let ws ← Rd.times (Rd.int 4 e) n
    let name ← Rd.text e .c .eightBit none
    pure (.named ws name)
  | .uuid => do
    let b ← Rd.raw 16
    pure (.raw b)

/-- A reader followed by one that is told how many bits were read (`current_size`). -/
def measured {α β : Type} (r : Rd α) (f : α → Nat → Rd β) : Rd β := fun s stop addr =>
  match r s stop addr with
  | .error e => .error e
  | .ok (a, b) => f a (b - addr) s stop b

structure Command where
  cmd : Nat
  data : Data
  padding : Bytes
  deriving DecidableEq, Repr

/-- macho.py:408-410, `n` bytes read so far behind the 8 of the header: padding up to the size. -/
def padded (cmd size : Nat) (d : Data) (n : Nat) : Rd Command :=
  if size < 8 + n / 8 then Rd.fail .field
  else if size = 8 + n / 8 then pure ⟨cmd, d, []⟩
  else do
    let p ← Rd.raw (size - (8 + n / 8))
    pure ⟨cmd, d, p⟩

/-- macho.py:404-413. -/
def commandBody (e : Endian) (cmd size : Nat) : Option Layout → Rd Command
  | some l => measured (data e l) (padded cmd size)
  | none => if size < 8 then Rd.fail .field else do
    let b ← Rd.raw (size - 8)
    pure ⟨cmd, .raw b, []⟩

/-- `MachoLoadCommand`, macho.py:400-413. -/
def command (e : Endian) : Rd Command := do
  let cmd ← Rd.int 4 e
  let size ← Rd.int 4 e
  commandBody e cmd size (layout cmd)

/-- `MACHO_MAGICS`, macho.py:59-64. -/
def magics (m : Bytes) : Option (Bool × Endian) :=
  if m = [0xFE, 0xED, 0xFA, 0xCE] then some (false, .big)
  else if m = [0xCE, 0xFA, 0xED, 0xFE] then some (false, .little)
  else if m = [0xFE, 0xED, 0xFA, 0xCF] then some (true, .big)
  else if m = [0xCF, 0xFA, 0xED, 0xFE] then some (true, .little)
  else none

structure File where
  header : Header
  commands : List Command
  deriving DecidableEq, Repr

/-- The first bytes, without a field (macho.py:430). -/
def first4 : Rd Bytes := fun s stop addr =>
  match Rd.raw 4 s stop addr with
  | .error e => .error e
  | .ok (b, _) => .ok (b, addr)

/-- macho.py:433-435. -/
def fileBody : Option (Bool × Endian) → Rd File
  | none => Rd.fail .key
  | some (is64, e) => do
    let h ← header e is64
    let cs ← Rd.times (command e) h.ncmds
    pure ⟨h, cs⟩

/-- `MachoFileBase`, macho.py:427-435. -/
def file : Rd File := do
  let m ← first4
  fileBody (magics m)

/-- `MachoFatArch`, macho.py:471-476. -/
structure Arch where
  cpuType : Int
  cpuSubtype : Int
  offset : Nat
  size : Nat
  align : Nat
  deriving DecidableEq, Repr

def arch (e : Endian) : Rd Arch := do
  let cpuType ← Rd.signed 4 e
  let cpuSubtype ← Rd.signed 4 e
  let offset ← Rd.int 4 e
  let size ← Rd.int 4 e
  let align ← Rd.int 4 e
  pure ⟨cpuType, cpuSubtype, offset, size, align⟩

/-- macho.py:533-534. -/
def fatPart (a : Arch) : Rd File := do
  Rd.jump a.offset
  Rd.within a.size file

structure Fat where
  magic : Bytes
  archs : List Arch
  files : List File
  deriving DecidableEq, Repr

/-- `MachoFatHeader` and the rest of the file, macho.py:482-486, 531-534. -/
def fatBody (e : Endian) : Rd Fat := do
  let magic ← Rd.raw 4
  let n ← Rd.int 4 e
  let archs ← Rd.times (arch e) n
  let files ← Rd.each fatPart archs
  pure ⟨magic, archs, files⟩

/-- `MachoFatFile`, macho.py:523-534. -/
def fat : Rd Fat := do
  let m ← first4
  fatBody (if m = [0xBE, 0xBA, 0xFE, 0xCA] then .little else .big)

/-- `validate`, macho.py:515-521. -/
def fatValid (f : Fat) : Bool := (f.magic == [0xBE, 0xBA, 0xFE, 0xCA] || f.magic == [0xCA, 0xFE, 0xBA, 0xBE]) && decide (f.archs.length < 16)

end Hachoir.Formats.Macho
