import Verif.Formats.Cab

/-!
# ELF programs (`parser/program/elf.py`)

Names of enumerations and descriptions are left out.
-/

namespace Hachoir.Formats.Elf
open Hachoir Hachoir.Stream Hachoir.Field Hachoir.Formats

/-- `ElfHeader`, elf.py:106-131. -/
structure Header where
  signature : Bytes
  class_ : Nat
  endian : Nat
  fileVersion : Nat
  osabi : Nat
  abiVersion : Nat
  pad : Bytes
  type : Nat
  machine : Nat
  version : Nat
  entry : Nat
  phoff : Nat
  shoff : Nat
  flags : Nat
  ehsize : Nat
  phentsize : Nat
  phnum : Nat
  shentsize : Nat
  shnum : Nat
  shstrndx : Nat
  deriving DecidableEq, Repr

def header (e : Endian) : Rd Header := do
  let signature ← Rd.raw 4
  let class_ ← Rd.int 1 e
  let endian ← Rd.int 1 e
  let fileVersion ← Rd.int 1 e
  let osabi ← Rd.int 1 e
  let abiVersion ← Rd.int 1 e
  let pad ← Rd.text e .fixed .eightBit (some 7)
  let type ← Rd.int 2 e
  let machine ← Rd.int 2 e
  let version ← Rd.int 4 e
  let entry ← Rd.int (if class_ = 1 then 4 else 8) e
  let phoff ← Rd.int (if class_ = 1 then 4 else 8) e
  let shoff ← Rd.int (if class_ = 1 then 4 else 8) e
  let flags ← Rd.int 4 e
  let ehsize ← Rd.int 2 e
  let phentsize ← Rd.int 2 e
  let phnum ← Rd.int 2 e
  let shentsize ← Rd.int 2 e
  let shnum ← Rd.int 2 e
  let shstrndx ← Rd.int 2 e
  pure ⟨signature, class_, endian, fileVersion, osabi, abiVersion, pad, type, machine, version, entry, phoff, shoff, flags, ehsize, phentsize, phnum, shentsize, shnum, shstrndx⟩

/-- `isValid`, elf.py:133-140. -/
def valid (h : Header) : Bool := h.signature == [0x7F, 0x45, 0x4C, 0x46] && (h.class_ == 1 || h.class_ == 2) && (h.endian == 1 || h.endian == 2)

/-- Fields of some bits: in their order for little endian files, the other way round for big endian ones (elf.py:164-173, 242-249); the values from the lowest bit on. -/
def bitFields (e : Endian) (ws : List Nat) : Rd (List Nat) :=
  if e = .big then do
    let vs ← Rd.bits .big ws.reverse
    pure vs.reverse
  else Rd.bits .little ws

/-- The widths of `SectionFlags`, elf.py:146-162, and what is there in addition in files of 64 bits, 165-166, 172-173. -/
def sectionFlags (is64 : Bool) : List Nat := [1, 1, 1, 1, 1, 1, 1, 1, 1, 1, 1, 1, 8, 8, 4] ++ (if is64 then [32] else [])

/-- The widths of `ProgramFlags`, elf.py:237-249: executable, writable, readable. -/
def programFlags : List Nat := [1, 1, 1, 29]

/-- `ProgramHeader32` and `ProgramHeader64`, elf.py:282-290, 299-307. -/
structure Program where
  type : Nat
  flags : List Nat
  offset : Nat
  vaddr : Nat
  paddr : Nat
  fileSize : Nat
  memSize : Nat
  align : Nat
  deriving DecidableEq, Repr

def program32 (e : Endian) : Rd Program := do
  let type ← Rd.int 4 e
  let offset ← Rd.int 4 e
  let vaddr ← Rd.int 4 e
  let paddr ← Rd.int 4 e
  let fileSize ← Rd.int 4 e
  let memSize ← Rd.int 4 e
  let flags ← bitFields e programFlags
  let align ← Rd.int 4 e
  pure ⟨type, flags, offset, vaddr, paddr, fileSize, memSize, align⟩

def program64 (e : Endian) : Rd Program := do
  let type ← Rd.int 4 e
  let flags ← bitFields e programFlags
  let offset ← Rd.int 8 e
  let vaddr ← Rd.int 8 e
  let paddr ← Rd.int 8 e
  let fileSize ← Rd.int 8 e
  let memSize ← Rd.int 8 e
  let align ← Rd.int 8 e
  pure ⟨type, flags, offset, vaddr, paddr, fileSize, memSize, align⟩

/-- `SectionHeader32` and `SectionHeader64`, elf.py:204-214, 224-234. -/
structure Section where
  name : Nat
  type : Nat
  flags : List Nat
  vma : Nat
  lma : Nat
  size : Nat
  link : Nat
  info : Nat
  align : Nat
  entrySize : Nat
  deriving DecidableEq, Repr

def sectionHeader (e : Endian) (is64 : Bool) : Rd Section := do
  let name ← Rd.int 4 e
  let type ← Rd.int 4 e
  let flags ← bitFields e (sectionFlags is64)
  let vma ← Rd.int (if is64 then 8 else 4) e
  let lma ← Rd.int (if is64 then 8 else 4) e
  let size ← Rd.int (if is64 then 8 else 4) e
  let link ← Rd.int 4 e
  let info ← Rd.int 4 e
  let align ← Rd.int (if is64 then 8 else 4) e
  let entrySize ← Rd.int (if is64 then 8 else 4) e
  pure ⟨name, type, flags, vma, lma, size, link, info, align, entrySize⟩

/-- The bytes of a section, elf.py:365-370: none if it is empty or has no bits in the file. -/
def sectionBytes (h : Section) : Rd (Option Bytes) :=
  if h.size ≠ 0 ∧ h.type ≠ 8 then do
    Rd.jump h.lma
    let b ← Rd.raw h.size
    pure (some b)
  else pure none

/-- `ElfFile`, elf.py:340-370. -/
structure File where
  header : Header
  programs : List Program
  headers : List Section
  sections : List (Option Bytes)
  deriving DecidableEq, Repr

/-- The endian, elf.py:342-345. -/
def endianOf (n : Nat) : Endian := if n = 2 then .big else .little

def file : Rd File := do
  Rd.jump 5
  let n ← Rd.peek .big
  Rd.jump 0
  let h ← header (endianOf n)
  let ps ← Rd.times (if h.class_ = 2 then program64 (endianOf n) else program32 (endianOf n)) h.phnum
  Rd.jump h.shoff
  let hs ← Rd.times (sectionHeader (endianOf n) (h.class_ == 2)) h.shnum
  let ss ← Rd.each sectionBytes hs
  pure ⟨h, ps, hs, ss⟩

/-- `SymbolStringTableOffset.createDisplay`, elf.py:178-183: the bytes of the text, whose decoding is left out. -/
def sectionName (f : File) (h : Section) : Except PyErr Bytes :=
  match f.sections[f.header.shstrndx]? with
  | some (some b) => .ok ((b.drop h.name).takeWhile (· != 0))
  | _ => .error .missingField

end Hachoir.Formats.Elf
