import Verif.Formats.Cab

/-!
# X11 fonts (`parser/misc/pcf.py`)

Left out: padding, descriptions.
-/

namespace Hachoir.Formats.Pcf
open Hachoir Hachoir.Stream Hachoir.Field Hachoir.Formats

/-- `TOC`, pcf.py:42-46. -/
structure Entry where
  type : Nat
  format : Nat
  size : Nat
  offset : Nat
  deriving DecidableEq, Repr

def entry : Rd Entry := do
  let type ← Rd.int 4 .little
  let format ← Rd.int 4 .little
  let size ← Rd.int 4 .little
  let offset ← Rd.int 4 .little
  pure ⟨type, format, size, offset⟩

/-- `PropertiesFormat`, pcf.py:57-62. -/
def format : Rd (List Nat) := Rd.bits .little [2, 1, 1, 2, 26]

/-- The byte order, pcf.py:83-86. -/
def endianOf (f : List Nat) : Endian := if f.getD 1 0 ≠ 0 then .big else .little

/-- `Property`, pcf.py:67-70. -/
structure Property where
  name : Nat
  isString : Nat
  value : Nat
  deriving DecidableEq, Repr

def property (e : Endian) : Rd Property := do
  let name ← Rd.int 4 e
  let isString ← Rd.int 1 e
  let value ← Rd.int 4 e
  pure ⟨name, isString, value⟩

/-- `CString`, whose charset is guessed later. -/
def cstring : Rd Bytes := Rd.text .little .c .eightBit none

/-- pcf.py:130-131. -/
def valueOf (isString : Nat) : Rd (Option Bytes) := if isString = 0 then pure none else do
  let v ← cstring
  pure (some v)

/-- The body of the loop of pcf.py:125-131; the names begin at the byte `base`. -/
def named (base : Nat) (p : Property) : Rd (Property × Bytes × Option Bytes) := do
  Rd.seek (base + p.name)
  let name ← cstring
  let value ← valueOf p.isString
  pure (p, name, value)

def sorted (ps : List Property) : List Property := ps.mergeSort fun p q => decide (p.name ≤ q.name)

/-- pcf.py:122-131. -/
def properties3 (e : Endian) (ps : List Property) : Rd (List (Property × Bytes × Option Bytes)) := do
  let _ ← Rd.int 4 e
  let a ← Rd.place
  Rd.each (named (a / 8)) (sorted ps)

/-- pcf.py:113-131: the padding is that of 8 bytes and 9 for each property. -/
def properties2 (e : Endian) : Rd (List (Property × Bytes × Option Bytes)) := do
  let n ← Rd.int 4 e
  let ps ← Rd.times (property e) n
  let _ ← Cab.rawOr ((4 - (8 + 9 * n) % 4) % 4)
  properties3 e ps

/-- `Properties`, pcf.py:111-131. -/
def properties : Rd (List (Property × Bytes × Option Bytes)) := do
  let f ← format
  properties2 (endianOf f)

/-- The body of the loop of pcf.py:99-103. -/
def glyph (base offset : Nat) : Rd Bytes := do
  Rd.seek (base + offset)
  cstring

def glyphs2 (e : Endian) : Rd (List Bytes) := do
  let n ← Rd.int 4 e
  let os ← Rd.times (Rd.int 4 e) n
  let _ ← Rd.int 4 e
  let a ← Rd.place
  Rd.each (glyph (a / 8)) (os.mergeSort fun p q => decide (p ≤ q))

/-- `GlyphNames`, pcf.py:88-103. -/
def glyphs : Rd (List Bytes) := do
  let f ← format
  glyphs2 (endianOf f)

inductive Table where
  | properties (ps : List (Property × Bytes × Option Bytes))
  | glyphs (ns : List Bytes)
  | data (b : Bytes)
  | empty
  deriving DecidableEq, Repr

/-- pcf.py:168-180: the content of a table of `size` bytes. -/
def content (type size : Nat) : Rd Table :=
  if size = 0 then pure .empty
  else if type = 1 then do
    let ps ← Rd.within size properties
    pure (.properties ps)
  else if type = 128 then do
    let ns ← Rd.within size glyphs
    pure (.glyphs ns)
  else do
    let b ← Rd.raw size
    pure (.data b)

/-- The size that is left, pcf.py:168-172. -/
def room (size : Nat) : Rd Nat := fun _ stop addr => .ok (min size ((stop - addr) / 8), addr)

def body (x : Entry) : Rd (Entry × Table) := do
  let n ← room x.size
  let t ← content x.type n
  pure (x, t)

/-- The body of the loop of pcf.py:163-180. -/
def table (x : Entry) : Rd (Entry × Table) := do
  Rd.seek x.offset
  body x

/-- `createFields`, pcf.py:155-161: signature and entries. -/
def start : Rd (Bytes × List Entry) := do
  let signature ← Rd.raw 4
  let n ← Rd.int 4 .little
  let entries ← Rd.times entry n
  pure (signature, entries)

/-- `createFields`, pcf.py:154-180: signature, entries and tables in the order of their places. -/
def file : Rd (Bytes × List Entry × List (Entry × Table)) := do
  let p ← start
  let tables ← Rd.each table (p.2.mergeSort fun a b => decide (a.offset ≤ b.offset))
  pure (p.1, p.2, tables)

/-- `validate`, pcf.py:149-152. -/
def valid (signature : Bytes) : Bool := signature == [1, 0x66, 0x63, 0x70]

end Hachoir.Formats.Pcf
