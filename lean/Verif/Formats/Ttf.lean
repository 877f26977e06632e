import Verif.Formats.Cab
import Verif.Core.Human
import Mathlib.Data.Rat.Defs
import Mathlib.Algebra.Order.Field.Rat
import Mathlib.Data.Nat.Digits.Defs

/-!
# TrueType fonts (`parser/misc/ttf.py`)

The directory, the font header, the names, the maximum profile, the PostScript table and the
variations.  The fields of the tables `DSIG`, `GSUB`, `avar`, `cmap`, `hhea` and `OS/2` are not
modelled.  Left out: padding between tables, descriptions, displays.
-/

namespace Hachoir.Formats.Ttf
open Hachoir Hachoir.Stream Hachoir.Field Hachoir.Formats Hachoir.Human

/-- Unsigned integers of these sizes in bytes. -/
def numbers (ws : List Nat) : Rd (List Nat) := Rd.each (fun w => Rd.int w .big) ws

/-- `Tag`, ttf.py:100-102. -/
def tag : Rd Bytes := Rd.text .big .fixed .eightBit (some 4)

/-- `TableHeader`, ttf.py:145-150. -/
structure Entry where
  tag : Bytes
  checksum : Nat
  offset : Nat
  size : Nat
  deriving DecidableEq, Repr

def entry : Rd Entry := do
  let t ← tag
  let checksum ← Rd.int 4 .big
  let offset ← Rd.int 4 .big
  let size ← Rd.int 4 .big
  pure ⟨t, checksum, offset, size⟩

/-! ## Versions -/

/-- The digits of `"%x" % n`. -/
def hexDigits (n : Nat) : List Nat := if n = 0 then [0] else (Nat.digits 16 n).reverse

/-- Decimal digits as a number. -/
def decimalOf (l : List Nat) : Nat := l.foldl (fun n d => 10 * n + d) 0

/-- The number `float("%u.%x")` of `Version16Dot16`, ttf.py:112-113; `none` is the `ValueError` of
`float`, which gives the value `None`.  (The number is exact here.) -/
def version (major minor : Nat) : Option ℚ :=
  match (hexDigits minor).span (· < 10) with
  | (a, []) => some (major + decimalOf a / 10 ^ a.length)
  | (a, d :: b) => if d = 14 ∧ b ≠ [] ∧ b.all (· < 10) then some ((major + decimalOf a / 10 ^ a.length) * 10 ^ decimalOf b) else none

/-- `Fixed`, ttf.py:116-122. -/
def fixed (whole fraction : Nat) : ℚ := whole + fraction / 65536

/-! ## Font header -/

/-- `parseFontHeader`, ttf.py:180-232: versions and checksum; flags; units per em; dates (high and low half) and
box; style; smallest size, direction, formats. -/
structure Head where
  versions : List Nat
  flags : List Nat
  em : Nat
  dates : List Nat
  style : List Nat
  last : List Nat
  deriving DecidableEq, Repr

def Head.created (h : Head) : Nat := h.dates.getD 1 0
def Head.modified (h : Head) : Nat := h.dates.getD 3 0
def Head.bold (h : Head) : Bool := h.style.getD 0 0 = 1
def Head.italic (h : Head) : Bool := h.style.getD 1 0 = 1
def Head.lowest (h : Head) : Nat := h.last.getD 0 0
def Head.direction (h : Head) : Nat := h.last.getD 1 0

/-- ttf.py:207-232 -/
def head3 (versions flags : List Nat) (em : Nat) : Rd Head :=
  if ¬ (16 ≤ em ∧ em ≤ 16384) then Rd.fail .parser else do
    let dates ← numbers [4, 4, 4, 4, 2, 2, 2, 2]
    let style ← Rd.bits .big [1, 1, 1, 1, 1, 1, 1, 9]
    let last ← numbers [2, 2, 2, 2]
    pure ⟨versions, flags, em, dates, style, last⟩

/-- ttf.py:187-208 -/
def head2 (versions : List Nat) (magic : Bytes) : Rd Head :=
  if magic ≠ [0x5F, 0x0F, 0x3C, 0xF5] then Rd.fail .parser else do
    let flags ← Rd.bits .big [1, 1, 1, 1, 1, 1, 1, 1, 1, 1, 1, 1, 1, 1, 2]
    let em ← Rd.int 2 .big
    head3 versions flags em

/-- `parseFontHeader`, ttf.py:180-232. -/
def head : Rd Head := do
  let versions ← numbers [2, 2, 2, 2, 4]
  let magic ← Rd.raw 4
  head2 versions magic

/-! ## Names -/

/-- `NameHeader`, ttf.py:156-163. -/
structure NameHeader where
  platform : Nat
  encoding : Nat
  language : Nat
  name : Nat
  length : Nat
  offset : Nat
  deriving DecidableEq, Repr

def nameHeader : Rd NameHeader := do
  let platform ← Rd.int 2 .big
  let encoding ← Rd.int 2 .big
  let language ← Rd.int 2 .big
  let name ← Rd.int 2 .big
  let length ← Rd.int 2 .big
  let offset ← Rd.int 2 .big
  pure ⟨platform, encoding, language, name, length, offset⟩

inductive NameCharset where
  | utf16
  | macRoman
  | latin1
  deriving DecidableEq, Repr

/-- `getCharset` and `CHARSET_MAP`, ttf.py:82-87, 165-172. -/
def charsetOf (h : NameHeader) : NameCharset :=
  if h.platform = 0 ∧ h.encoding = 3 then .utf16
  else if h.platform = 1 ∧ h.encoding = 0 then .macRoman
  else if h.platform = 3 ∧ h.encoding = 1 then .utf16
  else .latin1

/-- A field of the table: place and size in bytes, and the header when it is a text. -/
structure Slot where
  place : Nat
  size : Nat
  header : Option NameHeader
  deriving DecidableEq, Repr

/-- Bytes up to the end of the table, if any. -/
def restSlot (size cur : Nat) : List Slot := if cur < size then [⟨cur, size - cur, none⟩] else []

/-- Padding, if any. -/
def gapSlot (cur place : Nat) : List Slot := if cur < place then [⟨cur, place - cur, none⟩] else []

/-- The loop over the sorted headers, ttf.py:513-543: `size` is that of the table, `pool` the offset of the texts, `cur` the current size.  A field
that ends behind the table is deleted, and the rest of the table is one field (generic_field_set.py:203-213). -/
def layout (size pool : Nat) : Nat → Option (Nat × Nat) → List NameHeader → List Slot
  | cur, _, [] => restSlot size cur
  | cur, last, h :: r =>
    if last = some (h.offset, h.length) then layout size pool cur last r
    else if pool + h.offset < cur then layout size pool cur (some (h.offset, h.length)) r
    else if size < pool + h.offset then restSlot size cur
    else if h.length = 0 then gapSlot cur (pool + h.offset) ++ layout size pool (pool + h.offset) (some (h.offset, h.length)) r
    else if size < pool + h.offset + h.length then gapSlot cur (pool + h.offset) ++ restSlot size (pool + h.offset)
    else gapSlot cur (pool + h.offset) ++ ⟨pool + h.offset, h.length, some h⟩ :: layout size pool (pool + h.offset + h.length) (some (h.offset, h.length)) r

/-- The fields for the headers themselves. -/
def headerSlots : Nat → Nat → List Slot
  | _, 0 => []
  | cur, n + 1 => ⟨cur, 12, none⟩ :: headerSlots (cur + 12) n

/-- All fields of the table, ttf.py:493-543. -/
def slots (size pool : Nat) (headers : List NameHeader) : List Slot :=
  [⟨0, 2, none⟩, ⟨2, 2, none⟩, ⟨4, 2, none⟩] ++ (headerSlots 6 headers.length ++
    layout size pool (6 + 12 * headers.length) none (headers.mergeSort fun a b => decide (a.offset ≤ b.offset)))

structure Names where
  pool : Nat
  headers : List NameHeader
  slots : List Slot
  deriving DecidableEq, Repr

/-- The size of the table, from its first field. -/
def names3 (size pool : Nat) (headers : List NameHeader) : Rd Names := pure ⟨pool, headers, slots size pool headers⟩

/-- ttf.py:498-508 -/
def names2 (size count pool : Nat) : Rd Names :=
  if 300 < count then Rd.fail .parser else do
    let headers ← Rd.times nameHeader count
    names3 size pool headers

/-- ttf.py:495-501 -/
def names1 (size format : Nat) : Rd Names :=
  if format ≠ 0 then Rd.fail .parser else do
    let count ← Rd.int 2 .big
    let pool ← Rd.int 2 .big
    names2 size count pool

/-- `parseNames`, ttf.py:493-543, of a table of `size` bytes. -/
def names (size : Nat) : Rd Names := do
  let format ← Rd.int 2 .big
  names1 size format

/-- `getFieldByAddress`, generic_field_set.py:484-495: the first field that ends behind the place (in bytes).  (The fields follow each other.) -/
def fieldAt (l : List Slot) (place : Nat) : Option Slot := l.find? fun x => decide (place < x.place + x.size)

/-- The bytes of a field of the table that begins at the byte `base` of the file. -/
def slotBytes (s : InputStream) (base : Nat) (x : Slot) : Except PyErr Bytes :=
  match readBytes s (8 * (base + x.place) : Nat) x.size with
  | .error e => .error e
  | .ok b => .ok b

/-! ## Maximum profile -/

/-- ttf.py:550-571 -/
def maxp3 (n : Nat) : Option ℚ → Rd (Nat × Option (List Nat))
  | none => Rd.fail .type
  | some v => if 1 ≤ v then do
      let ns ← numbers [2, 2, 2, 2, 2, 2, 2, 2, 2, 2, 2, 2, 2]
      pure (n, some ns)
    else pure (n, none)

/-- `parseMaxp`, ttf.py:546-571: number of glyphs, and the limits. -/
def maxp : Rd (Nat × Option (List Nat)) := do
  let major ← Rd.int 2 .big
  let minor ← Rd.int 2 .big
  let n ← Rd.int 2 .big
  maxp3 n (version major minor)

/-! ## PostScript -/

/-- `PascalString8` for every glyph whose index is at least 258, ttf.py:674-676. -/
def glyphNames : Nat → List Nat → Rd (List (Nat × Bytes))
  | _, [] => pure []
  | gid, i :: r => if i < 258 then glyphNames (gid + 1) r else do
      let b ← Rd.text .big .pascal8 .eightBit none
      let more ← glyphNames (gid + 1) r
      pure ((gid, b) :: more)

structure Post where
  italic : ℚ
  underline : List Int
  memory : List Nat
  names : Option (List Nat × List (Nat × Bytes))
  deriving DecidableEq, Repr

/-- ttf.py:666-676; the vector of no items raises (vector.py:10-12). -/
def postIndices (n : Nat) : Rd (Option (List Nat × List (Nat × Bytes))) :=
  if n = 0 then Rd.fail .parser else do
    let indices ← Rd.times (Rd.int 2 .big) n
    let names ← glyphNames 0 indices
    pure (some (indices, names))

/-- ttf.py:664-676.  The branch of lines 677-686 has the same condition and is never taken. -/
def postNames (v : Option ℚ) : Rd (Option (List Nat × List (Nat × Bytes))) :=
  if v = some 2 then do
    let n ← Rd.int 2 .big
    postIndices n
  else pure none

/-- `parsePost`, ttf.py:650-686. -/
def post : Rd Post := do
  let vs ← numbers [2, 2]
  let angle ← numbers [2, 2]
  let position ← Rd.signed 2 .big
  let thickness ← Rd.signed 2 .big
  let memory ← numbers [4, 4, 4, 4, 4]
  let names ← postNames (version (vs.getD 0 0) (vs.getD 1 0))
  pure ⟨fixed (angle.getD 0 0) (angle.getD 1 0), [position, thickness], memory, names⟩

/-! ## Variations -/

/-- `VariationAxisRecord`, ttf.py:261-275: tag, the least, usual and greatest coordinate, hidden, and the name. -/
structure Axis where
  tag : Bytes
  values : List Nat
  flags : List Nat
  name : Nat
  deriving DecidableEq, Repr

def axis : Rd Axis := do
  let t ← tag
  let values ← numbers [2, 2, 2, 2, 2, 2]
  let flags ← Rd.bits .big [15, 1]
  let name ← Rd.int 2 .big
  pure ⟨t, values, flags, name⟩

/-- `InstanceRecord`, ttf.py:278-295: the name, the coordinates, the PostScript name. -/
structure Instance where
  name : Nat
  coordinates : List (Nat × Nat)
  postScript : Option Nat
  deriving DecidableEq, Repr

/-- `Fixed`, ttf.py:116-119. -/
def coordinate : Rd (Nat × Nat) := do
  let a ← Rd.int 2 .big
  let b ← Rd.int 2 .big
  pure (a, b)

/-- ttf.py:290-295 -/
def postScriptName (has : Bool) : Rd (Option Nat) := if has then do
    let n ← Rd.int 2 .big
    pure (some n)
  else pure none

def «instance» (axes : Nat) (has : Bool) : Rd Instance := do
  let name ← Rd.int 2 .big
  let _ ← Rd.int 2 .big
  let coordinates ← Rd.times coordinate axes
  let ps ← postScriptName has
  pure ⟨name, coordinates, ps⟩

/-- ttf.py:311-323; a font without axes has empty tuples, whose size 0 ends the reading (generic_field_set.py:186), and is not modelled. -/
def fvar2 (offset axes instances size : Nat) : Rd (List Axis × List Instance) := do
  let _ ← Cab.rawOr (offset - 16)
  let as ← Rd.times axis axes
  let is ← Rd.times («instance» axes (decide (size = 2 * axes + 6))) instances
  pure (as, is)

/-- `parseFvar`, ttf.py:298-323. -/
def fvar : Rd (List Axis × List Instance) := do
  let ns ← numbers [2, 2, 2, 2, 2, 2, 2, 2]
  fvar2 (ns.getD 2 0) (ns.getD 4 0) (ns.getD 6 0) (ns.getD 7 0)

/-! ## Files -/

inductive Table where
  | head (h : Head)
  | names (n : Names)
  | maxp (m : Nat × Option (List Nat))
  | post (p : Post)
  | fvar (f : List Axis × List Instance)
  | data (b : Bytes)
  /-- a table whose fields are not modelled -/
  | other
  /-- reading its fields raised -/
  | broken
  | empty
  deriving DecidableEq, Repr

/-- The fields of a table of `size` bytes: an exception ends this table only, its size being known (generic_field_set.py:311-319). -/
def fields {α : Type} (size : Nat) (f : α → Table) (r : Rd α) : Rd Table := fun s stop addr =>
  match Rd.within size r s stop addr with
  | .error _ => .ok (.broken, addr + 8 * size)
  | .ok (a, addr) => .ok (f a, addr)

/-- ttf.py:803-805 and `Table`, ttf.py:728-756. -/
def content (tag : Bytes) (size : Nat) : Rd Table :=
  if size = 0 then pure .empty
  else if tag = asc "head" then fields size .head head
  else if tag = asc "name" then fields size .names (names size)
  else if tag = asc "maxp" then fields size .maxp maxp
  else if tag = asc "post" then fields size .post post
  else if tag = asc "fvar" then fields size .fvar fvar
  else if tag ∈ [asc "DSIG", asc "GSUB", asc "avar", asc "cmap", asc "hhea", asc "OS/2"] then fields size (fun _ => .other) (pure ())
  else fields size .data (Rd.raw size)

def body (x : Entry) : Rd (Entry × Table) := do
  let t ← content x.tag x.size
  pure (x, t)

/-- The body of the loop of ttf.py:799-805. -/
def table (x : Entry) : Rd (Entry × Table) := do
  Rd.seek x.offset
  body x

/-- `createFields`, ttf.py:787-797: versions, number of tables, search values; and the entries. -/
def start2 (ns : List Nat) : Rd (List Nat × List Entry) := do
  let entries ← Rd.times entry (ns.getD 2 0)
  pure (ns, entries)

def start : Rd (List Nat × List Entry) := do
  let ns ← numbers [2, 2, 2, 2, 2, 2]
  start2 ns

/-- `createFields`, ttf.py:786-808. -/
def file : Rd (List Nat × List Entry × List (Entry × Table)) := do
  let p ← start
  let tables ← Rd.each table (p.2.mergeSort fun a b => decide (a.offset ≤ b.offset))
  pure (p.1, p.2, tables)

/-- `validate`, ttf.py:772-784. -/
def valid (ns : List Nat) : Bool :=
  (ns.getD 0 0 == 1 && ns.getD 1 0 == 0 || ns.getD 0 0 == 0x4F54 && ns.getD 1 0 == 0x544F) && decide (3 ≤ ns.getD 2 0) && decide (ns.getD 2 0 ≤ 30)

end Hachoir.Formats.Ttf
