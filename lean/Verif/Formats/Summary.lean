import Verif.Formats.Reader
import Verif.Field.Gaps
import Verif.Core.Tools

/-!
# Summaries of Office documents

Model of /repo/hachoir/parser/misc/msoffice_summary.py: `PropertyIndex` (46-113), `PropertyContent` (175-301), `SummarySection` (304-327),
`SummaryIndex` and `Summary` (330-371), for little endian files; and of `getFieldByAddress`
(/repo/hachoir/field/generic_field_set.py:484-495) in a section, which is how metadata find a property.

Not modelled: big endian files (of Macintosh), properties of type NULL, floats, variants, blobs and thumbnails (`.notImplemented`), sections with a property that
cannot be read or does not lie in the section (the real section ends there), `CompObj`.
-/

namespace Hachoir.Formats.Summary
open Hachoir Hachoir.Stream Hachoir.Field Hachoir.Formats

/-- `PropertyIndex`, lines 104-110: number and place of a property. -/
structure Index where
  id : Nat
  offset : Nat
deriving DecidableEq, Repr

/-- The charset of `CODEPAGE_CHARSET`, /repo/hachoir/parser/common/win32.py:9-26. -/
def codepageCharset (n : Nat) : Option String :=
  if n = 874 then some "CP874" else if n = 1250 then some "WINDOWS-1250" else if n = 1251 then some "WINDOWS-1251"
  else if n = 1252 then some "WINDOWS-1252" else if n = 1253 then some "WINDOWS-1253" else if n = 1254 then some "WINDOWS-1254"
  else if n = 1255 then some "WINDOWS-1255" else if n = 1256 then some "WINDOWS-1256" else if n = 1257 then some "WINDOWS-1257"
  else if n = 1258 then some "WINDOWS-1258" else if n = 10000 then some "MacRoman" else if n = 65001 then some "UTF-8" else none

/-- A value with its field class: `text` in the charset of the section, `wide` in UTF-16, `time` and `span` in 100 ns. -/
inductive Value where
  | num (n : Nat)
  | flag (b : Bool)
  | text (charset : Option String) (b : Bytes)
  | wide (b : Bytes)
  | time (n : Nat)
  | span (n : Nat)
deriving DecidableEq, Repr

/-- What a property holds: nothing the parser reads, a value, or a vector of values. -/
inductive Content where
  | nothing
  | value (v : Value)
  | items (l : List Value)
deriving DecidableEq, Repr

/-- The classes of `TYPE_INFO`. -/
inductive Kind where
  | short | long | bool | text | wide | time | other
deriving DecidableEq, Repr

/-- `TYPE_INFO`, lines 215-257 and 301: `none` where there is no class or the type is unknown. -/
def handlerOf (t : Nat) : Option Kind :=
  if t = 2 then some .short else if t = 3 then some .long else if t = 11 then some .bool else if t = 30 then some .text
  else if t = 31 then some .wide else if t = 64 then some .time
  else if t = 1 ∨ t = 4 ∨ t = 5 ∨ t = 12 ∨ t = 65 ∨ t = 71 then some .other else none

/-- One field of the class, lines 271-298: `Bool` (116-120), `PascalString32`, `WidePascalString32` (198-213), `TimestampWin64` or, for the
total editing time, `TimedeltaWin64` (283-285). -/
def valueOf (cs : Option String) (editing : Bool) : Kind → Rd Value
  | .short => do let n ← Rd.int 2 .little; pure (.num n)
  | .long => do let n ← Rd.int 4 .little; pure (.num n)
  | .bool => do let n ← Rd.signed 1 .little; pure (.flag (decide (n = -1)))
  | .text => do let b ← Rd.text .little .pascal32 .eightBit none; pure (.text cs b)
  | .wide => do
      let n ← Rd.int 4 .little
      let b ← Rd.text .little .fixed .utf16le (some ((2 * n : Nat) : Int))
      pure (.wide b)
  | .time => do let n ← Rd.int 8 .little; pure (if editing then .span n else .time n)
  | .other => Rd.fail .notImplemented

/-- Lines 288-298. -/
def held (cs : Option String) (editing vector : Bool) : Option Kind → Rd Content
  | none => pure .nothing
  | some k =>
    if vector then do
      let n ← Rd.int 4 .little
      let l ← Rd.times (valueOf cs editing k) n
      pure (.items l)
    else do
      let v ← valueOf cs editing k
      pure (.value v)

/-- `PropertyContent.createFields`, lines 260-298. -/
def content (cs : Option String) (editing : Bool) : Rd Content := do
  let h ← Rd.bits .little [12, 1, 19]
  held cs editing (h.getD 1 0 == 1) (handlerOf (h.getD 0 0))

/-- Whether the description of the property is "TotalEditingTime", lines 82-111 and 319. -/
def isEditing (doc : Bool) (id : Nat) : Bool := !doc && id == 10

/-- The charset after a property, lines 321-327: only the first known code page counts. -/
def nextCharset (cs : Option String) (id : Nat) (c : Content) : Option String :=
  match cs with
  | some s => some s
  | none =>
    if id = 1 then
      match c with
      | .value (.num n) => codepageCharset n
      | _ => none
    else none

/-- A property with its place and size in bytes, the place relative to the section. -/
structure Property where
  id : Nat
  addr : Nat
  size : Nat
  content : Content
deriving DecidableEq, Repr

/-- A section. -/
structure Section where
  size : Nat
  props : List Property
deriving DecidableEq, Repr

/-- One property, lines 317-320. -/
def property (doc : Bool) (base size : Nat) (cs : Option String) (i : Index) : Rd Property := do
  Rd.jump (base + i.offset)
  let c ← content cs (isEditing doc i.id)
  let e ← Rd.place
  if size < e / 8 - base then Rd.fail .notImplemented
  else pure ⟨i.id, i.offset, e / 8 - (base + i.offset), c⟩

/-- The properties in the order of the index, lines 316-327. -/
def properties (doc : Bool) (base size : Nat) : Option String → List Index → Rd (List Property × Option String)
  | cs, [] => pure ([], cs)
  | cs, i :: l => do
      let p ← property doc base size cs i
      let r ← properties doc base size (nextCharset cs i.id p.content) l
      pure (p :: r.1, r.2)

/-- `PropertyIndex`. -/
def index : Rd Index := do
  let i ← Rd.int 4 .little
  let o ← Rd.int 4 .little
  pure ⟨i, o⟩

/-- `SummarySection`, lines 304-327. -/
def «section» (doc : Bool) (base : Nat) (cs : Option String) : Rd (Section × Option String) := do
  let size ← Rd.int 4 .little
  let count ← Rd.int 4 .little
  let l ← Rd.times index count
  let r ← properties doc base size cs l
  pure (⟨size, r.1⟩, r.2)

/-- The sections, lines 365-367: the charset is kept from one to the next. -/
def sections (doc : Bool) : Option String → List Nat → Rd (List Section)
  | _, [] => pure []
  | cs, o :: l => do
      Rd.jump o
      let s ← «section» doc o cs
      let r ← sections doc s.2 l
      pure (s.1 :: r)

/-- `SummaryIndex`, lines 330-335: only the offset is used. -/
def sectionIndex : Rd Nat := do
  let _ ← Rd.text .little .fixed .eightBit (some 16)
  Rd.int 4 .little

/-- `MAX_SECTION_COUNT`, lines 23 and 355-357. -/
def sectionIndices (n : Nat) : Rd (List Nat) := if 100 < n then Rd.fail .parser else Rd.times sectionIndex n

/-- The header before the sections, lines 348-354: number of sections. -/
def summaryHead : Rd Nat := do
  let e ← Rd.raw 2
  let _ ← Rd.int 2 .little
  let _ ← Rd.int 1 .little
  let _ ← Rd.int 1 .little
  let _ ← Rd.int 2 .little
  let _ ← Rd.raw 16
  let n ← Rd.int 4 .little
  if e = [0xfe, 0xff] then pure n else if e = [0xff, 0xfe] then Rd.fail .notImplemented else Rd.fail .parser

/-- `Summary.createFields`, lines 347-371, and the check of the endian (/repo/hachoir/parser/misc/ole2_util.py:18-24). -/
def summary (doc : Bool) : Rd (List Section) := do
  let n ← summaryHead
  let l ← sectionIndices n
  sections doc none l

/-! ### Finding a property by its place -/

/-- A field of a section: place and size in bytes, and what it holds if it is a property. -/
structure Slot where
  addr : Nat
  size : Nat
  content : Option Content
deriving DecidableEq, Repr

/-- The fields made by `createFields`, in the order they are made, lines 312-320. -/
def made (s : Section) : List Slot :=
  ⟨0, 4, none⟩ :: ⟨4, 4, none⟩ :: ((List.range s.props.length).map fun i => ⟨8 + 8 * i, 8, none⟩) ++ s.props.map fun p => ⟨p.addr, p.size, some p.content⟩

/-- All the fields: what no field covers is added at the end as `unparsed[]` (`_fixLastField`, /repo/hachoir/field/seekable_field_set.py:49-82;
`Gaps.getgaps`).  Addresses are in bytes here and in bits there. -/
def allFields (s : Section) : List Slot :=
  made s ++ (Gaps.getgaps 0 s.size ((made s).map fun x => ((x.addr : Int), (x.size : Int)))).map fun g => ⟨g.1.toNat, g.2.toNat, none⟩

/-- `getFieldByAddress` after all fields are made, /repo/hachoir/field/generic_field_set.py:484-495: a binary search in the list. -/
def fieldByAddress (l : List Slot) (size addr : Nat) : Except PyErr (Option Slot) :=
  if addr < size then
    match Tools.lowerBound l (fun x => decide (x.addr + x.size ≤ addr)) with
    | .error e => .error e
    | .ok i =>
      match l[i]? with
      | none => .error .index
      | some x => .ok (some x)
  else .ok none

/-- `summary.getFieldByAddress(property["offset"].value * 8)`, /repo/hachoir/metadata/misc.py:169. -/
def lookup (s : Section) (addr : Nat) : Except PyErr (Option Slot) := fieldByAddress (allFields s) s.size addr

end Hachoir.Formats.Summary
