import Verif.Formats.Asn1
import Verif.Formats.Macho
import Verif.Formats.Reader

/-!
# IPTC records and Photoshop resources (`parser/image/iptc.py`, `parser/image/photoshop_metadata.py`), and what is told of them

Texts are kept as bytes: the charset is guessed later (string_field.py:258-261).  Contents of resources other than IPTC are kept as bytes.
-/

namespace Hachoir.Formats.Iptc
open Hachoir Hachoir.Stream Hachoir.Field Hachoir.Formats

/-- The class of a content, iptc.py:25-57 and 101-110. -/
inductive Kind where
  | u16 | u8 | text | raw
  deriving DecidableEq, Repr

/-- `dataset2` with class `IPTC_String`, iptc.py:33-55. -/
def textTags : List Nat := [22, 25, 30, 35, 40, 55, 60, 65, 70, 80, 85, 90, 95, 100, 101, 103, 105, 110, 115, 116, 120, 122, 231]

/-- iptc.py:27-57; `dataset1` is empty. -/
def kind (dataset tag : Nat) : Kind :=
  if dataset = 2 then
    if tag = 0 then .u16
    else if tag = 10 then .u8
    else if tag ∈ textTags then .text
    else .raw
  else .raw

inductive Content where
  | num (v : Nat)
  | text (b : Bytes)
  | raw (b : Bytes)
  deriving DecidableEq, Repr

structure Chunk where
  dataset : Nat
  tag : Nat
  size : Nat
  content : Option Content
  deriving DecidableEq, Repr

/-- `IPTC_Size`, iptc.py:60-75: words of 15 bits, all but the last with the highest bit set; `fuel` bounds the words. -/
def sizeLoop (acc : Nat) : Nat → Rd Nat
  | 0 => Rd.fail .endless
  | fuel + 1 => do
    let v ← Rd.int 2 .big
    if v < 0x8000 then pure (acc * 0x8000 + v % 0x8000) else sizeLoop (acc * 0x8000 + v % 0x8000) fuel

/-- iptc.py:101-110. -/
def contentOf (k : Kind) (size : Nat) : Rd (Option Content) :=
  if size = 0 then pure none
  else
    match k with
    | .u16 => Rd.bind (Rd.int 2 .big) fun v => Rd.pure (some (.num v))
    | .u8 => Rd.bind (Rd.int 1 .big) fun v => Rd.pure (some (.num v))
    | .text => Rd.bind (Rd.text .big .fixed .eightBit (some size)) fun b => Rd.pure (some (.text b))
    | .raw => Rd.bind (Rd.raw size) fun b => Rd.pure (some (.raw b))

def chunk2 (fuel : Nat) : Rd Chunk := do
  let dataset ← Rd.int 1 .big
  let tag ← Rd.int 1 .big
  let size ← sizeLoop 0 fuel
  let content ← Rd.within size (contentOf (kind dataset tag) size)
  pure ⟨dataset, tag, size, content⟩

/-- `IPTC_Chunk`, iptc.py:78-110: its size is what the size field says (line 91). -/
def chunk (fuel : Nat) : Rd Chunk := do
  let signature ← Rd.int 1 .big
  if signature ≠ 0x1C then Rd.fail .parser else chunk2 fuel

/-- Bytes up to the end of the field set. -/
def left : Rd Nat := fun _ stop addr => .ok ((stop - addr) / 8, addr)

/-- `IPTC`, iptc.py:113-120, and the size of the padding; `fuel` bounds chunks and words of sizes. -/
def chunks : Nat → Rd (List Chunk × Bytes)
  | 0 => Rd.fail .endless
  | fuel + 1 => do
    let n ← left
    if 5 ≤ n then
      Rd.bind (chunk fuel) fun c => Rd.bind (chunks fuel) fun cs => Rd.pure (c :: cs.1, cs.2)
    else Rd.bind (Cab.rawOr n) fun b => Rd.pure ([], b)

/-! ## Photoshop resources -/

structure Resource where
  tag : Nat
  name : Bytes
  data : Bytes
  deriving DecidableEq, Repr

/-- photoshop_metadata.py:163-168: the name, with its padding and the upper half of the size. -/
def nameOf (four : Bytes) : Rd Bytes :=
  if four ≠ [0, 0, 0, 0] then do
    let name ← Rd.text .big .pascal8 .eightBit none
    let _ ← Rd.raw (2 + (1 + name.length) % 2)
    pure name
  else do
    let _ ← Rd.raw 4
    pure []

/-- photoshop_metadata.py:169-179: the content is filled up to an even size (`alignValue`). -/
def resource3 (tag : Nat) (name : Bytes) : Rd Resource := do
  let size ← Rd.int 2 .big
  let data ← Cab.rawOr (size + size % 2)
  pure ⟨tag, name, data⟩

def resource2 : Rd Resource := do
  let tag ← Rd.int 2 .big
  let four ← Macho.first4
  let name ← nameOf four
  resource3 tag name

/-- `Photoshop8BIM`, photoshop_metadata.py:147-179. -/
def resource : Rd Resource := do
  let signature ← Rd.text .big .fixed .eightBit (some 4)
  if signature ≠ [0x38, 0x42, 0x49, 0x4D] then Rd.fail .parser else resource2

/-- "Photoshop 3.0". -/
def version3 : Bytes := [0x50, 0x68, 0x6F, 0x74, 0x6F, 0x73, 0x68, 0x6F, 0x70, 0x20, 0x33, 0x2E, 0x30]

/-- `PhotoshopMetadata`, photoshop_metadata.py:182-191, of version 3.0. -/
def photoshop (fuel : Nat) : Rd (List Resource) := do
  let signature ← Rd.text .big .c .eightBit none
  if signature ≠ version3 then Rd.fail .notImplemented else Rd.whileNotEof resource fuel

/-! ## What is told -/

inductive Key where
  | author | city | country | copyright | title | comment
  deriving DecidableEq, Repr

/-- `IPTC_KEY`, metadata/jpeg.py:52-59. -/
def keyOf (tag : Nat) : Option Key :=
  if tag = 80 then some .author
  else if tag = 90 then some .city
  else if tag = 101 then some .country
  else if tag = 116 then some .copyright
  else if tag = 120 then some .title
  else if tag = 231 then some .comment
  else none

/-- Line ends become spaces, metadata/jpeg.py:274-275. -/
def oneLine (b : Bytes) : Bytes := b.map fun c => if c = 13 ∨ c = 10 then 32 else c

/-- The value of a content, metadata/jpeg.py:272-275; texts lose spaces around them (iptc.py:21-22).  Numbers are never told. -/
def valueOf : Content → Bytes
  | .num _ => []
  | .text b => oneLine (stripText (· == 32) b)
  | .raw b => b

structure Told where
  date : Bytes := []
  time : Bytes := []
  values : List (Key × Bytes) := []
  deriving DecidableEq, Repr

/-- The loop of `parseIPTC`, metadata/jpeg.py:264-290. -/
def tell (t : Told) (c : Chunk) : Told :=
  match c.content with
  | none => t
  | some x =>
    if c.tag = 55 then { t with date := valueOf x }
    else if c.tag = 60 then { t with time := valueOf x }
    else
      match keyOf c.tag with
      | none => t
      | some k => { t with values := t.values ++ [(k, valueOf x)] }

def tellAll (cs : List Chunk) : Told := cs.foldl tell {}

/-- metadata/jpeg.py:291-301: the creation date. -/
def dateOf (date time : Bytes) : Option Time.DateTime :=
  if date = [] ∨ time = [] then none
  else
    match utcNumber date 0 4, utcNumber date 4 6, utcNumber date 6 8, utcNumber time 0 2, utcNumber time 2 4, utcNumber time 4 6 with
    | .ok y, .ok m, .ok d, .ok h, .ok mi, .ok s =>
      match Time.datetime y m d h mi s with
      | .ok r => some r
      | .error _ => none
    | _, _, _, _, _, _ => none

end Hachoir.Formats.Iptc
