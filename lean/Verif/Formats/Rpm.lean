import Verif.Formats.Cab

/-!
# RPM packages (`parser/archive/rpm.py`)

Descriptions and the names of tags, types and architectures are left out.
-/

namespace Hachoir.Formats.Rpm
open Hachoir Hachoir.Stream Hachoir.Field Hachoir.Formats

/-- `Item`, rpm.py:92-96. -/
structure Item where
  tag : Nat
  type : Nat
  offset : Nat
  count : Nat
  deriving DecidableEq, Repr

def item : Rd Item := do
  let tag ← Rd.int 4 .big
  let type ← Rd.int 4 .big
  let offset ← Rd.int 4 .big
  let count ← Rd.int 4 .big
  pure ⟨tag, type, offset, count⟩

/-- The values of an `ItemContent`: integers (characters are their codes), texts, or bytes. -/
inductive Value where
  | ints (vs : List Nat)
  | texts (vs : List Bytes)
  | raw (b : Bytes)
  deriving DecidableEq, Repr

/-- `ItemContent.createFields`, rpm.py:36-54.  A type not in `format_type` is a `KeyError`; a content without any field is refused where it is added
(/repo/hachoir/field/generic_field_set.py:184-190). -/
def content (type count : Nat) : Rd Value :=
  if type = 7 then do
    let b ← Rd.raw count
    pure (.raw b)
  else if 9 < type then Rd.fail .key
  else if count = 0 then Rd.fail .parser
  else if type = 6 ∨ type = 8 ∨ type = 9 then do
    let vs ← Rd.times (Rd.text .big .c .eightBit none) count
    pure (.texts vs)
  else do
    let vs ← Rd.times (Rd.int (if type ≤ 2 then 1 else if type = 3 then 2 else if type = 4 then 4 else 8) .big) count
    pure (.ints vs)

/-- `padding[]`, rpm.py:214-216: up to the offset if that is ahead, nothing otherwise. -/
def pad (base offset : Nat) : Rd Unit := fun _ _ addr => .ok ((), max addr (base + 8 * offset))

/-- The contents in the order of their offsets, rpm.py:212-217: the index of the item, the address (in bits) of its content, and its values. -/
def contents (base : Nat) : List (Nat × Item) → Rd (List (Nat × Nat × Value))
  | [] => pure []
  | (i, it) :: rest => do
    pad base it.offset
    let p ← Rd.place
    let v ← content it.type it.count
    let vs ← contents base rest
    pure ((i, p, v) :: vs)

/-- `PropertySet`. -/
structure Props where
  version : Nat
  reserved : Bytes
  size : Nat
  items : List Item
  contents : List (Nat × Nat × Value)
  deriving DecidableEq, Repr

/-- Going to an address in bits. -/
def goTo (addr : Nat) : Rd Unit := fun _ _ _ => .ok ((), addr)

/-- The size, rpm.py:188: the set ends `size` bytes behind the start of `content_item[1]`, whatever the offset of that item. -/
def finish (size : Nat) (cs : List (Nat × Nat × Value)) : Rd Unit :=
  match cs.find? (fun c => c.1 == 1) with
  | none => Rd.fail .missingField
  | some c => goTo (c.2.1 + 8 * size)

/-- The start of a `PropertySet`, rpm.py:191-205: version, reserved bytes, size, items. -/
def start : Rd (Nat × Bytes × Nat × List Item) := do
  let signature ← Rd.raw 3
  if signature ≠ [0x8E, 0xAD, 0xE8] then Rd.fail .parser
  else do
    let version ← Rd.int 1 .big
    let reserved ← Rd.raw 4
    let count ← Rd.int 4 .big
    let size ← Rd.int 4 .big
    let items ← Rd.times item count
    pure (version, reserved, size, items)

/-- `PropertySet`, rpm.py:184-220.  An exception in the content of an item behind `content_item[1]` loses only what is behind; here it is an exception. -/
def properties : Rd Props := do
  let p ← start
  let base ← Rd.place
  let cs ← contents base ((Cab.numbered p.2.2.2).mergeSort (fun p q => p.2.offset ≤ q.2.offset))
  finish p.2.2.1 cs
  pure ⟨p.1, p.2.1, p.2.2.1, p.2.2.2, cs⟩

/-- The first 96 bytes, rpm.py:250-258. -/
structure Lead where
  signature : Bytes
  major : Nat
  minor : Nat
  type : Nat
  architecture : Nat
  /-- 66 bytes; `value` is without the zeros at both ends. -/
  name : Bytes
  os : Nat
  signatureType : Nat
  reserved : Bytes
  deriving DecidableEq, Repr

def lead : Rd Lead := do
  let signature ← Rd.raw 4
  let major ← Rd.int 1 .big
  let minor ← Rd.int 1 .big
  let type ← Rd.int 2 .big
  let architecture ← Rd.int 2 .big
  let name ← Rd.text .big .fixed .eightBit (some 66)
  let os ← Rd.int 2 .big
  let signatureType ← Rd.int 2 .big
  let reserved ← Rd.raw 16
  pure ⟨signature, major, minor, type, architecture, name, os, signatureType, reserved⟩

/-- `validate`, rpm.py:240-247. -/
def valid (l : Lead) : Bool := l.signature == [0xED, 0xAB, 0xEE, 0xDB] && l.major == 3 && (l.type == 0 || l.type == 1)

/-- `RpmFile.createFields`, rpm.py:249-270: the file, and the bytes of its content. -/
structure Package where
  lead : Lead
  checksum : Props
  header : Props
  content : Bytes
  deriving DecidableEq, Repr

/-- The content, rpm.py:265-270: all the rest. -/
def rest : Rd Bytes := fun s stop addr => Cab.rawOr ((stop - addr) / 8) s stop addr

def package : Rd Package := do
  let lead ← lead
  let checksum ← properties
  let header ← properties
  let content ← rest
  pure ⟨lead, checksum, header, content⟩

/-- The parser the content is given to, rpm.py:267-270. -/
def isBzip2 (content : Bytes) : Bool := decide (3 ≤ content.length) && content.take 3 == [0x42, 0x5A, 0x68]

end Hachoir.Formats.Rpm
