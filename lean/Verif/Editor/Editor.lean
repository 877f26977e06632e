import Verif.Py
import Verif.Stream.Output

/-!
# Model of /repo/hachoir/editor: field.py, typed_field.py, fieldset.py

The input is a field tree read completely, given by the names, absolute addresses
and sizes of its fields.  Names are plain (no "/", not ending with "[]": numbering of
inserted fields by `setUniqueFieldName` is not modelled).  `EditableFloat`, `reset` and
descriptions are not modelled.  The cache `_fields` is: a field not accessed yet is
a fresh editable field (what `__getitem__` creates on demand, fieldset.py:235-241).
-/

set_option linter.unusedVariables false

namespace Hachoir.Editor
open Hachoir Hachoir.Stream

/-- Values given to the editor. -/
inductive Value where
  | int (v : Int)
  | bytes (b : Bytes)
  deriving DecidableEq, Repr

/-- The classes chosen by `createEditableField`, /repo/hachoir/editor/typed_field.py:286-301:
EditableInteger, EditableBits, EditableBytes, EditableString (for a format with a
suffix, "fixed", and the Pascal formats with their prefix size in bytes),
EditableCharacter, EditableTimestampMac32, FakeField.  A date is given by its whole
seconds since 1904 (microseconds are not modelled). -/
inductive Kind where
  | integer (signed : Bool)
  | bits
  | bytes
  | suffixed (suffix : Bytes)
  | fixed
  | pascal (prefixSize : Nat)
  | character
  | mac32
  | other
  deriving DecidableEq, Repr

/-- Field of the original field set: name, absolute address and size. -/
structure Orig where
  name : String
  addr : Nat
  size : Nat
  deriving DecidableEq, Repr

/-- `parent.input`: the original field set; `none` for `NewFieldSet`, whose `input` is
None (/repo/hachoir/editor/fieldset.py:335). -/
abbrev Inp := Option (List Orig)

/-- Editable field: `_name`, class, `_size` (EditableFixedField), `_value`,
`_is_altered`; /repo/hachoir/editor/typed_field.py:12-80. -/
structure EField where
  name : String
  kind : Kind
  fixedSize : Nat
  value : Option Value
  altered : Bool
  deriving DecidableEq, Repr

/-- `self._parent.input[name]`: MissingField if there is no such field; `None[name]` is
a TypeError. -/
def inputGet (inp : Inp) (name : String) : Except PyErr Orig :=
  match inp with
  | none => .error .type
  | some l =>
    match l.find? (fun o => o.name == name) with
    | none => .error .missingField
    | some o => .ok o

/-- Length of a value of type bytes; `len` of an int is a TypeError. -/
def valueLen : Value → Except PyErr Nat
  | .int _ => .error .type
  | .bytes b => .ok b.length

/-- Property `size`: `EditableFixedField._getSize` (typed_field.py:77-79),
`EditableField._getSize` with `_computeSize` (50-55, 120-121, 168-169),
`FakeField._getSize` (field.py:36-38). -/
def fieldSize (inp : Inp) (f : EField) : Except PyErr Nat :=
  match f.kind with
  | .integer _ | .bits | .character | .mac32 => .ok f.fixedSize
  | .other => (inputGet inp f.name).map (·.size)
  | .bytes =>
    match f.value with
    | some v => (valueLen v).map (· * 8)
    | none => (inputGet inp f.name).map (·.size)
  | .suffixed s =>
    match f.value with
    | some v => (valueLen v).map fun n => (n + s.length) * 8
    | none => (inputGet inp f.name).map (·.size)
  | .fixed =>
    match f.value with
    | some v => (valueLen v).map (· * 8)
    | none => (inputGet inp f.name).map (·.size)
  | .pascal p =>
    match f.value with
    | some v => (valueLen v).map fun n => (p + n) * 8
    | none => (inputGet inp f.name).map (·.size)

/-- `EditableInteger.VALID_VALUE_SIGNED`, `VALID_VALUE_UNSIGNED`,
/repo/hachoir/editor/typed_field.py:216-225; KeyError for the other sizes. -/
def validRange (signed : Bool) (size : Nat) : Except PyErr (Int × Int) :=
  if signed then
    if size = 8 then .ok (-256, 255)
    else if size = 16 then .ok (-32768, 32767)
    else if size = 32 then .ok (-2147483648, 2147483647)
    else .error .key
  else
    if size = 8 then .ok (0, 255)
    else if size = 16 then .ok (0, 65535)
    else if size = 32 then .ok (0, 4294967295)
    else .error .key

/-- `EditableString.MAX_SIZE`, /repo/hachoir/editor/typed_field.py:129-133 (the Pascal
formats have prefixes of 1, 2 and 4 bytes). -/
def pascalMax (prefixSize : Nat) : Nat := 256 ^ prefixSize - 1

/-- `_setValue` of the classes (typed_field.py:106-110, 114-118, 161-166, 202-205,
245-254, 274-278) followed by `_is_altered = True` (45-47).  A value of the wrong type
is an AssertionError or TypeError; for EditableBytes, which stores it and fails later,
it is refused here.  FakeField has no setter: AttributeError. -/
def setValue (f : EField) (v : Value) : Except PyErr EField :=
  let done : EField := { f with value := some v, altered := true }
  match f.kind, v with
  | .integer signed, .int i =>
    match validRange signed f.fixedSize with
    | .error e => .error e
    | .ok (lo, hi) => if lo ≤ i ∧ i ≤ hi then .ok done else .error .value
  | .bits, .int i => if 0 ≤ i ∧ i < (2 ^ f.fixedSize : Nat) then .ok done else .error .value
  | .mac32, .int i => if 0 ≤ i ∧ i ≤ (2 ^ 32 - 1 : Nat) then .ok done else .error .value
  | .bytes, .bytes b => if b = [] then .error .value else .ok done
  | .suffixed _, .bytes _ => .ok done
  | .fixed, .bytes _ => .ok done
  | .pascal p, .bytes b => if pascalMax p < b.length then .error .value else .ok done
  | .character, .bytes b => if b.length = 1 then .ok done else .error .type
  | .other, _ => .error .attribute
  | _, _ => .error .type

/-- `_write` of the classes, /repo/hachoir/editor/typed_field.py:112-113, 123-124,
171-183, 207-208, 256-258, 280-282.  The Pascal formats call `bytes.encode`
(AttributeError), a character is a `str` (TypeError of the binary file). -/
def writeValue (f : EField) (endian : Endian) (o : OutputStream) : Except PyErr OutputStream :=
  match f.kind, f.value with
  | .integer signed, some (.int v) => writeInteger o v signed (f.fixedSize / 8) endian
  | .bits, some (.int v) => writeBits o f.fixedSize v endian
  | .mac32, some (.int v) => writeBits o f.fixedSize v endian
  | .bytes, some (.bytes b) => writeBytes o b
  | .suffixed s, some (.bytes b) =>
    match writeBytes o b with
    | .error e => .error e
    | .ok o => writeBytes o s
  | .fixed, some (.bytes b) => writeBytes o b
  | .pascal p, some (.bytes b) =>
    match writeInteger o b.length false p endian with
    | .error e => .error e
    | .ok _ => .error .attribute
  | .character, some (.bytes _) => if o.bitPos ≠ 0 then .error .notImplemented else .error .type
  | _, _ => .error .type

/-- `EditableField.writeInto` (typed_field.py:60-64) and `FakeField.writeInto`
(field.py:60-69).  `_getFieldInputAddress` asserts that the name is in the input
(fieldset.py:190-195). -/
def writeField (s : InputStream) (inp : Inp) (endian : Endian) (f : EField) (o : OutputStream) :
    Except PyErr OutputStream :=
  if f.altered then writeValue f endian o
  else
    match fieldSize inp f with
    | .error e => .error e
    | .ok size =>
      match inputGet inp f.name with
      | .error .missingField => .error .assertion
      | .error e => .error e
      | .ok orig =>
        if size % 8 ≠ 0 ∨ orig.addr % 8 ≠ 0 then copyBitsFrom o s orig.addr size endian
        else copyBytesFrom o s orig.addr (size / 8)

/-- A field to insert: an editable field, or a `NewFieldSet` (fieldset.py:331-354) holding
fields (nested new field sets are not modelled). -/
structure New where
  name : String
  isSet : Bool
  items : List EField
  deriving DecidableEq, Repr

/-- `sum(field.size for field in ...)`. -/
def sumSizes : List (Except PyErr Nat) → Except PyErr Nat
  | [] => .ok 0
  | .error e :: _ => .error e
  | .ok n :: l => (sumSizes l).map (n + ·)

/-- Size of an inserted field.  The iterator of an empty NewFieldSet raises StopIteration
(fieldset.py:339-343). -/
def newSize (inp : Inp) (n : New) : Except PyErr Nat :=
  if n.isSet then
    if n.items = [] then .error .stopIteration
    else sumSizes (n.items.map (fieldSize none))
  else
    match n.items with
    | [f] => fieldSize inp f
    | _ => .error .type

/-- The loop `for field in self: field.writeInto(output); realaddr += field.size`
(fieldset.py:279-284) of a NewFieldSet. -/
def writeItems (s : InputStream) (inp : Inp) (endian : Endian) :
    List EField → OutputStream → Except PyErr OutputStream
  | [], o => .ok o
  | f :: l, o =>
    match writeField s inp endian f o with
    | .error e => .error e
    | .ok o =>
      match fieldSize inp f with
      | .error e => .error e
      | .ok _ => writeItems s inp endian l o

/-- `writeInto` of an inserted field. -/
def writeNew (s : InputStream) (inp : Inp) (endian : Endian) (n : New) (o : OutputStream) :
    Except PyErr OutputStream :=
  if n.isSet then
    if n.items = [] then .error .stopIteration
    else writeItems s none endian n.items o
  else
    match n.items with
    | [f] => writeField s inp endian f o
    | _ => .error .type

/-- The loop of fieldset.py:279-284 over the fields inserted at one place. -/
def writeNews (s : InputStream) (inp : Inp) (endian : Endian) :
    List New → OutputStream → Except PyErr OutputStream
  | [], o => .ok o
  | n :: l, o =>
    match writeNew s inp endian n o with
    | .error e => .error e
    | .ok o =>
      match newSize inp n with
      | .error e => .error e
      | .ok _ => writeNews s inp endian l o

/-- The dictionary `_inserted`: name of the field before which the fields are inserted,
None for the end (fieldset.py:18-19). -/
abbrev Inserted := List (Option String × List New)

/-- `self._inserted[name]` if present. -/
def Inserted.at? (ins : Inserted) (key : Option String) : Option (List New) :=
  (ins.find? (fun p => p.1 == key)).map (·.2)

/-- The fields inserted at a place. -/
def Inserted.slot (ins : Inserted) (key : Option String) : List New := (ins.at? key).getD []

/-- `self._inserted[key] = value`. -/
def Inserted.put (ins : Inserted) (key : Option String) (v : List New) : Inserted :=
  if ins.any (fun p => p.1 == key) then
    ins.map (fun p => if p.1 == key then (p.1, v) else p)
  else ins ++ [(key, v)]

/-- Editable tree: an editable field, or an `EditableFieldSet` (fieldset.py:9-19) with its
name, absolute input address, input size and endian, the original fields, the editable
fields for them, `_deleted` and `_inserted`. -/
inductive Edit where
  | field (f : EField)
  | set (name : String) (addr size : Nat) (endian : Endian) (orig : List Orig) (kids : List Edit)
      (deleted : List String) (inserted : Inserted)

/-- Name of an editable field. -/
def Edit.name : Edit → String
  | .field f => f.name
  | .set n .. => n

mutual
/-- `is_altered`, /repo/hachoir/editor/fieldset.py:29-35 and typed_field.py:23-25.  The
fields of `_fields` that were deleted do not count, but then `_deleted` does. -/
def isAltered : Edit → Bool
  | .field f => f.altered
  | .set _ _ _ _ _ kids deleted inserted =>
    decide (inserted ≠ []) || decide (deleted ≠ []) || anyAltered kids

/-- `any(field.is_altered for field in ...)`. -/
def anyAltered : List Edit → Bool
  | [] => false
  | k :: ks => isAltered k || anyAltered ks
end

mutual
/-- `size`: fieldset.py:161-166 and the fields' own. -/
def editSize (inp : Inp) : Edit → Except PyErr Nat
  | .field f => fieldSize inp f
  | .set _ _ size _ orig kids deleted inserted =>
    if decide (inserted ≠ []) || decide (deleted ≠ []) || anyAltered kids then
      sumSizes ((editItems (some orig) deleted inserted kids).map (·.2))
    else .ok size

/-- The fields in edited order with their sizes: `__iter__`, fieldset.py:53-65.  Only
the part for the given remaining original fields and the end. -/
def editItems (inp : Inp) (deleted : List String) (inserted : Inserted) :
    List Edit → List (String × Except PyErr Nat)
  | [] => (inserted.slot none).map fun n => (n.name, newSize inp n)
  | k :: ks =>
    (inserted.slot (some k.name)).map (fun n => (n.name, newSize inp n)) ++
      (if k.name ∈ deleted then [] else [(k.name, editSize inp k)]) ++
      editItems inp deleted inserted ks
end

/-- `_getFieldAddress`, fieldset.py:197-209. -/
def addressLoop (name : String) : List (String × Except PyErr Nat) → Nat → Except PyErr Nat
  | [], _ => .error .missingField
  | (n, size) :: l, addr =>
    if n = name then .ok addr
    else
      match size with
      | .error e => .error e
      | .ok k => addressLoop name l (addr + k)

/-- `field.address` of the field with the given name. -/
def fieldAddress (t : Edit) (name : String) : Except PyErr Nat :=
  match t with
  | .field _ => .error .attribute
  | .set _ _ _ _ orig kids deleted inserted =>
    addressLoop name (editItems (some orig) deleted inserted kids) 0

/-- `__len__`, fieldset.py:48-51 (a negative value is a ValueError of `len`). -/
def editLen (t : Edit) : Except PyErr Nat :=
  match t with
  | .field _ => .error .type
  | .set _ _ _ _ _ kids deleted inserted =>
    let n : Int := (kids.length : Int) - deleted.length + ((inserted.map (·.2.length)).sum : Nat)
    if n < 0 then .error .value else .ok n.toNat

mutual
/-- `writeInto`, /repo/hachoir/editor/fieldset.py:263-284. -/
def writeInto (s : InputStream) (inp : Inp) (endian : Endian) :
    Edit → OutputStream → Except PyErr OutputStream
  | .field f, o => writeField s inp endian f o
  | .set _ addr size e orig kids deleted inserted, o =>
    if decide (inserted ≠ []) || decide (deleted ≠ []) || anyAltered kids then
      writeKids s (some orig) e deleted inserted kids o
    else if size % 8 ≠ 0 then copyBitsFrom o s addr size e
    else copyBytesFrom o s addr (size / 8)

/-- The loop over `__iter__` (fieldset.py:53-65, 279-284) for the remaining original fields
and the end. -/
def writeKids (s : InputStream) (inp : Inp) (endian : Endian) (deleted : List String)
    (inserted : Inserted) : List Edit → OutputStream → Except PyErr OutputStream
  | [], o => writeNews s inp endian (inserted.slot none) o
  | k :: ks, o =>
    match writeNews s inp endian (inserted.slot (some k.name)) o with
    | .error e => .error e
    | .ok o =>
      if k.name ∈ deleted then writeKids s inp endian deleted inserted ks o
      else
        match writeInto s inp endian k o with
        | .error e => .error e
        | .ok o =>
          match editSize inp k with
          | .error e => .error e
          | .ok _ => writeKids s inp endian deleted inserted ks o
end

/-! ## Edits -/

/-- `EditableFieldSet.__delitem__` for a plain name, fieldset.py:244-260. -/
def deleteName (deleted : List String) (name : String) : Except PyErr (List String) :=
  if name ∈ deleted then .error .missingField else .ok (deleted ++ [name])

/-- All the names of the inserted fields. -/
def insertedNames (ins : Inserted) : List String := ins.flatMap fun p => p.2.map (·.name)

/-- The search "Would like to insert in inserted fields?", fieldset.py:115-127: the place
whose list contains the key; the rotations put the new fields before or after it. -/
def insertInside (ins : Inserted) (key : String) (new : List New) (next : Bool) : Option Inserted :=
  match ins with
  | [] => none
  | (k, l) :: rest =>
    match l.findIdx? (fun n => n.name == key) with
    | some pos =>
      let pos := if next then pos + 1 else pos
      -- rotate(-pos); extendleft(reversed(new)); rotate(pos)
      let rotated := new ++ (l.drop pos ++ l.take pos)
      let len := rotated.length
      some ((k, rotated.drop (len - pos) ++ rotated.take (len - pos)) :: rest)
    | none => (insertInside rest key new next).map ((k, l) :: ·)

/-- `_insert`, /repo/hachoir/editor/fieldset.py:76-140, for names not ending with "[]".
`names` are the names of the input.  `self.input[index]` behind the last field
raises MissingField, which `except IndexError` does not catch. -/
def insertInto (names deleted : List String) (ins : Inserted) (key : Option String) (new : List New)
    (next : Bool) : Except PyErr Inserted :=
  let newNames := new.map (·.name)
  if ¬ newNames.Nodup then .error .uniqKey
  else if newNames.any (fun n => n ∈ names ∧ n ∉ deleted) then .error .uniqKey
  else if (insertedNames ins).any (fun n => n ∈ newNames) then .error .uniqKey
  else
    match ins.at? key with
    | some l =>
      if next then .ok (ins.put key (l ++ new.reverse))
      else .ok (ins.put key (new ++ l))
    | none =>
      match key with
      | none => .ok (ins.put none new)
      | some key =>
        match insertInside ins key new next with
        | some ins' => .ok ins'
        | none =>
          if next then
            match names.findIdx? (· == key) with
            | none => .error .missingField
            | some i =>
              match names[i + 1]? with
              | none => .error .missingField
              | some key' => .ok (ins.put (some key') new)
          else if key ∈ names then .ok (ins.put (some key) new)
          else .error .missingField

/-- `insertBefore`, fieldset.py:67-68. -/
def insertBefore (names deleted : List String) (ins : Inserted) (key : String) (new : List New) :=
  insertInto names deleted ins (some key) new false

/-- `insertAfter`, fieldset.py:70-71. -/
def insertAfter (names deleted : List String) (ins : Inserted) (key : String) (new : List New) :=
  insertInto names deleted ins (some key) new true

/-- `insert`, fieldset.py:73-74. -/
def insertEnd (names deleted : List String) (ins : Inserted) (new : List New) :=
  insertInto names deleted ins none new true

/-- One edit of a field or field set. -/
inductive Op where
  | setValue (v : Value)
  | delete (name : String)
  | insertBefore (key : String) (new : List New)
  | insertAfter (key : String) (new : List New)
  | insert (new : List New)
  deriving DecidableEq, Repr

/-- The edit of one object.  A field set has no value (EditorError, fieldset.py:289-290,
here ValueError). -/
def applyOp (op : Op) : Edit → Except PyErr Edit
  | .field f =>
    match op with
    | .setValue v => (setValue f v).map .field
    | _ => .error .attribute
  | .set n a z e orig kids deleted ins =>
    let names := orig.map (·.name)
    match op with
    | .setValue _ => .error .value
    | .delete name => (deleteName deleted name).map fun d => .set n a z e orig kids d ins
    | .insertBefore key new =>
      (insertBefore names deleted ins key new).map fun i => .set n a z e orig kids deleted i
    | .insertAfter key new =>
      (insertAfter names deleted ins key new).map fun i => .set n a z e orig kids deleted i
    | .insert new => (insertEnd names deleted ins new).map fun i => .set n a z e orig kids deleted i

/-- Change the editable field with the given name. -/
def updateKid (name : String) (g : Edit → Except PyErr Edit) : List Edit → Except PyErr (List Edit)
  | [] => .error .missingField
  | k :: ks =>
    if k.name = name then (g k).map (· :: ks)
    else (updateKid name g ks).map (k :: ·)

/-- An edit of the object with the given path: `__getitem__`, fieldset.py:224-242, and
`_getItemByPath`, 211-217.  Only undeleted fields of the input are reachable. -/
def editAt : List String → Op → Edit → Except PyErr Edit
  | [], op, t => applyOp op t
  | _ :: _, _, .field _ => .error .missingField
  | name :: path, op, .set n a z e orig kids deleted ins =>
    if name ∈ deleted then .error .missingField
    else (updateKid name (editAt path op) kids).map fun kids => .set n a z e orig kids deleted ins

/-- A sequence of edits; one that fails leaves the tree unchanged. -/
def edits (t : Edit) : List (List String × Op) → Edit
  | [] => t
  | (path, op) :: l =>
    match editAt path op t with
    | .error _ => edits t l
    | .ok t' => edits t' l

/-! ## The editor of a field tree -/

/-- Field tree that was read: absolute addresses. -/
inductive Tree where
  | leaf (name : String) (addr size : Nat) (kind : Kind)
  | set (name : String) (addr size : Nat) (endian : Endian) (kids : List Tree)

/-- Name, absolute address and size of a field. -/
def Tree.orig : Tree → Orig
  | .leaf n a z _ => ⟨n, a, z⟩
  | .set n a z _ _ => ⟨n, a, z⟩

/-- `_size` of a fresh EditableFixedField: the original size (typed_field.py:75), but
EditableCharacter and EditableTimestampMac32 have constant sizes (198, 272). -/
def initSize (kind : Kind) (size : Nat) : Nat :=
  match kind with
  | .character => 8
  | .mac32 => 32
  | _ => size

/-- `createEditor`, fieldset.py:357-358, `createEditableFieldSet` (321-327, without the
floats) and `createEditableField`, typed_field.py:286-301. -/
def createEditor : Tree → Edit
  | .leaf n _ z k =>
    .field { name := n, kind := k, fixedSize := initSize k z, value := none, altered := false }
  | .set n a z e kids => .set n a z e (kids.map Tree.orig) (kids.map createEditor) [] []

/-! ## Constructors of new fields -/

/-- `EditableInteger(parent, name, signed, size, value)`, typed_field.py:227-243 (the value
is not checked). -/
def newInteger (name : String) (signed : Bool) (size : Nat) (v : Int) : New :=
  { name := name, isSet := false,
    items := [{ name := name, kind := .integer signed, fixedSize := size, value := some (.int v), altered := true }] }

/-- `EditableBits(parent, name, size, value)`, typed_field.py:86-104. -/
def newBits (name : String) (size : Nat) (v : Int) : Except PyErr New :=
  if 0 ≤ v ∧ v < (2 ^ size : Nat) then
    .ok { name := name, isSet := false,
          items := [{ name := name, kind := .bits, fixedSize := size, value := some (.int v), altered := true }] }
  else .error .value

/-- `EditableString(parent, name, format, value)` for a format with a suffix,
typed_field.py:135-159. -/
def newString (name : String) (suffix value : Bytes) : New :=
  { name := name, isSet := false,
    items := [{ name := name, kind := .suffixed suffix, fixedSize := 0, value := some (.bytes value), altered := true }] }

/-- `EditableBytes(parent, name, value)`: the class has no constructor of its own, so
`EditableField.__init__` (typed_field.py:19-21) leaves `_is_altered` false. -/
def newBytes (name : String) (value : Bytes) : New :=
  { name := name, isSet := false,
    items := [{ name := name, kind := .bytes, fixedSize := 0, value := some (.bytes value), altered := false }] }

end Hachoir.Editor
