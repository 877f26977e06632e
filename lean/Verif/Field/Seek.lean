import Verif.Field.FieldSet
import Verif.Field.Gaps

/-!
# Moving in field sets

Model of the seeks of /repo/hachoir/field/generic_field_set.py and
/repo/hachoir/field/seekable_field_set.py.
-/

set_option linter.unusedVariables false

namespace Hachoir.Seek
open Hachoir Hachoir.FieldSet

/-! ### Padding up to an address -/

/-- The class of a field made by `createPaddingField` and `createNullField`. -/
inductive Kind
  | paddingBytes
  | paddingBits
  | nullBytes
  | nullBits
  deriving DecidableEq, Repr

/-- `createPaddingField` and `createNullField`, /repo/hachoir/field/helper.py:18-33: the class
and the length in its unit.  `RawBytes` is limited to 2^64 bytes
(/repo/hachoir/field/byte_field.py:10, 25-26).  That the constructors look at the content of the
field (`checkPattern`, property C65) is not modelled here. -/
def createPadding (null : Bool) (nbits : Int) : Except PyErr (Kind × Int) :=
  if nbits ≤ 0 then .error .field
  else if nbits % 8 = 0 then
    if 2 ^ 64 < nbits / 8 then .error .field else .ok (if null then .nullBytes else .paddingBytes, nbits / 8)
  else .ok (if null then .nullBits else .paddingBits, nbits)

/-- The size in bits of such a field (`Bytes.static_size`, /repo/hachoir/field/byte_field.py:21-24
and `RawBits`, /repo/hachoir/field/bit_field.py:19-30). -/
def Kind.bits : Kind → Int → Int
  | .paddingBytes, n => 8 * n
  | .nullBytes, n => 8 * n
  | .paddingBits, n => n
  | .nullBits, n => n

/-- `seekBit`, /repo/hachoir/field/generic_field_set.py:414-435, of a field set at the absolute
address `base` of which `cur` bits are read. -/
def seekBit (base cur address : Int) (relative null : Bool) : Except PyErr (Option (Kind × Int)) :=
  let nbits := if relative then address - cur else address - (base + cur)
  if nbits < 0 then .error .parser
  else if 0 < nbits then
    match createPadding null nbits with
    | .error e => .error e
    | .ok p => .ok (some p)
  else .ok none

/-- `seekByte`, /repo/hachoir/field/generic_field_set.py:437-441. -/
def seekByte (base cur address : Int) (relative null : Bool) : Except PyErr (Option (Kind × Int)) :=
  seekBit base cur (address * 8) relative null

/-- The field as an item of a generator. -/
def seekItem (name : Name) (p : Kind × Int) : Item := .leaf name (.ok (p.1.bits p.2).toNat)

/-! ### Seekable field sets -/

/-- What the generator of a seekable field set does next: move, or yield a field or field set of
a size, or raise an exception (also one from asking a field for its size). -/
inductive Move
  | seek (address : Int) (relative : Bool)
  | field (size : Nat) (isSet : Bool)
  | raise (e : PyErr)

/-- `_size`, `_current_size` and `_fields` (address in the field set, size) of a seekable field
set.  Names are not modelled. -/
structure State where
  size : Option Int
  cur : Int
  fields : List (Int × Int)

/-- What is known at the end: the fields of the parser that are left, the added ones, the size. -/
abbrev Result := List (Int × Int) × List (Int × Int) × Int

/-- `RootSeekableFieldSet._stopFeeding`, /repo/hachoir/field/seekable_field_set.py:83-91, of a
field set that has a parent or a known size. -/
def stopFeeding (base : Int) (st : State) : Except PyErr Result :=
  match st.size with
  | none => Gaps.fixLastField base st.cur st.cur st.fields
  | some z => Gaps.fixLastField base z st.cur st.fields

/-- `_fixFeedError`, /repo/hachoir/field/generic_field_set.py:309-317. -/
def fixFeedError (af : Bool) (base : Int) (st : State) (e : PyErr) : Except PyErr Result :=
  match st.size with
  | none => .error e
  | some z => if af then Gaps.fixLastField base z st.cur st.fields else .error e

/-- The place for a field: the own size, or what the ancestors leave
(/repo/hachoir/field/generic_field_set.py:125-138). -/
def room (ctx : Int) (st : State) : Int :=
  match st.size with
  | none => ctx
  | some z => z

/-- What `_addField` does, /repo/hachoir/field/generic_field_set.py:142-203 with
`_fixFieldSize` (205-215). -/
inductive Placed
  | ok (st : State)
  | stop (st : State)
  | raise (e : PyErr)

/-- `_addField` of a field of known size.  A truncated field set has the size it is truncated
to; that `_truncate` itself can raise an exception is not modelled here. -/
def addField (af : Bool) (ctx : Int) (st : State) (size : Int) (isSet : Bool) : Placed :=
  let dsize := room ctx st - (st.cur + size)
  if dsize < 0 ∨ (isSet ∧ size ≤ 0) then
    if af ∧ st.cur ≠ 0 then
      if 0 < size + dsize then
        if isSet ∧ 0 < size then
          .ok { st with cur := st.cur + (size + dsize), fields := st.fields ++ [(st.cur, size + dsize)] }
        else .stop { st with size := some (st.size.getD (st.cur + (size + dsize))) }
      else .stop st
    else .raise .parser
  else .ok { st with cur := st.cur + size, fields := st.fields ++ [(st.cur, size)] }

/-- `RootSeekableFieldSet.seekBit`, /repo/hachoir/field/seekable_field_set.py:38-45. -/
def moveTo (base : Int) (st : State) (address : Int) (relative : Bool) : Except PyErr State :=
  let address := if relative then address else address - base
  if address < 0 then .error .parser else .ok { st with cur := address }

/-- Reading everything (`_feedAll`, /repo/hachoir/field/generic_field_set.py:363-374) of a
seekable field set whose generator makes the given moves. -/
def run (af : Bool) (base ctx : Int) : State → List Move → Except PyErr Result
  | st, [] => stopFeeding base st
  | st, .raise e :: _ => fixFeedError af base st e
  | st, .seek address relative :: l =>
    match moveTo base st address relative with
    | .error e => fixFeedError af base st e
    | .ok st => run af base ctx st l
  | st, .field size isSet :: l =>
    match addField af ctx st size isSet with
    | .ok st => run af base ctx st l
    | .stop st => stopFeeding base st
    | .raise e => fixFeedError af base st e

/-- A new seekable field set. -/
def start (size : Option Int) : State := { size := size, cur := 0, fields := [] }

end Hachoir.Seek
