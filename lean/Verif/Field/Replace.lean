import Verif.Field.FieldSet
import Verif.Core.Tools
import Verif.Core.Dict

/-!
# Model of random access to field sets,
/repo/hachoir/field/generic_field_set.py:438-536
-/

set_option linter.unusedVariables false

namespace Hachoir.FieldSet
open Hachoir

/-- `field._address = a`. -/
def Fld.place (a : Nat) : Fld → Fld
  | .leaf n _ s => .leaf n a s
  | .set n _ sub => .set n a sub

/-- `if field._name.endswith("[]"): self.setUniqueFieldName(field)`: the name and
the counters, lines 454-455 and 468-469. -/
def ownName (counts : List (Name × Nat)) (name : Name) : Name × List (Name × Nat) :=
  if isArray name then uniqueName counts name else (name, counts)

/-- The loop of `replaceField` over the fields after the first, lines 467-480.
The third component is the exception that ended it. -/
def insertLoop : (fields : List Fld) → (counts : List (Name × Nat)) → (index address : Nat) → List Fld →
    List Fld × List (Name × Nat) × Option PyErr
  | fields, counts, _, _, [] => (fields, counts, none)
  | fields, counts, index, address, f :: rest =>
    let (n, counts) := ownName counts f.name
    let f := (f.rename n).place address
    if n ∈ fields.map Fld.name then (fields, counts, some .parser)
    else insertLoop (Core.linsert fields index f) counts (index + 1) (address + f.size) rest

/-- `replaceField`, lines 441-480: new state and the exception, if any.
Simplifications: the sizes of the new fields are known; `self[name]` is the field
of that name (names contain no `/`). -/
def replaceField (fs : FS) (name : Name) (new : List Fld) : FS × Option PyErr :=
  match fs.fields.findIdx? (fun f => decide (f.name = name)) with
  | none => (fs, some .parser)
  | some i =>
    match new, fs.fields[i]? with
    | [], _ => (fs, some .assertion)
    | _, none => (fs, some .index)     -- not reached
    | f :: rest, some old =>
      if old.size ≠ ((f :: rest).map Fld.size).sum then (fs, some .parser)
      else
        let (n, counts) := ownName fs.counts f.name
        let f := (f.rename n).place old.addr
        if n ≠ name ∧ n ∈ fs.fields.map Fld.name then ({ fs with counts := counts }, some .parser)
        else
          match insertLoop (fs.fields.set i f) counts (i + 1) (f.addr + f.size) rest with
          | (fields, counts, e) => ({ fs with fields := fields, counts := counts }, e)

/-- `createPaddingField(self, size)`, /repo/hachoir/field/helper.py:19-25, for a
positive size. -/
def padding (size : Nat) : Fld := .leaf "padding[]".toList 0 size

/-- `writeFieldsIn`, lines 496-529; `old` is a field of the field set. -/
def writeFieldsIn (fs : FS) (old : Fld) (address : Int) (new : List Fld) : FS × Option PyErr :=
  let total := (new.map Fld.size).sum
  if old.size < total then (fs, some .parser)
  else
    let size := address - old.addr
    if size < 0 then (fs, some .assertion)
    else
      let before := if 0 < size then [padding size.toNat] else []
      let size := ((old.addr + old.size : Nat) : Int) - (address + total)
      if size < 0 then (fs, some .assertion)
      else
        let after := if 0 < size then [padding size.toNat] else []
        replaceField fs old.name (before ++ new ++ after)

/-- The search of `getFieldByAddress`, lines 488-493; `lowerBound` never returns
`None`. -/
def byAddress (fs : FS) (address : Int) : Except PyErr (Option Fld) :=
  if address < fs.cur then
    match Tools.lowerBound fs.fields (fun x => decide (((x.addr + x.size : Nat) : Int) ≤ address)) with
    | .error e => .error e
    | .ok i =>
      match fs.fields[i]? with
      | some f => .ok (some f)
      | none => .error .index
  else .ok none

/-- `getFieldByAddress`, lines 482-494: the new state, and the field, `None`, or
how it ended. -/
def getFieldByAddress (fuel : Nat) (af : Bool) (ctx : Int) (fs : FS) (address : Int) (feed : Bool) :
    FS × Except Fed (Option Fld) :=
  match (if feed then feedAll fuel af ctx fs else (fs, .done)) with
  | (fs', .done) =>
    match byAddress fs' address with
    | .ok o => (fs', .ok o)
    | .error e => (fs', .error (.raise e))
  | (fs', r) => (fs', .error r)

end Hachoir.FieldSet
