import Verif.Metadata.Metadata
import Verif.Formats.Disks
import Verif.Core.Timestamp

/-!
# What is told of a disc of ISO 9660 (`metadata/file_system.py`)

`volume[0]` is a primary descriptor, since its type is part of the magic of the file.
-/

namespace Hachoir.Metadata.Iso
open Hachoir Hachoir.Metadata Hachoir.Time

/-- The value of a text field: ISO-8859-1, without blanks at its ends, iso9660.py:25 and 38-46. -/
def isoText (b : Bytes) : Text := Field.stripText (· == 32) (b.map UInt8.toNat)

/-- `value[a:b]`. -/
def slice (t : Text) (a b : Nat) : Text := (t.take b).drop a

/-- `int(...)` as an argument of `datetime`, to which no number may be negative; `none` is a `ValueError`. -/
def part (t : Text) (a b : Nat) : Option Nat :=
  match pyInt (slice t a b) with
  | some i => if 0 ≤ i then some i.toNat else none
  | none => none

/-- The moment of `readTimestamp`, file_system.py:21-26; `none` if nothing is set, also for an exception, which `fault_tolerant` hides. -/
def readTimestamp (t : Text) : Option Value :=
  if (txt "0000").isPrefixOf t then none
  else
    match part t 0 4, part t 4 6, part t 6 8, part t 8 10, part t 10 12, part t 12 14 with
    | some y, some m, some d, some h, some mi, some s =>
      match datetime y m d h mi s with
      | .ok r => some (.datetime r none)
      | .error _ => none
    | _, _, _, _, _, _ => none

/-- The fields of the descriptor that are told. -/
structure Fields where
  volume : Text
  set : Text
  publisher : Text
  preparer : Text
  application : Text
  copyright : Text
  creation : Text
  modification : Text

/-- The fields of a descriptor read. -/
def fieldsOf (p : Formats.Iso.Primary) : Fields :=
  ⟨isoText p.volumeId, isoText (p.texts.getD 0 []), isoText (p.texts.getD 1 []), isoText (p.texts.getD 2 []), isoText (p.texts.getD 3 []), isoText (p.files.getD 0 []), isoText (p.dates.getD 0 []), isoText (p.dates.getD 1 [])⟩

/-- The assignments of `extract`, file_system.py:9-18 and 27. -/
def assignments (f : Fields) : List (String × Arg) :=
  [("title", .value (.text f.volume)), ("title", .value (.text f.set)), ("author", .value (.text f.publisher)), ("author", .value (.text f.preparer)),
    ("producer", .value (.text f.application)), ("copyright", .value (.text f.copyright))]
    ++ (readTimestamp f.creation).toList.map (fun v => ("creation_date", .value v)) ++ (readTimestamp f.modification).toList.map (fun v => ("last_modification", .value v))

/-- `ISO9660_Metadata.extract`, file_system.py:9-18. -/
def extract (cfg : Config) (env : Env) (f : Fields) : Metadata := (Metadata.new env (txt "Metadata")).run cfg (assignments f)

end Hachoir.Metadata.Iso
