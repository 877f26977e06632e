import Verif.Formats.Reader

/-!
# Attributes of MS-DOS files (`parser/common/msdos.py`)
-/

namespace Hachoir.Formats.Msdos
open Hachoir Hachoir.Stream Hachoir.Field Hachoir.Formats

/-- The widths of the fields: `_FIELDS`, msdos.py:12-28, and the reserved bits at the end, lines 35 and 63. -/
def widths (last : Nat) : List Nat := [1, 1, 1, 1, 1, 1, 1, 1, 1, 1, 1, 1, 1, 1, 1, last]

/-- `MSDOSFileAttr16` and, with `last = 17`, `MSDOSFileAttr32`. -/
def attributes (last : Nat) : Rd (List Nat) := Rd.bits .little (widths last)

/-- The places of the names in `_FIELDS`, msdos.py:12-28. -/
def placeOf : String → Nat
  | "read_only" => 0
  | "hidden" => 1
  | "system" => 2
  | "directory" => 4
  | "archive" => 5
  | "device" => 6
  | "normal" => 7
  | "temporary" => 8
  | "compressed" => 11
  | _ => 3

/-- `_text_keys`, msdos.py:37-42. -/
def textKeys : List String := ["directory", "read_only", "compressed", "hidden", "system", "normal", "device", "temporary", "archive"]

/-- `self[name].value` -/
def isSet (bits : List Nat) (name : String) : Bool := bits.getD (placeOf name) 0 != 0

/-- The loop of `createValue`, msdos.py:46-52. -/
def loop (bits : List Nat) : List String → List String → List String
  | mode, [] => mode
  | mode, name :: names =>
    if isSet bits name then
      if 4 ≤ mode.length then mode ++ ["..."] else loop bits (mode ++ [name]) names
    else loop bits mode names

/-- `createValue`, msdos.py:44-56. -/
def value (bits : List Nat) : String :=
  let mode := loop bits [] textKeys
  if mode ≠ [] then ", ".intercalate mode else "(none)"

end Hachoir.Formats.Msdos
