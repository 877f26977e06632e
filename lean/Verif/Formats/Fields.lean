import Verif.Stream.Input

/-!
# Integer fields one behind the other

Shared by the models of parsers: what the generator of a field set does when it yields `UInt8`,
`Int16`, … in a row.
-/

namespace Hachoir.Formats
open Hachoir Hachoir.Stream

/-- Fields of integers, given by sign and bits, from an address on
(/repo/hachoir/field/integer.py:21-41). -/
def readFields (s : InputStream) (e : Endian) : Int → List (Bool × Nat) → Except PyErr (List Int)
  | _, [] => .ok []
  | addr, (signed, bits) :: fs =>
    match readInteger s addr signed bits e with
    | .error x => .error x
    | .ok v =>
      match readFields s e (addr + bits) fs with
      | .error x => .error x
      | .ok vs => .ok (v :: vs)

/-- Their size. -/
def fieldsSize (fs : List (Bool × Nat)) : Nat := (fs.map Prod.snd).sum

end Hachoir.Formats
