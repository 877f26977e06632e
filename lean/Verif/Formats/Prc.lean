import Verif.Formats.Ttf

/-!
# Palm resource files (`parser/program/prc.py`)

Dates are the numbers of seconds (C45).  Descriptions are left out.
-/

namespace Hachoir.Formats.Prc
open Hachoir Hachoir.Stream Hachoir.Field Hachoir.Formats

/-- `PRCHeader`, prc.py:15-32: the name, and the numbers but the last. -/
structure Header where
  name : Bytes
  numbers : List Nat
  deriving DecidableEq, Repr

/-- `ResourceHeader`, prc.py:35-44. -/
structure Resource where
  name : Bytes
  id : Nat
  offset : Nat
  deriving DecidableEq, Repr

def resource : Rd Resource := do
  let n ← Rd.text .big .fixed .eightBit (some 4)
  let i ← Rd.int 2 .big
  let o ← Rd.int 4 .big
  pure ⟨n, i, o⟩

/-- The sizes, prc.py:67-78: up to the next offset, the last up to the end of the file (`total` bytes). -/
def sizes (total : Nat) : List Nat → List Int
  | [] => [(total : Int)]
  | [o] => [(total : Int) - o]
  | o :: p :: l => ((p : Int) - o) :: sizes total (p :: l)

/-- `RawBytes` of this size, prc.py:81; sizes that are not positive are refused. -/
def part (n : Int) : Rd Bytes := if n ≤ 0 then Rd.fail .field else Rd.raw n.toNat

structure File where
  header : Header
  resources : List Resource
  placeholder : Nat
  parts : List Bytes
  deriving DecidableEq, Repr

/-- prc.py:80-81: without resources there is no name for the part. -/
def parts (total : Nat) (rs : List Resource) : Rd (List Bytes) :=
  if rs = [] then Rd.fail .missingField else Rd.each part (sizes total (rs.map (·.offset)))

/-- `PRCFile.createFields`, prc.py:64-81. -/
def file : Rd File := do
  let name ← Rd.text .big .fixed .eightBit (some 32)
  let ns ← Ttf.numbers [2, 2, 4, 4, 4, 4, 4, 4, 4, 4, 4, 4]
  let n ← Rd.int 2 .big
  let rs ← Rd.times resource n
  let p ← Rd.int 2 .big
  let total ← Rd.limit
  let ps ← parts (total / 8) rs
  pure ⟨⟨name, ns⟩, rs, p, ps⟩

/-- `validate`, prc.py:60-62. -/
def valid (_ : File) : Bool := false

end Hachoir.Formats.Prc
