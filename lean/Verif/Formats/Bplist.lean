import Verif.Formats.Reader

/-!
# Binary property lists (`parser/misc/bplist.py`)

Display and XML are left out.
-/

namespace Hachoir.Formats.Bplist
open Hachoir Hachoir.Stream Hachoir.Field Hachoir.Formats

/-- `BPListObject`, bplist.py:121-245. -/
inductive Obj where
  | simple (value : Nat)
  | int (value : Int)
  /-- The number of bytes is `2 ^ size`; the value is given by its bits, which are a number of 32 or 64 bits for sizes 2 and 3. -/
  | real (size bits : Nat)
  | date (extra bits : Nat)
  | data (b : Bytes)
  | ascii (b : Bytes)
  | utf16 (b : Bytes)
  | uid (size value : Nat)
  | array (refs : List Nat)
  | dict (keys vals : List Nat)
  /-- Any other marker: 4 bits. -/
  | other (marker value : Nat)
  deriving DecidableEq, Repr

/-- The marker and the 4 bits behind, which every object has: bplist.py:124, 138, 152, 162, 175, 52, 225, 244. -/
def marker : Rd (Nat × Nat) := do
  let bs ← Rd.bits .big [4, 4]
  pure (bs.getD 0 0, bs.getD 1 0)

/-- The number of an integer object, bplist.py:152-156; `GenericInteger` refuses more than 16384 bits (/repo/hachoir/field/integer.py:16-18). -/
def number (size : Nat) : Rd Int :=
  if 11 < size then Rd.fail .field
  else if 3 ≤ size then Rd.signed (2 ^ size) .big
  else do
    let v ← Rd.int (2 ^ size) .big
    pure (v : Int)

/-- `BPListSize`, bplist.py:49-60.  A size that is not an integer object, or is negative, is an exception here: the code goes on with whatever value the object has. -/
def size (low : Nat) : Rd Nat :=
  if low ≠ 15 then pure low
  else do
    let m ← marker
    if m.1 ≠ 1 then Rd.fail .type
    else do
      let v ← number m.2
      if v < 0 then Rd.fail .type else pure v.toNat

/-- `BPListObjectRef`, bplist.py:63-67: an integer field of `refSize` bytes, at least 1 and at most 2048 (/repo/hachoir/field/integer.py:16-18). -/
def ref (refSize : Nat) : Rd Nat := Rd.int refSize .big

/-- The rest of the file: a dictionary without entries is a field set of size 0, `_fixFieldSize` gives its parent all the room there is up to the end of the file
(/repo/hachoir/field/generic_field_set.py:184-190, 203-213) and the parent is filled up with raw bytes (284-290). -/
def lost {α : Type} (v : α) : Rd α := fun _ stop _ => .ok (v, stop)

/-- What is behind the 4 bits. -/
def body (refSize m low : Nat) : Rd Obj :=
  match m with
  | 0 => pure (.simple low)
  | 1 => do
    let v ← number low
    pure (.int v)
  | 2 => do
    let v ← Rd.int (2 ^ low) .big
    pure (.real low v)
  | 3 => do
    let v ← Rd.int 8 .big
    pure (.date low v)
  | 4 => do
    let n ← size low
    if n = 0 then pure (.data []) else do
      let b ← Rd.raw n
      pure (.data b)
  | 5 => do
    let n ← size low
    if n = 0 then pure (.ascii []) else do
      let b ← Rd.text .big .fixed .eightBit (some n)
      pure (.ascii b)
  | 6 => do
    let n ← size low
    if n = 0 then pure (.utf16 []) else do
      let b ← Rd.text .big .fixed .utf16be (some ((n * 2 : Nat) : Int))
      pure (.utf16 b)
  | 8 => do
    let v ← Rd.int (low + 1) .big
    pure (.uid low v)
  | 10 => do
    let n ← size low
    let refs ← Rd.times (ref refSize) n
    pure (.array refs)
  | 13 => do
    let n ← size low
    if n = 0 then lost (.dict [] []) else do
      let keys ← Rd.times (ref refSize) n
      let vals ← Rd.times (ref refSize) n
      pure (.dict keys vals)
  | m => pure (.other m low)

/-- `BPListObject.createFields`, bplist.py:123-245. -/
def object (refSize : Nat) : Rd Obj := do
  let m ← marker
  body refSize m.1 m.2

/-- `BPListTrailer`, bplist.py:29-35. -/
structure Trailer where
  unused : Bytes
  offsetSize : Nat
  refSize : Nat
  count : Nat
  top : Nat
  table : Nat
  deriving DecidableEq, Repr

def trailer : Rd Trailer := do
  let unused ← Rd.raw 6
  let offsetSize ← Rd.int 1 .big
  let refSize ← Rd.int 1 .big
  let count ← Rd.int 8 .big
  let top ← Rd.int 8 .big
  let table ← Rd.int 8 .big
  pure ⟨unused, offsetSize, refSize, count, top, table⟩

/-- The objects, bplist.py:312-318: padding or a step back lead to the offset of each. -/
def objects (refSize : Nat) : List Nat → Rd (List Obj) := Rd.each fun i => do
  Rd.jump i
  object refSize

/-- `BPList.createFields`, bplist.py:297-318: the trailer, the offsets and the objects of a file of known size. -/
def bplist : Rd (Trailer × List Nat × List Obj) := do
  let _ ← Rd.raw 8
  let stop ← Rd.limit
  Rd.jump (stop / 8 - 32)
  let t ← trailer
  Rd.jump t.table
  let offsets ← Rd.times (Rd.int t.offsetSize .big) t.count
  let os ← objects t.refSize offsets
  pure (t, offsets, os)

/-- `getRef`, bplist.py:69-70. -/
def getRef (os : List Obj) (i : Nat) : Except PyErr Obj :=
  match os[i]? with
  | some o => .ok o
  | none => .error .missingField

/-- `BPListObject.createValue`, bplist.py:247-253: whether there is a value.  Data and texts of 0 bytes are an empty text. -/
def hasValue : Obj → Bool
  | .array [] => false
  | .dict [] [] => false
  | _ => true

end Hachoir.Formats.Bplist
