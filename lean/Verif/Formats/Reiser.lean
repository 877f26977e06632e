import Verif.Formats.Asf

/-!
# ReiserFS file systems (`parser/file_system/reiser_fs.py`)
-/

namespace Hachoir.Formats.Reiser
open Hachoir Hachoir.Stream Hachoir.Field Hachoir.Formats

/-- The fields of `SuperBlock` by order, reiser_fs.py:110-142, with those of `Journal_params` (reiser_fs.py:84-93) in their place. -/
structure Super where
  counts : List Nat
  blockSize : Nat
  ids : List Nat
  magic : Bytes
  state : List Nat
  maps : Nat
  rest : List Nat
  uuid : Bytes
  label : Bytes
  unused : Bytes
  filler : Bytes
  deriving DecidableEq, Repr

/-- The null bytes up to the end of the block, reiser_fs.py:142: none or less are refused (/repo/hachoir/field/byte_field.py:23-24). -/
def fill (bs : Nat) : Rd Bytes := if bs < 204 then Rd.fail .field else Rd.raw (bs - 204)

/-- `SuperBlock.createFields`, reiser_fs.py:110-142. -/
def super : Rd Super := do
  let a ← Asf.numbers [4, 4, 4, 4, 4, 4, 4, 4, 4, 4, 4]
  let bs ← Rd.int 2 .little
  let b ← Asf.numbers [2, 2, 2]
  let m ← Rd.text .little .fixed .eightBit (some 10)
  let c ← Asf.numbers [2, 4, 2]
  let n ← Rd.int 2 .little
  let d ← Asf.numbers [2, 2, 4, 4]
  let u ← Rd.raw 16
  let l ← Rd.text .little .fixed .eightBit (some 16)
  let x ← Rd.raw 88
  let y ← fill bs
  pure ⟨a, bs, b, m, c, n, d, u, l, x, y⟩

/-- `BitmapBlock.createFields`, reiser_fs.py:58-62: 1 for used (reiser_fs.py:32-35). -/
def states (bs : Nat) : Rd (List Nat) := Rd.bits .little (List.replicate (8 * bs) 1)

/-- One round of the loop, reiser_fs.py:76-78: going before the group is an error (/repo/hachoir/field/seekable_field_set.py:37-44). -/
def other (bs i : Nat) : Rd (List Nat) :=
  if bs ^ 2 * 8 * i < 65536 + bs then Rd.fail .parser else Rd.bind (Rd.jump (bs ^ 2 * 8 * i)) fun _ => states bs

/-- `BitmapBlockGroup.createFields`, reiser_fs.py:68-78. -/
def group (bs n : Nat) : Rd (List (List Nat)) := do
  let _ ← Rd.jump (65536 + bs)
  let a ← states bs
  let l ← Rd.each (other bs) (List.range' 1 (n - 1))
  pure (a :: l)

structure File where
  padding : Bytes
  head : Super
  maps : List (List Nat)
  deriving DecidableEq, Repr

/-- `REISER_FS.createFields`, reiser_fs.py:172-175. -/
def file : Rd File := do
  let p ← Rd.raw 65536
  let s ← super
  let g ← group s.blockSize s.maps
  pure ⟨p, s, g⟩

/-- `rstrip(b"\0")`. -/
def rstrip (b : Bytes) : Bytes := (b.reverse.dropWhile (· == 0)).reverse

/-- `validate`, reiser_fs.py:165-170: by the first nine bytes of the magic. -/
def valid (magic : Bytes) : Bool :=
  [[82, 101, 73, 115, 69, 114, 51, 70, 115], [82, 101, 73, 115, 69, 114, 70, 115], [82, 101, 73, 115, 69, 114, 50, 70, 115]].contains (rstrip (magic.take 9))

/-- The numbers in the descriptions of the states of several files read after each other, with so many states each: `BlockState.block_nb` counts for the whole program, reiser_fs.py:37-46. -/
def numbered : Nat → List Nat → List (List Nat)
  | _, [] => []
  | next, n :: ns => List.range' next n :: numbered (next + n) ns

end Hachoir.Formats.Reiser
