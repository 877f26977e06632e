import Verif.Stream.Input

/-!
# Model of `CompressedStream`, /repo/hachoir/field/sub_file.py:37-66

The decompressor is a parameter: a Python callable with a state, called as
`decompressor(size)` or `decompressor(size, data)`.
-/

set_option linter.unusedVariables false

namespace Hachoir.SubFile
open Hachoir Hachoir.Stream

/-- A decompressor object with state `σ`: `call s size data` is
`decompressor(size, data)`; `data = none` stands for the call without data. -/
structure Decompressor (σ : Type) where
  call : σ → Nat → Option Bytes → σ × Bytes

/-- `CompressedStream`, /repo/hachoir/field/sub_file.py:37-43: the state of the
decompressor, the attributes `offset` (in bits) and `_buffer`. -/
structure CState (σ : Type) where
  dec : σ
  offset : Nat
  buffer : Bytes

/-- `CompressedStream.__init__`, /repo/hachoir/field/sub_file.py:40-43. -/
def CState.init {σ : Type} (dec : σ) : CState σ := { dec := dec, offset := 0, buffer := [] }

/-- The loop `while size > 0` of `CompressedStream.read`,
/repo/hachoir/field/sub_file.py:53-63.  `size` is the number of bytes still
wanted (positive), `d` the last chunk, `took` how many bytes of `d` were wanted
(`size + len(d)` in the code), `acc` the joined `data`.  `fuel` bounds the
number of iterations; running out of fuel stands for a loop that does not end
and is reported as RuntimeError.  Simplification: the stream's size is known (in
the code an unknown or null size means n = 4096). -/
def readLoop {σ : Type} (D : Decompressor σ) (s : InputStream) :
    (fuel : Nat) → σ → (offset : Nat) → (size : Nat) → (d : Bytes) → (took : Nat) → (acc : Bytes) →
    Except PyErr (CState σ × Bytes)
  | 0, _, _, _, _, _, _ => .error .runtime
  | fuel + 1, dec, offset, size, d, took, acc =>
    let n : Int := match s.size with
      | none => 4096
      | some z => if z ≠ 0 then min ((z : Int) - offset) 4096 else 4096
    if s.size.isSome ∧ s.size ≠ some 0 ∧ n = 0 then
      -- break
      .ok ({ dec := dec, offset := offset, buffer := d.drop took }, acc)
    else if n < 0 then .error .value   -- only for sizes that are not whole bytes; not followed further
    else
      match s.read offset n.toNat with
      | .error e => .error e
      | .ok (_, c, _) =>
        let offset := offset + 8 * c.length
        let (dec, d) := D.call dec size (some c)
        let acc := acc ++ d.take size
        if d.length < size then readLoop D s fuel dec offset (size - d.length) d size acc
        else .ok ({ dec := dec, offset := offset, buffer := d.drop size }, acc)

/-- `CompressedStream.read`, /repo/hachoir/field/sub_file.py:45-66. -/
def read {σ : Type} (D : Decompressor σ) (s : InputStream) (fuel : Nat) (st : CState σ) (size : Nat) :
    Except PyErr (CState σ × Bytes) :=
  let d := st.buffer
  if size ≤ d.length then
    -- size -= len(d) is not positive
    .ok ({ st with buffer := d.drop size }, d.take size)
  else
    let acc := d
    let size := size - d.length
    let (dec, d) := D.call st.dec size none
    let acc := acc ++ d.take size
    if d.length < size then readLoop D s fuel dec st.offset (size - d.length) d size acc
    else .ok ({ dec := dec, offset := st.offset, buffer := d.drop size }, acc)

/-- Successive reads: the sizes asked and the data delivered. -/
def readMany {σ : Type} (D : Decompressor σ) (s : InputStream) (fuel : Nat) :
    CState σ → List Nat → Except PyErr (List Bytes)
  | _, [] => .ok []
  | st, n :: ns =>
    match read D s fuel st n with
    | .error e => .error e
    | .ok (st', d) =>
      match readMany D s fuel st' ns with
      | .error e => .error e
      | .ok ds => .ok (d :: ds)

end Hachoir.SubFile
