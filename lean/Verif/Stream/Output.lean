import Verif.Py
import Verif.Core.Bits
import Verif.Stream.Input

/-!
# Model of /repo/hachoir/stream/output.py
-/

set_option linter.unusedVariables false

namespace Hachoir.Stream
open Hachoir

/-- `OutputStream`, /repo/hachoir/stream/output.py:15-21: the bytes written to
the underlying binary file so far, `_bit_pos` and `_byte`. -/
structure OutputStream where
  out : Bytes
  bitPos : Nat
  byte : Nat
  deriving DecidableEq, Repr

/-- `OutputStream.__init__`, /repo/hachoir/stream/output.py:17-21. -/
def OutputStream.init : OutputStream := { out := [], bitPos := 0, byte := 0 }

/-- `self._output.write(bytes([b]))`: `bytes` raises ValueError above 255. -/
def emit (out : Bytes) (b : Nat) : Except PyErr Bytes :=
  if b < 256 then .ok (out ++ [UInt8.ofNat b]) else .error .value

/-- `OutputStream.writeBit`, /repo/hachoir/stream/output.py:36-54. -/
def writeBit (s : OutputStream) (state : Bool) (endian : Endian) : Except PyErr OutputStream :=
  if endian = .middle then .error .assertion
  else if s.bitPos = 7 then
    let byte := if state then (if endian = .big then s.byte ||| 1 else s.byte ||| 128) else s.byte
    match emit s.out byte with
    | .error e => .error e
    | .ok out => .ok { out := out, bitPos := 0, byte := 0 }
  else
    let byte :=
      if state then
        (if endian = .big then s.byte ||| (1 <<< s.bitPos) else s.byte ||| (1 <<< (7 - s.bitPos)))
      else s.byte
    .ok { s with byte := byte, bitPos := s.bitPos + 1 }

/-- Loop "Write byte per byte" of `OutputStream.writeBits`,
/repo/hachoir/stream/output.py:85-93.  Returns the output and the remaining
`count` and `value`. -/
def writeBytesLoop (endian : Endian) (out : Bytes) (count value : Nat) :
    Except PyErr (Bytes × Nat × Nat) :=
  if h : 8 ≤ count then
    let count' := count - 8
    let byte := if endian = .big then value >>> count' else value &&& 0xFF
    let value' := if endian = .big then value &&& ((1 <<< count') - 1) else value >>> 8
    match emit out byte with
    | .error e => .error e
    | .ok out' => writeBytesLoop endian out' count' value'
  else .ok (out, count, value)
termination_by count

/-- End of `OutputStream.writeBits` ("Write byte per byte" and "Keep last
bits"), /repo/hachoir/stream/output.py:84-106. -/
def writeBitsTail (endian : Endian) (out : Bytes) (count value : Nat) : Except PyErr OutputStream :=
  match writeBytesLoop endian out count value with
  | .error e => .error e
  | .ok (out, count, value) =>
    if ¬ count < 8 then .error .assertion
    else if 0 < count then
      if ¬ value < 2 ^ count then .error .assertion
      else .ok { out := out, bitPos := count, byte := if endian = .big then value <<< (8 - count) else value }
    else if value ≠ 0 then .error .assertion
    else .ok { out := out, bitPos := 0, byte := 0 }

/-- `OutputStream.writeBits`, /repo/hachoir/stream/output.py:56-106.  In the
tail the byte is always 0 when the function enters with `bitPos = 0`; the model
keeps `s.byte` out of it because lines 98-106 overwrite it. -/
def writeBits (s : OutputStream) (count : Nat) (value : Int) (endian : Endian) :
    Except PyErr OutputStream :=
  if endian = .middle then .error .assertion
  else if ¬ (0 ≤ value ∧ value < (2 ^ count : Nat)) then .error .assertion
  else
    let value := value.toNat
    if s.bitPos ≠ 0 then
      let n := 8 - s.bitPos
      if n ≤ count then
        let count := count - n
        let byte := if endian = .big then s.byte ||| (value >>> count)
          else s.byte ||| ((value &&& ((1 <<< n) - 1)) <<< s.bitPos)
        let value := if endian = .big then value &&& ((1 <<< count) - 1) else value >>> n
        match emit s.out byte with
        | .error e => .error e
        | .ok out => writeBitsTail endian out count value
      else
        let byte := if endian = .big then s.byte ||| (value <<< (8 - s.bitPos - count))
          else s.byte ||| (value <<< s.bitPos)
        .ok { s with byte := byte, bitPos := s.bitPos + count }
    else writeBitsTail endian s.out count value

/-- `OutputStream.writeBytes`, /repo/hachoir/stream/output.py:144-147. -/
def writeBytes (s : OutputStream) (data : Bytes) : Except PyErr OutputStream :=
  if s.bitPos ≠ 0 then .error .notImplemented
  else .ok { s with out := s.out ++ data }

/-- `OutputStream.writeInteger`, /repo/hachoir/stream/output.py:108-112.  For
`signed` and `size_byte = 0` the shift `1 << -1` is a ValueError. -/
def writeInteger (s : OutputStream) (value : Int) (signed : Bool) (sizeByte : Nat) (endian : Endian) :
    Except PyErr OutputStream :=
  if signed ∧ sizeByte = 0 then .error .value
  else
    let value := if signed then value + (1 <<< (sizeByte * 8 - 1) : Nat) else value
    match Bits.long2raw value endian (some sizeByte) with
    | .error e => .error e
    | .ok raw => writeBytes s raw

/-- Loop of `OutputStream.copyBytesFrom`, /repo/hachoir/stream/output.py:129-142.
`bufferSize` is positive (it starts at 4096 and becomes `nb_bytes > 0`). -/
def copyLoop (s : OutputStream) (input : InputStream) (address : Int) (nbBytes bufferSize : Nat)
    (hb : 0 < bufferSize) : Except PyErr OutputStream :=
  if h : 0 < nbBytes then
    let bufferSize' := if nbBytes < bufferSize then nbBytes else bufferSize
    match readBytes input address bufferSize' with
    | .error e => .error e
    | .ok data =>
      match writeBytes s data with
      | .error e => .error e
      | .ok s' => copyLoop s' input (address + bufferSize' * 8) (nbBytes - bufferSize') bufferSize'
          (by simp only [bufferSize']; split <;> omega)
  else .ok s
termination_by nbBytes
decreasing_by split <;> omega

/-- `OutputStream.copyBytesFrom`, /repo/hachoir/stream/output.py:124-142. -/
def copyBytesFrom (s : OutputStream) (input : InputStream) (address : Int) (nbBytes : Nat) :
    Except PyErr OutputStream :=
  if address % 8 ≠ 0 then .error .outputStream
  else copyLoop s input address nbBytes 4096 (by omega)

/-- `config.max_bit_length`, /repo/hachoir/core/config.py:10. -/
def maxBitLength : Nat := 256

/-- `OutputStream.copyBitsFrom`, /repo/hachoir/stream/output.py:114-122. -/
def copyBitsFrom (s : OutputStream) (input : InputStream) (address : Int) (nbBits : Nat)
    (endian : Endian) : Except PyErr OutputStream :=
  if nbBits % 8 = 0 ∧ address % 8 = 0 ∧ s.bitPos % 8 = 0 then
    copyBytesFrom s input address (nbBits / 8)
  else if ¬ nbBits ≤ maxBitLength then .error .assertion
  else
    match readBits input address nbBits endian with
    | .error e => .error e
    | .ok data => writeBits s nbBits data endian

/-- `OutputStream.readBytes`, /repo/hachoir/stream/output.py:149-173, over a
file opened for reading and writing: `seek(0)` then `read(nbytes)`; the position
is restored afterwards.  The address is checked but not used. -/
def outputReadBytes (s : OutputStream) (address : Int) (nbytes : Nat) : Except PyErr Bytes :=
  if address % 8 ≠ 0 then .error .assertion
  else if ¬ (1 ≤ nbytes ∧ nbytes ≤ 65536) then .error .assertion
  else .ok (s.out.take nbytes)

end Hachoir.Stream
