import Verif.Py
import Verif.Core.Bits
import Verif.Core.Tools

/-!
# Model of /repo/hachoir/stream/input.py: streams of known size

`InputPipe` (unknown size, stateful) is modelled in `Verif.Stream.Pipe`.
-/

set_option linter.unusedVariables false

namespace Hachoir.Stream
open Hachoir

/-- Result `(shift, data, missing)` of the method `read` of the stream classes. -/
abbrev ReadResult := Except PyErr (Nat × Bytes × Bool)

/-- An input stream whose `read` has no side effect: the method `read` (bit
address, size in bits) and the attribute `_size` (in bits).
/repo/hachoir/stream/input.py:128-188.  Addresses are Python ints (`Int`);
sizes are non-negative (simplification: no caller asks for a negative size). -/
structure InputStream where
  read : Int → Nat → ReadResult
  size : Option Nat

/-- `StringInputStream.read`, /repo/hachoir/stream/input.py:460-467.  The slice
follows Python's rules for negative bounds. -/
def stringRead (data : Bytes) (address : Int) (size : Nat) : ReadResult :=
  let shift := (address % 8).toNat
  let address := address / 8
  let size := (size + shift + 7) >>> 3
  let d := pySlice data address (address + size)
  let got := d.length
  if got ≠ size then .error .readStream
  else .ok (shift, d, false)

/-- `StringInputStream.__init__`, /repo/hachoir/stream/input.py:452-455
(`InputStream.__init__` refuses a null size, lines 132-136). -/
def stringInputStream (data : Bytes) : Except PyErr InputStream :=
  if 8 * data.length = 0 then .error .nullStream
  else .ok { read := stringRead data, size := some (8 * data.length) }

/-- `InputIOStream.read` over a seekable file of known size with the given
contents, /repo/hachoir/stream/input.py:425-438.  `file.read(size)` after
`file.seek(address)` returns the available bytes; seeking to a negative
position raises (ValueError).  With a known size `_size == self._size` always
holds so a short read raises. -/
def ioRead (data : Bytes) (address : Int) (size : Nat) : ReadResult :=
  if size = 0 then .ok (0, [], false)
  else
    let shift := (address % 8).toNat
    let address := address / 8
    if address < 0 then .error .value
    else
      let size := (size + shift + 7) >>> 3
      let d := (data.drop address.toNat).take size
      if size ≠ d.length then .error .readStream
      else .ok (shift, d, false)

/-- `InputIOStream.__init__` for a seekable file, /repo/hachoir/stream/input.py:394-412. -/
def ioInputStream (data : Bytes) : Except PyErr InputStream :=
  if 8 * data.length = 0 then .error .nullStream
  else .ok { read := ioRead data, size := some (8 * data.length) }

/-- `InputSubStream.__init__` and `read`, /repo/hachoir/stream/input.py:470-494,
for a parent of known size. -/
def subStream (parent : InputStream) (offset : Nat) (size : Option Nat) : Except PyErr InputStream :=
  let size : Option Int := match size, parent.size with
    | some s, _ => some s
    | none, some p => some (p - offset)
    | none, none => none
  match size with
  | none => .error .type          -- `None <= 0`
  | some s =>
    if s ≤ 0 then .error .value
    else .ok { read := fun address n => parent.read (offset + address) n, size := some s.toNat }

/-- `InputStream.readBits`, /repo/hachoir/stream/input.py:190-208. -/
def readBits (s : InputStream) (address : Int) (nbits : Nat) (endian : Endian) : Except PyErr Nat :=
  let r : ReadResult :=
    match endian with
    | .middle =>
      let wordaddr := address / 16
      let remainder := (address % 16).toNat
      match Tools.alignValue (remainder + nbits : Nat) 16 with
      | .error e => .error e
      | .ok wordnbits =>
        match s.read (wordaddr * 16) wordnbits.toNat with
        | .error e => .error e
        | .ok (_, data, missing) => .ok (remainder, data, missing)
    | _ => s.read address nbits
  match r with
  | .error e => .error e
  | .ok (shift, data, missing) =>
    if missing then .error .readStream
    else
      match Bits.str2long data endian with
      | .error e => .error e
      | .ok value =>
        match endian with
        | .little => .ok ((value >>> shift) &&& ((1 <<< nbits) - 1))
        | _ =>
          -- a negative shift count is a ValueError
          if data.length * 8 < shift + nbits then .error .value
          else .ok ((value >>> (data.length * 8 - shift - nbits)) &&& ((1 <<< nbits) - 1))

/-- `InputStream.readInteger`, /repo/hachoir/stream/input.py:210-218.  With
`nbits = 0` and `signed` the shift `1 << -1` is a ValueError. -/
def readInteger (s : InputStream) (address : Int) (signed : Bool) (nbits : Nat) (endian : Endian) :
    Except PyErr Int :=
  match readBits s address nbits endian with
  | .error e => .error e
  | .ok value =>
    if signed then
      if nbits = 0 then .error .value
      else if 1 <<< (nbits - 1) ≤ value then .ok ((value : Int) - (1 <<< nbits : Nat))
      else .ok value
    else .ok value

/-- `InputStream.readBytes`, /repo/hachoir/stream/input.py:220-226. -/
def readBytes (s : InputStream) (address : Int) (nbytes : Nat) : Except PyErr Bytes :=
  match s.read address (8 * nbytes) with
  | .error e => .error e
  | .ok (shift, data, missing) =>
    if shift ≠ 0 then .error .inputStream
    else if missing then .error .readStream
    else .ok data

/-- `bytes.find(needle)`: index of the first occurrence, -1 (`none`) if there is
none. -/
def bytesFind (needle : Bytes) : Bytes → Option Nat
  | [] => if needle.isPrefixOf [] then some 0 else none
  | b :: bs =>
    if needle.isPrefixOf (b :: bs) then some 0
    else (bytesFind needle bs).map (· + 1)

/-- Loop of `InputStream.searchBytes` with a known end address,
/repo/hachoir/stream/input.py:259-276.  `size` is positive. -/
def searchLoop (s : InputStream) (needle : Bytes) (endA : Int) (size : Nat) (hs : 0 < size)
    (start : Int) (buffer : Bytes) : Except PyErr (Option Int) :=
  let todo := (endA - start) / 8
  if h0 : todo ≤ 0 then .ok none       -- then also todo < size
  else
    let size' := if todo < size then todo.toNat else size
    match readBytes s start size' with
    | .error e => .error e
    | .ok data =>
      let start' := start + 8 * size'
      let buffer' :=
        pySlice buffer ((buffer.length : Int) - needle.length + 1) buffer.length ++ data
      match bytesFind needle buffer' with
      | some found => .ok (some (start' + ((found : Int) - buffer'.length) * 8))
      | none => searchLoop s needle endA size' (by simp only [size']; split <;> omega) start' buffer'
termination_by (endA - start).toNat
decreasing_by split <;> omega

/-- `InputStream.searchBytes` on a stream of known (non null) size,
/repo/hachoir/stream/input.py:243-276. -/
def searchBytes (s : InputStream) (needle : Bytes) (start : Int) (endA : Option Int) :
    Except PyErr (Option Int) :=
  if start % 8 ≠ 0 then .error .inputStream
  else
    let size := max (3 * needle.length) 4096
    match s.size with
    | none => .error .notImplemented    -- unknown size: see `Verif.Stream.Pipe`
    | some sz =>
      let endA := match endA with
        | none => (sz : Int)
        | some e => if (sz : Int) < e then sz else e
      searchLoop s needle endA size (by omega) start []

/-- `InputStream.searchBytesLength`, /repo/hachoir/stream/input.py:228-241. -/
def searchBytesLength (s : InputStream) (needle : Bytes) (includeNeedle : Bool) (start : Int)
    (endA : Option Int) : Except PyErr (Option Int) :=
  match searchBytes s needle start endA with
  | .error e => .error e
  | .ok none => .ok none
  | .ok (some pos) =>
    .ok (some ((pos - start) / 8 + (if includeNeedle then (needle.length : Int) else 0)))

end Hachoir.Stream
