import Verif.Stream.Input

/-!
# Integers of variable length in the format parsers

The constructors of these fields read their own bytes to learn their size, so a wrong loop
shifts every field that follows.  Each model takes the stream, the absolute address of the
field and, where the code uses it, the endian of the parent; it returns the value (the
closure stored in `createValue`) and the size in bits (`_size`).
-/

set_option linter.unusedVariables false

namespace Hachoir.Formats
open Hachoir Hachoir.Stream

/-- Loop of `Integer.__init__` (MIDI), /repo/hachoir/parser/audio/midi.py:29-37. -/
def midiLoop (s : InputStream) (endian : Endian) (addr : Int) (size value : Nat) :
    Except PyErr (Nat × Nat) :=
  match readBits s addr 8 endian with
  | .error e => .error e
  | .ok bits =>
    let value := (value <<< 7) + (bits &&& 127)
    if bits &&& 128 = 0 then .ok (value, size)
    else if h : 32 < size + 8 then .error .parser
    else midiLoop s endian (addr + 8) (size + 8) value
termination_by 32 - size

/-- `Integer` (MIDI), /repo/hachoir/parser/audio/midi.py:24-38. -/
def midiInteger (s : InputStream) (endian : Endian) (addr : Int) : Except PyErr (Nat × Nat) :=
  midiLoop s endian addr 8 0

/-- Loop of `CWord.__init__`, /repo/hachoir/parser/misc/chm.py:43-52; `byte` is the byte
already read. -/
def cwordLoop (s : InputStream) (endian : Endian) (addr : Int) (size value byte : Nat) :
    Except PyErr (Nat × Nat) :=
  if byte &&& 0x80 ≠ 0 then
    let value := (value <<< 7) + (byte &&& 0x7f)
    if h : 64 < size + 8 then .error .parser
    else
      match readBits s (addr + 8) 8 endian with
      | .error e => .error e
      | .ok byte => cwordLoop s endian (addr + 8) (size + 8) value byte
  else .ok ((value <<< 7) + byte, size)
termination_by 64 - size

/-- `CWord` (CHM), /repo/hachoir/parser/misc/chm.py:34-53. -/
def cword (s : InputStream) (endian : Endian) (addr : Int) : Except PyErr (Nat × Nat) :=
  match readBits s addr 8 endian with
  | .error e => .error e
  | .ok byte => cwordLoop s endian addr 8 0 byte

/-- Loop of `OID_Integer.__init__`, /repo/hachoir/parser/container/asn1.py:90-98. -/
def oidLoop (s : InputStream) (addr : Int) (size value byte : Nat) : Except PyErr (Nat × Nat) :=
  if 128 ≤ byte then
    if h : 64 < size + 8 then .error .parser
    else
      match readBits s (addr + 8) 8 .big with
      | .error e => .error e
      | .ok byte => oidLoop s (addr + 8) (size + 8) ((value <<< 7) + (byte &&& 127)) byte
  else .ok (value, size)
termination_by 64 - size

/-- `OID_Integer` (ASN.1), /repo/hachoir/parser/container/asn1.py:82-100. -/
def oidInteger (s : InputStream) (addr : Int) : Except PyErr (Nat × Nat) :=
  match readBits s addr 8 .big with
  | .error e => .error e
  | .ok byte => oidLoop s addr 8 (byte &&& 127) byte

/-- Loop of `InstanceLength.__init__`, /repo/hachoir/parser/container/mp4.py:46-50.  It has no
limit of its own; `n` bounds the number of iterations of the model. -/
def instanceLoop (s : InputStream) : Nat → Int → Nat → Nat → Nat → Except PyErr (Nat × Nat)
  | 0, _, _, _, _ => .error .endless
  | n + 1, addr, size, value, byte =>
    if byte &&& 0x80 ≠ 0 then
      match readBits s (addr + 8) 8 .big with
      | .error e => .error e
      | .ok byte => instanceLoop s n (addr + 8) (size + 8) ((value <<< 7) + (byte &&& 0x7f)) byte
    else .ok (value, size)

/-- `InstanceLength` (MP4), /repo/hachoir/parser/container/mp4.py:36-52. -/
def instanceLength (s : InputStream) (n : Nat) (addr : Int) : Except PyErr (Nat × Nat) :=
  match readBits s addr 8 .big with
  | .error e => .error e
  | .ok byte => instanceLoop s n addr 8 (byte &&& 0x7f) byte

/-- Loop of `FlashPackedInteger.__init__`, /repo/hachoir/parser/container/action_script.py:32-38.
`mult` is the power of two reached; `n` bounds the iterations of the model. -/
def flashLoop (s : InputStream) (addr : Int) : Nat → Nat → Nat → Nat → Except PyErr (Nat × Nat)
  | 0, _, _, _ => .error .endless
  | n + 1, size, value, mult =>
    match readBits s (addr + size) 8 .little with
    | .error e => .error e
    | .ok byte =>
      let value := value + mult * (byte &&& 0x7f)
      if byte < 128 then .ok (value, size + 8)
      else flashLoop s addr n (size + 8) value (mult <<< 7)

/-- `FlashPackedInteger` (SWF), /repo/hachoir/parser/container/action_script.py:25-42. -/
def flashInteger (s : InputStream) (n : Nat) (signed : Bool) (nbits : Nat) (addr : Int) :
    Except PyErr (Int × Nat) :=
  match flashLoop s addr n 0 0 1 with
  | .error e => .error e
  | .ok (value, size) =>
    if signed ∧ 1 <<< (nbits - 1) ≤ value then .ok ((value : Int) - (1 <<< nbits : Nat), size)
    else .ok (value, size)

/-- Loop of `UIntVbe.__init__`, /repo/hachoir/parser/misc/mapsforge_map.py:35-45.
`readBytes(.., 1)[0]` is the byte; the length one is certain for the streams of the model. -/
def uvbeLoop (s : InputStream) (addr : Int) (size value : Nat) : Except PyErr (Nat × Nat) :=
  match readBytes s (addr + size * 8) 1 with
  | .error e => .error e
  | .ok [] => .error .index
  | .ok (byte :: _) =>
    let value := value ||| ((byte.toNat &&& 0x7f) <<< (size * 7))
    if h : 100 ≤ size + 1 then .error .assertion
    else if byte.toNat &&& 0x80 = 0 then .ok (value, size + 1)
    else uvbeLoop s addr (size + 1) value
termination_by 100 - size

/-- `UIntVbe` (mapsforge), /repo/hachoir/parser/misc/mapsforge_map.py:28-48. -/
def uintVbe (s : InputStream) (addr : Int) : Except PyErr (Nat × Nat) :=
  match uvbeLoop s addr 0 0 with
  | .error e => .error e
  | .ok (value, size) => .ok (value, size * 8)

/-- Loop of `IntVbe.__init__` after the first byte, /repo/hachoir/parser/misc/mapsforge_map.py:59-75. -/
def ivbeLoop (s : InputStream) (addr : Int) (size shift value : Nat) : Except PyErr (Nat × Nat) :=
  match readBytes s (addr + size * 8) 1 with
  | .error e => .error e
  | .ok [] => .error .index
  | .ok (byte :: _) =>
    let value := value ||| ((byte.toNat &&& 0x7f) <<< shift)
    if h : 100 ≤ size + 1 then .error .assertion
    else if byte.toNat &&& 0x80 = 0 then .ok (value, size + 1)
    else ivbeLoop s addr (size + 1) (shift + 7) value
termination_by 100 - size

/-- `IntVbe` (mapsforge), /repo/hachoir/parser/misc/mapsforge_map.py:51-81: the first byte
(size 0) carries the sign in bit 6 and six bits of the value. -/
def intVbe (s : InputStream) (addr : Int) : Except PyErr (Int × Nat) :=
  match readBytes s addr 1 with
  | .error e => .error e
  | .ok [] => .error .index
  | .ok (byte :: _) =>
    let isNegative := byte.toNat &&& 0x40
    let value := byte.toNat &&& 0x3f
    match (if byte.toNat &&& 0x80 = 0 then .ok (value, 1) else ivbeLoop s addr 1 6 value) with
    | .error e => .error e
    | .ok (value, size) => .ok (if isNegative ≠ 0 then (value : Int) * -1 else value, size * 8)

/-- Loop of `VarLengthInt.createFields` (git), /repo/hachoir/parser/misc/git_pack.py:123-131:
the fields `msb[]` (1 bit) and `value[]` (7 bits) follow each other in BIG_ENDIAN; `size` is
`current_size`.  `n` bounds the iterations of the model. -/
def gitLoop (s : InputStream) (addr : Int) : Nat → Nat → Nat → Nat → Except PyErr (Nat × Nat)
  | 0, _, _, _ => .error .endless
  | n + 1, size, decoded, nbits =>
    match readBits s (addr + size) 1 .big with
    | .error e => .error e
    | .ok msb =>
      match readBits s (addr + (size + 1 : Nat)) 7 .big with
      | .error e => .error e
      | .ok value =>
        let decoded := decoded ||| (value <<< nbits)
        if msb = 1 then gitLoop s addr n (size + 8) decoded (nbits + 7)
        else .ok (decoded, size + 8)

/-- `VarLengthInt`, /repo/hachoir/parser/misc/git_pack.py:115-131: `decoded_value` and the size. -/
def gitVarLength (s : InputStream) (n : Nat) (addr : Int) : Except PyErr (Nat × Nat) :=
  gitLoop s addr n 0 0 0

/-- `TypeAndSize.createFields`, /repo/hachoir/parser/misc/git_pack.py:149-164: type,
`decoded_size` and the size of the field set.  The loop 157-164 reads the same fields as the
one of `VarLengthInt`. -/
def gitTypeAndSize (s : InputStream) (n : Nat) (addr : Int) : Except PyErr (Nat × Nat × Nat) :=
  match readBits s addr 1 .big with
  | .error e => .error e
  | .ok msb =>
    match readBits s (addr + 1) 3 .big with
    | .error e => .error e
    | .ok typ =>
      match readBits s (addr + 4) 4 .big with
      | .error e => .error e
      | .ok size0 =>
        if msb = 1 then
          match gitLoop s addr n 8 size0 4 with
          | .error e => .error e
          | .ok (decoded, size) => .ok (typ, decoded, size)
        else .ok (typ, size0, 8)

/-- `ID3_Size.createValue`, /repo/hachoir/parser/audio/id3.py:478-481 (`static_size = 32`). -/
def id3Size (s : InputStream) (addr : Int) : Except PyErr Nat :=
  match readBytes s addr 4 with
  | .error e => .error e
  | .ok [] => .error .type                -- reduce() of an empty sequence
  | .ok (x :: xs) => .ok (xs.foldl (fun x y => x * 128 + y.toNat) x.toNat)

/-- Loop of `SZUInt64.__init__`, /repo/hachoir/parser/archive/sevenzip.py:44-52, for the
iterations `i`, `i + 1`, ..; `n` is the number of iterations left. -/
def szLoop (s : InputStream) (first : Nat) : Nat → Nat → Int → Nat → Nat → Nat → Except PyErr (Nat × Nat)
  | 0, _, _, _, value, size => .ok (value, size)
  | n + 1, i, addr, mask, value, size =>
    let addr := addr + 8
    if first &&& mask = 0 then .ok (value + ((first &&& (mask - 1)) <<< (8 * i)), size)
    else
      match readBits s addr 8 .little with
      | .error e => .error e
      | .ok byte => szLoop s first n (i + 1) addr (mask >>> 1) (value ||| (byte <<< (8 * i))) (size + 8)

/-- `SZUInt64` (7z), /repo/hachoir/parser/archive/sevenzip.py:38-53. -/
def szUInt64 (s : InputStream) (addr : Int) : Except PyErr (Nat × Nat) :=
  match readBits s addr 8 .little with
  | .error e => .error e
  | .ok first => szLoop s first 8 0 addr 0x80 0 8

/-- Loop of `RawInt.__init__`, /repo/hachoir/parser/container/mkv.py:32-34.  `i` is not zero. -/
def rawIntLoop (size i : Nat) (hi : 0 < i) : Nat :=
  if h : i < 0x80 then rawIntLoop (size + 8) (i <<< 1) (by rw [Nat.shiftLeft_eq]; omega)
  else size
termination_by 0x80 - i
decreasing_by rw [Nat.shiftLeft_eq]; omega

/-- `RawInt` (Matroska), /repo/hachoir/parser/container/mkv.py:27-34: the size of the field. -/
def rawIntSize (s : InputStream) (endian : Endian) (addr : Int) : Except PyErr Nat :=
  match readInteger s addr false 8 endian with
  | .error e => .error e
  | .ok i => if h : i.toNat = 0 then .error .parser else .ok (rawIntLoop 8 i.toNat (by omega))

/-- `Unsigned`, /repo/hachoir/parser/container/mkv.py:37-50: value and size. -/
def mkvUnsigned (s : InputStream) (endian : Endian) (addr : Int) : Except PyErr (Option Int × Nat) :=
  match rawIntSize s endian addr with
  | .error e => .error e
  | .ok size =>
    let header : Nat := 1 <<< (size / 8 * 7)
    match readInteger s addr false size endian with
    | .error e => .error e
    | .ok raw =>
      let value := raw - header
      .ok (if value + 1 = header then none else some value, size)

/-- `Signed`, /repo/hachoir/parser/container/mkv.py:53-60: value and size. -/
def mkvSigned (s : InputStream) (endian : Endian) (addr : Int) : Except PyErr (Option Int × Nat) :=
  match rawIntSize s endian addr with
  | .error e => .error e
  | .ok size =>
    let header : Nat := 1 <<< (size / 8 * 7 - 1)
    match readInteger s addr false size endian with
    | .error e => .error e
    | .ok raw =>
      let value := raw - 3 * header + 1
      .ok (if value = header then none else some value, size)

/-- `ASNInteger`, /repo/hachoir/parser/container/asn1.py:63-77. -/
def asnInteger (s : InputStream) (addr : Int) : Except PyErr (Nat × Nat) :=
  match readBits s addr 8 .big with
  | .error e => .error e
  | .ok value =>
    if 128 ≤ value then
      let nbits := (value &&& 127) * 8
      if nbits = 0 then .error .parser
      else if 64 < nbits then .error .parser
      else
        match readBits s (addr + 8) nbits .big with
        | .error e => .error e
        | .ok value => .ok (value, 8 + nbits)
    else .ok (value, 8)

/-- Loop of `XiphInt.__init__`, /repo/hachoir/parser/container/ogg.py:32-38; `n` bounds the
iterations of the model (without `max_size` the code has no limit). -/
def xiphLoop (s : InputStream) (maxSize : Option Nat) : Nat → Int → Nat → Nat → Except PyErr (Nat × Nat)
  | 0, _, _, _ => .error .endless
  | n + 1, addr, size, value =>
    if maxSize.all (size < ·) then
      match readBits s addr 8 .little with
      | .error e => .error e
      | .ok byte =>
        if byte ≠ 0xff then .ok (value + byte, size + 8)
        else xiphLoop s maxSize n (addr + 8) (size + 8) (value + byte)
    else .ok (value, size)

/-- `XiphInt` (Ogg), /repo/hachoir/parser/container/ogg.py:28-39. -/
def xiphInt (s : InputStream) (n : Nat) (maxSize : Option Nat) (addr : Int) : Except PyErr (Nat × Nat) :=
  xiphLoop s maxSize n addr 0 0

/-- Loop of `Lacing.createFields`, /repo/hachoir/parser/container/ogg.py:45-49: the values and
sizes of the fields `size[]`.  `m` bounds the iterations of the model; the size of the table is
a multiple of 8 (so `size - fsize` does not fall below zero). -/
def lacingLoop (s : InputStream) (n : Nat) : Nat → Int → Nat → Except PyErr (List (Nat × Nat))
  | 0, _, _ => .error .endless
  | m + 1, addr, size =>
    if size = 0 then .ok []
    else
      match xiphInt s n (some size) addr with
      | .error e => .error e
      | .ok (value, fsize) =>
        match lacingLoop s n m (addr + fsize) (size - fsize) with
        | .error e => .error e
        | .ok rest => .ok ((value, fsize) :: rest)

/-- `Lacing`, /repo/hachoir/parser/container/ogg.py:42-49, at `addr` with `size` bits. -/
def lacing (s : InputStream) (n m : Nat) (addr : Int) (size : Nat) : Except PyErr (List (Nat × Nat)) :=
  lacingLoop s n m addr size

end Hachoir.Formats
