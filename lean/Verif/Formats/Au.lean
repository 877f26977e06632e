import Verif.Field.StringField

/-!
# Sun/NeXT audio files

`/repo/hachoir/parser/audio/au.py`, `AuMetadata` and `computeBitRate` of `/repo/hachoir/metadata/audio.py`.
Addresses are in bits.  Not modelled: the compression rate (a float), the text of the codec, warnings.
-/

set_option linter.unusedVariables false

namespace Hachoir.Formats.Au
open Hachoir Hachoir.Stream Hachoir.Field

/-- The fields of the header (au.py:74-79) and where `info` and `audio_data` are: address and number of bytes. -/
structure File where
  dataOfs : Nat
  dataSize : Nat
  codec : Nat
  rate : Nat
  channels : Nat
  info : Option (Nat × Nat)
  audio : Option (Nat × Nat)
  deriving DecidableEq, Repr

/-- `createFields`, au.py:73-87, of a file of `size` bits.  A string has 1 to 65535 bytes (string_field.py:142,
an error otherwise); `RawBytes` of size 0 is refused (the last field, then missing). -/
def readFile (s : InputStream) (size : Nat) : Except PyErr File := do
  let ofs ← readBits s 32 32 .big
  let dataSize ← readBits s 64 32 .big
  let codec ← readBits s 96 32 .big
  let rate ← readBits s 128 32 .big
  let channels ← readBits s 160 32 .big
  if 24 < ofs then
    if 65535 < ofs - 24 then .error .field
    else if size < 8 * ofs then .error .parser
    else
      let n := min dataSize ((size - 8 * ofs) / 8)
      .ok ⟨ofs, dataSize, codec, rate, channels, some (192, ofs - 24), if n = 0 then none else some (8 * ofs, n)⟩
  else
    let n := min dataSize ((size - 192) / 8)
    .ok ⟨ofs, dataSize, codec, rate, channels, none, if n = 0 then none else some (192, n)⟩

/-- `validate`, au.py:59-64. -/
def valid (s : InputStream) : Except PyErr Bool := do
  let b ← readBytes s 0 4
  if b ≠ [46, 115, 110, 100] then .ok false
  else
    let channels ← readBits s 160 32 .big
    .ok (channels = 1 || channels = 2)

/-- `createContentSize`, au.py:89-90. -/
def contentSize (f : File) : Nat := (f.dataOfs + f.dataSize) * 8

/-- `getBitsPerSample` with `BITS_PER_SAMPLE`, au.py:27-54 and 66-71. -/
def bitsPerSample (codec : Nat) : Option Nat :=
  match codec with
  | 1 => some 8
  | 2 => some 8
  | 3 => some 16
  | 4 => some 24
  | 5 => some 32
  | 6 => some 32
  | 7 => some 64
  | 10 => some 8
  | 11 => some 16
  | 12 => some 24
  | 13 => some 32
  | 18 => some 16
  | 19 => some 16
  | 20 => some 16
  | 27 => some 8
  | _ => none

/-- What `AuMetadata` sets; the duration is a fraction in seconds. -/
structure Told where
  rate : Option Nat
  channels : Option Nat
  bits : Option Nat
  bitRate : Option Nat
  duration : Option (Nat × Nat)
  deriving DecidableEq, Repr

/-- `NumberFilter`, metadata/filter.py, of the attributes (metadata/register.py:70-80 and 148-151). -/
def inRange (lo hi n : Nat) : Option Nat := if lo ≤ n ∧ n ≤ hi then some n else none

/-- `computeBitRate`, metadata/audio.py:25-31. -/
def bitRate (bits channels rate : Option Nat) : Option Nat :=
  match bits, channels, rate with
  | some b, some c, some r => inRange 1 (500 * 1024 * 1024) (b * c * r)
  | _, _, _ => none

/-- `AuMetadata.extract`, metadata/audio.py:145-157.  `ok n d` tells whether the metadata accept the duration
`n / d`. -/
def extract (ok : Nat → Nat → Bool) (f : File) : Told :=
  let rate := inRange 1000 192000 f.rate
  let channels := inRange 1 8 f.channels
  let bits := bitsPerSample f.codec
  let br := bitRate bits channels rate
  let duration := match f.audio, br with
    | some (_, n), some b => if ok (8 * n) b then some (8 * n, b) else none
    | _, _ => none
  ⟨rate, channels, bits, br, duration⟩

end Hachoir.Formats.Au
