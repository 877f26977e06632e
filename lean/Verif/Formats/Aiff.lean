import Verif.Field.Float
import Verif.Formats.Au

/-!
# AIFF files

`/repo/hachoir/parser/audio/aiff.py` and `AiffMetadata` of `/repo/hachoir/metadata/audio.py`.  Addresses are in
bits.  Not modelled: the contents of chunks other than `COMM`, and how chunks that do not fit are
shortened (an error here).
-/

set_option linter.unusedVariables false

namespace Hachoir.Formats.Aiff
open Hachoir Hachoir.Stream Hachoir.Field Hachoir.Floats

/-- A field `Chunk`: address, tag and size in bytes. -/
structure Chunk where
  addr : Nat
  tag : Bytes
  size : Nat
  deriving DecidableEq, Repr

/-- `AiffFile.createFields`, aiff.py:125-126, with `Chunk.__init__` (80-87): the chunks up to the end of the file.
The fuel bounds their number (each has at least 64 bits). -/
def readChunks (s : InputStream) : Nat → Nat → Nat → Except PyErr (List Chunk)
  | 0, _, _ => .error .endless
  | fuel + 1, addr, stop =>
    if addr < stop then
      match readBytes s (addr : Int) 4 with
      | .error e => .error e
      | .ok tag =>
        match readBits s ((addr + 32 : Nat) : Int) 32 .big with
        | .error e => .error e
        | .ok size =>
          let total := (8 + (size + size % 2)) * 8
          if stop < addr + total then .error .parser
          else
            match readChunks s fuel (addr + total) stop with
            | .error e => .error e
            | .ok cs => .ok (⟨addr, tag, size⟩ :: cs)
    else .ok []

/-- The fields of `parseCommon`. -/
structure Common where
  channels : Nat
  samples : Nat
  bits : Nat
  rate : PyFloat
  codec : Option Bytes
  deriving DecidableEq, Repr

/-- `parseCommon`, aiff.py:49-54, in a chunk of `size` bytes: the codec is dropped if it does not fit
(generic_field_set.py:185-190 and 203-213). -/
def readCommon (s : InputStream) (addr size : Nat) : Except PyErr Common := do
  let channels ← readBits s ((addr + 64 : Nat) : Int) 16 .big
  let samples ← readBits s ((addr + 80 : Nat) : Int) 32 .big
  let bits ← readBits s ((addr + 112 : Nat) : Int) 16 .big
  let rate ← float80 s .big ((addr + 128 : Nat) : Int)
  if size + size % 2 < 22 then .ok ⟨channels, samples, bits, rate, none⟩
  else
    let codec ← readBytes s ((addr + 208 : Nat) : Int) 4
    .ok ⟨channels, samples, bits, rate, some codec⟩

/-- `validate`, aiff.py:114-119. -/
def valid (s : InputStream) : Except PyErr Bool := do
  let b ← readBytes s 0 4
  if b ≠ [70, 79, 82, 77] then .ok false
  else
    let t ← readBytes s 64 4
    .ok (t = [65, 73, 70, 70] || t = [65, 73, 70, 67])

/-- `createContentSize`, aiff.py:134-135. -/
def contentSize (s : InputStream) : Except PyErr Nat := do
  let n ← readBits s 32 32 .big
  .ok (n * 8)

/-- `NumberFilter(lo, hi)` of a float, as whole numbers. -/
def floatIn (lo hi : Nat) : PyFloat → Bool
  | .infinite _ => false
  | .finite negative num exp =>
    if negative ∧ num ≠ 0 then false
    else if 0 ≤ exp then lo ≤ num * 2 ^ exp.toNat && num * 2 ^ exp.toNat ≤ hi
    else lo * 2 ^ (-exp).toNat ≤ num && num ≤ hi * 2 ^ (-exp).toNat

/-- What `AiffMetadata` sets; the duration is a number of samples by the rate. -/
structure Told where
  channels : Option Nat
  bits : Option Nat
  rate : Option PyFloat
  duration : Option (Nat × PyFloat)
  codec : Option Bytes
  deriving DecidableEq, Repr

/-- `AiffMetadata.useCommon`, metadata/audio.py:394-405, with the filters of metadata/register.py:70-80 (an
accepted rate is not 0).  `ok n r` tells whether the metadata accept the duration. -/
def useCommon (ok : Nat → PyFloat → Bool) (c : Common) : Told :=
  let accepted := floatIn 1000 192000 c.rate
  ⟨Au.inRange 1 8 c.channels, Au.inRange 1 64 c.bits, if accepted then some c.rate else none,
    if accepted ∧ ok c.samples c.rate then some (c.samples, c.rate) else none, c.codec⟩

/-- `AiffMetadata.extract`, metadata/audio.py:389-392, without the bit rate: the first chunk `COMM` has the
name `common`.  Its content is there if the size is not 0 (aiff.py:93). -/
def extract (s : InputStream) (ok : Nat → PyFloat → Bool) (cs : List Chunk) : Told :=
  match cs.find? (fun c => c.tag = [67, 79, 77, 77]) with
  | none => ⟨none, none, none, none, none⟩
  | some c =>
    if c.size = 0 then ⟨none, none, none, none, none⟩
    else
      match readCommon s c.addr c.size with
      | .error _ => ⟨none, none, none, none, none⟩
      | .ok x => useCommon ok x

end Hachoir.Formats.Aiff
