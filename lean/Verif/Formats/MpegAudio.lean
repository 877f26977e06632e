import Verif.Stream.Input

/-!
# MPEG audio frames

Model of /repo/hachoir/parser/audio/mpeg_audio.py.
-/

namespace Hachoir.Formats.MpegAudio
open Hachoir Hachoir.Stream

/-- Fields of bits one behind the other (`Bits`, /repo/hachoir/field/bit_field.py), in the big
endian of the parser (/repo/hachoir/parser/audio/mpeg_audio.py:310). -/
def readBitList (s : InputStream) : Int → List Nat → Except PyErr (List Nat)
  | _, [] => .ok []
  | addr, n :: ns =>
    match readBits s addr n .big with
    | .error e => .error e
    | .ok v =>
      match readBitList s (addr + n) ns with
      | .error e => .error e
      | .ok vs => .ok (v :: vs)

/-- The values of a `Frame` that decide about its size and validity. -/
structure Hdr where
  sync : Nat
  version : Nat
  layer : Nat
  crc : Nat
  bitRate : Nat
  samplingRate : Nat
  padding : Nat
  deriving DecidableEq, Repr

/-- The fields of a frame up to `use_padding`, /repo/hachoir/parser/audio/mpeg_audio.py:88-96. -/
def readHdr (s : InputStream) (addr : Int) : Except PyErr Hdr :=
  match readBitList s addr [11, 2, 2, 1, 4, 2, 1] with
  | .ok [a, b, c, d, e, f, g] => .ok ⟨a, b, c, d, e, f, g⟩
  | .ok _ => .error .assertion
  | .error e => .error e

/-- `BIT_RATES`, /repo/hachoir/parser/audio/mpeg_audio.py:36-55: MPEG 1, then MPEG 2 and 2.5. -/
def bitRates (mpeg1 : Bool) : List (List Nat) :=
  if mpeg1 then
    [[0, 32, 64, 96, 128, 160, 192, 224, 256, 288, 320, 352, 384, 416, 448],
     [0, 32, 48, 56, 64, 80, 96, 112, 128, 160, 192, 224, 256, 320, 384],
     [0, 32, 40, 48, 56, 64, 80, 96, 112, 128, 160, 192, 224, 256, 320]]
  else
    [[0, 32, 48, 56, 64, 80, 96, 112, 128, 144, 160, 176, 192, 224, 256],
     [0, 8, 16, 24, 32, 40, 48, 56, 64, 80, 96, 112, 128, 144, 160],
     [0, 8, 16, 24, 32, 40, 48, 56, 64, 80, 96, 112, 128, 144, 160]]

/-- `SAMPLING_RATES` and `getSampleRate`, /repo/hachoir/parser/audio/mpeg_audio.py:56-60 and
123-132. -/
def sampleRate (version rate : Nat) : Option Nat :=
  match version, rate with
  | 3, 0 => some 44100
  | 3, 1 => some 48000
  | 3, 2 => some 32000
  | 2, 0 => some 22050
  | 2, 1 => some 24000
  | 2, 2 => some 16000
  | 0, 0 => some 11025
  | 0, 1 => some 12000
  | 0, 2 => some 8000
  | _, _ => none

/-- `getBitRate`, /repo/hachoir/parser/audio/mpeg_audio.py:134-150.  The layer has two bits, so
that `3 - layer` is not negative. -/
def bitRate (h : Hdr) : Option Nat :=
  if h.bitRate = 0 ∨ h.bitRate = 15 then none
  else
    match (bitRates (h.version == 3))[3 - h.layer]? with
    | none => none
    | some rates =>
      match rates[h.bitRate]? with
      | none => none
      | some r => some (r * 1000)

/-- `getFrameSize`, /repo/hachoir/parser/audio/mpeg_audio.py:152-175. -/
def frameSize (h : Hdr) : Option Nat :=
  match bitRate h with
  | none => none
  | some r =>
    match sampleRate h.version h.samplingRate with
    | none => none
    | some f =>
      if h.layer = 1 then
        if h.version = 3 then some (r * 144 / f + h.padding) else some (r * 72 / f + h.padding)
      else if h.layer = 2 then some (r * 144 / f + h.padding)
      else some ((r * 12 / f + h.padding) * 4)

/-- A frame: address and size in bits. -/
abbrev Place := Nat × Nat

/-- `Frame.__init__`, /repo/hachoir/parser/audio/mpeg_audio.py:76-82, of a frame at the absolute
address `addr` in a field set that ends at `stop`.  The size is computed from the first 23 bits;
a field that does not fit into the parent is an error. -/
def frame (s : InputStream) (addr stop : Nat) : Except PyErr Place :=
  if stop < addr + 23 then .error .parser
  else
    match readHdr s addr with
    | .error e => .error e
    | .ok h =>
      match frameSize h with
      | none => .error .parser
      | some n => if n = 0 then .error .parser else .ok (addr, min (n * 8) (stop - addr))

/-- The loop of `Frames.createFields`, /repo/hachoir/parser/audio/mpeg_audio.py:256-257.  The
argument `fuel` bounds the number of frames. -/
def frames (s : InputStream) (stop : Nat) : Nat → Nat → Except PyErr (List Place)
  | 0, _ => .error .endless
  | fuel + 1, addr =>
    if addr < stop then
      match frame s addr stop with
      | .error e => .error e
      | .ok p =>
        match frames s stop fuel (addr + p.2) with
        | .error e => .error e
        | .ok ps => .ok (p :: ps)
    else .ok []

/-- `Frame` and `isValid` as in the `try` of `findSynchronizeBits`,
/repo/hachoir/parser/audio/mpeg_audio.py:114-120 and 204-210: every exception counts as invalid.
All 32 bits of the header must fit into the frame. -/
def validAt (s : InputStream) (addr stop : Nat) : Bool :=
  match frame s addr stop with
  | .error _ => false
  | .ok p =>
    if p.2 < 32 then false
    else
      match readHdr s addr with
      | .error _ => false
      | .ok h =>
        match readBits s (addr + 30) 2 .big with
        | .error _ => false
        | .ok emphasis =>
          h.layer != 0 && h.sync == 2047 && h.version != 1 && h.samplingRate != 3 &&
            (h.bitRate != 0 && h.bitRate != 15) && emphasis != 2

/-- The loop of `findSynchronizeBits`, /repo/hachoir/parser/audio/mpeg_audio.py:184-217, for a
field set that ends at `stop`: number of bytes before the frame. -/
def findLoop (s : InputStream) (stop last : Nat) : Nat → Nat → Nat → Except PyErr (Option Nat)
  | 0, _, _ => .error .endless
  | fuel + 1, start, size =>
    if start < last then
      match searchBytesLength s [0xff] false start (some last) with
      | .error e => .error e
      | .ok none => .ok none
      | .ok (some n) =>
        if validAt s (start + n.toNat * 8) stop then .ok (some (size + n.toNat))
        else findLoop s stop last fuel (start + n.toNat * 8 + 8) (size + n.toNat + 1)
    else .ok none

/-- `findSynchronizeBits` from `start` on. -/
def findSync (s : InputStream) (fuel stop start maxSize : Nat) : Except PyErr (Option Nat) :=
  findLoop s stop (start + maxSize) fuel start 0

/-- `Frames` with `synchronize`, /repo/hachoir/parser/audio/mpeg_audio.py:224-234 and 251-263, of
`size` bits at the absolute address `addr`: bytes of padding and the frames.  What `synchronize`
passes as the maximal size is an end address. -/
def readAll (s : InputStream) (fuel addr size : Nat) : Except PyErr (Nat × List Place) :=
  match findSync s fuel (addr + size) addr (min (addr + 256 * 8) (addr + size)) with
  | .error e => .error e
  | .ok none => .error .parser
  | .ok (some n) =>
    match frames s (addr + size) fuel (addr + 8 * n) with
    | .error e => .error e
    | .ok ps => .ok (n, ps)

end Hachoir.Formats.MpegAudio
