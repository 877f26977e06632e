import Verif.Formats.MpegAudio
import Mathlib.Data.Rat.Defs
import Mathlib.Algebra.Order.Field.Rat

/-!
# Metadata of MPEG audio files

Model of `MpegAudioMetadata`, /repo/hachoir/metadata/audio.py:264-385, without the ID3 tags, and of
`Frames.looksConstantBitRate`, /repo/hachoir/parser/audio/mpeg_audio.py:232-248.  Floating point
numbers are rational numbers, and a time span is its number of seconds (`timedelta` rounds it to
microseconds).
-/

namespace Hachoir.Formats.Mp3Meta
open Hachoir Hachoir.Stream Hachoir.Formats.MpegAudio

/-- The quality that a user asks for, /repo/hachoir/metadata/metadata_item.py:8-12. -/
inductive Quality where
  | fastest | fast | normal | good | best
  deriving DecidableEq, Repr

/-- `max_count`, /repo/hachoir/metadata/audio.py:361-367: 500 times 0.5 or 0.75; no limit at the
best quality. -/
def maxCount : Quality → Option Nat
  | .fastest => some 0
  | .fast => some 125
  | .normal => some 250
  | .good => some 375
  | .best => none

/-- The comparison with the last frame, /repo/hachoir/parser/audio/mpeg_audio.py:238-247: `n` frames
are still to be compared. -/
def constLoop : Nat → Hdr → List Hdr → Bool
  | 0, _, _ => true
  | _ + 1, _, [] => true
  | n + 1, last, h :: hs => if h.version = last.version ∧ h.layer = last.layer ∧ h.bitRate = last.bitRate then constLoop n h hs else false

/-- `looksConstantBitRate`, /repo/hachoir/parser/audio/mpeg_audio.py:232-248: the loop is left at
index 10, after the comparison. -/
def looksConstant : List Hdr → Bool
  | [] => true
  | h :: hs => constLoop 10 h hs

/-- The loop of `computeVariableBitrate`, /repo/hachoir/metadata/audio.py:369-377, behind the first
three frames: sum and number of the bit rates. -/
def sumLoop (limit : Option Nat) : List Hdr → Nat → Nat → Nat × Nat
  | [], total, count => (total, count)
  | h :: hs, total, count =>
    match bitRate h with
    | none => sumLoop limit hs total count
    | some r =>
      match limit with
      | none => sumLoop limit hs (total + r) (count + 1)
      | some m => if m ≤ count + 1 then (total + r, count + 1) else sumLoop limit hs (total + r) (count + 1)

/-- What is told of a file. -/
structure Meta where
  channels : Nat
  sampleRate : Option Nat
  constant : Bool
  bitRate : Option ℚ
  duration : Option ℚ
  deriving DecidableEq

/-- `computeBitrate`, /repo/hachoir/metadata/audio.py:350-356, for frames of `size` bits. -/
def constantRate (size : Nat) (h : Hdr) : Option (ℚ × ℚ) :=
  match bitRate h with
  | none => none
  | some 0 => none
  | some r => some (r, (size : ℚ) / r)

/-- `computeVariableBitrate`, /repo/hachoir/metadata/audio.py:358-385. -/
def variableRate (q : Quality) (size : Nat) (hs : List Hdr) : Option (ℚ × ℚ) :=
  if q = .fastest ∨ q = .fast then none
  else
    let p := sumLoop (maxCount q) (hs.drop 3) 0 0
    if p.2 = 0 then none else some ((p.1 : ℚ) / p.2, (size : ℚ) / ((p.1 : ℚ) / p.2))

/-- `extract`, /repo/hachoir/metadata/audio.py:325-336, for frames of `size` bits; the first frame
has the channel mode `mode` (`NB_CHANNEL`, /repo/hachoir/parser/audio/mpeg_audio.py:70-75). -/
def extract (q : Quality) (size mode : Nat) (h : Hdr) (hs : List Hdr) : Meta :=
  let c := looksConstant (h :: hs)
  let r := if c then constantRate size h else variableRate q size (h :: hs)
  { channels := if mode = 3 then 1 else 2, sampleRate := sampleRate h.version h.samplingRate, constant := c, bitRate := r.map (·.1), duration := r.map (·.2) }

/-- The headers of frames at known places. -/
def headers (s : InputStream) : List Place → Except PyErr (List Hdr)
  | [] => .ok []
  | p :: ps =>
    match readHdr s p.1 with
    | .error e => .error e
    | .ok h =>
      match headers s ps with
      | .error e => .error e
      | .ok hs => .ok (h :: hs)

/-- The metadata of the frames of `size` bits at an address; `none` without frames.  (Frames that
cannot be read to the end are an error here; the parser keeps those in front.) -/
def told (s : InputStream) (fuel : Nat) (q : Quality) (addr size : Nat) : Except PyErr (Option Meta) :=
  match readAll s fuel addr size with
  | .error e => .error e
  | .ok (_, ps) =>
    match headers s ps with
    | .error e => .error e
    | .ok [] => .ok none
    | .ok (h :: hs) =>
      match readBits s ((ps.headD (0, 0)).1 + 24) 2 .big with
      | .error e => .error e
      | .ok mode => .ok (some (extract q size mode h hs))

end Hachoir.Formats.Mp3Meta
