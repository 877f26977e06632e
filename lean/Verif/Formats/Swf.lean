import Verif.Formats.Reader
import Verif.Formats.Cab
import Verif.Formats.Rpm
import Verif.Formats.Lnk
import Verif.Formats.Asf

/-!
# Flash movies

Model of /repo/hachoir/parser/container/swf.py, without pictures (`parseJpeg`), scripts and
decompression, and of `SwfMetadata`, /repo/hachoir/metadata/misc.py:254-261.
-/

namespace Hachoir.Formats.Swf
open Hachoir Hachoir.Stream Hachoir.Field Hachoir.Formats

/-- `RECT`, swf.py:36-50: the number of bits, the four values and the padding.  The number of bits is
taken from the first byte here. -/
def rect : Rd (List Nat) := do
  let first ← Rd.peek .big
  let n := first / 8
  if n = 0 then Rd.fail .parser
  else Rd.bits .big [5, n, n, n, n, (8 - (5 + 4 * n) % 8) % 8]

/-- What is in a tag. -/
inductive Content where
  | empty
  | raw (b : Bytes)
  | color (rgb : List Nat)
  | sound (id : Nat) (flags : List Nat) (samples : Nat) (seek : Option Nat) (data : Bytes)
  | start (id : Nat) (flags : List Nat) (inPoint outPoint loops : Option Nat) (envelope : Option (List (List Nat)))
  | stream (playback sound : List Nat) (samples : Nat) (latency : Option Nat)
  | block (samples left : Nat) (data : Bytes)
  | frame (id number : Nat) (data : Bytes)
  | exports (entries : List (Nat × Bytes))
  | product (id edition : Int) (major minor : Nat) (build date : Int)
  | limits (recursion seconds : Nat)
  | symbols (entries : List (Nat × Bytes))
  | binary (id reserved : Nat) (data : Bytes)
  deriving DecidableEq, Repr

/-- `parseBackgroundColor`, swf.py:72-73. -/
def color : Rd Content := do
  let vs ← Asf.numbers [1, 1, 1]
  pure (.color vs)

/-- `parseDefineSound`, swf.py:132-147: stereo, 16 bits, rate, codec. -/
def sound : Rd Content := do
  let id ← Rd.int 2 .little
  let flags ← Rd.bits .little [1, 1, 2, 4]
  let samples ← Rd.int 4 .little
  let seek ← Lnk.optionally (if flags.getD 3 0 = 2 then 1 else 0) (Rd.int 2 .little)
  let data ← Rpm.rest
  pure (.sound id flags samples seek data)

/-- `SoundEnvelope`, swf.py:90-97. -/
def envelope : Rd (List (List Nat)) := do
  let n ← Rd.int 1 .little
  Rd.times (Asf.numbers [4, 2, 2]) n

/-- `parseStartSound`, swf.py:112-129. -/
def start : Rd Content := do
  let id ← Rd.int 2 .little
  let flags ← Rd.bits .little [1, 1, 1, 1, 1, 1, 2]
  let inPoint ← Lnk.optionally (flags.getD 0 0) (Rd.int 4 .little)
  let outPoint ← Lnk.optionally (flags.getD 1 0) (Rd.int 4 .little)
  let loops ← Lnk.optionally (flags.getD 2 0) (Rd.int 2 .little)
  let env ← Lnk.optionally (flags.getD 3 0) envelope
  pure (.start id flags inPoint outPoint loops env)

/-- `parseSoundHeader`, swf.py:150-164. -/
def stream : Rd Content := do
  let playback ← Rd.bits .little [1, 1, 2, 4]
  let sound ← Rd.bits .little [1, 1, 2, 4]
  let samples ← Rd.int 2 .little
  let latency ← Lnk.optionally (if sound.getD 3 0 = 2 then 1 else 0) (Rd.int 2 .little)
  pure (.stream playback sound samples latency)

/-- `parseSoundBlock`, swf.py:100-109. -/
def block : Rd Content := do
  let samples ← Rd.int 2 .little
  let left ← Rd.int 2 .little
  let data ← Rpm.rest
  pure (.block samples left data)

/-- `parseVideoFrame`, swf.py:211-215, of a tag of `n` bytes. -/
def frame (n : Nat) : Rd Content := do
  let id ← Rd.int 2 .little
  let number ← Rd.int 2 .little
  let data ← Cab.rawOr (n - 4)
  pure (.frame id number data)

/-- `Export`, swf.py:218-222, and the pairs of `parseSymbolClass`. -/
def named : Rd (Nat × Bytes) := do
  let id ← Rd.int 2 .little
  let name ← Rd.text .little .c .eightBit none
  pure (id, name)

/-- The number of entries and the entries of `parseExport` and `parseSymbolClass`, swf.py:225-228, 245-249. -/
def entries : Rd (List (Nat × Bytes)) := do
  let n ← Rd.int 2 .little
  Rd.times named n

/-- `parseProductInfo`, swf.py:231-237. -/
def product : Rd Content := do
  let id ← Rd.signed 4 .little
  let edition ← Rd.signed 4 .little
  let major ← Rd.int 1 .little
  let minor ← Rd.int 1 .little
  let build ← Rd.signed 8 .little
  let date ← Rd.signed 8 .little
  pure (.product id edition major minor build date)

/-- `parseScriptLimits`, swf.py:240-242. -/
def limits : Rd Content := do
  let recursion ← Rd.int 2 .little
  let seconds ← Rd.int 2 .little
  pure (.limits recursion seconds)

/-- `parseBinaryData`, swf.py:252-256, of a tag of `n` bytes. -/
def binary (n : Nat) : Rd Content := do
  let id ← Rd.int 2 .little
  let reserved ← Rd.int 4 .little
  let data ← Cab.rawOr (n - 6)
  pure (.binary id reserved data)

def rawContent (n : Nat) : Rd Content := do
  let b ← Rd.raw n
  pure (.raw b)

def exports : Rd Content := do
  let es ← entries
  pure (.exports es)

def symbols : Rd Content := do
  let es ← entries
  pure (.symbols es)

/-- The content of a tag of `n` bytes, swf.py:381-386, by the table `TAG_INFO`, 264-358.  Pictures
(6, 21, 35) and scripts (12, 72, 82) are bytes here. -/
def content (code n : Nat) : Rd Content :=
  if n = 0 then pure .empty
  else if code = 9 then color
  else if code = 14 then sound
  else if code = 15 then start
  else if code = 18 ∨ code = 45 then stream
  else if code = 19 then block
  else if code = 41 then product
  else if code = 56 then exports
  else if code = 61 then frame n
  else if code = 65 then limits
  else if code = 76 then symbols
  else if code = 87 then binary n
  else rawContent n

/-- The length in the head of a tag is followed by a longer one, swf.py:375-378. -/
def longTag : Rd (Nat × Content) := do
  let vs ← Rd.bits .little [6, 10]
  let n ← Rd.int 4 .little
  let c ← Rd.within n (content (vs.getD 1 0) n)
  pure (vs.getD 1 0, c)

/-- swf.py:379-381. -/
def shortTag : Rd (Nat × Content) := do
  let vs ← Rd.bits .little [6, 10]
  let c ← Rd.within (vs.getD 0 0) (content (vs.getD 1 0) (vs.getD 0 0))
  pure (vs.getD 1 0, c)

/-- `Tag`, swf.py:361-386: the code and the content. -/
def tag : Rd (Nat × Content) := do
  let first ← Rd.peek .little
  if first % 64 = 63 then longTag else shortTag

/-- A movie. -/
structure Movie where
  version : Nat
  filesize : Nat
  rect : List Nat
  rate : List Nat
  count : Nat
  tags : List (Nat × Content)
  deriving DecidableEq, Repr

inductive SwfFile where
  | plain (m : Movie)
  | packed (version filesize : Nat) (data : Bytes)
  deriving DecidableEq, Repr

/-- The fields of a file that is not compressed, swf.py:427-433; `n` bounds the number of tags. -/
def plain (version filesize n : Nat) : Rd SwfFile := do
  let r ← rect
  let rate ← Asf.numbers [1, 1]
  let count ← Rd.int 2 .little
  let tags ← Rd.whileNotEof tag n
  pure (.plain ⟨version, filesize, r, rate, count, tags⟩)

/-- swf.py:434-446, the data as they are stored. -/
def packed (version filesize : Nat) : Rd SwfFile := do
  let b ← Asf.rest
  pure (.packed version filesize b)

/-- `SwfFile.createFields`, swf.py:422-447. -/
def swf (n : Nat) : Rd SwfFile := do
  let sig ← Rd.text .little .fixed .eightBit (some 3)
  let version ← Rd.int 1 .little
  let filesize ← Rd.int 4 .little
  if sig = [0x43, 0x57, 0x53] then packed version filesize else plain version filesize n

/-- `validate`, swf.py:410-420, for a file with the signature `sig`. -/
def valid (sig : Bytes) : SwfFile → Bool
  | .plain m => sig == [0x46, 0x57, 0x53] && (decide (1 ≤ m.version) && decide (m.version ≤ 10)) && decide (m.filesize ≤ 50 * 1024 * 1024) && m.rect.getD 5 0 == 0
  | .packed version filesize _ => sig == [0x43, 0x57, 0x53] && (decide (1 ≤ version) && decide (version ≤ 10)) && decide (filesize ≤ 50 * 1024 * 1024)

/-- What metadata tell: width, height, frame rate (in 256ths) and number of frames. -/
structure Meta where
  width : Option Nat
  height : Option Nat
  rate : Option Nat
  count : Nat
  deriving DecidableEq, Repr

/-- `SwfMetadata.extract`, /repo/hachoir/metadata/misc.py:254-261, with the filters of
/repo/hachoir/metadata/register.py:18-25, 62-69, 144-147.  There is no field `rect` in a compressed file. -/
def extract : SwfFile → Except PyErr Meta
  | .packed _ _ _ => .error .missingField
  | .plain m =>
    let filter (lo hi v : Nat) : Option Nat := if lo ≤ v ∧ v ≤ hi then some v else none
    .ok ⟨filter 1 20000 (m.rect.getD 2 0), filter 1 20000 (m.rect.getD 4 0), filter 256 (150 * 256) (m.rate.getD 0 0 + 256 * m.rate.getD 1 0), m.count⟩

end Hachoir.Formats.Swf
