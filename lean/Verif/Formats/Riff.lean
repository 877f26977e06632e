import Verif.Field.StringField
import Verif.Formats.Tar

/-!
# RIFF files

`/repo/hachoir/parser/container/riff.py` and parts of `/repo/hachoir/metadata/riff.py`.  Modelled:
the tree of chunks, their texts, and what is extracted of WAVE files.  Not modelled: the fields
of AVI, CDDA and ACON chunks, names and descriptions, and the conversion of numbers of seconds
to `timedelta` (durations are fractions here).
-/

namespace Hachoir.Formats.Riff
open Hachoir Hachoir.Stream Hachoir.Field

/-- A chunk: its address in bits, tag and size in bytes; a list has the kind and chunks. -/
inductive Chunk where
  | data (addr : Nat) (tag : Bytes) (size : Nat)
  | list (addr : Nat) (kind : Bytes) (size : Nat) (chunks : List Chunk)
  deriving Repr

/-- The conditions of the loops in `RiffFile.createFields` (riff.py:422: `current_size < filesize * 8 + 8`,
here `stop` is the file size in the header, in bits) and in `Chunk.createFields` (riff.py:300, `stop` is the end
of the list). -/
def more (top : Bool) (stop addr : Nat) : Bool :=
  if top then addr < stop + 8 else 8 < (stop - addr) / 8

/-- `Chunk.__init__`, riff.py:275-290, and `createFields`, 292-315, for chunks one after the
other.  A list of size 0 has no field `subtag`; the constructor fails.  The size of a chunk is
even, so that there is no field `padding[]` of a byte (303-304).  In the code the chunks before an
error remain, and a chunk that does not fit in its parent is cut. -/
def readChunks (s : InputStream) : Nat → Bool → Nat → Nat → Except PyErr (List Chunk)
  | 0, _, _, _ => .error .endless
  | fuel + 1, top, stop, addr =>
    if more top stop addr then do
      let tag ← readBytes s addr 4
      let size ← readBits s ((addr + 32 : Nat) : Int) 32 .little
      let total := (8 + (size + size % 2)) * 8
      if tag = [76, 73, 83, 84] then   -- "LIST"
        if size = 0 then .error .missingField
        else
          let kind ← readBytes s ((addr + 64 : Nat) : Int) 4
          let inner ← readChunks s fuel false (addr + total) (addr + 96)
          let rest ← readChunks s fuel top stop (addr + total)
          .ok (.list addr kind size inner :: rest)
      else
        let rest ← readChunks s fuel top stop (addr + total)
        .ok (.data addr tag size :: rest)
    else .ok []

/-- `RiffFile.createFields`, riff.py:409-425: the type and the chunks.  The fuel never runs out, a
chunk takes eight bytes or more. -/
def readRiff (s : InputStream) (fuel : Nat) : Except PyErr (Bytes × List Chunk) := do
  let filesize ← readBits s 32 32 .little
  let type ← readBytes s 64 4
  let chunks ← readChunks s fuel true (filesize * 8) 96
  .ok (type, chunks)

/-- `RiffFile.validate`, riff.py:402-407. -/
def valid (s : InputStream) : Except PyErr Bool := do
  let signature ← readBytes s 0 4
  if signature ≠ [82, 73, 70, 70] then .ok false
  else
    let type ← readBytes s 64 4
    .ok (decide (type ∈ ([[87, 65, 86, 69], [67, 68, 68, 65], [65, 86, 73, 32], [65, 67, 79, 78]] : List Bytes)))

/-! ## Texts -/

/-- `Chunk.TAG_INFO`, riff.py:246-254, and `RiffMetadata.TAG_TO_KEY`, metadata/riff.py:16-25: the
tags with texts and the metadata they set. -/
def textKey (tag : Bytes) : Option String :=
  if tag = [73, 78, 65, 77] then some "title"
  else if tag = [73, 65, 82, 84] then some "artist"
  else if tag = [73, 67, 77, 84] then some "comment"
  else if tag = [73, 67, 79, 80] then some "copyright"
  else if tag = [73, 69, 78, 71] then some "author"
  else if tag = [73, 83, 70, 84] then some "producer"
  else if tag = [73, 67, 82, 68] then some "creation_date"
  else if tag = [73, 68, 73, 84] then some "creation_date"
  else none

/-- `parseText`, riff.py:44-47: the text of a chunk; `none` if there is no field `text`. -/
def readText (s : InputStream) (addr size : Nat) : Option Bytes :=
  if size = 0 then none
  else
    match genericString s .little (addr + 64) .fixed .eightBit (some size) with
    | .error _ => none
    | .ok sizes =>
      match stringContent s (addr + 64) sizes with
      | .error _ => none
      | .ok b => some (textValue b (some [0]) (some Tar.isBlank))

/-- `processChunk`, metadata/riff.py:46-55. -/
def entry (s : InputStream) (addr : Nat) (tag : Bytes) (size : Nat) : Option (String × Bytes) :=
  match textKey tag with
  | none => none
  | some key => (readText s addr size).map fun t => (key, t)

mutual
/-- `extractInfo`, metadata/riff.py:81-89, for one field ... -/
def infoOf (s : InputStream) : Chunk → List (String × Bytes)
  | .data addr tag size => (entry s addr tag size).toList
  | .list _ _ _ chunks => info s chunks
/-- ... and for all fields of a list. -/
def info (s : InputStream) : List Chunk → List (String × Bytes)
  | [] => []
  | c :: cs => infoOf s c ++ info s cs
end

/-- `riff["info"]`, metadata/riff.py:43-44: the list of kind `INFO` (names: riff.py:266-267). -/
def infoOfFile (s : InputStream) : List Chunk → List (String × Bytes)
  | [] => []
  | .list _ kind _ chunks :: cs => if kind = [73, 78, 70, 79] then info s chunks else infoOfFile s cs
  | .data _ _ _ :: cs => infoOfFile s cs

/-! ## WAVE files -/

/-- `parseWAVFormat`, riff.py:183-193; `byte_per_sec` and `block_align` are not used. -/
structure Format where
  codec : Nat
  channels : Nat
  rate : Nat
  bits : Nat
  deriving DecidableEq, Repr

def readFormat (s : InputStream) (addr : Nat) : Except PyErr Format := do
  let codec ← readBits s ((addr + 64 : Nat) : Int) 16 .little
  let channels ← readBits s ((addr + 80 : Nat) : Int) 16 .little
  let rate ← readBits s ((addr + 96 : Nat) : Int) 32 .little
  let bits ← readBits s ((addr + 176 : Nat) : Int) 16 .little
  .ok ⟨codec, channels, rate, bits⟩

/-- The first chunk with the tag: address and size. -/
def findChunk (tag : Bytes) : List Chunk → Option (Nat × Nat)
  | [] => none
  | .data addr t size :: cs => if t = tag then some (addr, size) else findChunk tag cs
  | .list _ _ _ _ :: cs => findChunk tag cs

/-- What `extractWAVE` sets; the duration is a fraction in seconds. -/
structure Wave where
  channels : Nat
  bits : Nat
  rate : Nat
  bitRate : Option Nat
  duration : Option (Nat × Nat)
  deriving DecidableEq, Repr

/-- The filter of `bit_rate`, metadata/register.py:148-151. -/
def bitRateOk (n : Nat) : Bool := 1 ≤ n && n ≤ 500 * 1024 * 1024

/-- `extractWAVE`, metadata/riff.py:57-79.  `ok n d` tells whether the metadata accept the duration
`n / d` (`DURATION_FILTER`, register.py). -/
def extractWave (s : InputStream) (ok : Nat → Nat → Bool) (chunks : List Chunk) : Except PyErr Wave :=
  match findChunk [102, 109, 116, 32] chunks with
  | none => .error .missingField
  | some (addr, _) => do
    let f ← readFormat s addr
    let fact ←
      match findChunk [102, 97, 99, 116] chunks with
      | none => .ok none
      | some (a, size) => if size = 0 then .ok none else (readBits s ((a + 64 : Nat) : Int) 32 .little).map some
    let duration := match fact with
      | none => none
      | some n => if 0 < f.rate ∧ ok n f.rate then some (n, f.rate) else none
    if f.codec = 1 ∨ f.codec = 3 ∨ f.codec = 6 then
      let n := f.channels * f.bits * f.rate
      let bitRate := if bitRateOk n then some n else none
      let duration := match duration, findChunk [100, 97, 116, 97] chunks, bitRate with
        | none, some (_, size), some b => if ok (size * 8) b then some (size * 8, b) else none
        | d, _, _ => d
      .ok ⟨f.channels, f.bits, f.rate, bitRate, duration⟩
    else .ok ⟨f.channels, f.bits, f.rate, none, duration⟩

end Hachoir.Formats.Riff
