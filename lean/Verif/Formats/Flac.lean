import Verif.Field.StringField

/-!
# FLAC files and Vorbis comments

`/repo/hachoir/parser/audio/flac.py`, `parseVorbisComment` of `/repo/hachoir/parser/container/ogg.py`,
`readVorbisComment` and `FlacMetadata` of `/repo/hachoir/metadata/audio.py`.  Addresses are in bits and absolute.
Not modelled: warnings, descriptions, and how field sets that do not fit into their place are shortened (an
error here).
-/

set_option linter.unusedVariables false

namespace Hachoir.Formats.Flac
open Hachoir Hachoir.Stream Hachoir.Field

/-! ## Blocks -/

/-- A field `metadata_block[]`: its address and the fields of its header.  The name, `stream_info`,
`seek_table`, `comment` and so on, follows from the type (flac.py:57-65). -/
structure Block where
  addr : Nat
  last : Nat
  type : Nat
  size : Nat
  deriving DecidableEq, Repr

/-- `MetadataBlock`, flac.py:68-80: the size of the block is that of its header (70), whatever the content
is. -/
def readBlock (s : InputStream) (addr : Nat) : Except PyErr Block := do
  let last ← readBits s (addr : Int) 1 .big
  let type ← readBits s ((addr + 1 : Nat) : Int) 7 .big
  let size ← readBits s ((addr + 8 : Nat) : Int) 24 .big
  .ok ⟨addr, last, type, size⟩

/-- `Metadata.createFields`, flac.py:100-105: blocks up to the last one or the end of the file, and
the address behind.  The fuel bounds the number of blocks (each has at least 32 bits). -/
def readBlocks (s : InputStream) : Nat → Nat → Nat → Except PyErr (List Block × Nat)
  | 0, _, _ => .error .endless
  | fuel + 1, addr, stop =>
    if addr < stop then
      match readBlock s addr with
      | .error e => .error e
      | .ok b =>
        if stop < addr + 32 + 8 * b.size then .error .parser
        else if b.last ≠ 0 then .ok ([b], addr + 32 + 8 * b.size)
        else
          match readBlocks s fuel (addr + 32 + 8 * b.size) stop with
          | .error e => .error e
          | .ok (bs, stop') => .ok (b :: bs, stop')
    else .ok ([], addr)

/-! ## Contents -/

/-- The fields of `StreamInfo`. -/
structure Info where
  minBlock : Nat
  maxBlock : Nat
  minFrame : Nat
  maxFrame : Nat
  rate : Nat
  channels : Nat
  bits : Nat
  samples : Nat
  md5 : Bytes
  deriving DecidableEq, Repr

/-- `StreamInfo.createFields`, flac.py:27-36. -/
def readInfo (s : InputStream) (addr : Nat) : Except PyErr Info := do
  let minBlock ← readBits s (addr : Int) 16 .big
  let maxBlock ← readBits s ((addr + 16 : Nat) : Int) 16 .big
  let minFrame ← readBits s ((addr + 32 : Nat) : Int) 24 .big
  let maxFrame ← readBits s ((addr + 56 : Nat) : Int) 24 .big
  let rate ← readBits s ((addr + 80 : Nat) : Int) 20 .big
  let channels ← readBits s ((addr + 100 : Nat) : Int) 3 .big
  let bits ← readBits s ((addr + 103 : Nat) : Int) 5 .big
  let samples ← readBits s ((addr + 108 : Nat) : Int) 36 .big
  let md5 ← readBytes s ((addr + 144 : Nat) : Int) 16
  .ok ⟨minBlock, maxBlock, minFrame, maxFrame, rate, channels, bits, samples, md5⟩

/-- `SeekTable.createFields` with `SeekPoint`, flac.py:39-51: sample, offset and number of samples of each
point up to `stop`.  The fuel bounds the number of points. -/
def readPoints (s : InputStream) : Nat → Nat → Nat → Except PyErr (List (Nat × Nat × Nat))
  | 0, _, _ => .error .endless
  | fuel + 1, addr, stop =>
    if addr < stop then do
      let sample ← readBits s (addr : Int) 64 .big
      let offset ← readBits s ((addr + 64 : Nat) : Int) 64 .big
      let count ← readBits s ((addr + 128 : Nat) : Int) 16 .big
      let points ← readPoints s fuel (addr + 144) stop
      .ok ((sample, offset, count) :: points)
    else .ok []

/-- `PascalString32(…, charset="UTF-8")` in little endian (ogg.py:53 and 56): the bytes of the string and
the address behind it. -/
def readString (s : InputStream) (addr : Nat) : Except PyErr (Bytes × Nat) :=
  match genericString s .little addr .pascal32 .eightBit none with
  | .error e => .error e
  | .ok sizes =>
    match stringContent s addr sizes with
    | .error e => .error e
    | .ok b => .ok (b, addr + sizes.size.toNat)

/-- The loop of `parseVorbisComment`, ogg.py:55-56. -/
def readItems (s : InputStream) : Nat → Nat → Except PyErr (List Bytes × Nat)
  | 0, addr => .ok ([], addr)
  | count + 1, addr =>
    match readString s addr with
    | .error e => .error e
    | .ok (b, next) =>
      match readItems s count next with
      | .error e => .error e
      | .ok (bs, stop) => .ok (b :: bs, stop)

/-- The fields of `parseVorbisComment`. -/
structure Comment where
  vendor : Bytes
  items : List Bytes
  framing : Option Nat
  deriving DecidableEq, Repr

/-- `parseVorbisComment`, ogg.py:52-58, in a field set that ends at `stop`. -/
def readComment (s : InputStream) (addr stop : Nat) : Except PyErr Comment := do
  let (vendor, a1) ← readString s addr
  let count ← readBits s (a1 : Int) 32 .little
  let (items, a2) ← readItems s count (a1 + 32)
  if a2 ≠ stop then
    let f ← readBits s (a2 : Int) 8 .little
    .ok ⟨vendor, items, some f⟩
  else .ok ⟨vendor, items, none⟩

/-- The fields of `Frame`, flac.py:127-135, without the reserved ones. -/
structure Frame where
  sync : Nat
  strategy : Nat
  blockSize : Nat
  rate : Nat
  channels : Nat
  sampleSize : Nat
  deriving DecidableEq, Repr

/-- `Frame.createFields`, flac.py:127-135. -/
def readFrame (s : InputStream) (addr : Nat) : Except PyErr Frame := do
  let sync ← readBits s (addr : Int) 14 .big
  let strategy ← readBits s ((addr + 15 : Nat) : Int) 1 .big
  let blockSize ← readBits s ((addr + 16 : Nat) : Int) 4 .big
  let rate ← readBits s ((addr + 20 : Nat) : Int) 4 .big
  let channels ← readBits s ((addr + 24 : Nat) : Int) 4 .big
  let sampleSize ← readBits s ((addr + 28 : Nat) : Int) 3 .big
  .ok ⟨sync, strategy, blockSize, rate, channels, sampleSize⟩

/-- `FlacParser.validate`, flac.py:162-165. -/
def valid (s : InputStream) : Except PyErr Bool := do
  let b ← readBytes s 0 5
  .ok (decide (b = [102, 76, 97, 67, 0]))

/-- `FlacParser.createFields`, flac.py:167-170, of a file that ends at `stop`: the blocks and, if there is
room, the first frame (flac.py:141-145). -/
def readFile (s : InputStream) (fuel stop : Nat) : Except PyErr (List Block × Option Frame) :=
  match readBlocks s fuel 32 stop with
  | .error e => .error e
  | .ok (bs, addr) =>
    if addr < stop then
      match readFrame s addr with
      | .error e => .error e
      | .ok f => .ok (bs, some f)
    else .ok (bs, none)

/-! ## Metadata -/

/-- `VORBIS_KEY_TO_ATTR`, metadata/audio.py:34-52. -/
def attributes : List (String × String) :=
  [("ARTIST", "artist"), ("ALBUM", "album"), ("TRACKNUMBER", "track_number"), ("TRACKTOTAL", "track_total"),
   ("ENCODER", "producer"), ("TITLE", "title"), ("LOCATION", "location"), ("DATE", "creation_date"),
   ("ORGANIZATION", "organization"), ("GENRE", "music_genre"), ("", "comment"), ("COMPOSER", "music_composer"),
   ("DESCRIPTION", "comment"), ("COMMENT", "comment"), ("WWW", "url"), ("WOAF", "url"), ("LICENSE", "copyright")]

/-- `str.split("=", 1)` of a text with "=": the part before the first one and the part behind. -/
def splitEq : List Char → Option (List Char × List Char)
  | [] => none
  | c :: cs =>
    if c = '=' then some ([], cs)
    else match splitEq cs with
      | none => none
      | some (k, v) => some (c :: k, v)

/-- One item in `readVorbisComment`, metadata/audio.py:58-66: which attribute is set to which text.
`str.upper` is modelled for letters of ASCII. -/
def itemEntry (text : List Char) : Option (String × List Char) :=
  match splitEq text with
  | none => none
  | some (key, value) =>
    match attributes.lookup (String.ofList (key.map Char.toUpper)) with
    | none => none
    | some attr => some (attr, value)

/-- `readVorbisComment`, metadata/audio.py:56-66: what is set, in order.  `decode` is the charset of the
strings. -/
def commentEntries (decode : Bytes → List Char) (c : Comment) : List (String × List Char) :=
  ("producer", decode c.vendor) :: c.items.filterMap fun b => itemEntry (decode b)

/-- The first block of a type, that has the name of the type (another would be renamed,
generic_field_set.py:195-199) and its field `content`, missing if the size is 0 (flac.py:84-85). -/
def findContent (type : Nat) (bs : List Block) : Option Block :=
  match bs.find? (fun b => b.type = type) with
  | none => none
  | some b => if b.size = 0 then none else some b

/-- What `FlacMetadata` sets; the duration is a fraction in seconds. -/
structure Told where
  channels : Option Nat
  bits : Option Nat
  rate : Option Nat
  duration : Option (Nat × Nat)
  texts : List (String × List Char)
  deriving DecidableEq, Repr

/-- `FlacMetadata.useStreamInfo`, metadata/audio.py:416-424, with the filter of `sample_rate`
(metadata/register.py:74-77).  A rate of 0 raises ZeroDivisionError at the duration, which `fault_tolerant` ignores. -/
def useInfo (i : Info) (texts : List (String × List Char)) : Told :=
  { channels := some (i.channels + 1)
    bits := some (i.bits + 1)
    rate := if 1000 ≤ i.rate ∧ i.rate ≤ 192000 then some i.rate else none
    duration := if i.samples ≠ 0 ∧ i.rate ≠ 0 then some (i.samples, i.rate) else none
    texts := texts }

/-- `FlacMetadata.extract`, metadata/audio.py:410-414.  Errors are ignored (`fault_tolerant`). -/
def extract (s : InputStream) (decode : Bytes → List Char) (bs : List Block) : Told :=
  let texts := match findContent 4 bs with
    | none => []
    | some b =>
      match readComment s (b.addr + 32) (b.addr + 32 + 8 * b.size) with
      | .error _ => []
      | .ok c => commentEntries decode c
  match findContent 0 bs with
  | none => ⟨none, none, none, none, texts⟩
  | some b =>
    match readInfo s (b.addr + 32) with
    | .error _ => ⟨none, none, none, none, texts⟩
    | .ok i => useInfo i texts

end Hachoir.Formats.Flac
