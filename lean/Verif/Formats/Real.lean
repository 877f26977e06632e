import Verif.Formats.Reader

/-!
# RealAudio and RealMedia files (`parser/audio/real_audio.py`, `parser/container/realmedia.py`)

Descriptions are left out.  Texts are the bytes of their content.
-/

namespace Hachoir.Formats.Real
open Hachoir Hachoir.Stream Hachoir.Field Hachoir.Formats

/-! ## RealAudio -/

/-- `Metadata`, real_audio.py:21-27. -/
structure Info where
  title : Bytes
  author : Bytes
  copyright : Bytes
  comment : Bytes
  deriving DecidableEq, Repr

def info : Rd Info := do
  let title ← Rd.text .big .pascal8 .eightBit none
  let author ← Rd.text .big .pascal8 .eightBit none
  let copyright ← Rd.text .big .pascal8 .eightBit none
  let comment ← Rd.text .big .pascal8 .eightBit none
  pure ⟨title, author, copyright, comment⟩

/-- Version 3, real_audio.py:53-60. -/
structure Version3 where
  headerSize : Nat
  unknown1 : Bytes
  dataSize : Nat
  info : Info
  unknown2 : Nat
  fourcc : Bytes
  deriving DecidableEq, Repr

def version3 : Rd Version3 := do
  let headerSize ← Rd.int 2 .big
  let unknown1 ← Rd.raw 10
  let dataSize ← Rd.int 4 .big
  let i ← info
  let unknown2 ← Rd.int 1 .big
  let fourcc ← Rd.text .big .pascal8 .eightBit none
  pure ⟨headerSize, unknown1, dataSize, i, unknown2, fourcc⟩

/-- Version 4 (and all others), real_audio.py:61-81. -/
structure Version4 where
  reserved : Nat
  signature : Bytes
  fileSize : Nat
  version2 : Nat
  headerSize : Nat
  flavor : Nat
  codedFrameSize : Nat
  unknown1 : Bytes
  subpacketH : Nat
  frameSize : Nat
  subpacketSize : Nat
  unknown2 : Nat
  sampleRate : Nat
  unknown3 : Nat
  sampleSize : Nat
  channels : Nat
  interleaving : Bytes
  fourcc : Bytes
  unknown4 : Bytes
  info : Info
  deriving DecidableEq, Repr

def version4 : Rd Version4 := do
  let reserved ← Rd.int 2 .big
  let signature ← Rd.text .big .fixed .eightBit (some 4)
  let fileSize ← Rd.int 4 .big
  let version2 ← Rd.int 2 .big
  let headerSize ← Rd.int 4 .big
  let flavor ← Rd.int 2 .big
  let codedFrameSize ← Rd.int 4 .big
  let unknown1 ← Rd.raw 12
  let subpacketH ← Rd.int 2 .big
  let frameSize ← Rd.int 2 .big
  let subpacketSize ← Rd.int 2 .big
  let unknown2 ← Rd.int 2 .big
  let sampleRate ← Rd.int 2 .big
  let unknown3 ← Rd.int 2 .big
  let sampleSize ← Rd.int 2 .big
  let channels ← Rd.int 2 .big
  let interleaving ← Rd.text .big .pascal8 .eightBit none
  let fourcc ← Rd.text .big .pascal8 .eightBit none
  let unknown4 ← Rd.raw 3
  let i ← info
  pure ⟨reserved, signature, fileSize, version2, headerSize, flavor, codedFrameSize, unknown1, subpacketH, frameSize, subpacketSize, unknown2, sampleRate, unknown3, sampleSize,
    channels, interleaving, fourcc, unknown4, i⟩

inductive Head where
  | v3 (h : Version3)
  | v4 (h : Version4)
  deriving DecidableEq, Repr

def head (version : Nat) : Rd Head :=
  if version = 3 then do
    let h ← version3
    pure (.v3 h)
  else do
    let h ← version4
    pure (.v4 h)

/-- real_audio.py:60, 82-83. -/
def audioSize : Head → Int
  | .v3 h => h.dataSize
  | .v4 h => ((h.fileSize : Int) + 40) - (h.headerSize + 16)

structure Audio where
  signature : Bytes
  version : Nat
  head : Head
  data : Bytes
  deriving DecidableEq, Repr

/-- real_audio.py:84-85. -/
def audioData (n : Int) : Rd Bytes := if 0 < n then Rd.raw n.toNat else pure []

/-- `createFields`, real_audio.py:50-85. -/
def audio : Rd Audio := do
  let signature ← Rd.raw 4
  let version ← Rd.int 2 .big
  let h ← head version
  let data ← audioData (audioSize h)
  pure ⟨signature, version, h, data⟩

/-- `validate`, real_audio.py:43-48. -/
def audioValid (a : Audio) : Bool := a.signature == [0x2E, 0x72, 0x61, 0xFD] && (a.version == 3 || a.version == 4)

/-- `RealAudioMetadata`, metadata/audio.py:160-209: the bit rate of known codecs. -/
def bitRate (fourcc : Bytes) : Option Nat :=
  if fourcc = [0x32, 0x38, 0x5F, 0x38] then some 15200
  else if fourcc = [0x31, 0x34, 0x5F, 0x34] then some 8000
  else if fourcc = [0x6C, 0x70, 0x63, 0x4A] then some 8000
  else none

def fourccOf : Head → Bytes
  | .v3 h => h.fourcc
  | .v4 h => h.fourcc

/-- Sample rate and number of channels (metadata/audio.py:194-201), without the filters of metadata/register.py. -/
def sampleRateOf : Head → Nat
  | .v3 _ => 8000
  | .v4 h => h.sampleRate

def channelsOf : Head → Nat
  | .v3 _ => 1
  | .v4 h => h.channels

/-- The duration in seconds as numerator and denominator, metadata/audio.py:173-183: the float division is taken as exact. -/
def durationOf (h : Head) : Option (Int × Nat) :=
  if audioSize h = 0 then none
  else
    match bitRate (fourccOf h) with
    | none => none
    | some r => some (audioSize h * 8, r)

/-! ## RealMedia -/

/-- `parseFileProperties`, realmedia.py:29-43: nine numbers of 4 bytes, the number of streams, three flags behind 13 bits. -/
structure FileProp where
  numbers : List Nat
  streams : Nat
  flags : List Nat
  deriving DecidableEq, Repr

def fileProp : Rd FileProp := do
  let numbers ← Rd.times (Rd.int 4 .big) 9
  let streams ← Rd.int 2 .big
  let flags ← Rd.bits .big [13, 1, 1, 1]
  pure ⟨numbers, streams, flags⟩

/-- `parseContentDescription`, realmedia.py:46-50. -/
def contentDesc : Rd Info := do
  let title ← Rd.text .big .pascal16 .eightBit none
  let author ← Rd.text .big .pascal16 .eightBit none
  let copyright ← Rd.text .big .pascal16 .eightBit none
  let comment ← Rd.text .big .pascal16 .eightBit none
  pure ⟨title, author, copyright, comment⟩

/-- `NameValueProperty`, realmedia.py:53-64. -/
structure Prop_ where
  size : Nat
  version : Nat
  name : Bytes
  type : Nat
  value : Bytes
  deriving DecidableEq, Repr

def propContent (size : Nat) : Rd Prop_ := do
  let version ← Rd.int 2 .big
  let name ← Rd.text .big .pascal8 .eightBit none
  let type ← Rd.int 4 .big
  let value ← Rd.text .big .pascal16 .eightBit none
  pure ⟨size, version, name, type, value⟩

/-- The size counts itself (line 57); sizes below 4 are taken as an error. -/
def prop : Rd Prop_ := do
  let size ← Rd.int 4 .big
  if size < 4 then Rd.fail .parser else Rd.within (size - 4) (propContent size)

/-- `LogicalFileInfo`, realmedia.py:67-82. -/
structure Logical where
  size : Nat
  version : Nat
  streams : List Nat
  offsets : List Nat
  rules : List Nat
  props : List Prop_
  deriving DecidableEq, Repr

def logical : Rd Logical := do
  let size ← Rd.int 4 .big
  let version ← Rd.int 2 .big
  let n ← Rd.int 2 .big
  let streams ← Rd.times (Rd.int 2 .big) n
  let offsets ← Rd.times (Rd.int 2 .big) n
  let nbRule ← Rd.int 2 .big
  let rules ← Rd.times (Rd.int 2 .big) nbRule
  let nbProp ← Rd.int 2 .big
  let props ← Rd.times prop nbProp
  pure ⟨size, version, streams, offsets, rules, props⟩

inductive Specific where
  | none
  | logical (l : Logical)
  | raw (b : Bytes)
  deriving DecidableEq, Repr

/-- "logical-fileinfo", realmedia.py:99. -/
def logicalType : Bytes := [0x6C, 0x6F, 0x67, 0x69, 0x63, 0x61, 0x6C, 0x2D, 0x66, 0x69, 0x6C, 0x65, 0x69, 0x6E, 0x66, 0x6F]

/-- realmedia.py:97-102. -/
def specificOf (mime : Bytes) (size : Nat) : Rd Specific :=
  if size = 0 then pure .none
  else if mime = logicalType then do
    let l ← Rd.within size logical
    pure (.logical l)
  else do
    let b ← Rd.raw size
    pure (.raw b)

/-- `parseMediaPropertiesHeader`, realmedia.py:85-102: the number of the stream, seven numbers of 4 bytes, … -/
structure StreamProp where
  number : Nat
  numbers : List Nat
  desc : Bytes
  mime : Bytes
  specificSize : Nat
  specific : Specific
  deriving DecidableEq, Repr

def streamProp : Rd StreamProp := do
  let number ← Rd.int 2 .big
  let numbers ← Rd.times (Rd.int 4 .big) 7
  let desc ← Rd.text .big .pascal8 .eightBit none
  let mime ← Rd.text .big .pascal8 .eightBit none
  let specificSize ← Rd.int 4 .big
  let specific ← specificOf mime specificSize
  pure ⟨number, numbers, desc, mime, specificSize, specific⟩

inductive Content where
  | header (version count : Nat)
  | file (p : FileProp)
  | desc (i : Info)
  | stream (p : StreamProp)
  | raw (b : Bytes)
  deriving DecidableEq, Repr

/-- `parseHeader`, realmedia.py:24-26. -/
def rmHeader : Rd Content := do
  let version ← Rd.int 4 .big
  let count ← Rd.int 4 .big
  pure (.header version count)

/-- realmedia.py:136-138. -/
def rawContent (n : Nat) : Rd Content := if n = 0 then pure (.raw []) else do
  let b ← Rd.raw n
  pure (.raw b)

/-- `tag_info`, realmedia.py:106-113, 133-138: `n` bytes are left in the chunk. -/
def content (tag : Bytes) (n : Nat) : Rd Content :=
  if tag = [0x2E, 0x52, 0x4D, 0x46] then rmHeader
  else if tag = [0x50, 0x52, 0x4F, 0x50] then do
    let p ← fileProp
    pure (.file p)
  else if tag = [0x43, 0x4F, 0x4E, 0x54] then do
    let i ← contentDesc
    pure (.desc i)
  else if tag = [0x4D, 0x44, 0x50, 0x52] then do
    let p ← streamProp
    pure (.stream p)
  else rawContent n

/-- `Chunk`, realmedia.py:105-138. -/
structure Chunk where
  tag : Bytes
  size : Nat
  version : Nat
  content : Content
  deriving DecidableEq, Repr

/-- Sizes below 10 are taken as an error. -/
def chunk : Rd Chunk := do
  let tag ← Rd.text .big .fixed .eightBit (some 4)
  let size ← Rd.int 4 .big
  let version ← Rd.int 2 .big
  if size < 10 then Rd.fail .parser else do
    let c ← Rd.within (size - 10) (content tag (size - 10))
    pure ⟨tag, size, version, c⟩

/-- `createFields`, realmedia.py:171-173; `fuel` bounds the rounds. -/
def media (fuel : Nat) : Rd (List Chunk) := Rd.whileNotEof chunk fuel

/-- `createMimeType`, realmedia.py:175-179: is it a video? -/
def isVideo (cs : List Chunk) : Bool := cs.any fun c =>
  match c.content with
  | .stream p => p.mime == "video/x-pn-realvideo".toUTF8.toList
  | _ => false

end Hachoir.Formats.Real
