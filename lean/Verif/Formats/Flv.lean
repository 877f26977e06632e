import Verif.Field.StringField

/-!
# Flash video and its AMF values

`/repo/hachoir/parser/video/amf.py`, `/repo/hachoir/parser/video/flv.py` and `FlvMetadata` of
`/repo/hachoir/metadata/video.py`.  Modelled: AMF values, the tags of FLV files and what is
extracted.  Strings are bytes here (their charset is UTF-8, see C70) and floating point numbers the number of
their 64 bits (see C87).  Not modelled: MP3 frames inside of audio tags, descriptions, the
limits that the metadata classes put on values, and the fields that remain before an error.
-/

set_option linter.unusedVariables false

namespace Hachoir.Formats.Flv
open Hachoir Hachoir.Stream Hachoir.Field

/-! ## AMF -/

mutual
/-- An `AMFObject`, amf.py:64-86: its fields after `type`. -/
inductive Value where
  | double (bits : Nat)
  | bool (value : Nat)
  | text (bytes : Bytes)
  | object (attrs : Items)
  | mixed (count : Nat) (items : Items)
  | stop
  | array (items : Items)
  | date (bits zone : Nat)
  deriving Repr
/-- The fields `item[]` or `attr[]`; attributes have a key. -/
inductive Items where
  | nil
  | cons (key : Option Bytes) (value : Value) (rest : Items)
  deriving Repr
end

/-- `PascalString16(…, charset="UTF-8")` (amf.py:19 and 115): the bytes of the string and the address
behind it. -/
def readString (s : InputStream) (addr : Nat) : Except PyErr (Bytes × Nat) :=
  match genericString s .big addr .pascal16 .eightBit none with
  | .error e => .error e
  | .ok sizes =>
    match stringContent s addr sizes with
    | .error e => .error e
    | .ok b => .ok (b, addr + sizes.size.toNat)

mutual
/-- `AMFObject.tag_info`, amf.py:66-86, with `parseDouble`, `parseBool`, `parseUTF8`, `parseObjectAttributes`,
`parseMixedArray`, `parseNothing`, `parseArray`, `parseDate` (18-61): the fields of an object of this
type and the address behind.  Other types are refused (95-96).  The fuel bounds the number of
objects; the code has no such bound but that of recursion. -/
def readContent (s : InputStream) : Nat → Nat → Nat → Except PyErr (Value × Nat)
  | 0, _, _ => .error .endless
  | fuel + 1, type, addr =>
    if type = 0 then
      match readBits s (addr : Int) 64 .big with
      | .error e => .error e
      | .ok v => .ok (.double v, addr + 64)
    else if type = 1 then
      match readBits s (addr : Int) 8 .big with
      | .error e => .error e
      | .ok v => .ok (.bool v, addr + 8)
    else if type = 2 then
      match readString s addr with
      | .error e => .error e
      | .ok (b, stop) => .ok (.text b, stop)
    else if type = 3 then
      match readAttrs s fuel none addr with
      | .error e => .error e
      | .ok (items, stop) => .ok (.object items, stop)
    else if type = 8 then
      match readBits s (addr : Int) 32 .big with
      | .error e => .error e
      | .ok count =>
        match readAttrs s fuel (some (count + 1)) (addr + 32) with
        | .error e => .error e
        | .ok (items, stop) => .ok (.mixed count items, stop)
    else if type = 9 then .ok (.stop, addr)
    else if type = 10 then
      match readBits s (addr : Int) 32 .big with
      | .error e => .error e
      | .ok count =>
        match readArray s fuel count (addr + 32) with
        | .error e => .error e
        | .ok (items, stop) => .ok (.array items, stop)
    else if type = 11 then
      match readBits s (addr : Int) 64 .big with
      | .error e => .error e
      | .ok v =>
        match readBits s ((addr + 64 : Nat) : Int) 16 .big with
        | .error e => .error e
        | .ok z => .ok (.date v z, addr + 80)
    else .error .parser

/-- The loops of `parseObjectAttributes` (amf.py:36-41, no limit) and `parseMixedArray` (44-50, `limit` is
what is left of the range) with the class `Attribute` (108-117). -/
def readAttrs (s : InputStream) : Nat → Option Nat → Nat → Except PyErr (Items × Nat)
  | 0, _, _ => .error .endless
  | fuel + 1, limit, addr =>
    if limit = some 0 then .ok (.nil, addr)
    else
      match readString s addr with
      | .error e => .error e
      | .ok (key, start) =>
        match readBits s (start : Int) 8 .big with
        | .error e => .error e
        | .ok type =>
          match readContent s fuel type (start + 8) with
          | .error e => .error e
          | .ok (v, stop) =>
            if key = [] then .ok (.cons (some key) v .nil, stop)
            else
              match readAttrs s fuel (limit.map (· - 1)) stop with
              | .error e => .error e
              | .ok (items, last) => .ok (.cons (some key) v items, last)

/-- The loop of `parseArray`, amf.py:32-33, with the class `AMFObject` (98-100). -/
def readArray (s : InputStream) : Nat → Nat → Nat → Except PyErr (Items × Nat)
  | 0, _, _ => .error .endless
  | _ + 1, 0, addr => .ok (.nil, addr)
  | fuel + 1, count + 1, addr =>
    match readBits s (addr : Int) 8 .big with
    | .error e => .error e
    | .ok type =>
      match readContent s fuel type (addr + 8) with
      | .error e => .error e
      | .ok (v, stop) =>
        match readArray s fuel count stop with
        | .error e => .error e
        | .ok (items, last) => .ok (.cons none v items, last)
end

/-- `AMFObject`, amf.py:88-100. -/
def readValue (s : InputStream) (fuel addr : Nat) : Except PyErr (Value × Nat) :=
  match readBits s (addr : Int) 8 .big with
  | .error e => .error e
  | .ok type => readContent s fuel type (addr + 8)

/-! ## FLV -/

/-- The fields of a tag behind its header. -/
inductive Content where
  | audio (codec rate : Nat) (wide stereo : Bool) (size : Nat)
  | video (frame codec size : Nat)
  | values (entries : List Value)
  | raw (size : Nat)
  | nothing
  deriving Repr

/-- A tag (class `Chunk`): address in bits, tag, size in bytes, timestamp, content. -/
structure Tag where
  addr : Nat
  tag : Nat
  size : Nat
  time : Nat
  content : Content
  deriving Repr

/-- The loop of `parseAMF`, flv.py:90-92. -/
def readEntries (s : InputStream) (inner : Nat) : Nat → Nat → Nat → Except PyErr (List Value)
  | 0, _, _ => .error .endless
  | fuel + 1, stop, addr =>
    if addr < stop then
      match readValue s inner addr with
      | .error e => .error e
      | .ok (v, next) =>
        match readEntries s inner fuel stop next with
        | .error e => .error e
        | .ok vs => .ok (v :: vs)
    else .ok []

/-- `Chunk.createFields` from the content on, flv.py:116-121, `parseAudio` (69-80, without the frame) and
`parseVideo` (83-87). -/
def readBody (s : InputStream) (fuel tag size addr : Nat) : Except PyErr Content :=
  if size = 0 then .ok .nothing
  else if tag = 8 then do
    let codec ← readBits s (addr : Int) 4 .big
    let rate ← readBits s ((addr + 4 : Nat) : Int) 2 .big
    let wide ← readBits s ((addr + 6 : Nat) : Int) 1 .big
    let stereo ← readBits s ((addr + 7 : Nat) : Int) 1 .big
    .ok (.audio codec rate (decide (wide = 1)) (decide (stereo = 1)) (size - 1))
  else if tag = 9 then do
    let frame ← readBits s (addr : Int) 4 .big
    let codec ← readBits s ((addr + 4 : Nat) : Int) 4 .big
    .ok (.video frame codec (size - 1))
  else if tag = 18 then do
    let vs ← readEntries s fuel fuel (addr + size * 8) addr
    .ok (.values vs)
  else .ok (.raw size)

/-- `Chunk`, flv.py:95-121. -/
def readTag (s : InputStream) (fuel addr : Nat) : Except PyErr Tag := do
  let tag ← readBits s (addr : Int) 8 .big
  let size ← readBits s ((addr + 8 : Nat) : Int) 24 .big
  let time ← readBits s ((addr + 32 : Nat) : Int) 24 .big
  let c ← readBody s fuel tag size (addr + 88)
  .ok ⟨addr, tag, size, time, c⟩

/-- The loop of `FlvFile.createFields`, flv.py:157-159: tags and the fields `prev_size[]`. -/
def readTags (s : InputStream) (inner : Nat) : Nat → Nat → Nat → Except PyErr (List (Tag × Nat))
  | 0, _, _ => .error .endless
  | fuel + 1, stop, addr =>
    if addr < stop then
      match readTag s inner addr with
      | .error e => .error e
      | .ok t =>
        match readBits s ((addr + (11 + t.size) * 8 : Nat) : Int) 32 .big with
        | .error e => .error e
        | .ok prev =>
          match readTags s inner fuel stop (addr + (11 + t.size) * 8 + 32) with
          | .error e => .error e
          | .ok ts => .ok ((t, prev) :: ts)
    else .ok []

/-- `Header`, flv.py:55-66. -/
structure Header where
  version : Nat
  audio : Bool
  video : Bool
  offset : Nat
  deriving DecidableEq, Repr

def readHeader (s : InputStream) : Except PyErr Header := do
  let version ← readBits s 24 8 .big
  let audio ← readBits s 37 1 .big
  let video ← readBits s 39 1 .big
  let offset ← readBits s 40 32 .big
  .ok ⟨version, decide (audio = 1), decide (video = 1), offset⟩

/-- `FlvFile.createFields`, flv.py:154-159; `stop` is the end of the file. -/
def readFile (s : InputStream) (fuel stop : Nat) : Except PyErr (Header × List (Tag × Nat)) := do
  let h ← readHeader s
  let ts ← readTags s fuel fuel stop 104
  .ok (h, ts)

/-- `FlvFile.validate`, flv.py:147-152. -/
def valid (s : InputStream) : Except PyErr Bool := do
  let signature ← readBytes s 0 3
  if signature ≠ [70, 76, 86] then .ok false
  else
    let offset ← readBits s 40 32 .big
    .ok (decide (offset = 9))

/-! ## Metadata -/

/-- `SAMPLING_RATE_VALUE`, flv.py:24-30, and `getSampleRate`, 123-127. -/
def sampleRate : Nat → Option Nat
  | 0 => some 5512
  | 1 => some 11025
  | 2 => some 22050
  | 3 => some 44100
  | _ => none

/-- What `extractAudio` sets, metadata/video.py:173-187: sample rate, bits per sample, channels; from
`audio[0]`, the first tag 8 (154-162).  `none` without the field `codec`. -/
def audioOf : List Tag → Option (Option Nat × Nat × Nat)
  | [] => none
  | t :: ts =>
    if t.tag = 8 then
      match t.content with
      | .audio _ rate wide stereo _ => some (sampleRate rate, if wide then 16 else 8, if stereo then 2 else 1)
      | _ => none
    else audioOf ts

/-- The keys of `useAmfEntry`, metadata/video.py:198-216, and the metadata they set. -/
def entryKey (key : Bytes) : Option String :=
  if key = [100, 117, 114, 97, 116, 105, 111, 110] then some "duration"
  else if key = [99, 114, 101, 97, 116, 111, 114] then some "producer"
  else if key = [97, 117, 100, 105, 111, 115, 97, 109, 112, 108, 101, 114, 97, 116, 101] then some "sample_rate"
  else if key = [102, 114, 97, 109, 101, 114, 97, 116, 101] then some "frame_rate"
  else if key = [109, 101, 116, 97, 100, 97, 116, 97, 99, 114, 101, 97, 116, 111, 114] then some "producer"
  else if key = [109, 101, 116, 97, 100, 97, 116, 97, 100, 97, 116, 101] then some "creation_date"
  else if key = [119, 105, 100, 116, 104] then some "width"
  else if key = [104, 101, 105, 103, 104, 116] then some "height"
  else none

/-- `extractAMF`, metadata/video.py:193-195: what the items of a mixed array set. -/
def itemEntries : Items → List (String × Value)
  | .nil => []
  | .cons key v rest =>
    match key.bind entryKey with
    | some k => (k, v) :: itemEntries rest
    | none => itemEntries rest

/-- `array("item")` of an AMF object: attributes of an object (type 3) are called `attr[]`.  Items of
an array have no key, which is an error that is ignored (`fault_tolerant`). -/
def valueEntries : Value → List (String × Value)
  | .mixed _ items => itemEntries items
  | .array items => itemEntries items
  | _ => []

/-- `flv["metadata/entry[1]"]`, metadata/video.py:168-169: the second value of the first tag 18. -/
def entriesOf : List Tag → List (String × Value)
  | [] => []
  | t :: ts =>
    if t.tag = 18 then
      match t.content with
      | .values vs => match vs[1]? with
        | some v => valueEntries v
        | none => []
      | _ => []
    else entriesOf ts

end Hachoir.Formats.Flv
