import Verif.Core.Human
import Verif.Formats.Addresses
import Verif.Formats.Rpm

/-!
# Windows Media files (`parser/video/asf.py`)

An error inside a content whose size is told is modelled as an error of the whole; the parser adds raw bytes there and goes on.  Texts are told as
their bytes.  Left out: display of bit rates and codecs.
-/

namespace Hachoir.Formats.Asf
open Hachoir Hachoir.Human Hachoir.Stream Hachoir.Field Hachoir.Formats

/-- `GUID`, /repo/hachoir/parser/common/win32.py:101-132: the text. -/
def guid : Rd Bytes := fun s _ addr =>
  match Hachoir.Formats.guid s (addr : Nat) .little with
  | .error e => .error e
  | .ok t => .ok (t, addr + 128)

/-- Numbers of the told sizes. -/
def numbers (ws : List Nat) : Rd (List Nat) := Rd.each (fun n => Rd.int n .little) ws

def utf16 (n : Nat) : Rd Bytes := Rd.text .little .fixed .utf16le (some (n : Int))

/-- A text that is left out when it is empty. -/
def utf16Or (n : Nat) : Rd Bytes := if n = 0 then pure [] else utf16 n

/-- The entries of `Object.TAG_INFO`, asf.py:292-306, 331-332. -/
inductive Kind where
  | header | fileProp | headerExt | codecList | simpleIndex | data | streamProp | bitRates | extDesc | metadata | video | audio | mutex
  deriving DecidableEq, Repr

/-- The attributes `guid`, asf.py:33-265. -/
def tags : List (Bytes × Kind) := [
  (asc "75B22630-668E-11CF-A6D9-00AA0062CE6C", .header),
  (asc "8CABDCA1-A947-11CF-8EE4-00C00C205365", .fileProp),
  (asc "5FBF03B5-A92E-11CF-8EE3-00C00C205365", .headerExt),
  (asc "86D15240-311D-11D0-A3A4-00A0C90348F6", .codecList),
  (asc "33000890-E5B1-11CF-89F4-00A0C90349CB", .simpleIndex),
  (asc "75B22636-668E-11CF-A6D9-00AA0062CE6C", .data),
  (asc "B7DC0791-A9B7-11CF-8EE6-00C00C205365", .streamProp),
  (asc "7BF875CE-468D-11D1-8D82-006097C9A2B2", .bitRates),
  (asc "D2D0A440-E307-11D2-97F0-00A0C95EA850", .extDesc),
  (asc "75B22633-668E-11CF-A6D9-00AA0062CE6C", .metadata),
  (asc "BC19EFC0-5B4D-11CF-A8FD-00805F5C442B", .video),
  (asc "F8699E40-5B4D-11CF-A8FD-00805F5C442B", .audio),
  (asc "D6E229DC-35DA-11D1-9034-00A0C90349BE", .mutex)]

/-- `tag in self.TAG_INFO`, `self.TAG_INFO[tag]`, asf.py:311-317. -/
def kindOf (tag : Bytes) : Option Kind := (tags.find? fun t => t.1 == tag).map (·.2)

/-- The value of a `Descriptor`. -/
inductive Val where
  | text (b : Bytes)
  | number (n : Nat)
  | bytes (b : Bytes)
  deriving DecidableEq, Repr

/-- asf.py:157-167. -/
def descValue (type size : Nat) : Rd Val :=
  if type = 0 ∧ size % 2 = 0 then do
    let t ← utf16 size
    pure (.text t)
  else if type = 2 ∨ type = 3 then do
    let n ← Rd.int 4 .little
    pure (.number n)
  else if type = 4 then do
    let n ← Rd.int 8 .little
    pure (.number n)
  else do
    let b ← Rd.raw size
    pure (.bytes b)

structure Desc where
  name : Bytes
  type : Nat
  size : Nat
  value : Val
  deriving DecidableEq, Repr

/-- `Descriptor`, asf.py:153-167. -/
def desc : Rd Desc := do
  let name ← Rd.text .little .pascal16 .utf16le none
  let type ← Rd.int 2 .little
  let size ← Rd.int 2 .little
  let value ← descValue type size
  pure ⟨name, type, size, value⟩

structure Codec where
  type : Nat
  name : Bytes
  desc : Bytes
  info : Bytes
  deriving DecidableEq, Repr

/-- `Codec`, asf.py:188-198. -/
def codec : Rd Codec := do
  let type ← Rd.int 2 .little
  let n ← Rd.int 2 .little
  let name ← utf16Or (2 * n)
  let d ← Rd.int 2 .little
  let desc ← utf16Or (2 * d)
  let i ← Rd.int 2 .little
  let info ← Cab.rawOr i
  pure ⟨type, name, desc, info⟩

/-- `BitRate`, asf.py:238-241: the number of the stream, reserved bits, the rate. -/
structure Rate where
  stream : Nat
  reserved : Nat
  rate : Nat
  deriving DecidableEq, Repr

def bitRate : Rd Rate := do
  let b ← Rd.bits .little [7, 9]
  let rate ← Rd.int 4 .little
  pure ⟨b.getD 0 0, b.getD 1 0, rate⟩

/-- Contents without objects inside. -/
inductive Leaf where
  /-- `twocc`, `channels`, `sample_rate`, `bit_rate`, `block_align`, `bits_per_sample`. -/
  | audio (ns : List Nat) (specific : Bytes)
  | mutex (type : Bytes) (streams : List Nat)
  /-- The size of the format; `hdr_size`, `width`, `height`, `nb_planes`, `bpp`; `codec`; `size`, `xres`, `yres`, `color_used`, `color_important`. -/
  | video (width height : Nat) (reserved : Bytes) (size : Nat) (head : List Nat) (codec : Bytes) (tail : List Nat)
  /-- `file_size`, `creation_date`, `pckt_count`, `play_duration`, `send_duration`, `preroll`; flags; sizes of packets and bit rate. -/
  | fileProp (id : Bytes) (ns : List Nat) (flags : List Nat) (ms : List Nat)
  | headerExt (id : Bytes) (n : Nat) (data : Bytes)
  | metadata (texts : List Bytes)
  | extDesc (ds : List Desc)
  | codecList (id : Bytes) (cs : List Codec)
  | simpleIndex (id : Bytes) (interval max : Nat) (entries : List (List Nat))
  | bitRates (rs : List Rate)
  | data (id : Bytes) (packets : Nat) (reserved data : Bytes)
  deriving DecidableEq, Repr

/-- `AudioHeader`, asf.py:35-45. -/
def audio : Rd Leaf := do
  let ns ← numbers [2, 2, 4, 4, 2, 2]
  let n ← Rd.int 2 .little
  let specific ← Cab.rawOr n
  pure (.audio ns specific)

/-- `BitrateMutualExclusion`, asf.py:56-60. -/
def mutex : Rd Leaf := do
  let type ← guid
  let n ← Rd.int 2 .little
  let streams ← Rd.times (Rd.int 2 .little) n
  pure (.mutex type streams)

/-- `BitmapInfoHeader` with a text as codec, /repo/hachoir/parser/common/win32.py:164-178. -/
def video2 (width height : Nat) (reserved : Bytes) (size : Nat) : Rd Leaf := do
  let head ← numbers [4, 4, 4, 2, 2]
  let codec ← Rd.text .little .fixed .eightBit (some 4)
  let tail ← numbers [4, 4, 4, 4, 4]
  pure (.video width height reserved size head codec tail)

/-- `VideoHeader`, asf.py:78-84. -/
def video : Rd Leaf := do
  let width ← Rd.int 4 .little
  let height ← Rd.int 4 .little
  let reserved ← Rd.raw 1
  let size ← Rd.int 2 .little
  if size < 40 then Rd.fail .parser else video2 width height reserved size

/-- `FileProperty`, asf.py:90-103. -/
def fileProp : Rd Leaf := do
  let id ← guid
  let ns ← numbers [8, 8, 8, 8, 8, 8]
  let flags ← Rd.bits .little [1, 1, 30]
  let ms ← numbers [4, 4, 4]
  pure (.fileProp id ns flags ms)

/-- `HeaderExtension`, asf.py:109-114. -/
def headerExt : Rd Leaf := do
  let id ← guid
  let n ← Rd.int 2 .little
  let size ← Rd.int 4 .little
  let data ← Cab.rawOr size
  pure (.headerExt id n data)

/-- `Metadata`, asf.py:129-136: title, author, copyright and two more texts. -/
def metadata : Rd Leaf := do
  let sizes ← numbers [2, 2, 2, 2, 2]
  let texts ← Rd.each utf16Or sizes
  pure (.metadata texts)

/-- `ExtendedContentDescription`, asf.py:173-176. -/
def extDesc : Rd Leaf := do
  let n ← Rd.int 2 .little
  let ds ← Rd.times desc n
  pure (.extDesc ds)

/-- `CodecList`, asf.py:204-208. -/
def codecList : Rd Leaf := do
  let id ← guid
  let n ← Rd.int 4 .little
  let cs ← Rd.times codec n
  pure (.codecList id cs)

/-- `SimpleIndex`, `SimpleIndexEntry`, asf.py:216-230. -/
def simpleIndex : Rd Leaf := do
  let id ← guid
  let interval ← Rd.int 8 .little
  let max ← Rd.int 4 .little
  let n ← Rd.int 4 .little
  let entries ← Rd.times (numbers [4, 2]) n
  pure (.simpleIndex id interval max entries)

/-- `BitRateList`, asf.py:247-250. -/
def bitRates : Rd Leaf := do
  let n ← Rd.int 2 .little
  let rs ← Rd.times bitRate n
  pure (.bitRates rs)

/-- The bytes that are left, asf.py:260-261. -/
def rest : Rd Bytes := fun s stop addr => Rd.raw ((stop - addr) / 8) s stop addr

/-- `Data`, asf.py:256-261. -/
def data : Rd Leaf := do
  let id ← guid
  let packets ← Rd.int 8 .little
  let reserved ← Rd.raw 2
  let d ← rest
  pure (.data id packets reserved d)

/-- `StreamProperty`: types, `time_offset`, `data_len`, `error_correct_len`, flags, reserved. -/
structure StreamHead where
  type : Bytes
  correction : Bytes
  ns : List Nat
  flags : List Nat
  reserved : Nat
  deriving DecidableEq, Repr

inductive Node where
  | empty
  | raw (b : Bytes)
  | leaf (l : Leaf)
  | header (reserved : Bytes) (objects : List Node)
  | stream (h : StreamHead) (data : Node) (error : Bytes)
  | object (guid : Bytes) (size : Nat) (content : Node)

/-- asf.py:323-328 and 276-284: a content of told size; `r` reads contents of a kind. -/
def contentOf (r : Kind → Rd Node) (n : Nat) (k : Option Kind) : Rd Node :=
  if n = 0 then pure .empty
  else
    match k with
    | none => do
      let b ← Rd.raw n
      pure (.raw b)
    | some k => Rd.within n (r k)

/-- `Object`, asf.py:308-328. -/
def objectOf (r : Kind → Rd Node) : Rd Node := do
  let g ← guid
  let size ← Rd.int 8 .little
  let c ← contentOf r (size - 24) (kindOf g)
  pure (.object g size c)

/-- `Header`, asf.py:120-124. -/
def headerOf (r : Kind → Rd Node) : Rd Node := do
  let n ← Rd.int 4 .little
  let reserved ← Rd.raw 2
  let objects ← Rd.times (objectOf r) n
  pure (.header reserved objects)

/-- `StreamProperty`, asf.py:267-275. -/
def streamHead : Rd StreamHead := do
  let type ← guid
  let correction ← guid
  let ns ← numbers [8, 4, 4]
  let flags ← Rd.bits .little [7, 8, 1]
  let reserved ← Rd.int 4 .little
  pure ⟨type, correction, ns, flags, reserved⟩

/-- `StreamProperty`, asf.py:267-287. -/
def streamOf (r : Kind → Rd Node) : Rd Node := do
  let h ← streamHead
  let d ← contentOf r (h.ns.getD 1 0) (kindOf h.type)
  let e ← Cab.rawOr (h.ns.getD 2 0)
  pure (.stream h d e)

def leafOf : Kind → Rd Leaf
  | .fileProp => fileProp
  | .headerExt => headerExt
  | .codecList => codecList
  | .simpleIndex => simpleIndex
  | .data => data
  | .bitRates => bitRates
  | .extDesc => extDesc
  | .metadata => metadata
  | .video => video
  | .audio => audio
  | .mutex => mutex
  | .header => Rd.fail .unbound
  | .streamProp => Rd.fail .unbound

def leafNode (k : Kind) : Rd Node := do
  let l ← leafOf k
  pure (.leaf l)

/-- The contents of all kinds; `n` bounds the depth. -/
def content : Nat → Kind → Rd Node
  | 0, _ => Rd.fail .endless
  | n + 1, k =>
    if k = .header then headerOf (content n)
    else if k = .streamProp then streamOf (content n)
    else leafNode k

/-- `createFields`, asf.py:375-377; `n` bounds depth and number. -/
def file (n : Nat) : Rd (List Node) := Rd.whileNotEof (objectOf (content n)) n

/-- `validate`, asf.py:353-360: of the first 16 bytes and the size of the first object. -/
def valid (magic : Bytes) (size : Nat) : Bool :=
  magic == [0x30, 0x26, 0xB2, 0x75, 0x8E, 0x66, 0xCF, 0x11, 0xA6, 0xD9, 0x00, 0xAA, 0x00, 0x62, 0xCE, 0x6C] && decide (30 ≤ size ∧ size ≤ 100 * 1024)

/-- The streams of the header, `self.array("header/content/stream_prop")`. -/
def streamsOf : List Node → List (StreamHead × Node)
  | [] => []
  | .object _ _ (.stream h d _) :: os => (h, d) :: streamsOf os
  | _ :: os => streamsOf os

/-- `createMimeType`, asf.py:362-373. -/
def mimeFrom (audio : Bool) : List Bytes → Bytes
  | [] => if audio then asc "audio/x-ms-wma" else asc "video/x-ms-asf"
  | t :: ts =>
    if t = asc "BC19EFC0-5B4D-11CF-A8FD-00805F5C442B" then asc "video/x-ms-wmv"
    else if t = asc "F8699E40-5B4D-11CF-A8FD-00805F5C442B" then mimeFrom true ts
    else mimeFrom audio ts

def mime (streams : List (StreamHead × Node)) : Bytes := mimeFrom false (streams.map (·.1.type))

/-- `streamProperty`, /repo/hachoir/metadata/video.py:400-403: the rate that is told for the stream number `index` (from 0) of the header. -/
def rateFor (rates : List Rate) (index : Nat) : Option Nat := (rates[index]?).map (·.rate)

/-- /repo/hachoir/metadata/video.py:339-346: what is told of `title`, `author` and `copyright`; fields of empty texts do not exist. -/
def told : List Bytes → List (String × Bytes)
  | title :: author :: copyright :: _ =>
    if title = [] then []
    else if author = [] then [("title", title)]
    else if copyright = [] then [("title", title), ("author", author)]
    else [("title", title), ("author", author), ("copyright", copyright)]
  | _ => []

/-- `useExtDescItem`, /repo/hachoir/metadata/video.py:371-374: the name without what is before the first slash. -/
def keyOf (name : List Nat) : List Nat :=
  if 47 ∈ name then (name.dropWhile (· != 47)).drop 1 else name

/-- `EXT_DESC_TO_ATTR`, /repo/hachoir/metadata/video.py:257-265. -/
def attrOf (key : String) : Option String :=
  if key = "Encoder" then some "producer"
  else if key = "ToolName" then some "producer"
  else if key = "AlbumTitle" then some "album"
  else if key = "Track" then some "track_number"
  else if key = "TrackNumber" then some "track_total"
  else if key = "Year" then some "creation_date"
  else if key = "AlbumArtist" then some "author"
  else none

/-- `is_vbr`, /repo/hachoir/metadata/video.py:279, 294-297 of the value of the descriptor `IsVBR`: 0 is left out (lines 378-379); other numbers
were made texts (line 381), and no text is equal to the number 1. -/
def isVbr : Option Nat → Option Bool
  | none => none
  | some 0 => none
  | some (_ + 1) => some false

end Hachoir.Formats.Asf
