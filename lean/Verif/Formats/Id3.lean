import Verif.Field.StringField
import Verif.Formats.VarInt
import Verif.Formats.Tar

/-!
# ID3 tags

`/repo/hachoir/parser/audio/id3.py` and the part of `/repo/hachoir/metadata/audio.py` that
uses the tags.  Not modelled: the flags that nothing depends on, the contents of `GEOB`, `PIC`
and `PRIV` frames (no metadata is made of them), names of genres, descriptions, and what the
metadata object does with the values (`Verif/Metadata`).  Texts are bytes with a charset; the
conversion is a parameter.
-/

namespace Hachoir.Formats.Id3
open Hachoir Hachoir.Stream Hachoir.Field Hachoir.Formats

/-! ## ID3 version 1 -/

/-- The fields of `ID3v1` with a value. -/
structure V1 where
  song : Bytes
  author : Bytes
  album : Bytes
  year : Bytes
  comment : Bytes
  track : Option Nat
  genre : Option Nat
  deriving DecidableEq, Repr

/-- A `String` of `n` bytes with `strip=" \0"` and an 8 bit charset at the byte `off`
(id3.py:180-196). -/
def text1 (s : InputStream) (addr off n : Nat) : Except PyErr Bytes :=
  Tar.column s addr off n Tar.isBlank

/-- `ID3v1.createFields` and `getVersion`, id3.py:174-211.  In the code the fields before an
error remain. -/
def readV1 (s : InputStream) (addr : Nat) : Except PyErr V1 := do
  let signature ← readBytes s addr 3
  if signature ≠ [84, 65, 71] then .error .parser
  else
    let song ← text1 s addr 3 30
    let author ← text1 s addr 33 30
    let album ← text1 s addr 63 30
    let year ← text1 s addr 93 4
    let b126 ← readBits s ((addr + 126 * 8 : Nat) : Int) 8 .little
    let b127 ← readBits s ((addr + 127 * 8 : Nat) : Int) 8 .little
    if b127 ≠ 32 then
      if b126 = 0 then
        let comment ← text1 s addr 97 30
        .ok ⟨song, author, album, year, comment, none, some b127⟩
      else
        let comment ← text1 s addr 97 29
        .ok ⟨song, author, album, year, comment, some b126, some b127⟩
    else
      let comment ← text1 s addr 97 31
      .ok ⟨song, author, album, year, comment, none, none⟩

/-! ## ID3 version 2 -/

/-- A text: its bytes and what converts them. -/
structure Text where
  charset : Charset
  bytes : Bytes
  deriving DecidableEq, Repr

/-- `getCharset`, id3.py:219-224 with `ID3_StringCharset.charset_name` (242-247). -/
def charsetOf : Nat → Except PyErr Charset
  | 0 => .ok .eightBit
  | 1 => .ok .utf16bom
  | 2 => .ok .utf16be
  | 3 => .ok .utf8
  | _ => .error .parser

/-- A `String` of `n` bytes: its sizes and its bytes. -/
def fixedText (s : InputStream) (addr n : Nat) (charset : Charset) : Except PyErr Text :=
  match genericString s .big addr .fixed charset (some n) with
  | .error e => .error e
  | .ok sizes =>
    match stringContent s addr sizes with
    | .error e => .error e
    | .ok b => .ok ⟨sizes.charset, b⟩

/-- A `CString`: its text and its size in bits. -/
def cText (s : InputStream) (addr : Nat) (charset : Charset) : Except PyErr (Text × Nat) :=
  match genericString s .big addr .c charset none with
  | .error e => .error e
  | .ok sizes =>
    match stringContent s addr sizes with
    | .error e => .error e
    | .ok b => .ok (⟨sizes.charset, b⟩, sizes.size.toNat)

/-- The content of a frame: not interpreted, or texts (language, title and text, if present),
or a picture (MIME type, kind, description, place and size of the image). -/
inductive Content where
  | raw (addr n : Nat)
  | texts (lang : Option Bytes) (title text : Option Text)
  | picture (mime : Text) (kind : Nat) (description : Text) (addr n : Nat)
  deriving DecidableEq, Repr

/-- `ID3_StringCharset.createFields`, id3.py:249-255; `n` bytes. -/
def readText (s : InputStream) (addr n : Nat) : Except PyErr Content := do
  let c ← readBits s addr 8 .big
  if n ≤ 1 then .ok (.texts none none none)
  else
    let charset ← charsetOf c
    let t ← fixedText s (addr + 8) (n - 1) charset
    .ok (.texts none none (some t))

/-- The end of `ID3_Comment.createFields` and `ID3_StringTitle.createFields`, id3.py:278-284 and
294-299: a title, and the text up to the end of the content.  A title that ends behind the content
does not fit in the field set; the text is missing then. -/
def readTitle (s : InputStream) (addr n : Nat) (charset : Charset) (lang : Option Bytes) : Except PyErr Content := do
  let (title, size) ← cText s addr charset
  if n * 8 < size then .error .parser
  else if n * 8 = size then .ok (.texts lang (some title) none)
  else
    let t ← fixedText s (addr + size) ((n * 8 - size) / 8) charset
    .ok (.texts lang (some title) (some t))

/-- `ID3_Comment.createFields`, id3.py:273-284. -/
def readComment (s : InputStream) (addr n : Nat) : Except PyErr Content := do
  let c ← readBits s addr 8 .big
  let lang ← readBytes s ((addr + 8 : Nat) : Int) 3
  let charset ← charsetOf c
  readTitle s (addr + 32) (n - 4) charset (some lang)

/-- `ID3_StringTitle.createFields`, id3.py:287-299. -/
def readTitled (s : InputStream) (addr n : Nat) : Except PyErr Content := do
  let c ← readBits s addr 8 .big
  if n ≤ 1 then .ok (.texts none none none)
  else
    let charset ← charsetOf c
    readTitle s (addr + 8) (n - 1) charset none

/-- `ID3_Picture24.createFields`, id3.py:367-378. -/
def readPicture (s : InputStream) (addr n : Nat) : Except PyErr Content := do
  let c ← readBits s addr 8 .big
  let charset ← charsetOf c
  let (mime, m) ← cText s (addr + 8) charset
  let kind ← readBits s ((addr + 8 + m : Nat) : Int) 8 .big
  let (description, d) ← cText s (addr + 16 + m) charset
  if n * 8 < 16 + m + d then .error .parser
  else .ok (.picture mime kind description (addr + 16 + m + d) ((n * 8 - (16 + m + d)) / 8))

/-- `ID3_String.createFields`, id3.py:227-231 (`WOAR`). -/
def readPlain (s : InputStream) (addr n : Nat) : Except PyErr Content := do
  let t ← fixedText s addr n .eightBit
  .ok (.texts none none (some t))

/-- The classes of contents, `handler` (id3.py:416-426) and 461-471; `GEOB`, `PIC` and `PRIV` are not
looked into. -/
def readContent (s : InputStream) (addr n : Nat) (tag : Bytes) (compressed : Bool) : Except PyErr Content :=
  if compressed then .ok (.raw addr n)
  else if tag = [67, 79, 77, 77] ∨ tag = [67, 79, 77] then readComment s addr n
  else if tag = [71, 69, 79, 66] ∨ tag = [80, 73, 67] ∨ tag = [80, 82, 73, 86] then .ok (.raw addr n)
  else if tag = [65, 80, 73, 67] then readPicture s addr n
  else if tag = [84, 88, 88, 88] ∨ tag = [87, 88, 88, 88] then readTitled s addr n
  else if tag = [87, 79, 65, 82] then readPlain s addr n
  else
    match tag with
    | [] => .error .index                -- tag[0]
    | c :: _ => if c = 84 then readText s addr n else .ok (.raw addr n)

/-- The fields of an `ID3_Chunk`; an error of the content stays in the content. -/
structure Frame where
  addr : Nat
  tag : Bytes
  size : Nat
  content : Option (Except PyErr Content)

/-- Bytes before the content of a frame. -/
def headSize (major : Nat) : Nat := if 3 ≤ major then 10 else 6

/-- `ID3_Chunk.createFields`, id3.py:435-471, and its size (428-433), which is
`(headSize major + size) * 8`. -/
def readFrame (s : InputStream) (major addr : Nat) : Except PyErr Frame :=
  if 3 ≤ major then do
    let tag ← readBytes s addr 4
    let size ← (if 4 ≤ major then id3Size s ((addr + 32 : Nat) : Int) else readBits s ((addr + 32 : Nat) : Int) 32 .big)
    let compressed ← readBits s ((addr + 72 : Nat) : Int) 1 .big
    let name := stripText Tar.isNul tag
    .ok ⟨addr, name, size, if size = 0 then none else some (readContent s (addr + 80) size name (compressed = 1))⟩
  else do
    let tag ← readBytes s addr 3
    let size ← readBits s ((addr + 24 : Nat) : Int) 24 .big
    let name := stripText Tar.isNul tag
    .ok ⟨addr, name, size, if size = 0 then none else some (readContent s (addr + 48) size name false)⟩

/-- The loop of `ID3v2.createFields`, id3.py:519-523.  A frame that reaches behind the tag is cut
by the field set in the code; here it stays as it is. -/
def readFrames (s : InputStream) (major stop : Nat) : Nat → Nat → Except PyErr (List Frame)
  | 0, _ => .error .endless
  | fuel + 1, addr =>
    if addr < stop then
      match readFrame s major addr with
      | .error e => .error e
      | .ok f =>
        if f.size = 0 then .ok [f]
        else
          match readFrames s major stop fuel (addr + (headSize major + f.size) * 8) with
          | .error e => .error e
          | .ok fs => .ok (f :: fs)
    else .ok []

/-- `ID3v2`, id3.py:484-528: version, size in bits, frames.  The fuel never runs out, a frame takes
six bytes or more. -/
def readTag (s : InputStream) (addr : Nat) : Except PyErr (Nat × Nat × List Frame) := do
  let header ← readBytes s addr 3
  let major ← readBits s ((addr + 24 : Nat) : Int) 8 .big
  let minor ← readBits s ((addr + 32 : Nat) : Int) 8 .big
  if header ≠ [73, 68, 51] then .error .parser
  else if ¬ (major = 2 ∨ major = 3 ∨ major = 4) ∨ minor ≠ 0 then .error .parser
  else
    let size ← id3Size s ((addr + 48 : Nat) : Int)
    let frames ← readFrames s major (addr + (size + 10) * 8) (size + 1) (addr + 80)
    .ok (major, (size + 10) * 8, frames)

/-! ## Metadata -/

/-- `TAG_TO_KEY`, metadata/audio.py:265-292. -/
def tagToKey : List (String × String) :=
  [("TP1", "author"), ("COM", "comment"), ("TEN", "producer"), ("TRK", "track_number"), ("TAL", "album"), ("TT2", "title"),
   ("TYE", "creation_date"), ("TCO", "music_genre"),
   ("TPE1", "author"), ("COMM", "comment"), ("TENC", "producer"), ("TRCK", "track_number"), ("TALB", "album"),
   ("TIT2", "title"), ("TYER", "creation_date"), ("WXXX", "url"), ("TCON", "music_genre"), ("TLAN", "language"),
   ("TCOP", "copyright"), ("TDAT", "creation_date"), ("TRDA", "creation_date"), ("TORY", "creation_date"), ("TIT1", "title")]

/-- `tag in TAG_TO_KEY`, `TAG_TO_KEY[tag]`: the tag is compared as a text. -/
def keyOf (tag : Bytes) : Option String :=
  (tagToKey.find? fun p => p.1.toList == tag.map fun b => Char.ofNat b.toNat).map (·.2)

/-- The characters of `ID3_String.STRIP`, id3.py:228. -/
def isStrip (c : Char) : Bool := c == ' ' || c == Char.ofNat 0

/-- The value of a string field with `strip`; `decode` is the conversion. -/
def value (decode : Charset → Bytes → List Char) (t : Text) : List Char :=
  match t.bytes with
  | [] => []
  | b => stripText isStrip (decode t.charset b)

/-- `processID3v2`, metadata/audio.py:294-315: the attribute and its value. -/
def entry (decode : Charset → Bytes → List Char) (f : Frame) : Option (String × List Char) :=
  match f.content with
  | some (.ok (.texts _ title (some text))) =>
    match keyOf f.tag with
    | none => none
    | some key =>
      match title with
      | none => some (key, value decode text)
      | some t =>
        if value decode t = [] then some (key, value decode text)
        else some (key, value decode t ++ [':', ' '] ++ value decode text)
  | _ => none

/-- `readID3v2`, metadata/audio.py:317-320: what is set, in this order. -/
def metadata (decode : Charset → Bytes → List Char) (frames : List Frame) : List (String × List Char) :=
  frames.filterMap (entry decode)

end Hachoir.Formats.Id3
