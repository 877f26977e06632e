import Verif.Core.Timestamp

/-!
# Chunks of PNG files

Model of `Chunk`, the parsers of some chunks and `PngFile` of /repo/hachoir/parser/image/png.py, and of
`PngMetadata.useHeader` of /repo/hachoir/metadata/image.py.  Addresses and sizes are in bits, addresses
absolute.
-/

namespace Hachoir.Formats.Png
open Hachoir Hachoir.Stream Hachoir.Time

/-- A field `Chunk`: tag, address, size, address and bytes of the content. -/
structure Chunk where
  tag : Bytes
  addr : Nat
  size : Nat
  content : Nat
  bytes : Nat
  crc : Nat
  deriving DecidableEq, Repr

/-- `MAX_CHUNK_SIZE`, /repo/hachoir/parser/image/png.py:48, in bytes. -/
def maxChunk : Nat := 64 * 1024 * 1024

/-- `Chunk`, /repo/hachoir/parser/image/png.py:192-245, in a file that ends at `stop`.  A chunk that does
not fit is an error.  The field `crc32` is at the end, if the content is as long as its size says. -/
def readChunk (s : InputStream) (addr stop : Nat) : Except PyErr Chunk :=
  match readBits s addr 32 .big with
  | .error e => .error e
  | .ok n =>
    if maxChunk < n + 12 then .error .parser
    else
      match readBytes s ((addr + 32 : Nat) : Int) 4 with
      | .error e => .error e
      | .ok tag =>
        if stop < addr + (n + 12) * 8 then .error .parser
        else
          match readBits s ((addr + 64 + n * 8 : Nat) : Int) 32 .big with
          | .error e => .error e
          | .ok crc => .ok ⟨tag, addr, (n + 12) * 8, addr + 64, n, crc⟩

/-- The loop of `PngFile.createFields`, /repo/hachoir/parser/image/png.py:273-276.  `fuel` bounds the
number of chunks. -/
def readChunks (s : InputStream) : Nat → Nat → Nat → Except PyErr (List Chunk)
  | 0, _, _ => .error .endless
  | fuel + 1, addr, stop =>
    if addr < stop then
      match readChunk s addr stop with
      | .error e => .error e
      | .ok c =>
        match readChunks s fuel (addr + c.size) stop with
        | .error e => .error e
        | .ok cs => .ok (c :: cs)
    else .ok []

/-- The fields of a header. -/
structure Header where
  width : Nat
  height : Nat
  depth : Nat
  hasAlpha : Bool
  color : Bool
  hasPalette : Bool
  compression : Nat
  filter : Nat
  interlace : Nat
  deriving DecidableEq, Repr

/-- `headerParse`, /repo/hachoir/parser/image/png.py:51-61. -/
def readHeader (s : InputStream) (addr : Nat) : Except PyErr Header := do
  let width ← readBits s addr 32 .big
  let height ← readBits s ((addr + 32 : Nat) : Int) 32 .big
  let depth ← readBits s ((addr + 64 : Nat) : Int) 8 .big
  let hasAlpha ← readBits s ((addr + 77 : Nat) : Int) 1 .big
  let color ← readBits s ((addr + 78 : Nat) : Int) 1 .big
  let hasPalette ← readBits s ((addr + 79 : Nat) : Int) 1 .big
  let compression ← readBits s ((addr + 80 : Nat) : Int) 8 .big
  let filter ← readBits s ((addr + 88 : Nat) : Int) 8 .big
  let interlace ← readBits s ((addr + 96 : Nat) : Int) 8 .big
  pure ⟨width, height, depth, hasAlpha ≠ 0, color ≠ 0, hasPalette ≠ 0, compression, filter, interlace⟩

/-- `getBitsPerPixel`, /repo/hachoir/parser/image/png.py:183-189. -/
def bitsPerPixel (h : Header) : Nat :=
  let n := 1
  let n := if h.hasAlpha then n + 1 else n
  let n := if h.color && !h.hasPalette then n + 2 else n
  n * h.depth

/-- `timestampParse` and `timestampValue`, /repo/hachoir/parser/image/png.py:110-124. -/
def readTime (s : InputStream) (addr : Nat) : Except PyErr DateTime := do
  let year ← readBits s addr 16 .big
  let month ← readBits s ((addr + 16 : Nat) : Int) 8 .big
  let day ← readBits s ((addr + 24 : Nat) : Int) 8 .big
  let hour ← readBits s ((addr + 32 : Nat) : Int) 8 .big
  let minute ← readBits s ((addr + 40 : Nat) : Int) 8 .big
  let second ← readBits s ((addr + 48 : Nat) : Int) 8 .big
  datetime year month day hour minute second

/-- The number of colours and `pixel_format` in `PngMetadata.useHeader`,
/repo/hachoir/metadata/image.py:229-247, where `palette` is the size of the chunk PLTE, if there is one, and
`transparency` tells whether there is a chunk tRNS. -/
def pixelFormat (h : Header) (palette : Option Nat) (transparency : Bool) : String × Option Nat :=
  let colors := palette.map (· / 3)
  let (format, colors) :=
    if !h.hasPalette then (if h.hasAlpha then "RGBA" else "RGB", colors)
    else if transparency then
      ("Color index with transparency", match colors with | some n => if n ≠ 0 then some (n - 1) else some n | none => none)
    else ("Color index", colors)
  (format, match colors with | some 0 => none | c => c)

/-- `MAX_FILESIZE`, /repo/hachoir/parser/image/png.py:25, in bits. -/
def maxBits : Nat := 500 * 1024 * 1024 * 8

/-- The end of a picture: `IEND` without content, with its check sum. -/
def endMark : Bytes := [0, 0, 0, 0, 0x49, 0x45, 0x4e, 0x44, 0xae, 0x42, 0x60, 0x82]

/-- `PngFile.createContentSize`, /repo/hachoir/parser/image/png.py:286-294, where the header ends at
`start`. -/
def contentSize (s : InputStream) (start : Nat) : Except PyErr (Option Int) :=
  match searchBytes s endMark start (some maxBits) with
  | .error e => .error e
  | .ok none => .ok none
  | .ok (some pos) => .ok (some (pos + 12 * 8))

end Hachoir.Formats.Png
