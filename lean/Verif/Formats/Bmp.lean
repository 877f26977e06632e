import Verif.Field.StringField

/-!
# Bitmaps

`/repo/hachoir/parser/image/bmp.py`, `RGB` and `PaletteRGBA` of `/repo/hachoir/parser/image/common.py`, and `BmpMetadata` of
`/repo/hachoir/metadata/image.py`.  Addresses are in bits.  Not modelled: texts of descriptions, the compression rate (a float), and
what becomes of a picture whose lines do not fit into its size (an error here).
-/

set_option linter.unusedVariables false

namespace Hachoir.Formats.Bmp
open Hachoir Hachoir.Stream Hachoir.Field

/-- The fields of version 3, bmp.py:94-99. -/
structure Header3 where
  compression : Nat
  imageSize : Nat
  xDpi : Nat
  yDpi : Nat
  usedColors : Nat
  important : Nat
  deriving DecidableEq, Repr

/-- `BmpHeader`, bmp.py:82-114; the 17 numbers of version 4 are a list. -/
structure Header where
  size : Nat
  width : Nat
  height : Nat
  planes : Nat
  bpp : Nat
  v3 : Option Header3
  v4 : Option (List Nat)
  deriving DecidableEq, Repr

/-- `n` fields `UInt32` one after the other, bmp.py:104-114. -/
def readWords (s : InputStream) (addr : Nat) : Nat → Except PyErr (List Nat)
  | 0 => .ok []
  | n + 1 => do
    let v ← readBits s (addr : Nat) 32 .little
    let vs ← readWords s (addr + 32) n
    .ok (v :: vs)

/-- The fields of version 3, bmp.py:94-99. -/
def readHeader3 (s : InputStream) (addr : Nat) : Except PyErr Header3 := do
  let compression ← readBits s (addr : Nat) 32 .little
  let imageSize ← readBits s (addr + 32 : Nat) 32 .little
  let xDpi ← readBits s (addr + 64 : Nat) 32 .little
  let yDpi ← readBits s (addr + 96 : Nat) 32 .little
  let used ← readBits s (addr + 128 : Nat) 32 .little
  let important ← readBits s (addr + 160 : Nat) 32 .little
  .ok ⟨compression, imageSize, xDpi, yDpi, used, important⟩

/-- What follows the fields of version 2 at `addr`, bmp.py:91-114, and where it ends. -/
def readVersions (s : InputStream) (size addr : Nat) : Except PyErr (Option Header3 × Option (List Nat) × Nat) :=
  if size < 40 then .ok (none, none, addr)
  else
    match readHeader3 s addr with
    | .error e => .error e
    | .ok h3 =>
      if size < 108 then .ok (some h3, none, addr + 192)
      else
        match readWords s (addr + 192) 17 with
        | .error e => .error e
        | .ok ws => .ok (some h3, some ws, addr + 736)

/-- `BmpHeader.createFields`, bmp.py:82-114: the header at `addr`, and where it ends. -/
def readHeader (s : InputStream) (addr : Nat) : Except PyErr (Header × Nat) := do
  let size ← readBits s (addr : Nat) 32 .little
  let width ← readBits s (addr + 32 : Nat) 32 .little
  let height ← readBits s (addr + 64 : Nat) 32 .little
  let planes ← readBits s (addr + 96 : Nat) 16 .little
  let bpp ← readBits s (addr + 112 : Nat) 16 .little
  let (v3, v4, stop) ← readVersions s size (addr + 128)
  .ok (⟨size, width, height, planes, bpp, v3, v4⟩, stop)

/-- The classes of pixels, bmp.py:122-131. -/
inductive Cls
  | word
  | rgb
  | byte
  | nibble
  deriving DecidableEq, Repr

/-- `static_size` of the classes (bmp.py:21, common.py:12). -/
def Cls.bits : Cls → Nat
  | .word => 32
  | .rgb => 24
  | .byte => 8
  | .nibble => 4

/-- The choice of a class, bmp.py:122-131. -/
def clsOf (bpp : Nat) : Option Cls :=
  if bpp = 32 then some .word
  else if bpp = 24 then some .rgb
  else if bpp = 8 then some .byte
  else if bpp = 4 then some .nibble
  else none

/-- The value of a pixel: `[value]`, or `[red, green, blue]` (common.py:14-17). -/
def readPixel (s : InputStream) (cls : Cls) (addr : Nat) : Except PyErr (List Nat) :=
  match cls with
  | .rgb => do
    let r ← readBits s (addr : Nat) 8 .little
    let g ← readBits s (addr + 8 : Nat) 8 .little
    let b ← readBits s (addr + 16 : Nat) 8 .little
    .ok [r, g, b]
  | c => do
    let v ← readBits s (addr : Nat) c.bits .little
    .ok [v]

/-- The pixels of a line, bmp.py:36-37. -/
def readPixels (s : InputStream) (cls : Cls) (addr : Nat) : Nat → Except PyErr (List (List Nat))
  | 0 => .ok []
  | n + 1 => do
    let p ← readPixel s cls addr
    let ps ← readPixels s cls (addr + cls.bits) n
    .ok (p :: ps)

/-- The size of a line, `alignValue(width * bits, 32)`, bmp.py:33 (tools.py:60-77). -/
def lineSize (width : Nat) (cls : Cls) : Nat :=
  let v := width * cls.bits
  if v % 32 = 0 then v else v + 32 - v % 32

/-- `ImagePixels.createFields`, bmp.py:52-53: `line[n - 1]` … `line[0]`, with their numbers. -/
def readLines (s : InputStream) (cls : Cls) (width addr : Nat) : Nat → Except PyErr (List (Nat × List (List Nat)))
  | 0 => .ok []
  | y + 1 => do
    let p ← readPixels s cls addr width
    let ps ← readLines s cls width (addr + lineSize width cls) y
    .ok ((y, p) :: ps)

/-- The field `pixels`. -/
inductive Pixels
  | lines (addr size : Nat) (ls : List (Nat × List (List Nat)))
  | raw (addr size : Nat)
  deriving DecidableEq, Repr

/-- `parseImageData`, bmp.py:117-134, `size` bytes at `addr`.  `RawBytes` must not be empty. -/
def readImage (s : InputStream) (h : Header) (addr size : Nat) : Except PyErr Pixels :=
  if size = 0 then .error .field
  else
    match (if h.v3.all (fun x => x.compression = 0 ∨ x.compression = 3) then clsOf h.bpp else none) with
    | none => .ok (.raw addr size)
    | some cls =>
      if 8 * size < h.height * lineSize h.width cls then .error .field
      else
        match readLines s cls h.width addr h.height with
        | .error e => .error e
        | .ok ls => .ok (.lines addr size ls)

/-- The number of colors of the palette, bmp.py:179-187. -/
def nbColor (h : Header) : Nat :=
  if 0 < h.bpp ∧ h.bpp ≤ 8 then
    match h.v3 with
    | some x => if x.usedColors ≠ 0 then x.usedColors else 2 ^ h.bpp
    | none => 2 ^ h.bpp
  else 0

/-- The colors of a palette: red, green, blue, alpha (common.py:30-34, vector.py:22-26). -/
def readPalette (s : InputStream) (addr : Nat) : Nat → Except PyErr (List (List Nat))
  | 0 => .ok []
  | n + 1 => do
    let r ← readBits s (addr : Nat) 8 .little
    let g ← readBits s (addr + 8 : Nat) 8 .little
    let b ← readBits s (addr + 16 : Nat) 8 .little
    let a ← readBits s (addr + 24 : Nat) 8 .little
    let cs ← readPalette s (addr + 32) n
    .ok ([r, g, b, a] :: cs)

/-- The fields of a file. -/
structure File where
  fileSize : Nat
  dataStart : Nat
  header : Header
  palette : List (List Nat)
  pixels : Pixels
  deriving DecidableEq, Repr

/-- `BmpFile.createFields`, bmp.py:171-201, of a stream of `total` bits. -/
def readFile (s : InputStream) (total : Nat) : Except PyErr File := do
  let fileSize ← readBits s 16 32 .little
  let dataStart ← readBits s 80 32 .little
  let (h, stop) ← readHeader s 112
  let palette ← readPalette s stop (nbColor h)
  if 8 * dataStart < stop + 32 * nbColor h then .error .parser
  else if fileSize < dataStart ∨ total < 8 * dataStart then .error .field
  else
    let pixels ← readImage s h (8 * dataStart) (min (fileSize - dataStart) ((total - 8 * dataStart) / 8))
    .ok ⟨fileSize, dataStart, h, palette, pixels⟩

/-- `validate`, bmp.py:162-169; an unknown size of the header makes an error, since the message looks up a field `header_size`
of the file (bmp.py:166). -/
def valid (s : InputStream) : Except PyErr Bool := do
  let b ← readBytes s 0 2
  if b ≠ [66, 77] then .ok false
  else
    let (h, _) ← readHeader s 112
    if h.size ≠ 12 ∧ h.size ≠ 40 ∧ h.size ≠ 108 then .error .missingField
    else .ok (h.planes = 1)

/-- `createContentSize`, bmp.py:206-207. -/
def contentSize (f : File) : Nat := f.fileSize * 8

/-- `getFormatVersion`, bmp.py:75-80. -/
def formatVersion (h : Header) : Nat :=
  if h.v4.isSome then 4 else if h.v3.isSome then 3 else 2

/-- `NumberFilter(1, hi)`, metadata/filter.py, of the attributes (metadata/register.py:62-69, 82-86 and 100-107). -/
def told (hi v : Nat) : Option Nat := if 1 ≤ v ∧ v ≤ hi then some v else none

/-- What is told, metadata/image.py:32-48.  Compression is told as a number; `version` and what follows is missing without a field
`compression`, since the lookup fails (metadata/image.py:43, metadata/metadata.py:327-330). -/
structure Told where
  width : Option Nat
  height : Option Nat
  colors : Option Nat
  bits : Option Nat
  compression : Option Nat
  version : Option Nat
  xDpi : Option Nat
  yDpi : Option Nat
  deriving DecidableEq, Repr

/-- `BmpMetadata.extract`, metadata/image.py:32-48. -/
def extract (f : File) : Told :=
  let h := f.header
  let colors := match h.v3 with
    | some x => if h.bpp ≠ 0 ∧ h.bpp ≤ 8 then told (2 ^ 24) x.usedColors else none
    | none => none
  match h.v3 with
  | none => ⟨told 20000 h.width, told 20000 h.height, colors, told 256 h.bpp, none, none, none, none⟩
  | some x =>
    ⟨told 20000 h.width, told 20000 h.height, colors, told 256 h.bpp, some x.compression, some (formatVersion h),
      told 10000 x.xDpi, told 10000 x.yDpi⟩

end Hachoir.Formats.Bmp
