import Verif.Formats.Bmp

/-!
# PCX and Targa pictures

`/repo/hachoir/parser/image/pcx.py`, `/repo/hachoir/parser/image/tga.py`, and `PcxMetadata` and `TargaMetadata` of
`/repo/hachoir/metadata/image.py`.  Addresses are in bits.  Not modelled: texts of descriptions and the compression rate (a float).
-/

set_option linter.unusedVariables false

namespace Hachoir.Formats.Pcx
open Hachoir Hachoir.Stream Hachoir.Field Hachoir.Formats.Bmp

/-- `PaletteRGB` (common.py:42-47): red, green, blue. -/
def readColors (s : InputStream) (addr : Nat) : Nat → Except PyErr (List (List Nat))
  | 0 => .ok []
  | n + 1 => do
    let r ← readBits s (addr : Nat) 8 .little
    let g ← readBits s (addr + 8 : Nat) 8 .little
    let b ← readBits s (addr + 16 : Nat) 8 .little
    let cs ← readColors s (addr + 24) n
    .ok ([r, g, b] :: cs)

/-- The fields of a file but the reserved ones, pcx.py:45-60; `data`: where `image_data` is (address, bytes). -/
structure File where
  id : Nat
  version : Nat
  compression : Nat
  bpp : Nat
  xmin : Nat
  ymin : Nat
  xmax : Nat
  ymax : Nat
  xDpi : Nat
  yDpi : Nat
  palette4 : List (List Nat)
  planes : Nat
  perLine : Nat
  mode : Nat
  data : Nat × Nat
  palette8 : Option (List (List Nat))
  deriving DecidableEq, Repr

/-- What follows the header, pcx.py:65-73, in a file of `total` bits.  `RawBytes` of less than one byte is refused. -/
def readTail (s : InputStream) (total bpp : Nat) : Except PyErr ((Nat × Nat) × Option (List (List Nat))) :=
  let size := (total - 1024) / 8
  if bpp = 8 then
    if size ≤ 768 then .error .field
    else
      match readColors s (1024 + 8 * (size - 768)) 256 with
      | .error e => .error e
      | .ok cs => .ok ((1024, size - 768), some cs)
  else if size = 0 then .error .field
  else .ok ((1024, size), none)

/-- `createFields`, pcx.py:44-73. -/
def readFile (s : InputStream) (total : Nat) : Except PyErr File := do
  let id ← readBits s 0 8 .little
  let version ← readBits s 8 8 .little
  let compression ← readBits s 16 8 .little
  let bpp ← readBits s 24 8 .little
  let xmin ← readBits s 32 16 .little
  let ymin ← readBits s 48 16 .little
  let xmax ← readBits s 64 16 .little
  let ymax ← readBits s 80 16 .little
  let xDpi ← readBits s 96 16 .little
  let yDpi ← readBits s 112 16 .little
  let palette ← readColors s 128 16
  let planes ← readBits s 520 8 .little
  let perLine ← readBits s 528 16 .little
  let mode ← readBits s 544 16 .little
  let (data, palette8) ← readTail s total bpp
  .ok ⟨id, version, compression, bpp, xmin, ymin, xmax, ymax, xDpi, yDpi, palette, planes, perLine, mode, data, palette8⟩

/-- `validate`, pcx.py:33-42; the byte `reserved[0]` is at 512 bits. -/
def valid (s : InputStream) : Except PyErr Bool := do
  let id ← readBits s 0 8 .little
  let version ← readBits s 8 8 .little
  let bpp ← readBits s 24 8 .little
  let reserved ← readBits s 512 8 .little
  .ok (id = 10 ∧ (version = 0 ∨ version = 2 ∨ version = 3 ∨ version = 4 ∨ version = 5) ∧
    (bpp = 1 ∨ bpp = 2 ∨ bpp = 4 ∨ bpp = 8 ∨ bpp = 24 ∨ bpp = 32) ∧ reserved = 0)

/-- What is told. -/
structure Told where
  width : Option Nat
  height : Option Nat
  xDpi : Option Nat
  yDpi : Option Nat
  bits : Option Nat
  colors : Option Nat
  deriving DecidableEq, Repr

/-- `PcxMetadata.extract`, metadata/image.py:139-146; the filters as `Bmp.told`. -/
def extract (f : File) : Told :=
  ⟨told 20000 (1 + f.xmax), told 20000 (1 + f.ymax), told 10000 f.xDpi, told 10000 f.yDpi, told 256 f.bpp,
    if 1 ≤ f.bpp ∧ f.bpp ≤ 8 then told (2 ^ 24) (2 ^ f.bpp) else none⟩

end Hachoir.Formats.Pcx

namespace Hachoir.Formats.Tga
open Hachoir Hachoir.Stream Hachoir.Field Hachoir.Formats.Bmp

/-- The fields of a file, tga.py:79-106.  `image_id`, and `raw_pixels`: address and bytes. -/
structure File where
  idLength : Nat
  paletteType : Nat
  codec : Nat
  paletteOfs : Nat
  nbColor : Nat
  colorSize : Nat
  xMin : Nat
  yMin : Nat
  width : Nat
  height : Nat
  bpp : Nat
  alpha : Nat
  xFlip : Nat
  yFlip : Nat
  imageId : Option (Nat × Nat)
  palette : Option (List (List Nat))
  raw : Option (Nat × Nat)
  deriving DecidableEq, Repr

/-- The palette, tga.py:98-99, and where it ends: `1 << bpp` colors of three bytes. -/
def readPalette (s : InputStream) (type bpp addr : Nat) : Except PyErr (Option (List (List Nat)) × Nat) :=
  if type = 1 then
    match Pcx.readColors s addr (2 ^ bpp) with
    | .error e => .error e
    | .ok cs => .ok (some cs, addr + 24 * 2 ^ bpp)
  else .ok (none, addr)

/-- `createFields`, tga.py:78-106, of a file of `total` bits.  `self["codec"] in (1, 2, 3)` (line 101) compares a field, not its value, with
numbers, and is never true; so the field `pixels` (lines 15-40) never exists. -/
def readFile (s : InputStream) (total : Nat) : Except PyErr File := do
  let idLength ← readBits s 0 8 .little
  let paletteType ← readBits s 8 8 .little
  let codec ← readBits s 16 8 .little
  let paletteOfs ← readBits s 24 16 .little
  let nbColor ← readBits s 40 16 .little
  let colorSize ← readBits s 56 8 .little
  let xMin ← readBits s 64 16 .little
  let yMin ← readBits s 80 16 .little
  let width ← readBits s 96 16 .little
  let height ← readBits s 112 16 .little
  let bpp ← readBits s 128 8 .little
  let alpha ← readBits s 136 4 .little
  let xFlip ← readBits s 140 1 .little
  let yFlip ← readBits s 141 1 .little
  let (palette, stop) ← readPalette s paletteType bpp (144 + 8 * idLength)
  .ok ⟨idLength, paletteType, codec, paletteOfs, nbColor, colorSize, xMin, yMin, width, height, bpp, alpha, xFlip, yFlip,
    if idLength = 0 then none else some (144, idLength), palette, if (total - stop) / 8 = 0 then none else some (stop, (total - stop) / 8)⟩

/-- `validate`, tga.py:63-70. -/
def valid (s : InputStream) : Except PyErr Bool := do
  let codec ← readBits s 16 8 .little
  let paletteType ← readBits s 8 8 .little
  let bpp ← readBits s 128 8 .little
  .ok ((codec = 0 ∨ codec = 1 ∨ codec = 2 ∨ codec = 3 ∨ codec = 9 ∨ codec = 10 ∨ codec = 11) ∧ (paletteType = 0 ∨ paletteType = 1) ∧
    (bpp = 8 ∨ bpp = 15 ∨ bpp = 16 ∨ bpp = 24 ∨ bpp = 32))

/-- What is told; `codec` as a number. -/
structure Told where
  width : Option Nat
  height : Option Nat
  bits : Option Nat
  colors : Option Nat
  codec : Nat
  deriving DecidableEq, Repr

/-- `TargaMetadata.extract`, metadata/image.py:279-285. -/
def extract (f : File) : Told := ⟨told 20000 f.width, told 20000 f.height, told 256 f.bpp, told (2 ^ 24) f.nbColor, f.codec⟩

end Hachoir.Formats.Tga
