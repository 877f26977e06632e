import Verif.Formats.Bmp

/-!
# Icons and cursors

`/repo/hachoir/parser/image/ico.py`, `BitmapInfoHeader` of `/repo/hachoir/parser/common/win32.py`, and `IcoMetadata` of
`/repo/hachoir/metadata/image.py`.  Addresses are in bits.  Not modelled: texts of descriptions, the compression rate (a float), and
how a file is cut off at an icon at a wrong place (an error here).
-/

set_option linter.unusedVariables false

namespace Hachoir.Formats.Ico
open Hachoir Hachoir.Stream Hachoir.Field Hachoir.Formats.Bmp

/-- `IconHeader`, ico.py:17-25. -/
structure Icon where
  width : Nat
  height : Nat
  colors : Nat
  reserved : Nat
  planes : Nat
  bpp : Nat
  size : Nat
  offset : Nat
  deriving DecidableEq, Repr

/-- `IconHeader.createFields`, ico.py:17-25. -/
def readIcon (s : InputStream) (addr : Nat) : Except PyErr Icon := do
  let width ← readBits s (addr : Nat) 8 .little
  let height ← readBits s (addr + 8 : Nat) 8 .little
  let colors ← readBits s (addr + 16 : Nat) 8 .little
  let reserved ← readBits s (addr + 24 : Nat) 8 .little
  let planes ← readBits s (addr + 32 : Nat) 16 .little
  let bpp ← readBits s (addr + 48 : Nat) 16 .little
  let size ← readBits s (addr + 64 : Nat) 32 .little
  let offset ← readBits s (addr + 96 : Nat) 32 .little
  .ok ⟨width, height, colors, reserved, planes, bpp, size, offset⟩

/-- The headers, ico.py:118-121. -/
def readIcons (s : InputStream) (addr : Nat) : Nat → Except PyErr (List Icon)
  | 0 => .ok []
  | n + 1 => do
    let i ← readIcon s addr
    let is ← readIcons s (addr + 128) n
    .ok (i :: is)

/-- `IconHeader.isValid`, ico.py:31-44. -/
def isValid (i : Icon) : Bool :=
  if i.colors = 0 then
    if (i.bpp = 8 ∨ i.bpp = 24 ∨ i.bpp = 32) ∧ i.planes = 1 then true
    else if i.planes = 4 ∧ i.bpp = 0 then true
    else decide (i.bpp = 0 ∧ i.planes = 0)
  else if i.colors = 16 then
    if (i.bpp = 4 ∨ i.bpp = 16) ∧ i.planes = 1 then true
    else decide (i.bpp = 0 ∧ i.planes = 0)
  else false

/-- `BitmapInfoHeader`, win32.py:164-178: `hdr_size`, `width`, `height`; `nb_planes`; `bpp`; `codec`, `size`, `xres`, `yres`, `color_used`,
`color_important`. -/
structure Info where
  dims : List Nat
  planes : Nat
  bpp : Nat
  more : List Nat
  deriving DecidableEq, Repr

/-- `BitmapInfoHeader.createFields`, win32.py:164-178. -/
def readInfo (s : InputStream) (addr : Nat) : Except PyErr Info := do
  let dims ← readWords s addr 3
  let planes ← readBits s (addr + 96 : Nat) 16 .little
  let bpp ← readBits s (addr + 112 : Nat) 16 .little
  let more ← readWords s (addr + 128) 6
  .ok ⟨dims, planes, bpp, more⟩

/-- `IconData`: the header, the colors, and where the pixels are (address, bytes). -/
structure Data where
  addr : Nat
  info : Info
  palette : List (List Nat)
  pixels : Nat × Nat
  deriving DecidableEq, Repr

/-- The number of colors of the palette, ico.py:57-60. -/
def paletteSize (i : Icon) : Nat := if i.bpp = 8 then 256 else i.colors

/-- `IconData.createFields`, ico.py:53-65; `RawBytes` of less than one byte is refused. -/
def readData (s : InputStream) (i : Icon) (addr : Nat) : Except PyErr Data := do
  let info ← readInfo s addr
  let palette ← readPalette s (addr + 320) (paletteSize i)
  if i.size ≤ 40 + 4 * paletteSize i then .error .field
  else .ok ⟨addr, info, palette, (addr + 320 + 32 * paletteSize i, i.size - (40 + 4 * paletteSize i))⟩

/-- The icons, ico.py:122-125, from `addr` on. -/
def readDatas (s : InputStream) (addr : Nat) : List Icon → Except PyErr (List Data)
  | [] => .ok []
  | i :: is =>
    if i.offset * 8 ≠ addr then .error .parser
    else do
      let d ← readData s i addr
      let ds ← readDatas s (addr + 8 * i.size) is
      .ok (d :: ds)

/-- A file. -/
structure File where
  signature : Nat
  type : Nat
  icons : List Icon
  datas : List Data
  deriving DecidableEq, Repr

/-- `IcoFile.createFields`, ico.py:113-125. -/
def readFile (s : InputStream) : Except PyErr File := do
  let signature ← readBits s 0 16 .little
  let type ← readBits s 16 16 .little
  let n ← readBits s 32 16 .little
  let icons ← readIcons s 48 n
  let datas ← readDatas s (48 + 128 * n) icons
  .ok ⟨signature, type, icons, datas⟩

/-- `IcoFile.validate`, ico.py:95-111. -/
def valid (s : InputStream) : Except PyErr Bool := do
  let signature ← readBits s 0 16 .little
  if signature ≠ 0 then .ok false
  else
    let type ← readBits s 16 16 .little
    if type ≠ 1 ∧ type ≠ 2 then .ok false
    else
      let n ← readBits s 32 16 .little
      let icons ← readIcons s 48 n
      .ok (icons.all isValid)

/-- `createContentSize`, ico.py:138-143: the end of the last icon. -/
def contentSize (f : File) : Option Nat :=
  match f.datas.getLast? with
  | none => none
  | some d => some (d.pixels.1 + 8 * d.pixels.2)

/-- What is told of an icon, metadata/image.py:107-118 (as `Bmp.told`), and the number of the codec (125-127). -/
structure Told where
  width : Option Nat
  height : Option Nat
  colors : Option Nat
  bits : Option Nat
  codec : Option Nat
  deriving DecidableEq, Repr

/-- The bits of a pixel, metadata/image.py:110-118 with `color_to_bpp` (97-101). -/
def bitsOf (i : Icon) : Nat :=
  if i.colors ≠ 0 then
    if i.bpp = 0 then
      if i.colors = 2 then 1 else if i.colors = 16 then 4 else if i.colors = 256 then 8 else 0
    else i.bpp
  else if i.bpp = 0 then 8 else i.bpp

/-- `IcoMetadata.extract`, metadata/image.py:103-133. -/
def extract (f : File) : List Told :=
  f.icons.mapIdx fun k i =>
    ⟨told 20000 i.width, told 20000 i.height, told (2 ^ 24) i.colors, told 256 (bitsOf i), (f.datas[k]?).bind fun d => d.info.more[0]?⟩

end Hachoir.Formats.Ico
