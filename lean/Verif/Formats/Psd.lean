import Verif.Formats.Bmp
import Verif.Formats.Iptc

/-!
# Photoshop pictures (`parser/image/psd.py`) and what is told of them (`metadata/image.py:316-324`)
-/

namespace Hachoir.Formats.Psd
open Hachoir Hachoir.Stream Hachoir.Field Hachoir.Formats

/-- psd.py:59-66. -/
structure Header where
  version : Nat
  channels : Nat
  width : Nat
  height : Nat
  depth : Nat
  mode : Nat
  deriving DecidableEq, Repr

def header : Rd Header := do
  let _ ← Rd.text .big .fixed .eightBit (some 4)
  let version ← Rd.int 2 .big
  let _ ← Rd.raw 6
  let channels ← Rd.int 2 .big
  let width ← Rd.int 4 .big
  let height ← Rd.int 4 .big
  let depth ← Rd.int 2 .big
  let mode ← Rd.int 2 .big
  pure ⟨version, channels, width, height, depth, mode⟩

/-- A size and as many bytes, psd.py:69-72 and 78-81. -/
def block : Rd Bytes := do
  let n ← Rd.int 4 .big
  Cab.rawOr n

/-- `Config`, psd.py:15-24; `fuel` bounds the resources. -/
def config (fuel : Nat) : Rd (List Iptc.Resource) := do
  let n ← Rd.int 4 .big
  Rd.within n (Rd.whileNotEof Iptc.resource fuel)

structure File where
  header : Header
  mode : Bytes
  resources : List Iptc.Resource
  layers : Bytes
  compression : Nat
  pixels : Bytes
  deriving DecidableEq, Repr

/-- psd.py:85-87. -/
def tail : Rd Bytes := do
  let n ← Iptc.left
  Cab.rawOr n

/-- `createFields`, psd.py:58-87. -/
def file (fuel : Nat) : Rd File := do
  let h ← header
  let mode ← block
  let resources ← config fuel
  let layers ← block
  let compression ← Rd.int 2 .big
  let pixels ← tail
  pure ⟨h, mode, resources, layers, compression, pixels⟩

/-- `validate`, psd.py:53-56. -/
def valid (s : InputStream) : Except PyErr Bool := do
  let b ← readBytes s 0 4
  pure (b == [0x38, 0x42, 0x50, 0x53])

/-- `COLOR_MODE`, psd.py:38-47. -/
def modes : List (Nat × String) := [(0, "Bitmap"), (1, "Grayscale"), (2, "Indexed"), (3, "RGB color"), (4, "CMYK color"), (7, "Multichannel"),
  (8, "Duotone"), (9, "Lab Color")]

/-- `COMPRESSION_NAME`, psd.py:48-51. -/
def compressions : List (Nat × String) := [(0, "Raw data"), (1, "RLE")]

/-- The text of an `Enum`, field/enum.py:18-22: the number if it has no name. -/
def display (names : List (Nat × String)) (n : Nat) : String := (names.lookup n).getD (toString n)

structure Told where
  width : Option Nat
  height : Option Nat
  bits : Option Nat
  format : String
  compression : String
  deriving DecidableEq, Repr

/-- `PsdMetadata`, metadata/image.py:319-324, with the filters of metadata/register.py. -/
def tell (f : File) : Told :=
  ⟨Bmp.told 20000 f.header.width, Bmp.told 20000 f.header.height, Bmp.told 256 (f.header.depth * f.header.channels), display modes f.header.mode,
    display compressions f.compression⟩

end Hachoir.Formats.Psd
