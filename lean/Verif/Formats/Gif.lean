import Verif.Field.StringField

/-!
# GIF files

`/repo/hachoir/parser/image/gif.py` and `GifMetadata` of `/repo/hachoir/metadata/image.py`.  Addresses are in
bits and absolute.  Modelled: all blocks of a file, the content size and what is extracted.  The decoding of
pixels is in GifLzw.  Not modelled: the fields that remain before an error, descriptions, the
charset of texts (a parameter), and the limits that the metadata put on values.
-/

set_option linter.unusedVariables false

namespace Hachoir.Formats.Gif
open Hachoir Hachoir.Stream Hachoir.Field

/-! ## Blocks -/

/-- Blocks with their size in a byte before, up to the one of size 0 (`Image.createFields`, gif.py:149-160,
`parseApplicationExtension` 182-195, `parseComments` 214-218, `parseTextExtension` 231-235,
`defaultExtensionParser` 239-245): their contents and the address behind.  The fuel bounds their number. -/
def readBlocks (s : InputStream) : Nat → Nat → Except PyErr (List Bytes × Nat)
  | 0, _ => .error .endless
  | fuel + 1, addr =>
    match readBits s (addr : Int) 8 .little with
    | .error e => .error e
    | .ok n =>
      if n = 0 then .ok ([], addr + 8)
      else
        match readBytes s ((addr + 8 : Nat) : Int) n with
        | .error e => .error e
        | .ok b =>
          match readBlocks s fuel (addr + 8 + 8 * n) with
          | .error e => .error e
          | .ok (bs, stop) => .ok (b :: bs, stop)

/-- `Extension` (gif.py:248-266) by its code, and the fields of `Image` (gif.py:129-160). -/
inductive Item where
  | control (transp input disposal delay index : Nat)
  | comments (blocks : List Bytes)
  | application (name : Bytes) (blocks : List Bytes)
  | text (size left top width height cellWidth cellHeight fg bg : Nat) (blocks : List Bytes)
  | other (code : Nat) (blocks : List Bytes)
  | image (left top width height mapSize sort interlaced hasMap : Nat) (map : Option Bytes) (minCode : Nat) (blocks : List Bytes)
  deriving DecidableEq, Repr

/-- `parseGraphicControl`, gif.py:198-210. -/
def readControl (s : InputStream) (addr : Nat) : Except PyErr (Item × Nat) := do
  let size ← readBits s (addr : Int) 8 .little
  let transp ← readBits s ((addr + 8 : Nat) : Int) 1 .little
  let input ← readBits s ((addr + 9 : Nat) : Int) 1 .little
  let disposal ← readBits s ((addr + 10 : Nat) : Int) 3 .little
  if size ≠ 4 then .error .parser
  else
    let delay ← readBits s ((addr + 16 : Nat) : Int) 16 .little
    let index ← readBits s ((addr + 32 : Nat) : Int) 8 .little
    let _ ← readBits s ((addr + 40 : Nat) : Int) 8 .little
    .ok (.control transp input disposal delay index, addr + 48)

/-- `parseTextExtension`, gif.py:221-235; the size of the first block is not used. -/
def readText (s : InputStream) (m addr : Nat) : Except PyErr (Item × Nat) := do
  let size ← readBits s (addr : Int) 8 .little
  let left ← readBits s ((addr + 8 : Nat) : Int) 16 .little
  let top ← readBits s ((addr + 24 : Nat) : Int) 16 .little
  let width ← readBits s ((addr + 40 : Nat) : Int) 16 .little
  let height ← readBits s ((addr + 56 : Nat) : Int) 16 .little
  let cellWidth ← readBits s ((addr + 72 : Nat) : Int) 8 .little
  let cellHeight ← readBits s ((addr + 80 : Nat) : Int) 8 .little
  let fg ← readBits s ((addr + 88 : Nat) : Int) 8 .little
  let bg ← readBits s ((addr + 96 : Nat) : Int) 8 .little
  let (blocks, stop) ← readBlocks s m (addr + 104)
  .ok (.text size left top width height cellWidth cellHeight fg bg blocks, stop)

/-- `PascalString8`, gif.py:181. -/
def readName (s : InputStream) (addr : Nat) : Except PyErr (Bytes × Nat) := do
  let n ← readBits s (addr : Int) 8 .little
  let b ← readBytes s ((addr + 8 : Nat) : Int) n
  .ok (b, addr + 8 + 8 * n)

/-- `Extension.createFields` behind the code, gif.py:264-266, with `ext_code` (249-254). -/
def readExtension (s : InputStream) (m addr code : Nat) : Except PyErr (Item × Nat) :=
  if code = 0xf9 then readControl s addr
  else if code = 0xfe then
    match readBlocks s m addr with
    | .error e => .error e
    | .ok (bs, stop) => .ok (.comments bs, stop)
  else if code = 0xff then
    match readName s addr with
    | .error e => .error e
    | .ok (name, next) =>
      match readBlocks s m next with
      | .error e => .error e
      | .ok (bs, stop) => .ok (.application name bs, stop)
  else if code = 1 then readText s m addr
  else
    match readBlocks s m addr with
    | .error e => .error e
    | .ok (bs, stop) => .ok (.other code bs, stop)

/-- `PaletteRGB` of `2 ^ (n + 1)` colors if there is one, gif.py:143-145 and 331-336. -/
def readMap (s : InputStream) (has n addr : Nat) : Except PyErr (Option Bytes × Nat) :=
  if has ≠ 0 then
    match readBytes s (addr : Int) (3 * 2 ^ (n + 1)) with
    | .error e => .error e
    | .ok b => .ok (some b, addr + 24 * 2 ^ (n + 1))
  else .ok (none, addr)

/-- `Image.createFields`, gif.py:131-160. -/
def readImage (s : InputStream) (m addr : Nat) : Except PyErr (Item × Nat) := do
  let left ← readBits s (addr : Int) 16 .little
  let top ← readBits s ((addr + 16 : Nat) : Int) 16 .little
  let width ← readBits s ((addr + 32 : Nat) : Int) 16 .little
  let height ← readBits s ((addr + 48 : Nat) : Int) 16 .little
  let mapSize ← readBits s ((addr + 64 : Nat) : Int) 3 .little
  let sort ← readBits s ((addr + 69 : Nat) : Int) 1 .little
  let interlaced ← readBits s ((addr + 70 : Nat) : Int) 1 .little
  let hasMap ← readBits s ((addr + 71 : Nat) : Int) 1 .little
  let (map, a1) ← readMap s hasMap mapSize (addr + 72)
  let minCode ← readBits s (a1 : Int) 8 .little
  let (blocks, stop) ← readBlocks s m (a1 + 8)
  .ok (.image left top width height mapSize sort interlaced hasMap map minCode blocks, stop)

/-- The loop of `GifFile.createFields`, gif.py:339-353: extensions and images with their addresses (that of `Extension` is its
code's), and the address behind the terminator. -/
def readItems (s : InputStream) (m : Nat) : Nat → Nat → Except PyErr (List (Nat × Item) × Nat)
  | 0, _ => .error .endless
  | fuel + 1, addr =>
    match readBits s (addr : Int) 8 .little with
    | .error e => .error e
    | .ok c =>
      if c = 33 then
        match readBits s ((addr + 8 : Nat) : Int) 8 .little with
        | .error e => .error e
        | .ok code =>
          match readExtension s m (addr + 16) code with
          | .error e => .error e
          | .ok (x, next) =>
            match readItems s m fuel next with
            | .error e => .error e
            | .ok (xs, stop) => .ok ((addr + 8, x) :: xs, stop)
      else if c = 44 then
        match readImage s m (addr + 8) with
        | .error e => .error e
        | .ok (x, next) =>
          match readItems s m fuel next with
          | .error e => .error e
          | .ok (xs, stop) => .ok ((addr + 8, x) :: xs, stop)
      else if c = 59 then .ok ([], addr + 8)
      else .error .parser

/-! ## Files -/

/-- The fields of `ScreenDescriptor`. -/
structure Screen where
  width : Nat
  height : Nat
  mapSize : Nat
  sort : Nat
  colorRes : Nat
  hasMap : Nat
  background : Nat
  aspect : Nat
  deriving DecidableEq, Repr

/-- `ScreenDescriptor.createFields`, gif.py:274-288. -/
def readScreen (s : InputStream) : Except PyErr Screen := do
  let width ← readBits s 48 16 .little
  let height ← readBits s 64 16 .little
  let mapSize ← readBits s 80 3 .little
  let sort ← readBits s 83 1 .little
  let colorRes ← readBits s 84 3 .little
  let hasMap ← readBits s 87 1 .little
  let background ← readBits s 88 8 .little
  let aspect ← readBits s 96 8 .little
  .ok ⟨width, height, mapSize, sort, colorRes, hasMap, background, aspect⟩

structure File where
  version : Bytes
  screen : Screen
  map : Option Bytes
  items : List (Nat × Item)
  stop : Nat
  deriving DecidableEq, Repr

/-- `GifFile.createFields`, gif.py:325-353. -/
def readFile (s : InputStream) (m fuel : Nat) : Except PyErr File := do
  let version ← readBytes s 24 3
  let screen ← readScreen s
  let (map, a) ← readMap s screen.hasMap screen.mapSize 104
  let (items, stop) ← readItems s m fuel a
  .ok ⟨version, screen, map, items, stop⟩

/-- `GifFile.validate`, gif.py:314-323. -/
def valid (s : InputStream) : Except PyErr Bool := do
  let b ← readBytes s 0 6
  if b ≠ [71, 73, 70, 56, 55, 97] ∧ b ≠ [71, 73, 70, 56, 57, 97] then .ok false
  else
    let screen ← readScreen s
    if screen.width = 0 ∨ screen.height = 0 then .ok false
    else if 6000 < screen.width then .ok false
    else if 6000 < screen.height then .ok false
    else .ok true

/-- `GifFile.createContentSize`, gif.py:355-362, for a first image that ends at `start`. -/
def contentSize (s : InputStream) (start : Nat) : Except PyErr (Option Int) :=
  match searchBytes s [0, 59] start (some ((start + 100 * 1024 * 1024 * 8 : Nat) : Int)) with
  | .error e => .error e
  | .ok none => .ok none
  | .ok (some pos) => if pos ≠ 0 then .ok (some (pos + 16)) else .ok none

/-- The value of `loop_count`, gif.py:187-190: the first block of three bytes of the application
`NETSCAPE2.0`. -/
def loopCount : Item → Option Nat
  | .application name blocks =>
    if name = [78, 69, 84, 83, 67, 65, 80, 69, 50, 46, 48] then
      match blocks.find? (fun b => b.length = 3) with
      | some [code, a, b] => if code = 1 then some (a.toNat + 256 * b.toNat) else none
      | _ => none
    else none
  | _ => none

/-! ## Metadata -/

/-- The characters taken from both ends of a comment, gif.py:215. -/
def isStrip (c : Char) : Bool := c == ' ' || c == '\x00' || c == '\r' || c == '\n' || c == '\t'

/-- What `GifMetadata` sets. -/
structure Told where
  width : Nat
  height : Nat
  bits : Nat
  colors : Nat
  version : Bytes
  comments : List (List Char)
  transparent : Bool
  deriving DecidableEq, Repr

/-- The fields `comment[]` of a field `comments[]`: the blocks, and the empty one at the end. -/
def itemComments (decode : Bytes → List Char) : Item → List (List Char)
  | .comments blocks => (blocks.map fun b => stripText isStrip (decode b)) ++ [[]]
  | _ => []

/-- The names of the classes of items before they are numbered, gif.py:250-253, 345 and 347. -/
def baseName : Item → String
  | .control _ _ _ _ _ => "graphic_ctl"
  | .comments _ => "comments"
  | .application _ _ => "app_ext"
  | .text _ _ _ _ _ _ _ _ _ _ => "text_ext"
  | .other _ _ => "extensions"
  | .image _ _ _ _ _ _ _ _ _ _ _ => "image"

/-- The items with their names: all of them end with `[]` and so are numbered among those of the same kind
(basic_field_set.py:117-123); `before` are the items before. -/
def named (before : List Item) : List Item → List (List Char × Item)
  | [] => []
  | x :: xs =>
    ((baseName x).toList ++ ('[' :: (toString (before.countP fun y => baseName y = baseName x)).toList ++ [']']), x) ::
      named (before ++ [x]) xs

/-- The value of `gif["graphic_ctl/has_transp"]` if the path is there, metadata/image.py:264-265. -/
def transparent (items : List Item) : Bool :=
  match (named [] items).find? (fun p => p.1 = "graphic_ctl".toList) with
  | some (_, .control transp _ _ _ _) => transp ≠ 0
  | _ => false

/-- `GifMetadata.extract`, metadata/image.py:255-274. -/
def extract (decode : Bytes → List Char) (f : File) : Told :=
  { width := f.screen.width
    height := f.screen.height
    bits := 1 + f.screen.mapSize
    colors := 2 ^ (1 + f.screen.mapSize)
    version := f.version
    comments := f.items.flatMap fun i => itemComments decode i.2
    transparent := transparent (f.items.map (·.2)) }

end Hachoir.Formats.Gif
