import Verif.Formats.Asf

/-!
# Windows shortcuts (`parser/misc/lnk.py`)

An error inside an item or an extra block, whose size is told, is modelled as an error of the whole; the parser adds raw bytes there and goes on.
Texts are told as their bytes, dates as numbers.  Left out: descriptions, names of folders and states.
-/

namespace Hachoir.Formats.Lnk
open Hachoir Hachoir.Human Hachoir.Stream Hachoir.Field Hachoir.Formats

def cstring : Rd Bytes := Rd.text .little .c .eightBit none

def wide : Rd Bytes := Rd.text .little .c .utf16le none

/-- `seekByte` inside a field set that begins at the byte `base`. -/
def toByte (base off : Nat) : Rd Unit := Rd.seek (base + off)

/-- `LnkString`, lnk.py:289-301. -/
def string2 (unicode : Bool) (n : Nat) : Rd Bytes :=
  if n = 0 then pure []
  else if unicode then Rd.text .little .fixed .utf16le (some ((2 * n : Nat) : Int))
  else Rd.text .little .fixed .eightBit (some (n : Int))

def string (unicode : Bool) : Rd Bytes := do
  let n ← Rd.int 2 .little
  string2 unicode n

/-- What is behind the name of a file in files with wide names, lnk.py:124-133: length, unknown, dates, unknown, names, unknown. -/
structure WideName where
  ns : List Nat
  u1 : Bytes
  dates : List Nat
  u2 : Bytes
  next : Nat
  name : Bytes
  localized : Option Bytes
  u3 : Bytes
  deriving DecidableEq, Repr

inductive Item where
  | last
  | guid (type : Nat) (dummy guid : Bytes)
  | shell (dummy guid : Bytes)
  | drive (type : Nat) (name : Bytes)
  /-- `size`, `date_time`, `attribs`. -/
  | file (type : Nat) (dummy : Bytes) (ns : List Nat) (name : Bytes) (more : WideName ⊕ Bytes)
  | computer (type : Nat) (u1 name protocol u2 : Bytes)
  | network (u name : Bytes)
  | share (u1 name protocol description u2 : Bytes)
  | web (u : Bytes) (ns : List Nat) (name pad address pad2 : Bytes)
  | raw (type : Nat) (b : Bytes)
  deriving DecidableEq, Repr

/-- lnk.py:131-132. -/
def localized (n : Nat) : Rd (Option Bytes) := if n = 0 then pure none else do
  let t ← cstring
  pure (some t)

/-- lnk.py:124-133. -/
def wideName : Rd WideName := do
  let ns ← Asf.numbers [2]
  let u1 ← Rd.raw 6
  let dates ← Asf.numbers [4, 4]
  let u2 ← Rd.raw 2
  let next ← Rd.int 2 .little
  let name ← wide
  let l ← localized next
  let u3 ← Rd.raw 2
  pure ⟨ns, u1, dates, u2, next, name, l, u3⟩

/-- lnk.py:118-135; the item begins at the byte `base`. -/
def fileMore (unicode : Bool) (base : Nat) : Rd (WideName ⊕ Bytes) :=
  if unicode then do
    let a ← Rd.place
    let _ ← Cab.rawOr ((a / 8 - base) % 2)
    let w ← wideName
    pure (.inl w)
  else do
    let t ← cstring
    pure (.inr t)

/-- lnk.py:112-135. -/
def fileItem (unicode : Bool) (base type : Nat) : Rd Item := do
  let dummy ← Rd.raw 1
  let ns ← Asf.numbers [4, 4, 2]
  let name ← cstring
  let more ← fileMore unicode base
  pure (.file type dummy ns name more)

/-- lnk.py:94-96. -/
def guidItem (type : Nat) : Rd Item := do
  let dummy ← Rd.raw 1
  let g ← Asf.guid
  pure (.guid type dummy g)

/-- lnk.py:99-106: `dummy` is a byte string, which is never equal to the text `'\0'`. -/
def shellItem : Rd Item := do
  let dummy ← Rd.raw 1
  let g ← Asf.guid
  pure (.shell dummy g)

/-- lnk.py:110. -/
def driveItem (type length : Nat) : Rd Item := do
  let name ← Rd.text .little .fixed .eightBit (some ((length : Int) - 3))
  pure (.drive type name)

/-- lnk.py:137-141. -/
def computerItem (type : Nat) : Rd Item := do
  let u1 ← Rd.raw 2
  let name ← cstring
  let protocol ← cstring
  let u2 ← Rd.raw 2
  pure (.computer type u1 name protocol u2)

/-- lnk.py:145-146. -/
def networkItem : Rd Item := do
  let u ← Rd.raw 2
  let name ← cstring
  pure (.network u name)

/-- lnk.py:150-154. -/
def shareItem : Rd Item := do
  let u1 ← Rd.raw 2
  let name ← cstring
  let protocol ← cstring
  let description ← cstring
  let u2 ← Rd.raw 2
  pure (.share u1 name protocol description u2)

/-- lnk.py:166-167. -/
def webPad (address : Bytes) : Rd Bytes := if address = [] then pure [] else Rd.raw 2

/-- lnk.py:158-167. -/
def webItem (unicode : Bool) : Rd Item := do
  let u ← Rd.raw 5
  let ns ← Asf.numbers [8, 4, 4, 4]
  let name ← string unicode
  let pad ← Rd.raw 2
  let address ← string unicode
  let pad2 ← webPad address
  pure (.web u ns name pad address pad2)

/-- lnk.py:170. -/
def rawItem (type length : Nat) : Rd Item := do
  let b ← Rd.raw (length - 3)
  pure (.raw type b)

/-- `ItemId.createFields`, lnk.py:91-170: behind the length; the item begins at the byte `base`. -/
def itemBody (unicode : Bool) (base length type : Nat) : Rd Item :=
  if type = 0x1F ∨ type = 0x70 then guidItem type
  else if type = 0x2E then shellItem
  else if type = 0x23 ∨ type = 0x25 ∨ type = 0x29 ∨ type = 0x2F then driveItem type length
  else if type = 0x30 ∨ type = 0x31 ∨ type = 0x32 ∨ type = 0x61 ∨ type = 0xb1 then fileItem unicode base type
  else if type = 0x41 ∨ type = 0x42 ∨ type = 0x46 then computerItem type
  else if type = 0x47 then networkItem
  else if type = 0xC3 then shareItem
  else if type = 0x4C then webItem unicode
  else rawItem type length

def typed (unicode : Bool) (base length : Nat) : Rd Item := do
  let type ← Rd.int 1 .little
  itemBody unicode base length type

/-- `ItemId`, lnk.py:79-91: an item of `length` bytes, or the last one. -/
def item (unicode : Bool) : Rd Item := do
  let a ← Rd.place
  let length ← Rd.int 2 .little
  if length = 0 then pure .last else Rd.within (length - 2) (typed unicode (a / 8) length)

/-- The loop of lnk.py:49-53; `n` bounds the number of rounds. -/
def items (unicode : Bool) : Nat → Rd (List Item)
  | 0 => Rd.fail .endless
  | n + 1 => do
    let x ← item unicode
    if x = .last then pure [] else do
      let xs ← items unicode n
      pure (x :: xs)

/-- `ItemIdList`, lnk.py:43-53. -/
def itemList (unicode : Bool) (n : Nat) : Rd (List Item) := do
  let size ← Rd.int 2 .little
  Rd.within size (items unicode n)

/-- `LocalVolumeTable`, lnk.py:194-203: `length`, `volume_type`, `volume_serial`, `label_offset`, and the label. -/
def volume : Rd (List Nat × Bytes) := do
  let a ← Rd.place
  let ns ← Asf.numbers [4, 4, 4, 4]
  toByte (a / 8) (ns.getD 3 0)
  let label ← cstring
  pure (ns, label)

/-- `NetworkVolumeTable`, lnk.py:214-223. -/
def netVolume : Rd (List Nat × Bytes) := do
  let a ← Rd.place
  let ns ← Asf.numbers [4, 4, 4, 4, 4]
  toByte (a / 8) (ns.getD 2 0)
  let name ← cstring
  pure (ns, name)

structure Location where
  flags : List Nat
  /-- The offsets, `local_info_offset` to `pathname_offset`, with those of the wide paths. -/
  offsets : List Nat
  wideOffsets : List Nat
  volume : Option ((List Nat × Bytes) × Bytes × Option Bytes)
  network : Option (List Nat × Bytes)
  path : Bytes
  widePath : Option Bytes
  deriving DecidableEq, Repr

/-- A wide text at the offset, if there is one. -/
def wideAt (base : Nat) (has : Bool) (off : Nat) : Rd (Option Bytes) :=
  if has then do
    toByte base off
    let t ← wide
    pure (some t)
  else pure none

/-- lnk.py:248-263. -/
def localPart (base : Nat) (isLocal has : Bool) (offsets wides : List Nat) : Rd (Option ((List Nat × Bytes) × Bytes × Option Bytes)) :=
  if isLocal then do
    toByte base (offsets.getD 0 0)
    let v ← volume
    toByte base (offsets.getD 1 0)
    let p ← cstring
    let w ← wideAt base has (wides.getD 0 0)
    pure (some (v, p, w))
  else pure none

/-- lnk.py:265-269. -/
def networkPart (base : Nat) (isNetwork : Bool) (offsets : List Nat) : Rd (Option (List Nat × Bytes)) :=
  if isNetwork then do
    toByte base (offsets.getD 2 0)
    let v ← netVolume
    pure (some v)
  else pure none

/-- lnk.py:248-284. -/
def parts (base length : Nat) (has : Bool) (flags offsets wides : List Nat) : Rd Location := do
  let v ← localPart base (decide (flags.getD 0 0 ≠ 0)) has offsets wides
  let n ← networkPart base (decide (flags.getD 1 0 ≠ 0)) offsets
  toByte base (offsets.getD 3 0)
  let p ← cstring
  let w ← wideAt base has (wides.getD 1 0)
  toByte base length
  pure ⟨flags, offsets, wides, v, n, p, w⟩

/-- lnk.py:236-247. -/
def location2 (base length : Nat) : Rd Location := do
  let first ← Rd.int 4 .little
  let flags ← Rd.bits .little [1, 1, 30]
  let offsets ← Asf.numbers [4, 4, 4, 4]
  let wides ← Asf.numbers (if first = 0x24 then [4, 4] else [])
  parts base length (decide (first = 0x24)) flags offsets wides

/-- `FileLocationInfo`, lnk.py:231-284. -/
def location : Rd (Option Location) := do
  let a ← Rd.place
  let length ← Rd.int 4 .little
  if length = 0 then pure none else do
    let l ← location2 (a / 8) length
    pure (some l)

inductive Extra where
  | last
  | host (ns : List Nat) (name u1 u2 : Bytes)
  | folder (ns : List Nat)
  | path (signature : Nat) (name slack wide slack2 : Bytes)
  | console (colors : List Nat) (ns : List Nat) (font : Bytes) (ms : List Nat) (table : List (List Nat))
  | codepage (n : Nat)
  | raw (signature : Nat) (b : Bytes)
  deriving DecidableEq, Repr

def host : Rd Extra := do
  let ns ← Asf.numbers [4, 4]
  let name ← Rd.text .little .fixed .eightBit (some 16)
  let u1 ← Rd.raw 32
  let u2 ← Rd.raw 32
  pure (.host ns name u1 u2)

/-- `RawBytes` of a size that may be negative, which is refused. -/
def slack (n : Int) : Rd Bytes := if n = 0 then pure [] else if n < 0 then Rd.fail .field else Rd.raw n.toNat

/-- lnk.py:430-446; the block begins at the byte `base`. -/
def pathInfo (base length signature : Nat) : Rd Extra := do
  let name ← cstring
  let a ← Rd.place
  let s1 ← slack ((length : Int) - ((a / 8 - base : Nat) : Int) - 520)
  let w ← wide
  let b ← Rd.place
  let s2 ← slack ((length : Int) - ((b / 8 - base : Nat) : Int))
  pure (.path signature name s1 w s2)

/-- lnk.py:448-478: `color_text`, `color_bg`, a null byte, `color_popup_text`, `color_popup_bg`, a null byte; sizes and places; `font_number`,
`input_buffer_size`; sizes, family and weight of the font; its name; the options; the table of colours. -/
def console : Rd Extra := do
  let c1 ← Rd.bits .little [4, 4]
  let _ ← Rd.raw 1
  let c2 ← Rd.bits .little [4, 4]
  let _ ← Rd.raw 1
  let ns ← Asf.numbers [2, 2, 2, 2, 2, 2, 4, 4, 2, 2, 4, 4]
  let font ← Rd.text .little .fixed .utf16le (some 64)
  let ms ← Asf.numbers [4, 4, 4, 4, 4, 4, 4, 4]
  let table ← Rd.times (Asf.numbers [1, 1, 1, 1]) 16
  pure (.console (c1 ++ c2) ns font ms table)

/-- `ExtraInfo.createFields`, lnk.py:415-485, behind length and signature. -/
def extraBody (base length signature : Nat) : Rd Extra :=
  if signature = 0xA0000003 then host
  else if signature = 0xA0000005 then do
    let ns ← Asf.numbers [4, 4]
    pure (.folder ns)
  else if signature = 0xA0000001 ∨ signature = 0xA0000006 ∨ signature = 0xA0000007 then pathInfo base length signature
  else if signature = 0xA0000002 then console
  else if signature = 0xA0000004 then do
    let n ← Rd.int 4 .little
    pure (.codepage n)
  else do
    let b ← Rd.raw (length - 8)
    pure (.raw signature b)

def signed (base length : Nat) : Rd Extra := do
  let signature ← Rd.int 4 .little
  extraBody base length signature

/-- `ExtraInfo`, lnk.py:403-413. -/
def extra : Rd Extra := do
  let a ← Rd.place
  let length ← Rd.int 4 .little
  if length = 0 then pure .last else Rd.within (length - 4) (signed (a / 8) length)

/-- lnk.py:583-619: signature; identifier; flags; attributes of the file; times, size, icon, window; the key and its modifiers; null bytes. -/
structure Head where
  signature : Nat
  guid : Bytes
  flags : List Nat
  attr : Nat
  ns : List Nat
  key : Nat
  modifiers : List Nat
  reserved : Bytes
  deriving DecidableEq, Repr

def head : Rd Head := do
  let signature ← Rd.int 4 .little
  let g ← Asf.guid
  let flags ← Rd.bits .little [1, 1, 1, 1, 1, 1, 1, 1, 1, 1, 1, 1, 1, 1, 1, 1, 1, 1, 14]
  let attr ← Rd.int 4 .little
  let ns ← Asf.numbers [8, 8, 8, 4, 4, 4]
  let key ← Rd.int 1 .little
  let modifiers ← Rd.bits .little [1, 1, 1, 21]
  let reserved ← Rd.raw 8
  pure ⟨signature, g, flags, attr, ns, key, modifiers, reserved⟩

structure Shortcut where
  head : Head
  items : Option (List Item)
  location : Option (Option Location)
  /-- Description, relative path, directory, arguments, icon. -/
  texts : List (Option Bytes)
  extras : List Extra
  deriving DecidableEq, Repr

/-- A part that is there when its flag is set, lnk.py:621-634. -/
def optionally {α : Type} (flag : Nat) (r : Rd α) : Rd (Option α) := if flag = 0 then pure none else do
  let v ← r
  pure (some v)

/-- `createFields`, lnk.py:582-637; `n` bounds the numbers of items and blocks. -/
def file (n : Nat) : Rd Shortcut := do
  let h ← head
  let unicode := decide (h.flags.getD 7 0 ≠ 0)
  let is ← optionally (h.flags.getD 0 0) (itemList unicode n)
  let l ← optionally (h.flags.getD 1 0) location
  let texts ← Rd.each (fun i => optionally (h.flags.getD i 0) (string unicode)) [2, 3, 4, 5, 6]
  let extras ← Rd.whileNotEof extra n
  pure ⟨h, is, l, texts, extras⟩

/-- `validate`, lnk.py:572-577. -/
def valid (h : Head) : Bool := decide (h.signature = 0x4C) && h.guid == asc "00021401-0000-0000-C000-000000000046"

/-- `HOT_KEYS`, lnk.py:494-526. -/
def keyNames : List (Nat × String) := [
  (0x00, "None"), (0x13, "Pause"), (0x14, "Caps Lock"), (0x21, "Page Up"), (0x22, "Page Down"), (0x23, "End"), (0x24, "Home"), (0x25, "Left"), (0x26, "Up"),
  (0x27, "Right"), (0x28, "Down"), (0x2d, "Insert"), (0x2e, "Delete"), (0x6a, "Num *"), (0x6b, "Num +"), (0x6d, "Num -"), (0x6e, "Num ."), (0x6f, "Num /"),
  (0x90, "Num Lock"), (0x91, "Scroll Lock"), (0xba, ";"), (0xbb, "="), (0xbc, ","), (0xbd, "-"), (0xbe, "."), (0xbf, "/"), (0xc0, "`"), (0xdb, "["),
  (0xdc, "\\"), (0xdd, "]"), (0xde, "'")]

/-- `text_hot_key`, lnk.py:529-542. -/
def keyText (v : Nat) : String :=
  if 0x30 ≤ v ∧ v ≤ 0x39 then String.singleton (Char.ofNat v)
  else if 0x41 ≤ v ∧ v ≤ 0x5A then String.singleton (Char.ofNat v)
  else if 0x60 ≤ v ∧ v ≤ 0x69 then "Numpad " ++ String.singleton (Char.ofNat (v - 0x30))
  else if 0x70 ≤ v ∧ v ≤ 0x87 then "F" ++ toString (v - 0x6F)
  else
    match keyNames.lookup v with
    | some t => t
    | none => toString v

end Hachoir.Formats.Lnk
