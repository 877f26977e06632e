import Verif.Formats.Asf

/-!
# Games of the Nintendo DS (`parser/program/nds.py`)
-/

namespace Hachoir.Formats.Nds
open Hachoir Hachoir.Stream Hachoir.Field Hachoir.Formats

/-- The inner loop of `_initTable`, nds.py:44-49: `n` rounds over `byte` and `crc`. -/
def rounds : Nat → Nat → Nat → Nat
  | 0, _, crc => crc
  | n + 1, byte, crc => rounds n (byte / 2) (if (byte ^^^ crc) % 2 = 1 then (crc / 2) ^^^ 0xa001 else crc / 2)

/-- `_initTable`, nds.py:35-50. -/
def table : List Nat := (List.range 256).map fun byte => rounds 8 byte 0

/-- What is iterated over in `checksum`: the characters of a text, or the numbers of a byte string. -/
inductive Items
  | text (codes : List Nat)
  | bytes (b : Bytes)

/-- One round of `checksum`, nds.py:57, on the number of a character. -/
def update (value code : Nat) : Except PyErr Nat :=
  match table[code ^^^ value % 256]? with
  | none => .error .index
  | some t => .ok (t ^^^ value / 256)

/-- The rounds of `checksum` over a text. -/
def overText : List Nat → Nat → Except PyErr Nat
  | [], value => .ok value
  | c :: cs, value =>
    match update value c with
    | .error e => .error e
    | .ok value => overText cs value

/-- `checksum`, nds.py:52-58; `ord` of a number raises a TypeError, nds.py:57. -/
def checksum (string : Items) (value : Nat) : Except PyErr Nat :=
  match string with
  | .text codes => overText codes value
  | .bytes [] => .ok value
  | .bytes (_ :: _) => .error .type

/-- What the description of a `Crc16` tells. -/
inductive Told
  | match_ (n : Nat)
  | mismatch (crc n : Nat)
  | empty
  deriving DecidableEq

/-- `createDescription` of `Crc16` (nds.py:68-73) under `description` (/repo/hachoir/field/field.py:86-102), which makes an error an empty text. The texts are told as
data. -/
def crcDescription (target : Bytes) (value : Nat) : Told :=
  match checksum (.bytes target) 0xffff with
  | .error _ => .empty
  | .ok crc => if crc = value then .match_ target.length else .mismatch crc target.length

/-- `FileNameEntry`, nds.py:88-95: the name, and the number of a directory. -/
structure Entry where
  name : Bytes
  dir : Option Nat

/-- nds.py:93-95. -/
def entryBody (len isDir : Nat) : Rd Entry :=
  Rd.bind (Rd.text .little .fixed .eightBit (some len)) fun name =>
    if isDir = 0 then Rd.pure ⟨name, none⟩ else Rd.bind (Rd.int 2 .little) fun d => Rd.pure ⟨name, some d⟩

/-- `FileNameEntry.createFields`, nds.py:90-95. -/
def entry : Rd Entry := Rd.bind (Rd.bits .little [7, 1]) fun l => entryBody (l.getD 0 0) (l.getD 1 0)

/-- `Directory`, nds.py:104-112: the entries and the byte at the end, looked at before it is read; `n` bounds the number of rounds. -/
def directory : Nat → Rd (List Entry × Nat)
  | 0 => Rd.fail .endless
  | n + 1 => Rd.bind (Rd.peek .little) fun b =>
      if b % 128 = 0 then Rd.bind (Rd.int 1 .little) fun m => Rd.pure ([], m)
      else Rd.bind entry fun e => Rd.bind (directory n) fun r => Rd.pure (e :: r.1, r.2)

/-- `FileNameDirTable`, nds.py:76-82: start of the entries, first file and parent. -/
def dirTable : Rd (List Nat) := Asf.numbers [4, 2, 2]

/-- nds.py:128-132. -/
def dirAt (fuel start : Nat) (t : List Nat) : Rd (List Entry × Nat) := Rd.bind (Rd.jump (start + t.getD 0 0)) fun _ => directory fuel

/-- `FileNameTable`, nds.py:115-132. The size told for the table is not looked at: all of its directories are taken to be inside it. -/
def nameTable (fuel : Nat) : Rd (List (List Nat) × List (List Entry × Nat)) :=
  Rd.bind Rd.place fun a => Rd.bind dirTable fun t => Rd.bind (Rd.times dirTable (t.getD 2 0 - 1)) fun ts =>
    Rd.bind (Rd.each (dirAt fuel (a / 8)) ((t :: ts).take (t.getD 2 0))) fun ds => Rd.pure (t :: ts, ds)

/-- `FATFileEntry` and `FATContent`, nds.py:135-151. -/
def fat (size : Nat) : Rd (List (List Nat)) := Rd.times (Asf.numbers [4, 4]) (size / 8)

/-- nds.py:381-384: the content of the files whose end is behind their start. -/
def files (entries : List (List Nat)) : Rd (List Bytes) :=
  Rd.each (fun e => Rd.bind (Rd.jump (e.getD 0 0)) fun _ => Rd.raw (e.getD 1 0 - e.getD 0 0)) (entries.filter fun e => decide (e.getD 0 0 < e.getD 1 0))

/-- The numbers of the header that `validate` looks at, nds.py:316-334. -/
structure Head where
  device : Nat
  card : Nat
  size : Nat
  source9 : Nat
  execute9 : Nat
  copy9 : Nat
  bin9 : Nat
  source7 : Nat
  execute7 : Nat
  copy7 : Nat
  bin7 : Nat

/-- `NdsFile.validate`, nds.py:322-334, for a header that could be read: `first` is the first byte and `bits` is `self._size`. -/
def validate (first : UInt8) (bits : Nat) (h : Head) : Bool :=
  first != 0 && h.device % 8 == 0 && decide (352 ≤ h.size) && decide (h.card < 15)
    && decide (0 < h.bin9) && decide (h.bin9 ≤ 0x3bfe00) && decide (0 < h.bin7) && decide (h.bin7 ≤ 0x3bfe00)
    && decide (h.source9 + h.bin9 < bits) && decide (h.source7 + h.bin7 < bits)
    && decide (0x02000000 ≤ h.execute9) && decide (h.execute9 ≤ 0x023bfe00) && decide (0x02000000 ≤ h.copy9) && decide (h.copy9 ≤ 0x023bfe00)
    && decide (0x02000000 ≤ h.execute7) && decide (h.execute7 ≤ 0x03807e00) && decide (0x02000000 ≤ h.copy7) && decide (h.copy7 ≤ 0x03807e00)

/-- `DeviceSize`, nds.py:236-239: the megabits told. -/
def megabits (value : Nat) : Nat := 2 ^ (20 + value) / (1024 * 1024)

end Hachoir.Formats.Nds
