import Verif.Formats.Reader
import Verif.Formats.Asf
import Verif.Formats.Cab
import Verif.Formats.Lnk

/-!
# FastTracker modules

Model of /repo/hachoir/parser/audio/xm.py, without the blocks of ModPlug at the end.
-/

namespace Hachoir.Formats.Xm
open Hachoir Hachoir.Stream Hachoir.Field Hachoir.Formats

/-- A note of a channel. -/
structure Note where
  packed : Bool
  note : Option Nat
  instrument : Option Nat
  volume : Option Nat
  effect : Option Nat
  parameter : Option Nat
  deriving DecidableEq, Repr

/-- `Bits(self, "note", 7)` in the little endian of the parser, behind the bit of 269: xm.py:283. -/
def lowBits : Rd Nat := fun s _ addr =>
  match readBits s ((addr + 1 : Nat) : Int) 7 .little with
  | .error e => .error e
  | .ok v => .ok (v, addr + 8)

/-- A note that is not packed, xm.py:282-287. -/
def fullNote : Rd Note := do
  let note ← lowBits
  let vs ← Asf.numbers [1, 1, 1, 1]
  pure ⟨false, some note, vs[0]?, vs[1]?, vs[2]?, vs[3]?⟩

/-- A packed note, xm.py:270-281: the bits of `NoteInfo`, 195-203, are read in big endian. -/
def packedNote : Rd Note := do
  let fs ← Rd.bits .big [1, 2, 1, 1, 1, 1, 1]
  let note ← Lnk.optionally (fs.getD 6 0) (Rd.int 1 .little)
  let instrument ← Lnk.optionally (fs.getD 5 0) (Rd.int 1 .little)
  let volume ← Lnk.optionally (fs.getD 4 0) (Rd.int 1 .little)
  let effect ← Lnk.optionally (fs.getD 3 0) (Rd.int 1 .little)
  let parameter ← Lnk.optionally (fs.getD 2 0) (Rd.int 1 .little)
  pure ⟨true, note, instrument, volume, effect, parameter⟩

/-- `Note`, xm.py:242-288.  The size of 247-263 is that of the fields. -/
def note : Rd Note := do
  let first ← Rd.peek .big
  if 128 ≤ first then packedNote else fullNote

/-- The loop of `Pattern.createFields`, xm.py:340-341: a row that begins at the end of the pattern
does not fit and ends the loop.  (A row that does not fit otherwise would be cut.) -/
def rows (channels : Nat) : Nat → Rd (List (List Note))
  | 0 => pure []
  | n + 1 => do
    let e ← Rd.eof
    if e then pure [] else do
      let r ← Rd.times note channels
      let rs ← rows channels n
      pure (r :: rs)

structure Pattern where
  numbers : List Nat
  rows : List (List Note)
  deriving DecidableEq, Repr

/-- The fields of a pattern, xm.py:333-341. -/
def patternBody (channels : Nat) : Rd Pattern := do
  let vs ← Asf.numbers [4, 1, 2, 2]
  let rs ← rows channels (vs.getD 2 0)
  pure ⟨vs, rs⟩

/-- `createPatternContentSize`, xm.py:322-324, in bytes. -/
def patternSize (s : InputStream) (addr : Nat) : Except PyErr Nat :=
  match readBits s (addr : Nat) 32 .little with
  | .error e => .error e
  | .ok a =>
    match readBits s ((addr + 56 : Nat) : Int) 16 .little with
    | .error e => .error e
    | .ok b => .ok (a + b)

/-- `Pattern`, xm.py:327-341. -/
def pattern (channels : Nat) : Rd Pattern := fun s stop addr =>
  match patternSize s addr with
  | .error e => .error e
  | .ok n => Rd.within n (patternBody channels) s stop addr

structure Sample where
  numbers : List Nat
  tune : Int
  kind : List Nat
  panning : Nat
  relative : Int
  reserved : Nat
  name : Bytes
  deriving DecidableEq, Repr

/-- `SampleHeader`, xm.py:48-61, with `SampleType`, 38-45. -/
def sample : Rd Sample := do
  let vs ← Asf.numbers [4, 4, 4, 1]
  let tune ← Rd.signed 1 .little
  let kind ← Rd.bits .little [4, 1, 1, 2]
  let panning ← Rd.int 1 .little
  let relative ← Rd.signed 1 .little
  let reserved ← Rd.int 1 .little
  let name ← Rd.text .little .fixed .eightBit (some 22)
  pure ⟨vs, tune, kind, panning, relative, reserved, name⟩

/-- The second header of an instrument. -/
structure Second where
  size : Nat
  notes : List Nat
  volume : List Nat
  panning : List Nat
  points : List Nat
  volumeType : List Nat
  panningType : List Nat
  vibrato : List Nat
  fadeout : Nat
  reserved : List Nat
  deriving DecidableEq, Repr

/-- `InstrumentSecondHeader`, xm.py:81-104, with `StuffType`, 72-78. -/
def second : Rd Second := do
  let size ← Rd.int 4 .little
  let notes ← Asf.numbers (List.replicate 96 1)
  let volume ← Asf.numbers (List.replicate 24 2)
  let panning ← Asf.numbers (List.replicate 24 2)
  let points ← Asf.numbers (List.replicate 8 1)
  let volumeType ← Rd.bits .little [5, 1, 1, 1]
  let panningType ← Rd.bits .little [5, 1, 1, 1]
  let vibrato ← Asf.numbers (List.replicate 4 1)
  let fadeout ← Rd.int 2 .little
  let reserved ← Asf.numbers (List.replicate 11 2)
  pure ⟨size, notes, volume, panning, points, volumeType, panningType, vibrato, fadeout, reserved⟩

structure Instrument where
  size : Nat
  name : Bytes
  kind : Nat
  second : Option Second
  unknown : Bytes
  samples : List Sample
  data : List Bytes
  deriving DecidableEq, Repr

/-- `fixInstrumentHeader`, xm.py:132-135: a header of `size` bytes, `n` of which are read. -/
def fixHeader (size n : Nat) : Rd Bytes := if size < n then Rd.fail .field else Cab.rawOr (size - n)

/-- The data of the samples, xm.py:160-162 (an empty one has no field). -/
def sampleData (ss : List Sample) : Rd (List Bytes) := Rd.each (fun t : Sample => Cab.rawOr (t.numbers.getD 0 0)) ss

/-- An instrument with `n` samples, xm.py:148-162. -/
def withSamples (size : Nat) (name : Bytes) (kind n : Nat) : Rd Instrument := do
  let h ← second
  let unknown ← fixHeader size 263
  let ss ← Rd.times sample n
  let data ← sampleData ss
  pure ⟨size, name, kind, some h, unknown, ss, data⟩

/-- xm.py:163-164. -/
def withoutSamples (size : Nat) (name : Bytes) (kind : Nat) : Rd Instrument := do
  let unknown ← fixHeader size 29
  pure ⟨size, name, kind, none, unknown, [], []⟩

/-- xm.py:137-164. -/
def instrumentBody : Rd Instrument := do
  let size ← Rd.int 4 .little
  let name ← Rd.text .little .fixed .eightBit (some 22)
  let kind ← Rd.int 1 .little
  let n ← Rd.int 2 .little
  if n ≠ 0 then withSamples size name kind n else withoutSamples size name kind

/-- The loop of `createInstrumentContentSize`, xm.py:113-119: the address behind the headers and the sum of the lengths. -/
def sampleSizes (s : InputStream) : Nat → Nat → Except PyErr (Nat × Nat)
  | 0, addr => .ok (addr, 0)
  | n + 1, addr =>
    match readBits s (addr : Nat) 32 .little with
    | .error e => .error e
    | .ok v =>
      match sampleSizes s n (addr + 320) with
      | .error e => .error e
      | .ok (a, sum) => .ok (a, v + sum)

/-- `createInstrumentContentSize`, xm.py:107-121, in bytes. -/
def instrumentSize (s : InputStream) (addr : Nat) : Except PyErr Nat :=
  match readBits s ((addr + 216 : Nat) : Int) 16 .little with
  | .error e => .error e
  | .ok n =>
    match readBits s (addr : Nat) 32 .little with
    | .error e => .error e
    | .ok head =>
      match sampleSizes s n (addr + 8 * head) with
      | .error e => .error e
      | .ok (a, sum) => .ok ((a - addr) / 8 + sum)

/-- `Instrument`, xm.py:124-164. -/
def instrument : Rd Instrument := fun s stop addr =>
  match instrumentSize s addr with
  | .error e => .error e
  | .ok n => Rd.within n instrumentBody s stop addr

structure Header where
  signature : Bytes
  title : Bytes
  marker : Nat
  tracker : Bytes
  minor : Nat
  major : Nat
  size : Nat
  songLength : Nat
  restart : Nat
  channels : Nat
  patterns : Nat
  instruments : Nat
  flags : List Nat
  tempo : Nat
  bpm : Nat
  order : List Nat
  deriving DecidableEq, Repr

/-- `Header`, xm.py:347-369. -/
def header : Rd Header := do
  let signature ← Rd.text .little .fixed .eightBit (some 17)
  let title ← Rd.text .little .fixed .eightBit (some 20)
  let marker ← Rd.int 1 .little
  let tracker ← Rd.text .little .fixed .eightBit (some 20)
  let minor ← Rd.int 1 .little
  let major ← Rd.int 1 .little
  let size ← Rd.int 4 .little
  let songLength ← Rd.int 2 .little
  let restart ← Rd.int 2 .little
  let channels ← Rd.int 2 .little
  let patterns ← Rd.int 2 .little
  let instruments ← Rd.int 2 .little
  let flags ← Rd.bits .little [1, 1, 14]
  let tempo ← Rd.int 2 .little
  let bpm ← Rd.int 2 .little
  let order ← Asf.numbers (List.replicate 256 1)
  pure ⟨signature, title, marker, tracker, minor, major, size, songLength, restart, channels, patterns, instruments, flags, tempo, bpm, order⟩

structure Module where
  header : Header
  patterns : List Pattern
  instruments : List Instrument
  deriving DecidableEq, Repr

/-- `XMModule.createFields`, xm.py:398-403. -/
def xmModule : Rd Module := do
  let h ← header
  let ps ← Rd.times (pattern h.channels) h.patterns
  let is ← Rd.times instrument h.instruments
  pure ⟨h, ps, is⟩

/-- The loops of `createContentSize`, xm.py:408-421, in bytes: `f` is the size of a part. -/
def sizeLoop (f : Nat → Except PyErr Nat) : Nat → Nat → Except PyErr Nat
  | 0, size => .ok size
  | n + 1, size =>
    match f (8 * size) with
    | .error e => .error e
    | .ok m => sizeLoop f n (size + m)

/-- `createContentSize`, xm.py:408-421, in bytes. -/
def contentSize (s : InputStream) (h : Header) : Except PyErr Nat :=
  match sizeLoop (patternSize s) h.patterns 336 with
  | .error e => .error e
  | .ok a => sizeLoop (instrumentSize s) h.instruments a

/-- `validate`, xm.py:390-396. -/
def valid (s : InputStream) (h : Header) : Bool :=
  match readBytes s 0 17 with
  | .ok b => b == [0x45, 0x78, 0x74, 0x65, 0x6e, 0x64, 0x65, 0x64, 0x20, 0x4d, 0x6f, 0x64, 0x75, 0x6c, 0x65, 0x3a, 0x20] && h.size == 276
  | .error _ => false

/-- `EFFECT_E_NAME`, xm.py:216-221. -/
def extendedNames : List String := ["Unknown", "Fine porta up", "Fine porta down", "Set gliss control", "Set vibrato control", "Set finetune", "Set loop begin/loop",
  "Set tremolo control", "Retrig note", "Fine volume slide up", "Fine volume slide down", "Note cut", "Note delay", "Pattern delay"]

/-- `EFFECT_NAME`, xm.py:206-214 (`None` is written as an empty text). -/
def effectNames : List (Option String) := List.map (fun n => if n = "" then none else some n) ["Arppegio", "Porta up", "Porta down", "Tone porta", "Vibrato", "Tone porta+Volume slide", "Vibrato+Volume slide", "Tremolo",
  "Set panning", "Sample offset", "Volume slide", "Position jump", "Set volume", "Pattern break", "", "Set tempo/BPM", "Set global volume", "Global volume slide", "Unused",
  "Unused", "Unused", "Set envelope position", "Unused", "Unused", "Panning slide", "Unused", "Multi retrig note", "Unused", "Tremor", "Unused", "Unused", "Unused", ""]

/-- What `Effect.createValue` tells, xm.py:229-239: the name (maybe `None`), and the number for the effect 0x0E. -/
def effectValue (t param : Nat) : Except PyErr (Option String × Option Nat) :=
  if t = 0x0E then
    match extendedNames[param / 16]? with
    | some n => .ok (some n, some (param % 8))
    | none => .error .index
  else if t = 0x21 then
    match ["Extra fine porta up", "Extra fine porta down"][param / 16]? with
    | some n => .ok (some n, none)
    | none => .error .index
  else
    match effectNames[t]? with
    | some n => .ok (n, none)
    | none => .error .index

end Hachoir.Formats.Xm
