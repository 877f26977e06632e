import Verif.Formats.VarInt

/-!
# MIDI files

`/repo/hachoir/parser/audio/midi.py` and the names of notes in
`/repo/hachoir/parser/common/tracker.py`.  Modelled: commands of a track with their contents and
places, tracks, the header, the size of the file and the names of notes.  Not modelled:
descriptions, the charset of texts (they are bytes here), and what becomes of the fields before an
error (the code keeps the commands before it and calls the rest of the track raw).
-/

set_option linter.unusedVariables false

namespace Hachoir.Formats.Midi
open Hachoir Hachoir.Stream Hachoir.Formats

/-- The fields of a command after its number. -/
inductive Content where
  | note (note velocity : Nat)
  | control (control value : Nat)
  | patch (program : Nat)
  | channel (channel : Nat)
  | pitch (bottom top : Nat)
  | text (bytes : Bytes)
  | smpte (rate hour minute second frame subframe : Nat)
  | tempo (microsec : Nat)
  | signature (numerator denominator ticks notes : Nat)
  | raw (bytes : Bytes)
  | nothing
  deriving DecidableEq, Repr

/-- A command: its address in bits, the delta time, the number of the command and, if that
is 255, of the meta command. -/
structure Command where
  addr : Nat
  time : Nat
  status : Nat
  mark : Option Nat
  content : Content
  deriving DecidableEq, Repr

/-- A field `UInt8`. -/
def byteAt (s : InputStream) (addr : Nat) : Except PyErr Nat := readBits s (addr : Int) 8 .big

/-- `Command.COMMAND_PARSER`, midi.py:95-111 (`parseNote`, `parseControl`, `parsePatch`,
`parseChannel`, `parsePitch`, 41-61): the content and the address behind it. -/
def readChannel (s : InputStream) (status addr : Nat) : Except PyErr (Content × Nat) :=
  if 128 ≤ status ∧ status < 176 then do
    let n ← byteAt s addr
    let v ← byteAt s (addr + 8)
    .ok (.note n v, addr + 16)
  else if 176 ≤ status ∧ status < 192 then do
    let c ← byteAt s addr
    let v ← byteAt s (addr + 8)
    .ok (.control c v, addr + 16)
  else if 192 ≤ status ∧ status < 208 then do
    let p ← byteAt s addr
    .ok (.patch p, addr + 8)
  else if 208 ≤ status ∧ status < 224 then do
    let c ← byteAt s addr
    .ok (.channel c, addr + 8)
  else if 224 ≤ status ∧ status < 240 then do
    let b ← byteAt s addr
    let t ← byteAt s (addr + 8)
    .ok (.pitch b t, addr + 16)
  else .error .parser

/-- `Command.META_COMMAND_PARSER`, midi.py:115-133 (`parseText`, `parseSMPTEOffset`, `parseTempo`,
`parseTimeSignature`, 64-91), for a size that is not 0.  Only texts and raw bytes use the size. -/
def readMeta (s : InputStream) (mark size addr : Nat) : Except PyErr (Content × Nat) :=
  if 1 ≤ mark ∧ mark ≤ 7 then do
    let t ← readBytes s (addr : Int) size
    .ok (.text t, addr + 8 * size)
  else if mark = 32 then do
    let c ← byteAt s addr
    .ok (.channel c, addr + 8)
  else if mark = 81 then do
    let t ← readBits s (addr : Int) 24 .big
    .ok (.tempo t, addr + 24)
  else if mark = 84 then do
    let rate ← readBits s ((addr + 1 : Nat) : Int) 2 .big
    let hour ← readBits s ((addr + 3 : Nat) : Int) 5 .big
    let minute ← byteAt s (addr + 8)
    let second ← byteAt s (addr + 16)
    let frame ← byteAt s (addr + 24)
    let sub ← byteAt s (addr + 32)
    .ok (.smpte rate hour minute second frame sub, addr + 40)
  else if mark = 88 then do
    let a ← byteAt s addr
    let b ← byteAt s (addr + 8)
    let c ← byteAt s (addr + 16)
    let d ← byteAt s (addr + 24)
    .ok (.signature a b c d, addr + 32)
  else do
    let t ← readBytes s (addr : Int) size
    .ok (.raw t, addr + 8 * size)

/-- midi.py:146-156: the number of a command at this address, and where its content starts. -/
def readStatus (s : InputStream) (prev : Option Nat) (addr : Nat) : Except PyErr (Nat × Nat) :=
  match byteAt s addr with
  | .error e => .error e
  | .ok next =>
    if next &&& 128 = 0 then
      match prev with
      | none => .error .parser
      | some st => .ok (st, addr)
    else .ok (next, addr + 8)

/-- midi.py:157-170: the rest of a meta command. -/
def readMark (s : InputStream) (addr : Nat) : Except PyErr (Nat × Content × Nat) := do
  let mark ← byteAt s addr
  let (size, bits) ← midiInteger s .big ((addr + 8 : Nat) : Int)
  if size = 0 then .ok (mark, .nothing, addr + 8 + bits)
  else
    let (c, stop) ← readMeta s mark size (addr + 8 + bits)
    .ok (mark, c, stop)

/-- `Command.createFields`, midi.py:144-176; `prev` is the number of the command before. -/
def readCommand (s : InputStream) (prev : Option Nat) (addr : Nat) : Except PyErr (Command × Nat) :=
  match midiInteger s .big (addr : Int) with
  | .error e => .error e
  | .ok (time, bits) =>
    match readStatus s prev (addr + bits) with
    | .error e => .error e
    | .ok (status, start) =>
      if status = 255 then
        match readMark s start with
        | .error e => .error e
        | .ok (mark, c, stop) => .ok (⟨addr, time, status, some mark, c⟩, stop)
      else
        match readChannel s status start with
        | .error e => .error e
        | .ok (c, stop) => .ok (⟨addr, time, status, none, c⟩, stop)

/-- The loop of `Track.createFields`, midi.py:196-198; `stop` is the end of the track.  A
command that passes the end is an error (the code cuts it).  The fuel never runs out, a command
takes a byte or more. -/
def readCommands (s : InputStream) : Nat → Option Nat → Nat → Nat → Except PyErr (List Command)
  | 0, _, _, _ => .error .endless
  | fuel + 1, prev, stop, addr =>
    if addr < stop then
      match readCommand s prev addr with
      | .error e => .error e
      | .ok (c, next) =>
        if stop < next then .error .parser
        else
          match readCommands s fuel (some c.status) stop next with
          | .error e => .error e
          | .ok cs => .ok (c :: cs)
    else .ok []

/-- A track: its address and size in bits, and the commands. -/
structure Track where
  addr : Nat
  size : Nat
  commands : List Command
  deriving DecidableEq, Repr

/-- `Track`, midi.py:185-202.  The marker is not checked. -/
def readTrack (s : InputStream) (fuel addr : Nat) : Except PyErr Track := do
  let size ← readBits s ((addr + 32 : Nat) : Int) 32 .big
  let cs ← readCommands s fuel none (addr + (8 + size) * 8) (addr + 64)
  .ok ⟨addr, (8 + size) * 8, cs⟩

/-- The loop of `MidiFile.createFields`, midi.py:256-257; `stop` is the end of the file. -/
def readTracks (s : InputStream) (inner : Nat) : Nat → Nat → Nat → Except PyErr (List Track)
  | 0, _, _ => .error .endless
  | fuel + 1, stop, addr =>
    if addr < stop then
      match readTrack s inner addr with
      | .error e => .error e
      | .ok t =>
        match readTracks s inner fuel stop (addr + t.size) with
        | .error e => .error e
        | .ok ts => .ok (t :: ts)
    else .ok []

/-- `Header`, midi.py:214-226, at address 32. -/
structure Header where
  size : Nat
  format : Nat
  tracks : Nat
  delta : Nat
  deriving DecidableEq, Repr

def readHeader (s : InputStream) : Except PyErr Header := do
  let size ← readBits s 32 32 .big
  let format ← readBits s 64 16 .big
  let tracks ← readBits s 80 16 .big
  let delta ← readBits s 96 16 .big
  .ok ⟨size, format, tracks, delta⟩

/-- `MidiFile.createFields`, midi.py:253-257. -/
def readFile (s : InputStream) (fuel stop : Nat) : Except PyErr (Header × List Track) := do
  let h ← readHeader s
  let ts ← readTracks s fuel fuel stop 112
  .ok (h, ts)

/-- `MidiFile.validate`, midi.py:246-251. -/
def valid (s : InputStream) : Except PyErr Bool := do
  let signature ← readBytes s 0 4
  if signature ≠ [77, 84, 104, 100] then .ok false
  else
    let size ← readBits s 32 32 .big
    .ok (decide (size = 6))

/-- The addresses of the first tracks, found with their sizes. -/
def trackAddr (s : InputStream) : Nat → Nat → Except PyErr Nat
  | 0, addr => .ok addr
  | n + 1, addr =>
    match readBits s ((addr + 32 : Nat) : Int) 32 .big with
    | .error e => .error e
    | .ok size => trackAddr s n (addr + (8 + size) * 8)

/-- `MidiFile.createContentSize`, midi.py:262-269, with `searchBytes` from the start of the last
track up to `MAX_FILESIZE`.  A header without tracks asks for `track[-1]`, which is not a field. -/
def contentSize (s : InputStream) : Except PyErr (Option Int) := do
  let h ← readHeader s
  if h.tracks = 0 then .error .missingField
  else
    let start ← trackAddr s (h.tracks - 1) 112
    match ← searchBytes s [255, 47, 0] (start : Int) (some (10 * 1024 * 1024 * 8)) with
    | some stop => .ok (some (stop + 24))
    | none => .ok none

/-! ## Names of notes -/

/-- `NOTES`, tracker.py:6, as it stands there. -/
def notes : List String :=
  ["C", "C#", "D", "D#", "E", "F", "F#", "G", "G#", "G#", "A", "A#", "B"]

/-- The items written to `NOTE_NAME`, tracker.py:7-9, in order: number, note and octave (the
text is `"%s (octave %s)"`). -/
def noteItems : List (Nat × String × Nat) :=
  (List.range 10).flatMap fun octave =>
    (List.range 13).filterMap fun index => (notes[index]?).map fun note => (octave * 12 + index, note, octave)

/-- `NOTE_NAME[number]`: the item written last. -/
def noteName (number : Nat) : Option (String × Nat) :=
  ((noteItems.reverse.find? fun x => x.1 == number)).map fun x => x.2

end Hachoir.Formats.Midi
