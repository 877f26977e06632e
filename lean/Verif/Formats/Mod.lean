import Verif.Formats.Reader

/-!
# Amiga modules (`parser/audio/mod.py`)

Descriptions are left out.  Patterns are left as bytes: the notes in them can not be made (`Bits(self, 4, "note_hi_nibble")`, mod.py:89-92, gives the width as name
and the name as width).
-/

namespace Hachoir.Formats.Mod
open Hachoir Hachoir.Stream Hachoir.Field Hachoir.Formats

/-- A key of a Python dictionary: bytes and texts are never equal. -/
inductive Key where
  | bytes (b : Bytes)
  | text (t : Bytes)
  deriving DecidableEq, Repr

/-- `MODULE_TYPE`, mod.py:29-43, without the names. -/
def moduleType : List (Key × Nat) :=
  [(.bytes [0x4D, 0x2E, 0x4B, 0x2E], 4), (.bytes [0x4D, 0x21, 0x4B, 0x21], 4), (.bytes [0x4D, 0x26, 0x4B, 0x26], 4), (.bytes [0x52, 0x41, 0x53, 0x50], 4),
   (.bytes [0x46, 0x4C, 0x54, 0x34], 4), (.bytes [0x46, 0x4C, 0x54, 0x38], 8), (.bytes [0x36, 0x43, 0x48, 0x4E], 6), (.bytes [0x38, 0x43, 0x48, 0x4E], 8),
   (.bytes [0x43, 0x44, 0x38, 0x31], 8), (.bytes [0x4F, 0x43, 0x54, 0x41], 8), (.bytes [0x46, 0x41, 0x30, 0x34], 4), (.bytes [0x46, 0x41, 0x30, 0x36], 6),
   (.bytes [0x46, 0x41, 0x30, 0x38], 8)]

/-- A dictionary lookup. -/
def find (k : Key) : List (Key × Nat) → Except PyErr Nat
  | [] => .error .key
  | (k', n) :: l => if k = k' then .ok n else find k l

/-- `getFineTune`, mod.py:46-48. -/
def fineTune (v : Nat) : Except PyErr Int :=
  match [0, 1, 2, 3, 4, 5, 6, 7, 8, -8, -7, -6, -5, -4, -3, -2, -1][v]? with
  | some x => .ok x
  | none => .error .index

/-- `SampleInfo`, mod.py:55-64. -/
structure Sample where
  name : Bytes
  count : Nat
  tune : Nat
  volume : Nat
  loopStart : Nat
  loopLen : Nat
  deriving DecidableEq, Repr

def sample : Rd Sample := do
  let name ← Rd.text .big .fixed .eightBit (some 22)
  let count ← Rd.int 2 .big
  let tune ← Rd.int 1 .big
  let volume ← Rd.int 1 .big
  let loopStart ← Rd.int 2 .big
  let loopLen ← Rd.int 2 .big
  pure ⟨name, count, tune, volume, loopStart, loopLen⟩

/-- `Header`, mod.py:70-79. -/
structure Header where
  name : Bytes
  samples : List Sample
  length : Nat
  played : Nat
  positions : List Nat
  type : Bytes
  deriving DecidableEq, Repr

def header : Rd Header := do
  let name ← Rd.text .big .fixed .eightBit (some 20)
  let samples ← Rd.times sample 31
  let length ← Rd.int 1 .big
  let played ← Rd.int 1 .big
  let positions ← Rd.times (Rd.int 1 .big) 128
  let type ← Rd.text .big .fixed .eightBit (some 4)
  pure ⟨name, samples, length, played, positions, type⟩

/-- `getNumChannels`, mod.py:81-82: the value of a `String` field is a text. -/
def numChannels (h : Header) : Except PyErr Nat := find (.text h.type) moduleType

/-- mod.py:144-149. -/
def patternCount (positions : List Nat) : Nat := positions.foldl max 0 + 1

/-- mod.py:155-161: sample data, only where there is some. -/
def sampleData : List Sample → Rd (List Bytes)
  | [] => pure []
  | s :: l => if s.count = 0 then sampleData l else do
    let b ← Rd.raw (2 * s.count)
    let bs ← sampleData l
    pure (b :: bs)

/-- mod.py:144-161. -/
structure Music where
  patterns : List Bytes
  samples : List Bytes
  deriving DecidableEq, Repr

def music (channels : Nat) (h : Header) : Rd Music := do
  let patterns ← Rd.times (Rd.raw (64 * channels * 4)) (patternCount h.positions)
  let samples ← sampleData h.samples
  pure ⟨patterns, samples⟩

/-- mod.py:142. -/
def channelsOf (h : Header) : Rd Nat :=
  match numChannels h with
  | .error e => Rd.fail e
  | .ok n => pure n

/-- `createFields`, mod.py:139-161. -/
def file : Rd (Header × Music) := do
  let h ← header
  let n ← channelsOf h
  let m ← music n h
  pure (h, m)

/-- `validate`, mod.py:131-137. -/
def valid (type : Bytes) : Bool :=
  match find (.bytes type) moduleType with
  | .ok _ => true
  | .error _ => false

end Hachoir.Formats.Mod
