import Verif.Formats.Macho

/-!
# MPEG transport streams (`parser/video/mpeg_ts.py`)

Descriptions and names of programs are left out.
-/

namespace Hachoir.Formats.MpegTs
open Hachoir Hachoir.Stream Hachoir.Field Hachoir.Formats

/-- `AdaptationField`, mpeg_ts.py:19-46: `clocks` are the fields of lines 33-42. -/
structure Adaptation where
  length : Nat
  flags : List Nat
  clocks : List Nat
  stuffing : Nat
  deriving DecidableEq, Repr

/-- The widths of the fields of mpeg_ts.py:33-42; the flags are those of lines 24-31. -/
def clockWidths : List Nat → List Nat
  | [_, _, _, pcr, opcr, splice, _, _] =>
    (if pcr = 0 then [] else [33, 9]) ++ (if opcr = 0 then [] else [33, 9]) ++ (if splice = 0 then [] else [8])
  | _ => []

/-- mpeg_ts.py:44-46: `w` bits are read of the fields in between. -/
def stuffingOf (length w : Nat) : Rd Nat :=
  if length = 0 ∨ (length + 1) * 8 = 16 + w then pure 0
  else if (length + 1) * 8 < 16 + w then Rd.fail .field
  else Rd.bit .big ((length + 1) * 8 - (16 + w))

def adaptation : Rd Adaptation := do
  let length ← Rd.int 1 .big
  let flags ← Rd.bits .big [1, 1, 1, 1, 1, 1, 1, 1]
  let clocks ← Rd.bits .big (clockWidths flags)
  let stuffing ← stuffingOf length (clockWidths flags).sum
  pure ⟨length, flags, clocks, stuffing⟩

/-- `Packet`, mpeg_ts.py:49-99. -/
structure Packet where
  stamp : List Nat
  error : Nat
  start : Nat
  priority : Nat
  pid : Nat
  scrambling : Nat
  counter : Nat
  adaptation : Option Adaptation
  payload : Option Bytes
  correction : Option Bytes
  deriving DecidableEq, Repr

/-- mpeg_ts.py:75-77. -/
def stampOf (m2ts : Bool) : Rd (List Nat) := if m2ts then Rd.bits .big [2, 30] else pure []

/-- mpeg_ts.py:90-91. -/
def adaptationOf (has : Nat) : Rd (Option Adaptation) := if has = 0 then pure none else do
  let a ← adaptation
  pure (some a)

/-- mpeg_ts.py:92-97: the payload ends 188 bytes behind the packet's start (192 with a time stamp), `n` bits are behind the 4 bytes of the header. -/
def payloadOf (has n : Nat) : Rd (Option Bytes) := if has = 0 then pure none else if 184 < n / 8 then Rd.fail .field else do
  let b ← Rd.raw (184 - n / 8)
  pure (some b)

/-- mpeg_ts.py:98-99. -/
def correctionOf (error : Nat) : Rd (Option Bytes) := if error = 0 then pure none else do
  let b ← Rd.raw 16
  pure (some b)

/-- What follows the header. -/
def rest (has error : Nat) (a : Option Adaptation) (n : Nat) : Rd (Option Adaptation × Option Bytes × Option Bytes) := do
  let payload ← payloadOf has n
  let correction ← correctionOf error
  pure (a, payload, correction)

/-- The size of a packet, mpeg_ts.py:54-61, without its header. -/
def restSize (error : Nat) : Nat := if error = 0 then 184 else 184 + 16

/-- mpeg_ts.py:81-88. -/
def packetOf (stamp first second : List Nat) : Rd Packet :=
  match first, second with
  | [error, start, priority, pid], [scrambling, hasAdaptation, hasPayload, counter] => do
    let x ← Rd.within (restSize error) (Macho.measured (adaptationOf hasAdaptation) (rest hasPayload error))
    pure ⟨stamp, error, start, priority, pid, scrambling, counter, x.1, x.2.1, x.2.2⟩
  | _, _ => Rd.fail .type

def packet (m2ts : Bool) : Rd Packet := do
  let stamp ← stampOf m2ts
  let sync ← Rd.int 1 .big
  if sync ≠ 0x47 then Rd.fail .parser
  else do
    let first ← Rd.bits .big [1, 1, 1, 13]
    let second ← Rd.bits .big [2, 1, 1, 4]
    packetOf stamp first second

/-- `searchBytes(b"\x47", …)`, mpeg_ts.py:167-168: the distance (in bits) to the next synchronization byte among 208. -/
def findSync : Rd (Option Nat) := fun s _ addr =>
  match searchBytes s [0x47] (addr : Nat) (some ((addr + 208 * 8 : Nat) : Int)) with
  | .error e => .error e
  | .ok none => .ok (none, addr)
  | .ok (some a) => .ok (some (a.toNat - addr), addr)

/-- mpeg_ts.py:164-173: bytes in front of a packet. -/
def junkOf (m2ts : Bool) : Option Nat → Rd Bytes
  | none => Rd.fail .parser
  | some d => if (if m2ts then 32 else 0) < d then Rd.raw (d / 8) else pure []

/-- One round, mpeg_ts.py:163-174. -/
def round (m2ts : Bool) : Rd (Bytes × Packet) := do
  let d ← findSync
  let junk ← junkOf m2ts d
  let p ← packet m2ts
  pure (junk, p)

/-- `createFields`, mpeg_ts.py:159-174; `fuel` bounds the rounds. -/
def file (m2ts : Bool) (fuel : Nat) : Rd (List (Bytes × Packet)) := Rd.whileNotEof (round m2ts) fuel

/-- `isValid`, mpeg_ts.py:109-115. -/
def packetValid (p : Packet) : Bool := (p.payload.isSome || p.adaptation.isSome) && !(decide (2 ≤ p.pid) && decide (p.pid ≤ 15)) && !decide (0x2000 ≤ p.pid)

/-- `is_m2ts`, mpeg_ts.py:133-140: `name` is the name of the file in small letters, if the stream has one. -/
def isM2ts (name : Option Bytes) : Bool :=
  match name with
  | none => true
  | some n => [0x2E, 0x6D, 0x32, 0x74, 0x73].isSuffixOf n || [0x2E, 0x6D, 0x74, 0x73].isSuffixOf n

end Hachoir.Formats.MpegTs
