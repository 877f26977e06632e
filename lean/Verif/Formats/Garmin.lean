import Verif.Formats.Reader

/-!
# Garmin files (`parser/misc/fit.py`)

Left out: descriptions.  Files that end inside of a message are not modelled (the message is an
error here).
-/

namespace Hachoir.Formats.Garmin
open Hachoir Hachoir.Stream Hachoir.Field Hachoir.Formats

/-- `Header`, fit.py:32-41. -/
structure Header where
  size : Nat
  protocol : Nat
  profile : Nat
  dataSize : Nat
  dataType : Bytes
  crc : Nat
  deriving DecidableEq, Repr

def header : Rd Header := do
  let size ← Rd.int 1 .little
  let protocol ← Rd.int 1 .little
  let profile ← Rd.int 2 .little
  let n ← Rd.int 4 .little
  let t ← Rd.raw 4
  let crc ← Rd.int 2 .little
  pure ⟨size, protocol, profile, n, t, crc⟩

/-- `NormalRecordHeader`, fit.py:47-54. -/
def recordHeader : Rd (List Nat) := Rd.bits .big [1, 1, 1, 1, 4]

/-- `FieldDefinition`, fit.py:60-65. -/
structure FieldDef where
  number : Nat
  size : Nat
  type : Nat
  deriving DecidableEq, Repr

def fieldDef : Rd FieldDef := do
  let number ← Rd.int 1 .big
  let size ← Rd.int 1 .big
  let type ← Rd.int 1 .big
  pure ⟨number, size, type⟩

/-- `DefinitionMessage`, fit.py:71-81; `slot` is its `msgType`. -/
structure Def where
  slot : Nat
  big : Bool
  number : Nat
  fields : List FieldDef
  deriving DecidableEq, Repr

def endianOf (big : Bool) : Endian := if big then .big else .little

def definition3 (slot : Nat) (big : Bool) (number n : Nat) : Rd Def := do
  let fields ← Rd.times fieldDef n
  pure ⟨slot, big, number, fields⟩

/-- fit.py:77-81 -/
def definition2 (slot : Nat) (big : Bool) : Rd Def := do
  let number ← Rd.int 2 (endianOf big)
  let n ← Rd.int 1 (endianOf big)
  definition3 slot big number n

def definition : Rd Def := do
  let h ← recordHeader
  let _ ← Rd.int 1 .big
  let architecture ← Rd.int 1 .big
  definition2 (h.getD 4 0) (decide (architecture ≠ 0))

inductive Kind where
  | unsigned (width : Nat)
  | signed (width : Nat)
  | float (width : Nat)
  | text
  | bytes
  deriving DecidableEq, Repr

/-- `field_types`, fit.py:11-29. -/
def kindOf (t : Nat) : Option Kind :=
  if t = 0 then some (.unsigned 1) else if t = 1 then some (.signed 1) else if t = 2 then some (.unsigned 1)
  else if t = 131 then some (.signed 2) else if t = 132 then some (.unsigned 2) else if t = 133 then some (.signed 4) else if t = 134 then some (.unsigned 4)
  else if t = 7 then some .text else if t = 136 then some (.float 4) else if t = 137 then some (.float 8)
  else if t = 10 then some (.unsigned 1) else if t = 139 then some (.unsigned 2) else if t = 140 then some (.unsigned 4)
  else if t = 13 then some .bytes else if t = 142 then some (.signed 8) else if t = 143 then some (.unsigned 8) else if t = 144 then some (.unsigned 8)
  else none

inductive Value where
  | unsigned (v : Nat)
  | signed (v : Int)
  /-- the bits of the number -/
  | float (bits : Nat)
  | text (b : Bytes)
  | bytes (b : Bytes)
  deriving DecidableEq, Repr

def unsignedItem (e : Endian) (w : Nat) : Rd Value := do
  let v ← Rd.int w e
  pure (.unsigned v)

def signedItem (e : Endian) (w : Nat) : Rd Value := do
  let v ← Rd.signed w e
  pure (.signed v)

def floatItem (e : Endian) (w : Nat) : Rd Value := do
  let v ← Rd.int w e
  pure (.float v)

def textItem (n : Nat) : Rd (List Value) := do
  let b ← Rd.text .big .fixed .eightBit (some (n : Int))
  pure [.text b]

def bytesItem (n : Nat) : Rd (List Value) := do
  let b ← Rd.raw n
  pure [.bytes b]

/-- fit.py:96-105: as many numbers as there is room for (one, if the size is the one of the type). -/
def valuesOf (e : Endian) (size : Nat) : Option Kind → Rd (List Value)
  | none => Rd.fail .key
  | some .text => textItem size
  | some .bytes => bytesItem size
  | some (.unsigned w) => Rd.times (unsignedItem e w) (size / w)
  | some (.signed w) => Rd.times (signedItem e w) (size / w)
  | some (.float w) => Rd.times (floatItem e w) (size / w)

inductive Msg where
  | definition (d : Def)
  | data (slot : Nat) (values : List (List Value))
  | timestamp (type time : Nat)
  deriving DecidableEq, Repr

/-- fit.py:94-105 -/
def data2 (slot : Nat) : Option Def → Rd Msg
  | none => Rd.fail .key
  | some d => do
    let vs ← Rd.each (fun f : FieldDef => valuesOf (endianOf d.big) f.size (kindOf f.type)) d.fields
    pure (.data slot vs)

/-- `DataMessage`, fit.py:87-105; `defs` is `msgDefs` of the file. -/
def data (defs : Nat → Option Def) : Rd Msg := do
  let h ← recordHeader
  data2 (h.getD 4 0) (defs (h.getD 4 0))

/-- `TimeStamp`, fit.py:111-116. -/
def timestamp : Rd Msg := do
  let v ← Rd.bits .big [1, 3, 4]
  pure (.timestamp (v.getD 1 0) (v.getD 2 0))

def definitionMsg : Rd Msg := do
  let d ← definition
  pure (.definition d)

/-- fit.py:156-172 -/
def message (defs : Nat → Option Def) (k : Nat) : Rd Msg := if k = 1 then definitionMsg else if k = 0 then data defs else timestamp

/-- `self.msgDefs[msgType] = defMsg`, fit.py:167. -/
def update (defs : Nat → Option Def) : Msg → Nat → Option Def
  | .definition d => fun k => if k = d.slot then some d else defs k
  | _ => defs

/-- fit.py:155 -/
def kind : Rd Nat := fun s _ addr =>
  match readBits s (addr : Nat) 2 .big with
  | .error e => .error e
  | .ok v => .ok (v, addr)

/-- The loop of fit.py:154-172; `n` is the size of the data, compared with the size of all that is read. -/
def loop (n : Nat) : Nat → (Nat → Option Def) → Rd (List Msg)
  | 0, _ => Rd.fail .endless
  | fuel + 1, defs => Rd.bind Rd.place fun a =>
    if a < 8 * n then
      Rd.bind kind fun k => Rd.bind (message defs k) fun m => Rd.bind (loop n fuel (update defs m)) fun ms => Rd.pure (m :: ms)
    else Rd.pure []

def file3 (h : Header) (ms : List Msg) : Rd (Header × List Msg × Nat) := do
  let crc ← Rd.int 2 .big
  pure (h, ms, crc)

def file2 (fuel : Nat) (h : Header) : Rd (Header × List Msg × Nat) := do
  let ms ← loop h.dataSize fuel fun _ => none
  file3 h ms

/-- `FITFile.createFields`, fit.py:152-173. -/
def file (fuel : Nat) : Rd (Header × List Msg × Nat) := do
  let h ← header
  file2 fuel h

end Hachoir.Formats.Garmin
