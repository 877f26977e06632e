import Verif.Formats.Reader

/-!
# Gimp pictures (`parser/image/xcf.py`)

Left out: descriptions, the hierarchies (tiles) of layers, and channels, which follow them.  Texts are the bytes of their content
(`strip` removes NUL at both ends of names).  Data of properties smaller than the fields of their class are not modelled.
-/

namespace Hachoir.Formats.Xcf
open Hachoir Hachoir.Stream Hachoir.Field Hachoir.Formats

/-- `XcfParasiteEntry`, xcf.py:136-141. -/
structure Parasite where
  name : Bytes
  flags : Nat
  data : Bytes
  deriving DecidableEq, Repr

def parasite : Rd Parasite := do
  let name ← Rd.text .big .pascal32 .utf8 none
  let flags ← Rd.int 4 .big
  let data ← Rd.text .big .pascal32 .utf8 none
  pure ⟨name, flags, data⟩

/-- The data of a property. -/
inductive Data where
  /-- no field `data` -/
  | nothing
  /-- `raw[]` instead of `data` -/
  | lost
  | rgba (red green blue alpha : Nat)
  | mode (n : Nat)
  | offsets (x y : Nat)
  | compression (n : Nat)
  /-- the bits of the numbers -/
  | resolution (x y : Nat)
  | tattoo (n : Nat)
  | parasites (l : List Parasite)
  | unit (n : Nat)
  | raw (b : Bytes)
  deriving DecidableEq, Repr

def rgba : Rd Data := do
  let r ← Rd.int 1 .big
  let g ← Rd.int 1 .big
  let b ← Rd.int 1 .big
  let a ← Rd.int 1 .big
  pure (.rgba r g b a)

def offsets : Rd Data := do
  let x ← Rd.int 4 .big
  let y ← Rd.int 4 .big
  pure (.offsets x y)

def resolution : Rd Data := do
  let x ← Rd.int 4 .big
  let y ← Rd.int 4 .big
  pure (.resolution x y)

def mode : Rd Data := do
  let n ← Rd.int 4 .big
  pure (.mode n)

def compression : Rd Data := do
  let n ← Rd.int 1 .big
  pure (.compression n)

def tattoo : Rd Data := do
  let n ← Rd.int 4 .big
  pure (.tattoo n)

def unit : Rd Data := do
  let n ← Rd.int 4 .big
  pure (.unit n)

/-- `XcfParasites`, xcf.py:246-251. -/
def parasites (fuel : Nat) : Rd Data := do
  let l ← Rd.whileNotEof parasite fuel
  pure (.parasites l)

def rawData (n : Nat) : Rd Data := do
  let b ← Rd.raw n
  pure (.raw b)

/-- `handler` and the rest of `XcfProperty.createFields`, xcf.py:308-339.  `GimpBoolean` (xcf.py:123-129) takes no size, so that `cls(self, "data", size=…)`
raises `TypeError` and the rest of the property becomes `raw[]` (/repo/hachoir/field/generic_field_set.py:267-319). -/
def dataOf (fuel type n : Nat) : Rd Data :=
  if n = 0 then pure .nothing
  else if type = 6 then rgba
  else if type = 7 then mode
  else if 8 ≤ type ∧ type ≤ 13 then pure .lost
  else if type = 15 then offsets
  else if type = 17 then compression
  else if type = 19 then resolution
  else if type = 20 then tattoo
  else if type = 21 then parasites fuel
  else if type = 22 then unit
  else rawData n

/-- `XcfProperty`, xcf.py:254-342. -/
structure Property where
  type : Nat
  size : Nat
  data : Data
  deriving DecidableEq, Repr

def property (fuel : Nat) : Rd Property := do
  let type ← Rd.int 4 .big
  let n ← Rd.int 4 .big
  let d ← Rd.within n (dataOf fuel type n)
  pure ⟨type, n, d⟩

/-- `readProperties`, xcf.py:345-350; `n` bounds the number of rounds. -/
def properties (fuel : Nat) : Nat → Rd (List Property)
  | 0 => Rd.fail .endless
  | n + 1 => Rd.bind (property fuel) fun p =>
    if p.type = 0 then Rd.pure [p] else Rd.bind (properties fuel n) fun l => Rd.pure (p :: l)

/-- The width of an offset, in bytes. -/
def width (version : Nat) : Nat := if 11 ≤ version then 8 else 4

/-- Offsets up to 0, xcf.py:447-456 and 459-468; `n` bounds the number of rounds. -/
def offsetList (version : Nat) : Nat → Rd (List Nat)
  | 0 => Rd.fail .endless
  | n + 1 => Rd.bind (Rd.int (width version) .big) fun v =>
    if v = 0 then Rd.pure [] else Rd.bind (offsetList version n) fun l => Rd.pure (v :: l)

/-- `XcfLayer`, xcf.py:217-235, without its hierarchy. -/
structure Layer where
  width : Nat
  height : Nat
  type : Nat
  name : Bytes
  properties : List Property
  hierarchy : Nat
  mask : Nat
  deriving DecidableEq, Repr

def layer (version fuel : Nat) : Rd Layer := do
  let w ← Rd.int 4 .big
  let h ← Rd.int 4 .big
  let t ← Rd.int 4 .big
  let name ← Rd.text .big .pascal32 .utf8 none
  let ps ← properties fuel fuel
  let o ← Rd.int (width version) .big
  let m ← Rd.int (width version) .big
  pure ⟨w, h, t, name, ps, o, m⟩

/-- The size in the constructor of a layer: up to the next offset, xcf.py:471-475.  A size that is negative is refused
(/repo/hachoir/field/basic_field_set.py:67-69), an empty layer as well. -/
def ordered : List Nat → Bool
  | a :: b :: l => decide (a < b) && ordered (b :: l)
  | _ => true

/-- xcf.py:471-479: the layers at their offsets, with padding before.  (Here the padding ends the layer before; in the code the layer
has the room up to the next one.) -/
def layers (version fuel : Nat) (offs : List Nat) : Rd (List Layer) :=
  if ordered offs then Rd.each (fun o => Rd.bind (Rd.seek o) fun _ => layer version fuel) offs else Rd.fail .parser

/-- `self.version`, xcf.py:419 and 430-431: `str(signature)` is the quoted text. -/
def versionOf (sig : Bytes) : Except PyErr Nat :=
  if sig = [103, 105, 109, 112, 32, 120, 99, 102, 32, 102, 105, 108, 101, 0] then .ok 0
  else
    match sig with
    | [103, 105, 109, 112, 32, 120, 99, 102, 32, _, a, b, c, 0] =>
      if (48 ≤ a ∧ a ≤ 57) ∧ (48 ≤ b ∧ b ≤ 57) ∧ (48 ≤ c ∧ c ≤ 57) then .ok (100 * (a.toNat - 48) + 10 * (b.toNat - 48) + (c.toNat - 48))
      else .error .value
    | _ => .error .notImplemented

structure Picture where
  version : Nat
  width : Nat
  height : Nat
  type : Nat
  precision : Option Nat
  properties : List Property
  layerOffsets : List Nat
  channelOffsets : List Nat
  layers : List Layer
  deriving DecidableEq, Repr

/-- xcf.py:437-442 -/
def precision (version : Nat) : Rd (Option Nat) :=
  if 4 ≤ version then do
    let p ← Rd.int 4 .big
    pure (some p)
  else pure none

def picture (fuel version : Nat) : Rd Picture := do
  let w ← Rd.int 4 .big
  let h ← Rd.int 4 .big
  let t ← Rd.int 4 .big
  let p ← precision version
  let ps ← properties fuel fuel
  let lo ← offsetList version fuel
  let co ← offsetList version fuel
  let ls ← layers version fuel lo
  pure ⟨version, w, h, t, p, ps, lo, co, ls⟩

def withVersion (fuel : Nat) : Except PyErr Nat → Rd Picture
  | .error e => Rd.fail e
  | .ok v => picture fuel v

/-- `XcfFile.createFields`, xcf.py:426-479. -/
def file (fuel : Nat) : Rd Picture := do
  let sig ← Rd.raw 14
  withVersion fuel (versionOf sig)

end Hachoir.Formats.Xcf
