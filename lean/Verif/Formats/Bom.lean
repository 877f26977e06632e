import Verif.Formats.Reader

/-!
# Apple bills of materials (`parser/archive/bomstore.py`)

Descriptions are left out.  An exception ends the reading here; in the code what was read before it is kept.
-/

namespace Hachoir.Formats.Bom
open Hachoir Hachoir.Stream Hachoir.Field Hachoir.Formats

/-- `BomTrailerEntry`, bomstore.py:18-27. -/
structure Entry where
  offset : Nat
  size : Nat
  deriving DecidableEq, Repr

def entry : Rd Entry := do
  let o ← Rd.int 4 .big
  let n ← Rd.int 4 .big
  pure ⟨o, n⟩

/-- `BomTrailer`, bomstore.py:30-45. -/
structure Trailer where
  spaces : Nat
  entries : List Entry
  blank : Bytes
  trail : List Entry
  deriving DecidableEq, Repr

/-- bomstore.py:38: the size of the blank entries is negative if there are too few. -/
def blanks (spaces objects : Nat) : Rd Bytes :=
  if spaces ≤ objects then Rd.fail .field else Rd.raw (8 * (spaces - objects - 1))

def trailer (objects : Nat) : Rd Trailer := do
  let n ← Rd.int 4 .big
  let es ← Rd.times entry (objects + 1)
  let b ← blanks n objects
  let k ← Rd.int 4 .big
  let ts ← Rd.times entry k
  pure ⟨n, es, b, ts⟩

/-- bomstore.py:87-91 and 93-95: what an entry points at. -/
def content (e : Entry) : Rd Bytes := do
  Rd.jump e.offset
  Rd.raw e.size

structure Store where
  version : Nat
  objects : Nat
  trailerOffset : Nat
  trailerSize : Nat
  headerOffset : Nat
  headerSize : Nat
  first : Bytes
  trailer : Trailer
  header : Bytes
  contents : List Bytes
  trails : List Bytes
  deriving DecidableEq, Repr

/-- bomstore.py:88-89 -/
def used (es : List Entry) : List Entry := es.filter fun e => e.size ≠ 0

/-- `BomFile.createFields`, bomstore.py:70-95. -/
def store : Rd Store := do
  let _ ← Rd.raw 8
  let v ← Rd.int 4 .big
  let n ← Rd.int 4 .big
  let t ← Rd.int 4 .big
  let ts ← Rd.int 4 .big
  let h ← Rd.int 4 .big
  let hs ← Rd.int 4 .big
  let f ← Rd.raw 480
  let _ ← Rd.jump t
  let tr ← trailer n
  let _ ← Rd.jump h
  let hd ← Rd.raw hs
  let cs ← Rd.each content (used tr.entries)
  let ks ← Rd.each content tr.trail
  pure ⟨v, n, t, ts, h, hs, f, tr, hd, cs, ks⟩

end Hachoir.Formats.Bom
