import Verif.Formats.Asf

/-!
# Fonts of LucasArts games (`parser/game/laf.py`)
-/

namespace Hachoir.Formats.Laf
open Hachoir Hachoir.Stream Hachoir.Field Hachoir.Formats

/-- `GenericVector`, /repo/hachoir/field/vector.py:6-26: an empty one is refused. -/
def vector {α : Type} (r : Rd α) (n : Nat) : Rd (List α) := if n = 0 then Rd.fail .parser else Rd.times r n

/-- `CharInfo`, laf.py:38-48. -/
structure Info where
  offset : Nat
  logical : Nat
  unknown : List Nat
  width : Nat
  height : Nat
  deriving DecidableEq, Repr

def info : Rd Info := do
  let o ← Rd.int 4 .little
  let l ← Rd.int 1 .little
  let u ← Asf.numbers [1, 1, 1]
  let w ← Rd.int 4 .little
  let h ← Rd.int 4 .little
  pure ⟨o, l, u, w, h⟩

/-- `CharBitmap`, laf.py:25-35.  A set without fields is refused (/repo/hachoir/field/generic_field_set.py:185-216). -/
def bitmap (c : Info) : Rd (List (List Nat)) :=
  if c.height = 0 then Rd.fail .stopIteration else Rd.times (vector (Rd.int 1 .little) c.width) c.height

structure Font where
  size : Nat
  maxWidth : Nat
  minWidth : Nat
  unknown : List Nat
  first : Nat
  last : Nat
  codes : List Nat
  chars : List Info
  bitmaps : List (List (List Nat))
  deriving DecidableEq, Repr

/-- `LafFile.createFields`, laf.py:75-98, without what follows the bitmaps. -/
def font : Rd Font := do
  let n ← Rd.int 4 .little
  let s ← Rd.int 4 .little
  let a ← Rd.int 4 .little
  let b ← Rd.int 4 .little
  let u ← Asf.numbers [4, 4]
  let f ← Rd.int 4 .little
  let l ← Rd.int 4 .little
  let cs ← vector (Rd.int 2 .little) n
  let is ← vector info n
  let bs ← Rd.each bitmap is
  pure ⟨s, a, b, u, f, l, cs, is, bs⟩

/-- `validate`, laf.py:62-73. -/
def valid (f : Font) : Bool :=
  f.chars.length == 256 && f.first == 0 && f.last == 255 && f.codes.head? == some 0 && (f.chars.head?.map (·.offset)) == some 0

end Hachoir.Formats.Laf
