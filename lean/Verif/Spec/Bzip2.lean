import Verif.Spec.Huffman

/-!
# Specification: the format of bzip2

A block is the text that the Burrows-Wheeler transform made, coded with move-to-front, run
lengths of zeros in bijective base two, and Huffman codes out of several tables that are
changed every 50 codes.
-/

namespace Spec.Bzip2
open Spec

/-- The list with an element moved to the front. -/
def toFront (l : List Nat) (x : Nat) : List Nat := x :: l.erase x

/-- Move-to-front coding: the places where the elements are found. -/
def mtf : List Nat → List Nat → List Nat
  | _, [] => []
  | l, x :: text => l.idxOf x :: mtf (toFront l x) text

/-- The digits of a number in bijective base two, lowest first: 0 for one, 1 for two. -/
def digits (n : Nat) : List Nat :=
  if n = 0 then []
  else if n % 2 = 1 then 0 :: digits (n / 2)
  else 1 :: digits (n / 2 - 1)

/-- Run length coding: `zeros` zeros, then the places; other places are moved by one. -/
def runs : Nat → List Nat → List Nat
  | zeros, [] => digits zeros
  | zeros, 0 :: l => runs (zeros + 1) l
  | zeros, (i + 1) :: l => digits zeros ++ (i + 2) :: runs 0 l

/-- The used symbols in order. -/
def alphabet (used : Nat → Bool) : List Nat := (List.range 256).filter used

/-- The codes of a text: move-to-front, runs, and the end of the block. -/
def codes (used : Nat → Bool) (text : List Nat) : List Nat :=
  runs 0 (mtf (alphabet used) text) ++ [(alphabet used).length + 1]

/-- Whether one of sixteen symbols is used. -/
def groupUsed (used : Nat → Bool) (i : Nat) : Bool := (List.range 16).any fun j => used (16 * i + j)

/-- Which of sixteen symbols are used. -/
def groupBits (used : Nat → Bool) (i : Nat) : List Bool := (List.range 16).map fun j => used (16 * i + j)

/-- The bitmaps of the used symbols: which groups of sixteen, and which in those. -/
def usedBits (used : Nat → Bool) : List Bool :=
  (List.range 16).map (groupUsed used) ++ ((List.range 16).filter (groupUsed used)).flatMap (groupBits used)

/-- A number of ones and a zero. -/
def unary (n : Nat) : List Bool := List.replicate n true ++ [false]

/-- A table of code lengths: the first length, and for each symbol the steps (`true`: down)
that lead to its length from that of the symbol before. -/
structure LengthTable where
  start : Nat
  steps : List (List Bool)

def walk : Int → List Bool → Int
  | n, [] => n
  | n, down :: l => walk (if down then n - 1 else n + 1) l

def walks : Int → List (List Bool) → List Int
  | _, [] => []
  | n, steps :: l => walk n steps :: walks (walk n steps) l

/-- The code lengths. -/
def LengthTable.lengths (t : LengthTable) : List Nat := (walks t.start t.steps).map Int.toNat

/-- The bits of the steps of a symbol. -/
def stepBits (steps : List Bool) : List Bool := (steps.flatMap fun down => [true, down]) ++ [false]

def LengthTable.bits (t : LengthTable) : List Bool := toBitsMSB 5 t.start ++ t.steps.flatMap stepBits

/-- What a block is made of. -/
structure Block where
  crc : Nat
  randomized : Bool
  pointer : Nat
  used : Nat → Bool
  selectors : List Nat
  tables : List LengthTable
  text : List Nat

/-- The table for the code with a number. -/
def Block.table (b : Block) (k : Nat) : List Nat :=
  ((b.selectors[k / 50]?).bind fun i => (b.tables[i]?).map LengthTable.lengths).getD []

/-- The code words. -/
def Block.words (b : Block) : Nat → List Nat → List Bool
  | _, [] => []
  | k, c :: l => codeWord (b.table k) c ++ b.words (k + 1) l

def Block.bits (b : Block) : List Bool :=
  toBitsMSB 48 0x314159265359 ++ toBitsMSB 32 b.crc ++ [b.randomized] ++ toBitsMSB 24 b.pointer ++
  usedBits b.used ++ toBitsMSB 3 b.tables.length ++ toBitsMSB 15 b.selectors.length ++
  (mtf (List.range b.tables.length) b.selectors).flatMap unary ++
  b.tables.flatMap LengthTable.bits ++ b.words 0 (codes b.used b.text)

/-- The parts fit. -/
structure Block.Valid (b : Block) : Prop where
  crc : b.crc < 2 ^ 32
  pointer : b.pointer < 2 ^ 24
  tables : b.tables.length < 8
  selectors : b.selectors.length < 2 ^ 15
  /-- Selectors name tables. -/
  selector : ∀ i ∈ b.selectors, i < b.tables.length
  /-- There is a selector for every 50 codes. -/
  enough : (codes b.used b.text).length ≤ 50 * b.selectors.length
  /-- Tables have a length for every symbol of the alphabet, the two run codes less one, and the end. -/
  sizes : ∀ t ∈ b.tables, t.steps.length = (alphabet b.used).length + 2
  starts : ∀ t ∈ b.tables, t.start < 32
  /-- Lengths are positive, and such that there is a code. -/
  positive : ∀ t ∈ b.tables, ∀ l ∈ walks t.start t.steps, 0 < l ∧ l ≤ 257
  kraft : ∀ t ∈ b.tables, Kraft t.lengths
  /-- The text is made of used symbols, of which there is at least one. -/
  text : ∀ x ∈ b.text, x < 256 ∧ b.used x = true
  nonempty : alphabet b.used ≠ []

/-- A stream: blocks, a mark, a checksum and padding. -/
def fileBits (blocks : List Block) (crc : Nat) : List Bool :=
  blocks.flatMap Block.bits ++ toBitsMSB 48 0x177245385090 ++ toBitsMSB 32 crc

end Spec.Bzip2
