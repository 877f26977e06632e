import Verif.Archive.Huffman

/-!
# Blocks of bzip2 archives

Model of /repo/hachoir/parser/archive/bzip2_parser.py as functions of the stream.

Simplifications: the fields are not kept, only their addresses, values and what their
descriptions tell.  An exception inside `createFields` is the result here; in hachoir the field
set stops there.  Loops have a step bound (`fuel`); every step reads at least one bit, and
`bzip2Stream` is started with more steps than the stream has bits.
-/

set_option linter.unusedVariables false

namespace Hachoir.Archive
open Hachoir Hachoir.Stream

/-- The value of a field of some bits (`Bit`, `Bits`, `UInt32`); `Bzip2Parser.endian` is
BIG_ENDIAN. -/
def readAt (s : InputStream) (addr size : Nat) : Except PyErr Nat := readBits s addr size .big

/-- `ZeroTerminatedNumber`, bzip2_parser.py:36-57: the address behind it and the value. -/
def zeroTerminated (s : InputStream) : Nat → Nat → Nat → Except PyErr (Nat × Nat)
  | 0, _, _ => .error .endless
  | fuel + 1, addr, value =>
    match readAt s addr 1 with
    | .error e => .error e
    | .ok bit => if bit = 0 then .ok (addr + 1, value) else zeroTerminated s fuel (addr + 1) (value + 1)

/-- `move_to_front`, bzip2_parser.py:60-61. -/
def moveToFront (seq : List Nat) (index : Nat) : List Nat :=
  (seq.drop index).take 1 ++ seq.take index ++ seq.drop (index + 1)

/-- The values of bits one behind the other: `GenericVector` of `Bit`
(bzip2_parser.py:130) and `Bzip2Bitmap` (64-73). -/
def readFlags (s : InputStream) : Nat → Nat → Except PyErr (List Bool)
  | 0, _ => .ok []
  | n + 1, addr =>
    match readAt s addr 1 with
    | .error e => .error e
    | .ok bit =>
      match readFlags s n (addr + 1) with
      | .error e => .error e
      | .ok l => .ok ((bit ≠ 0) :: l)

/-- The numbers of the flags that are set, bzip2_parser.py:138-140. -/
def flagged : Nat → List Bool → List Nat
  | _, [] => []
  | i, used :: l => if used then i :: flagged (i + 1) l else flagged (i + 1) l

/-- The loop over the bitmaps, bzip2_parser.py:131-140: the address behind them and
`symbols_used`. -/
def readUsed (s : InputStream) : List Bool → Nat → Nat → Except PyErr (Nat × List Nat)
  | [], _, addr => .ok (addr, [])
  | used :: l, index, addr =>
    if used then
      match readFlags s 16 addr with
      | .error e => .error e
      | .ok flags =>
        match readUsed s l (index + 1) (addr + 16) with
        | .error e => .error e
        | .ok (addr, symbols) => .ok (addr, flagged (index * 16) flags ++ symbols)
    else readUsed s l (index + 1) addr

/-- `Bzip2Selectors`, bzip2_parser.py:106-119: the address behind them and the values
`realvalue`; `groups[0]` of no groups is an IndexError. -/
def readSelectors (s : InputStream) (fuel : Nat) : Nat → List Nat → Nat → Except PyErr (Nat × List Nat)
  | 0, _, addr => .ok (addr, [])
  | n + 1, groups, addr =>
    match zeroTerminated s fuel addr 0 with
    | .error e => .error e
    | .ok (addr, value) =>
      match moveToFront groups value with
      | [] => .error .index
      | real :: groups =>
        match readSelectors s fuel n (real :: groups) addr with
        | .error e => .error e
        | .ok (addr, l) => .ok (addr, real :: l)

/-- The loop for one symbol, bzip2_parser.py:87-99: the address behind it and the length. -/
def readLength (s : InputStream) : Nat → Nat → Int → Except PyErr (Nat × Int)
  | 0, _, _ => .error .endless
  | fuel + 1, addr, length =>
    match readAt s addr 1 with
    | .error e => .error e
    | .ok change =>
      if change = 0 then .ok (addr + 1, length)
      else
        match readAt s (addr + 1) 1 with
        | .error e => .error e
        | .ok decrement => readLength s fuel (addr + 2) (if decrement ≠ 0 then length - 1 else length + 1)

/-- The loop over the symbols, bzip2_parser.py:86-100. -/
def readLengths (s : InputStream) (fuel : Nat) : Nat → Nat → Int → Except PyErr (Nat × List Int)
  | 0, addr, _ => .ok (addr, [])
  | n + 1, addr, length =>
    match readLength s fuel addr length with
    | .error e => .error e
    | .ok (addr, length) =>
      match readLengths s fuel n addr length with
      | .error e => .error e
      | .ok (addr, l) => .ok (addr, length :: l)

/-- `Bzip2Lengths`, bzip2_parser.py:76-103: the address behind it and the tree.  Negative
lengths, which index the lists of `build_tree` from the end, are an IndexError here. -/
def readTable (s : InputStream) (fuel symbols addr : Nat) : Except PyErr (Nat × Table) :=
  match readAt s addr 5 with
  | .error e => .error e
  | .ok start =>
    match readLengths s fuel symbols (addr + 5) (start : Int) with
    | .error e => .error e
    | .ok (addr, lengths) =>
      if lengths.all (fun l => decide (0 ≤ l)) then
        match buildTree (lengths.map Int.toNat) with
        | .error e => .error e
        | .ok tree => .ok (addr, tree)
      else .error .index

/-- The loop over the tables, bzip2_parser.py:145-149. -/
def readTables (s : InputStream) (fuel symbols : Nat) : Nat → Nat → Except PyErr (Nat × List Table)
  | 0, addr => .ok (addr, [])
  | n + 1, addr =>
    match readTable s fuel symbols addr with
    | .error e => .error e
    | .ok (addr, tree) =>
      match readTables s fuel symbols n addr with
      | .error e => .error e
      | .ok (addr, l) => .ok (addr, tree :: l)

/-- What the description of a code tells, bzip2_parser.py:164-165, 167-168 and 174-175: a run
code for the symbol in front with the run so far, a literal, the end of the block. -/
inductive BzEvent where
  | run (symbol total : Nat)
  | literal (symbol : Nat)
  | stop
  deriving DecidableEq, Repr

/-- The tree for a code, bzip2_parser.py:154-157: a new one for every 50 codes.  A selector
that does not exist is a MissingField, a table that does not exist an IndexError. -/
def selectTree (trees : List Table) (selectors : List Nat) (counter : Nat) (tree : Table) : Except PyErr Table :=
  if counter % 50 = 0 then
    match selectors[counter / 50]? with
    | none => .error .missingField
    | some id =>
      match trees[id]? with
      | none => .error .index
      | some tree => .ok tree
  else .ok tree

/-- The loop over the codes, bzip2_parser.py:150-181: the address behind the block and the
descriptions.  `symbols_used[0]` of no symbols is an IndexError. -/
def readCodeLoop (s : InputStream) (trees : List Table) (selectors : List Nat) :
    Nat → Nat → Nat → Table → List Nat → Nat → Nat → Except PyErr (Nat × List BzEvent)
  | 0, _, _, _, _, _, _ => .error .endless
  | fuel + 1, addr, counter, tree, symbols, run, power =>
    match selectTree trees selectors counter tree with
    | .error e => .error e
    | .ok tree =>
    match huffmanCode s .big tree addr with
    | .error e => .error e
    | .ok (size, _, value) =>
    if value ≤ 1 then
      let power := if run = 0 then 1 else power
      let run := run + (value + 1) * power
      match symbols with
      | [] => .error .index
      | front :: others =>
        match readCodeLoop s trees selectors fuel (addr + size) (counter + 1) tree (front :: others) run (power <<< 1) with
        | .error e => .error e
        | .ok (addr, l) => .ok (addr, .run front run :: l)
    else if value = symbols.length + 1 then .ok (addr + size, [.stop])
    else
      match moveToFront symbols (value - 1) with
      | [] => .error .index
      | front :: others =>
        match readCodeLoop s trees selectors fuel (addr + size) (counter + 1) tree (front :: others) 0 power with
        | .error e => .error e
        | .ok (addr, l) => .ok (addr, .literal front :: l)

/-- The values of a block. -/
structure BzBlock where
  crc : Nat
  randomized : Nat
  pointer : Nat
  symbols : List Nat
  selectors : List Nat
  trees : List Table
  events : List BzEvent
  deriving DecidableEq, Repr

/-- Everything behind the header of a block, bzip2_parser.py:130-181. -/
def bzip2Body (s : InputStream) (fuel addr : Nat) (crc randomized pointer : Nat) : Except PyErr (Nat × BzBlock) :=
  match readFlags s 16 addr with
  | .error e => .error e
  | .ok map =>
  match readUsed s map 0 (addr + 16) with
  | .error e => .error e
  | .ok (addr, symbols) =>
  match readAt s addr 3 with
  | .error e => .error e
  | .ok groups =>
  match readAt s (addr + 3) 15 with
  | .error e => .error e
  | .ok nb =>
  match readSelectors s fuel nb (List.range groups) (addr + 18) with
  | .error e => .error e
  | .ok (addr, selectors) =>
  match readTables s fuel (symbols.length + 2) groups addr with
  | .error e => .error e
  | .ok (addr, trees) =>
  match readCodeLoop s trees selectors fuel addr 0 [] symbols 0 1 with
  | .error e => .error e
  | .ok (addr, events) => .ok (addr, ⟨crc, randomized, pointer, symbols, selectors, trees, events⟩)

/-- `Bzip2Block`, bzip2_parser.py:122-181: the address behind it and the values. -/
def bzip2Block (s : InputStream) (fuel addr : Nat) : Except PyErr (Nat × BzBlock) :=
  match readAt s addr 48 with
  | .error e => .error e
  | .ok header =>
  if header ≠ 0x314159265359 then .error .parser
  else
  match readAt s (addr + 48) 32 with
  | .error e => .error e
  | .ok crc =>
  match readAt s (addr + 80) 1 with
  | .error e => .error e
  | .ok randomized =>
  match readAt s (addr + 81) 24 with
  | .error e => .error e
  | .ok pointer => bzip2Body s fuel (addr + 105) crc randomized pointer

/-- The loop of `Bzip2Stream`, bzip2_parser.py:188-203: the address behind the padding, the
blocks and the checksum.  `start` is the address of the field set. -/
def bzip2Stream (s : InputStream) (start fuel2 : Nat) : Nat → Nat → Except PyErr (Nat × List BzBlock × Nat)
  | 0, _ => .error .endless
  | fuel + 1, addr =>
    match readAt s addr 48 with
    | .error e => .error e
    | .ok marker =>
      if marker = 0x314159265359 then
        match bzip2Block s fuel2 addr with
        | .error e => .error e
        | .ok (addr, block) =>
          match bzip2Stream s start fuel2 fuel addr with
          | .error e => .error e
          | .ok (addr, l, crc) => .ok (addr, block :: l, crc)
      else if marker = 0x177245385090 then
        match readAt s (addr + 48) 32 with
        | .error e => .error e
        | .ok crc =>
          match Tools.paddingSize (addr + 80 - start) 8 with
          | .error e => .error e
          | .ok padding => .ok (addr + 80 + padding.toNat, [], crc)
      else .error .parser

/-- The field "file" of `Bzip2Parser`, bzip2_parser.py:228-247, of a file of the given size
in bytes. -/
def bzip2File (s : InputStream) (size : Nat) : Except PyErr (Nat × List BzBlock × Nat) :=
  bzip2Stream s 32 (8 * size + 1) (8 * size + 1) 32

end Hachoir.Archive
