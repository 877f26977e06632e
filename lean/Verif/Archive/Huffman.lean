import Verif.Stream.Input
import Verif.Core.Tools

/-!
# Huffman tables and back-references

Model of /repo/hachoir/parser/archive/zlib.py:18-73, also used by lzx.py.
-/

namespace Hachoir.Archive
open Hachoir Hachoir.Stream

/-- `extend_data`, /repo/hachoir/parser/archive/zlib.py:18-24, as function of the contents
of the bytearray; length and offset are not negative. -/
def extendData (data : Bytes) (length offset : Nat) : Except PyErr Bytes :=
  if offset ≤ length then
    match Tools.alignValue length offset with
    | .error e => .error e
    | .ok n =>
      let newData := (List.replicate (n / (offset : Int)).toNat
        (pySlice data (-(offset : Int)) data.length)).flatten
      .ok (data ++ newData.take length)
  else .ok (data ++ pySlice data (-(offset : Int)) (-(offset : Int) + length))

/-- The dictionary of `build_tree`: (code size, code) to symbol.  A list, the entries added
last first, so the first entry found is the one that a Python dictionary keeps. -/
abbrev Table := List ((Nat × Nat) × Nat)

/-- `tree[key]`. -/
def Table.get (t : Table) (key : Nat × Nat) : Option Nat := (t.find? (fun p => p.1 == key)).map (·.2)

/-- The counting loop, zlib.py:35-37. -/
def countLengths : List Nat → List Nat → List Nat
  | [], counts => counts
  | i :: l, counts => countLengths l (if i ≠ 0 then counts.modify i (· + 1) else counts)

/-- The loop over the lengths, zlib.py:38-40; `next` has the codes so far, `code` is
the last one. -/
def firstCodes : List Nat → Nat → List Nat
  | [], _ => []
  | count :: counts, code =>
    let code := (code + count) <<< 1
    code :: firstCodes counts code

/-- The loop over the symbols, zlib.py:41-44. -/
def assignCodes : List Nat → Nat → List Nat → Table → Table
  | [], _, _, tree => tree
  | ln :: l, i, next, tree =>
    if ln ≠ 0 then assignCodes l (i + 1) (next.modify ln (· + 1)) (((ln, next.getD ln 0), i) :: tree)
    else assignCodes l (i + 1) next tree

/-- `build_tree`, zlib.py:27-45.  `max` of an empty list is a ValueError.  The loop
`range(1, len(bit_counts))` reads `bit_counts[i - 1]`, all the counts but the last. -/
def buildTree (lengths : List Nat) : Except PyErr Table :=
  match lengths.max? with
  | none => .error .value
  | some m =>
    let counts := countLengths lengths (List.replicate (m + 1) 0)
    let next := 0 :: firstCodes counts.dropLast 0
    .ok (assignCodes lengths 0 next [])

/-- The loop of `HuffmanCode.__init__`, zlib.py:59-67; `left` is 257 minus the size. Returns
the size of the code, the code and the symbol (KeyError cannot happen). -/
def huffmanLoop (s : InputStream) (endian : Endian) (tree : Table) (addr : Nat) :
    Nat → Nat → Nat → Except PyErr (Nat × Nat × Nat)
  | left, size, value =>
    match tree.get (size, value) with
    | some sym => .ok (size, value, sym)
    | none =>
      match left with
      | 0 => .error .parser
      | left + 1 =>
        match readBits s addr 1 endian with
        | .error e => .error e
        | .ok bit => huffmanLoop s endian tree (addr + 1) left (size + 1) ((value <<< 1) + bit)

/-- `HuffmanCode`, zlib.py:48-72, of the field at an address. -/
def huffmanCode (s : InputStream) (endian : Endian) (tree : Table) (addr : Nat) :
    Except PyErr (Nat × Nat × Nat) :=
  huffmanLoop s endian tree addr 257 0 0

end Hachoir.Archive
