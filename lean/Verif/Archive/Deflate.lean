import Verif.Archive.Huffman

/-!
# Inflating

Model of `DeflateBlock`, `DeflateData` and `zlib_inflate`,
/repo/hachoir/parser/archive/zlib.py:76-335, as functions of the stream.

Simplifications: the fields are not kept, only their addresses, values and effects.  An exception
inside `createFields` is the result here; in hachoir the field set stops there, and
`uncompressed_data` does not exist.  Loops have a step bound (`fuel`); `inflate` starts them
with more steps than the stream has bits, and every step reads at least one bit.
-/

namespace Hachoir.Archive
open Hachoir Hachoir.Stream

/-- `LENGTH_SYMBOLS`, zlib.py:78-107: symbol, minimum, maximum, extra bits. -/
def lengthSymbols : List (Nat × Nat × Nat × Nat) :=
  [(257, 3, 3, 0), (258, 4, 4, 0), (259, 5, 5, 0), (260, 6, 6, 0), (261, 7, 7, 0), (262, 8, 8, 0),
   (263, 9, 9, 0), (264, 10, 10, 0), (265, 11, 12, 1), (266, 13, 14, 1), (267, 15, 16, 1), (268, 17, 18, 1),
   (269, 19, 22, 2), (270, 23, 26, 2), (271, 27, 30, 2), (272, 31, 34, 2), (273, 35, 42, 3), (274, 43, 50, 3),
   (275, 51, 58, 3), (276, 59, 66, 3), (277, 67, 82, 4), (278, 83, 98, 4), (279, 99, 114, 4),
   (280, 115, 130, 4), (281, 131, 162, 5), (282, 163, 194, 5), (283, 195, 226, 5), (284, 227, 257, 5),
   (285, 258, 258, 0)]

/-- `DISTANCE_SYMBOLS`, zlib.py:108-138. -/
def distanceSymbols : List (Nat × Nat × Nat × Nat) :=
  [(0, 1, 1, 0), (1, 2, 2, 0), (2, 3, 3, 0), (3, 4, 4, 0), (4, 5, 6, 1), (5, 7, 8, 1), (6, 9, 12, 2),
   (7, 13, 16, 2), (8, 17, 24, 3), (9, 25, 32, 3), (10, 33, 48, 4), (11, 49, 64, 4), (12, 65, 96, 5),
   (13, 97, 128, 5), (14, 129, 192, 6), (15, 193, 256, 6), (16, 257, 384, 7), (17, 385, 512, 7),
   (18, 513, 768, 8), (19, 769, 1024, 8), (20, 1025, 1536, 9), (21, 1537, 2048, 9), (22, 2049, 3072, 10),
   (23, 3073, 4096, 10), (24, 4097, 6144, 11), (25, 6145, 8192, 11), (26, 8193, 12288, 12),
   (27, 12289, 16384, 12), (28, 16385, 24576, 13), (29, 24577, 32768, 13)]

/-- `CODE_LENGTH_ORDER`, zlib.py:139-140. -/
def codeLengthOrder : List Nat := [16, 17, 18, 0, 8, 7, 9, 6, 10, 5, 11, 4, 12, 3, 13, 2, 14, 1, 15]

/-- The dictionary of the repeat codes, zlib.py:204-206. -/
def repeatSymbols : List (Nat × Nat × Nat × Nat) := [(16, 3, 6, 2), (17, 3, 10, 3), (18, 11, 138, 7)]

/-- `table[value]`, a KeyError for a symbol that it does not have. -/
def lookup (table : List (Nat × Nat × Nat × Nat)) (value : Nat) : Except PyErr (Nat × Nat × Nat) :=
  match table.find? (fun p => p.1 == value) with
  | none => .error .key
  | some p => .ok p.2

/-- Base value plus extra bits, zlib.py:244-260 and 263-278: the value and the address behind
the extra bits. -/
def withExtra (s : InputStream) (info : Nat × Nat × Nat) (addr : Nat) : Except PyErr (Nat × Nat) :=
  if info.2.2 = 0 then .ok (info.1, addr)
  else
    match readBits s addr info.2.2 .little with
    | .error e => .error e
    | .ok v => .ok (v + info.1, addr + info.2.2)

/-- The code lengths of the code length alphabet, zlib.py:183-188. -/
def codeLengthCodes (s : InputStream) : List Nat → Nat → List Nat → Except PyErr (Nat × List Nat)
  | [], addr, lengths => .ok (addr, lengths)
  | i :: order, addr, lengths =>
    match readBits s addr 3 .little with
    | .error e => .error e
    | .ok v => codeLengthCodes s order (addr + 3) (lengths.set i v)

/-- The loop that reads one list of code lengths, zlib.py:196-223.  `prev` is `prev_value`, unbound
at first. Returns the address behind, `prev_value` and the lengths. -/
def codeLengths (s : InputStream) (tree : Table) (numcodes : Nat) :
    Nat → Nat → Option Nat → List Nat → Except PyErr (Nat × Option Nat × List Nat)
  | 0, _, _, _ => .error .endless
  | fuel + 1, addr, prev, lengths =>
    if lengths.length < numcodes then
      match huffmanCode s .little tree addr with
      | .error e => .error e
      | .ok (size, _, value) =>
        if value < 16 then
          codeLengths s tree numcodes fuel (addr + size) (some value) (lengths ++ [value])
        else
          match lookup repeatSymbols value with
          | .error e => .error e
          | .ok info =>
            match (if value = 16 then prev else some 0) with
            | none => .error .unbound
            | some repvalue =>
              match readBits s (addr + size) info.2.2 .little with
              | .error e => .error e
              | .ok extra =>
                codeLengths s tree numcodes fuel (addr + size + info.2.2) prev
                  (lengths ++ List.replicate (extra + info.1) repvalue)
    else .ok (addr, prev, lengths)

/-- The tables of fixed Huffman codes, zlib.py:165-177. -/
def fixedTrees : Table × Table :=
  ((List.range 144).map (fun i => ((8, i + 48), i)) ++
     (List.range 112).map (fun i => ((9, (i + 144) + 256), i + 144)) ++
     (List.range 24).map (fun i => ((7, (i + 256) - 256), i + 256)) ++
     (List.range 8).map (fun i => ((8, (i + 280) - 88), i + 280)),
   (List.range 32).map (fun i => ((5, i), i)))

/-- The tables of a block with dynamic Huffman codes and the address behind them,
zlib.py:178-225. -/
def dynamicTrees (s : InputStream) (fuel addr : Nat) : Except PyErr (Nat × Table × Table) :=
  match readBits s addr 5 .little with
  | .error e => .error e
  | .ok numLength =>
  match readBits s (addr + 5) 5 .little with
  | .error e => .error e
  | .ok numDistance =>
  match readBits s (addr + 10) 4 .little with
  | .error e => .error e
  | .ok numCode =>
  match codeLengthCodes s (codeLengthOrder.take (numCode + 4)) (addr + 14) (List.replicate 19 0) with
  | .error e => .error e
  | .ok (addr, lengths) =>
  match buildTree lengths with
  | .error e => .error e
  | .ok tree =>
  match codeLengths s tree (numLength + 257) fuel addr none [] with
  | .error e => .error e
  | .ok (addr, prev, lengths1) =>
  match codeLengths s tree (numDistance + 1) fuel addr prev [] with
  | .error e => .error e
  | .ok (addr, _, lengths2) =>
  match buildTree lengths1 with
  | .error e => .error e
  | .ok tree1 =>
  match buildTree lengths2 with
  | .error e => .error e
  | .ok tree2 => .ok (addr, tree1, tree2)

/-- The loop over the codes of a block, zlib.py:228-279: the address behind the block and
`uncomp_data`. -/
def blockData (s : InputStream) (lengthTree distanceTree : Table) :
    Nat → Nat → Bytes → Except PyErr (Nat × Bytes)
  | 0, _, _ => .error .endless
  | fuel + 1, addr, data =>
    match huffmanCode s .little lengthTree addr with
    | .error e => .error e
    | .ok (size, _, value) =>
      if value < 256 then blockData s lengthTree distanceTree fuel (addr + size) (data ++ [UInt8.ofNat value])
      else if value = 256 then .ok (addr + size, data)
      else
        match lookup lengthSymbols value with
        | .error e => .error e
        | .ok info =>
        match withExtra s info (addr + size) with
        | .error e => .error e
        | .ok (length, addr) =>
        match huffmanCode s .little distanceTree addr with
        | .error e => .error e
        | .ok (size, _, value) =>
        match lookup distanceSymbols value with
        | .error e => .error e
        | .ok info =>
        match withExtra s info (addr + size) with
        | .error e => .error e
        | .ok (distance, addr) =>
        match extendData data length distance with
        | .error e => .error e
        | .ok data => blockData s lengthTree distanceTree fuel addr data

/-- A stored block, zlib.py:150-163: only the address behind it.  The bytes of the block are
a field, but `uncomp_data` is not changed. -/
def storedBlock (s : InputStream) (addr : Nat) : Except PyErr Nat :=
  match Tools.paddingSize addr 8 with
  | .error e => .error e
  | .ok padding =>
    let addr := addr + padding.toNat
    match readBits s addr 16 .little with
    | .error e => .error e
    | .ok len =>
      match readBits s (addr + 16) 16 .little with
      | .error e => .error e
      | .ok nlen =>
        -- `~nlen & 0xFFFF` of a 16 bit number
        if len ≠ 65535 - nlen then .error .parser
        else .ok (addr + 32 + 8 * len)

/-- `DeflateBlock`, zlib.py:142-279: the value of "final", the address behind the block
and `uncomp_data`. -/
def deflateBlock (s : InputStream) (fuel addr : Nat) (data : Bytes) : Except PyErr (Nat × Nat × Bytes) :=
  match readBits s addr 1 .little with
  | .error e => .error e
  | .ok final =>
  match readBits s (addr + 1) 2 .little with
  | .error e => .error e
  | .ok ctype =>
    if ctype = 0 then
      match storedBlock s (addr + 3) with
      | .error e => .error e
      | .ok addr => .ok (final, addr, data)
    else if ctype = 1 then
      match blockData s fixedTrees.1 fixedTrees.2 fuel (addr + 3) data with
      | .error e => .error e
      | .ok (addr, data) => .ok (final, addr, data)
    else if ctype = 2 then
      match dynamicTrees s fuel (addr + 3) with
      | .error e => .error e
      | .ok (addr, tree1, tree2) =>
        match blockData s tree1 tree2 fuel addr data with
        | .error e => .error e
        | .ok (addr, data) => .ok (final, addr, data)
    else .error .parser

/-- The loop of `DeflateData.createFields`, zlib.py:286-294: the address behind the last block
and the data. `fuel` is for the blocks, `fuel2` for the loops inside. -/
def deflateBlocks (s : InputStream) (fuel2 : Nat) : Nat → Nat → Bytes → Except PyErr (Nat × Bytes)
  | 0, _, _ => .error .endless
  | fuel + 1, addr, data =>
    match deflateBlock s fuel2 addr data with
    | .error e => .error e
    | .ok (final, addr, data) =>
      if final = 0 then deflateBlocks s fuel2 fuel addr data
      else .ok (addr, data)

/-- `DeflateData` at an address: the address behind the padding and `uncompressed_data`,
zlib.py:282-299. -/
def deflateData (s : InputStream) (fuel addr : Nat) : Except PyErr (Nat × Bytes) :=
  match deflateBlocks s fuel fuel addr [] with
  | .error e => .error e
  | .ok (addr, data) =>
    match Tools.paddingSize addr 8 with
    | .error e => .error e
    | .ok padding => .ok (addr + padding.toNat, data)

/-- `zlib_inflate`, zlib.py:328-335; `raw` is `wbits < 0`.  The header of `ZlibData`
(316-325) is 16 bits, FDICT is bit 13, a dictionary checksum has 32 bits; `validate` is not
called.  In raw mode the field set has the size of the stream: bits left over need
`autofix`, which a set without parent looks up in itself without end (RecursionError, here
RuntimeError, its base class). -/
def zlibInflate (s : InputStream) (size : Nat) (raw : Bool) : Except PyErr Bytes :=
  if raw then
    match deflateData s (size + 1) 0 with
    | .error e => .error e
    | .ok (addr, data) => if addr ≠ size then .error .runtime else .ok data
  else
    match readBits s 13 1 .little with
    | .error e => .error e
    | .ok fdict =>
      match deflateData s (size + 1) (if fdict ≠ 0 then 48 else 16) with
      | .error e => .error e
      | .ok (_, data) => .ok data

end Hachoir.Archive
