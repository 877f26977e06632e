import Verif.Archive.Deflate

/-!
# LZX

Model of /repo/hachoir/parser/archive/lzx.py, as functions of the stream.

Simplifications: the fields are not kept, only their addresses, values and effects.  An exception
inside `createFields` is the result here; in hachoir the field set stops there.  Padding fields
are only skipped (their values are not looked at).
-/

set_option linter.unusedVariables false

namespace Hachoir.Archive
open Hachoir Hachoir.Stream

/-- `LZXBlock.WINDOW_SIZE`, lzx.py:83-89: the number of position slots; a KeyError for other
window sizes. -/
def lzxSlots : Nat → Except PyErr Nat
  | 15 => .ok 30
  | 16 => .ok 32
  | 17 => .ok 34
  | 18 => .ok 36
  | 19 => .ok 38
  | 20 => .ok 42
  | 21 => .ok 50
  | _ => .error .key

/-- `LZXBlock.POSITION_SLOTS`, lzx.py:90-140: slot, first and last position, extra bits. -/
def positionSlots : List (Nat × Nat × Nat × Nat) :=
  [(0, 0, 0, 0), (1, 1, 1, 0), (2, 2, 2, 0), (3, 3, 3, 0), (4, 4, 5, 1), (5, 6, 7, 1), (6, 8, 11, 2),
   (7, 12, 15, 2), (8, 16, 23, 3), (9, 24, 31, 3), (10, 32, 47, 4), (11, 48, 63, 4), (12, 64, 95, 5),
   (13, 96, 127, 5), (14, 128, 191, 6), (15, 192, 255, 6), (16, 256, 383, 7), (17, 384, 511, 7),
   (18, 512, 767, 8), (19, 768, 1023, 8), (20, 1024, 1535, 9), (21, 1536, 2047, 9), (22, 2048, 3071, 10),
   (23, 3072, 4095, 10), (24, 4096, 6143, 11), (25, 6144, 8191, 11), (26, 8192, 12287, 12),
   (27, 12288, 16383, 12), (28, 16384, 24575, 13), (29, 24576, 32767, 13), (30, 32768, 49151, 14),
   (31, 49152, 65535, 14), (32, 65536, 98303, 15), (33, 98304, 131071, 15), (34, 131072, 196607, 16),
   (35, 196608, 262143, 16), (36, 262144, 393215, 17), (37, 393216, 524287, 17), (38, 524288, 655359, 17),
   (39, 655360, 786431, 17), (40, 786432, 917503, 17), (41, 917504, 1048575, 17), (42, 1048576, 1179647, 17),
   (43, 1179648, 1310719, 17), (44, 1310720, 1441791, 17), (45, 1441792, 1572863, 17),
   (46, 1572864, 1703935, 17), (47, 1703936, 1835007, 17), (48, 1835008, 1966079, 17),
   (49, 1966080, 2097151, 17)]

/-- `n` fields of `width` bits one after the other, lzx.py:26-29, 154-157. -/
def lzxNumbers (s : InputStream) (width : Nat) : Nat → Nat → Except PyErr (List Nat)
  | 0, _ => .ok []
  | n + 1, addr =>
    match readBits s addr width .middle with
    | .error e => .error e
    | .ok v =>
      match lzxNumbers s width n (addr + width) with
      | .error e => .error e
      | .ok l => .ok (v :: l)

/-- `(length - delta) % 17`. -/
def lzxDelta (length delta : Nat) : Nat := (((length : Int) - delta) % 17).toNat

/-- `lengths[i:i + n] = [v] * n`. -/
def lzxFill (lengths : List Nat) (i n v : Nat) : List Nat :=
  lengths.take i ++ List.replicate n v ++ lengths.drop (i + n)

/-- The loop of `LZXPreTreeEncodedTree.createFields`, lzx.py:35-79.  Every step increases `i`, so
`num` steps are enough. -/
def lzxTreeLoop (s : InputStream) (tree : Table) (num : Nat) :
    Nat → Nat → Nat → List Nat → Except PyErr (Nat × List Nat)
  | 0, i, addr, lengths => .ok (addr, lengths)
  | fuel + 1, i, addr, lengths =>
    if i < num then
      match huffmanCode s .middle tree addr with
      | .error e => .error e
      | .ok (size, _, value) =>
        let addr := addr + size
        if value ≤ 16 then
          lzxTreeLoop s tree num fuel (i + 1) addr (lengths.set i (lzxDelta (lengths.getD i 0) value))
        else if value = 17 then
          match readBits s addr 4 .middle with
          | .error e => .error e
          | .ok extra => lzxTreeLoop s tree num fuel (i + (4 + extra)) (addr + 4) (lzxFill lengths i (4 + extra) 0)
        else if value = 18 then
          match readBits s addr 5 .middle with
          | .error e => .error e
          | .ok extra => lzxTreeLoop s tree num fuel (i + (20 + extra)) (addr + 5) (lzxFill lengths i (20 + extra) 0)
        else
          match readBits s addr 1 .middle with
          | .error e => .error e
          | .ok extra =>
            let addr := addr + 1
            match huffmanCode s .middle tree addr with
            | .error e => .error e
            | .ok (size, _, value) =>
              if 16 < value then .error .assertion
              else
                lzxTreeLoop s tree num fuel (i + (4 + extra)) (addr + size)
                  (lzxFill lengths i (4 + extra) (lzxDelta (lengths.getD i 0) value))
    else .ok (addr, lengths)

/-- `LZXPreTreeEncodedTree`, lzx.py:19-79: `old` are the lengths kept at the root
(`hasattr(self.root, ...)`).  The address behind and the lengths. -/
def lzxTree (s : InputStream) (num : Nat) (old : Option (List Nat)) (addr : Nat) : Except PyErr (Nat × List Nat) :=
  match lzxNumbers s 4 20 addr with
  | .error e => .error e
  | .ok pre =>
    match buildTree pre with
    | .error e => .error e
    | .ok tree => lzxTreeLoop s tree num num 0 (addr + 80) (old.getD (List.replicate num 0))

/-- `r0`, `r1`, `r2`. -/
abbrev Recent := Nat × Nat × Nat

/-- The slots without extra bits, lzx.py:183-206: the position and the new recent positions. -/
def lzxRecent (first : Nat) (r : Recent) : Nat × Recent :=
  if first = 0 then (r.1, r)
  else if first = 1 then (r.2.1, (r.2.1, r.1, r.2.2))
  else if first = 2 then (r.2.2, (r.2.2, r.2.1, r.1))
  else (first - 2, (first - 2, r.1, r.2.1))

/-- The length of a match, lzx.py:210-223, and the address behind it. -/
def lzxLength (s : InputStream) (lengthTree : Table) (header addr : Nat) : Except PyErr (Nat × Nat) :=
  if header = 7 then
    match huffmanCode s .middle lengthTree addr with
    | .error e => .error e
    | .ok (size, _, value) => .ok (value + 9, addr + size)
  else .ok (header + 2, addr)

/-- The extra bits before the aligned code, lzx.py:233-240: position and address behind. -/
def lzxVerbatim (s : InputStream) (first extra addr : Nat) : Except PyErr (Nat × Nat) :=
  if 3 < extra then
    match readBits s addr (extra - 3) .middle with
    | .error e => .error e
    | .ok v => .ok (first - 2 + v * 8, addr + (extra - 3))
  else .ok (first - 2, addr)

/-- The position of a slot with extra bits, lzx.py:224-247, and the address behind it. -/
def lzxOffset (s : InputStream) (blockType : Nat) (alignedTree : Table) (first extra addr : Nat) :
    Except PyErr (Nat × Nat) :=
  if blockType = 1 ∨ extra < 3 then
    match readBits s addr extra .middle with
    | .error e => .error e
    | .ok v => .ok (v + first - 2, addr + extra)
  else
    match lzxVerbatim s first extra addr with
    | .error e => .error e
    | .ok (position, addr) =>
      match huffmanCode s .middle alignedTree addr with
      | .error e => .error e
      | .ok (size, _, value) => .ok (position + value, addr + size)

/-- The symbol of a match, lzx.py:180-250: its length and position, the recent positions and the
address behind it. -/
def lzxMatch (s : InputStream) (blockType : Nat) (alignedTree lengthTree : Table) (r : Recent) (symbol addr : Nat) :
    Except PyErr (Nat × Nat × Recent × Nat) :=
  match lookup positionSlots ((symbol - 256) / 8) with
  | .error e => .error e
  | .ok (first, _, extra) =>
    match lzxLength s lengthTree ((symbol - 256) % 8) addr with
    | .error e => .error e
    | .ok (length, addr) =>
      if extra = 0 then
        let p := lzxRecent first r
        .ok (length, p.1, p.2, addr)
      else
        match lzxOffset s blockType alignedTree first extra addr with
        | .error e => .error e
        | .ok (position, addr) => .ok (length, position, (position, r.1, r.2.1), addr)

/-- The padding at the end of a frame, lzx.py:168-171. -/
def lzxFramePad (total addr : Nat) : Except PyErr Nat :=
  if total % 32768 = 0 ∧ total ≠ 0 then
    match Tools.paddingSize addr 16 with
    | .error e => .error e
    | .ok padding => .ok (addr + padding.toNat)
  else .ok addr

/-- The loop over the codes of a block, lzx.py:166-252: the address behind, the window and the
recent positions.  Every step adds at least a byte, so `size` steps are enough. -/
def lzxCodes (s : InputStream) (blockType : Nat) (alignedTree mainTree lengthTree : Table) (curlen size : Nat) :
    Nat → Nat → Nat → Bytes → Recent → Except PyErr (Nat × Bytes × Recent)
  | 0, _, addr, window, r => .ok (addr, window, r)
  | fuel + 1, decoded, addr, window, r =>
    if decoded < size then
      match lzxFramePad (curlen + decoded) addr with
      | .error e => .error e
      | .ok addr =>
        match huffmanCode s .middle mainTree addr with
        | .error e => .error e
        | .ok (codeSize, _, symbol) =>
          let addr := addr + codeSize
          if symbol < 256 then
            lzxCodes s blockType alignedTree mainTree lengthTree curlen size fuel (decoded + 1) addr
              (window ++ [UInt8.ofNat symbol]) r
          else
            match lzxMatch s blockType alignedTree lengthTree r symbol addr with
            | .error e => .error e
            | .ok (length, position, r, addr) =>
              match extendData window length position with
              | .error e => .error e
              | .ok window =>
                lzxCodes s blockType alignedTree mainTree lengthTree curlen size fuel (decoded + length) addr window r
    else .ok (addr, window, r)

/-- What the parser keeps from block to block: `uncompressed_data`, `_lzx_window`, `r0`, `r1`, `r2`
and the tree lengths (`lzx_tree_lengths_...`). -/
structure LzxState where
  out : Bytes
  window : Bytes
  recent : Recent
  start : Option (List Nat)
  rest : Option (List Nat)
  lens : Option (List Nat)
  deriving DecidableEq, Repr

/-- The codes for the low bits of positions, lzx.py:153-157. -/
def lzxAligned (s : InputStream) (blockType addr : Nat) : Except PyErr (Table × Nat) :=
  if blockType = 2 then
    match lzxNumbers s 3 8 addr with
    | .error e => .error e
    | .ok l =>
      match buildTree l with
      | .error e => .error e
      | .ok t => .ok (t, addr + 24)
  else .ok ([], addr)

/-- A compressed block behind its header, lzx.py:152-252: the address behind it, the new state
(`out` is not changed yet) and `intel_started`. -/
def lzxCompressed (s : InputStream) (slots blockType size addr : Nat) (st : LzxState) :
    Except PyErr (Nat × LzxState × Bool) :=
  match lzxAligned s blockType addr with
  | .error e => .error e
  | .ok (alignedTree, addr) =>
  match lzxTree s 256 st.start addr with
  | .error e => .error e
  | .ok (addr, start) =>
  match lzxTree s (slots * 8) st.rest addr with
  | .error e => .error e
  | .ok (addr, rest) =>
  match buildTree (start ++ rest) with
  | .error e => .error e
  | .ok mainTree =>
  match lzxTree s 249 st.lens addr with
  | .error e => .error e
  | .ok (addr, lens) =>
  match buildTree lens with
  | .error e => .error e
  | .ok lengthTree =>
  match lzxCodes s blockType alignedTree mainTree lengthTree st.out.length size size 0 addr st.window st.recent with
  | .error e => .error e
  | .ok (addr, window, r) =>
    .ok (addr, { st with window := window, recent := r, start := some start, rest := some rest, lens := some lens },
      start.getD 0xE8 0 ≠ 0)

/-- An uncompressed block behind its header, lzx.py:253-270.  `RawBytes` refuses a size of 0. -/
def lzxStored (s : InputStream) (size addr : Nat) (st : LzxState) : Except PyErr (Nat × LzxState × Bool) :=
  match Tools.paddingSize addr 16 with
  | .error e => .error e
  | .ok padding =>
    let addr := addr + (if padding ≠ 0 then padding.toNat else 16)
    match readBits s addr 32 .little with
    | .error e => .error e
    | .ok r0 =>
    match readBits s (addr + 32 : Nat) 32 .little with
    | .error e => .error e
    | .ok r1 =>
    match readBits s (addr + 64 : Nat) 32 .little with
    | .error e => .error e
    | .ok r2 =>
      if size = 0 then .error .field
      else
        match readBytes s (addr + 96 : Nat) size with
        | .error e => .error e
        | .ok data =>
          .ok (addr + 96 + 8 * size + (if size % 2 ≠ 0 then 8 else 0),
            { st with window := st.window ++ data, recent := (r0, r1, r2) }, true)

/-- `struct.unpack("<i", data)`. -/
def unpackInt (data : Bytes) : Except PyErr Int :=
  match data with
  | [a, b, c, d] =>
    let v : Nat := a.toNat + 256 * (b.toNat + 256 * (c.toNat + 256 * d.toNat))
    .ok (if v < 2147483648 then (v : Int) else (v : Int) - 4294967296)
  | _ => .error .struct

/-- `struct.pack("<i", value)`. -/
def packInt (value : Int) : Except PyErr Bytes :=
  if -2147483648 ≤ value ∧ value < 2147483648 then
    let v := (value % 4294967296).toNat
    .ok [UInt8.ofNat (v % 256), UInt8.ofNat (v / 256 % 256), UInt8.ofNat (v / 65536 % 256), UInt8.ofNat (v / 16777216)]
  else .error .struct

/-- One jump, lzx.py:296-302. -/
def lzxJump (filesize : Nat) (data : Bytes) (pos : Nat) : Except PyErr Bytes :=
  match unpackInt ((data.drop (pos + 1)).take 4) with
  | .error e => .error e
  | .ok absolute =>
    if -(pos : Int) ≤ absolute ∧ absolute < filesize then
      match packInt (if absolute < 0 then absolute + filesize else absolute - pos) with
      | .error e => .error e
      | .ok b => .ok (data.take (pos + 1) ++ b ++ data.drop (pos + 5))
    else .ok data

/-- The loop over the jumps, lzx.py:288-303.  `find` goes from one position to the next. -/
def lzxJumps (filesize endPos : Nat) (data : Bytes) (pos : Nat) : Except PyErr Bytes :=
  if h : pos < endPos then
    if data.getD pos 0 ≠ 0xE8 then lzxJumps filesize endPos data (pos + 1)
    else if 32768 - 10 ≤ pos % 32768 then lzxJumps filesize endPos data (pos + 1)
    else
      match lzxJump filesize data pos with
      | .error e => .error e
      | .ok data => lzxJumps filesize endPos data (pos + 5)
  else .ok data
termination_by endPos - pos

/-- The end of `find`, `len(data) - 10`: a negative number counts from the end. -/
def lzxEnd (len : Nat) : Nat := sliceBound len ((len : Int) - 10)

/-- The contents of a block by its type, lzx.py:152-272. -/
def lzxContents (s : InputStream) (slots blockType size addr : Nat) (st : LzxState) :
    Except PyErr (Nat × LzxState × Bool) :=
  if blockType = 1 ∨ blockType = 2 then lzxCompressed s slots blockType size addr st
  else if blockType = 3 then lzxStored s size addr st
  else .error .parser

/-- The translation of jumps behind a block, lzx.py:278-303; `curlen` is the length before the
block. -/
def lzxFixups (filesize : Option Nat) (intel : Bool) (curlen : Nat) (out : Bytes) : Except PyErr Bytes :=
  match filesize with
  | none => .ok out
  | some filesize =>
    if intel ∧ 0 < filesize then lzxJumps filesize (lzxEnd out.length) out (curlen - 10)
    else .ok out

/-- `LZXBlock`, lzx.py:142-303: the address behind the block and the new state; `filesize` is
`None` without `filesize_indicator`. -/
def lzxBlock (s : InputStream) (level : Nat) (filesize : Option Nat) (addr : Nat) (st : LzxState) :
    Except PyErr (Nat × LzxState) :=
  match readBits s addr 3 .middle with
  | .error e => .error e
  | .ok blockType =>
  match readBits s (addr + 3 : Nat) 24 .middle with
  | .error e => .error e
  | .ok size =>
  match lzxSlots level with
  | .error e => .error e
  | .ok slots =>
  match lzxContents s slots blockType size (addr + 27) st with
  | .error e => .error e
  | .ok (addr, st', intel) =>
    let out := st.out ++ pySlice st'.window (-(size : Int)) st'.window.length
    let window := pySlice st'.window (-((2 ^ level : Nat) : Int)) st'.window.length
    match lzxFixups filesize intel st.out.length out with
    | .error e => .error e
    | .ok out => .ok (addr, { st' with out := out, window := window })

/-- The loop of `LZXStream.createFields`, lzx.py:318-325.  A block has more than one bit, so `size`
steps are enough. -/
def lzxBlocks (s : InputStream) (size level : Nat) (filesize : Option Nat) :
    Nat → Nat → LzxState → Except PyErr Bytes
  | 0, _, st => .ok st.out
  | fuel + 1, addr, st =>
    if addr < size then
      match lzxBlock s level filesize addr st with
      | .error e => .error e
      | .ok (addr, st) =>
        if size < addr + 16 then .ok st.out
        else lzxBlocks s size level filesize fuel addr st
    else .ok st.out

/-- `lzx_decompress`, lzx.py:309-333, of a stream of `size` bits. -/
def lzxDecompress (s : InputStream) (size level : Nat) : Except PyErr Bytes :=
  let st : LzxState := ⟨[], [], (1, 1, 1), none, none, none⟩
  match readBits s 0 1 .middle with
  | .error e => .error e
  | .ok indicator =>
    if indicator ≠ 0 then
      match readBits s 1 32 .middle with
      | .error e => .error e
      | .ok filesize => lzxBlocks s size level (some filesize) size 33 st
    else lzxBlocks s size level none size 1 st

end Hachoir.Archive
