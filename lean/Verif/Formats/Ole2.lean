import Verif.Stream.Input

/-!
# Block chains and fragments of OLE2 files

/repo/hachoir/parser/misc/ole2.py, /repo/hachoir/parser/misc/msoffice.py and
/repo/hachoir/field/fragment.py.  All sizes and addresses are in bits, as in the code.
-/

set_option linter.unusedVariables false

namespace Hachoir.Formats
open Hachoir Hachoir.Stream

/-- `SECT.UNUSED`, `SECT.END_OF_CHAIN`, `SECT.BFAT_SECTOR`, `SECT.DIFAT_SECTOR`, ole2.py:41-44. -/
def sectUnused : Nat := 0xFFFFFFFF
def sectEnd : Nat := 0xFFFFFFFE
def sectBfat : Nat := 0xFFFFFFFD
def sectDifat : Nat := 0xFFFFFFFC

/-- `block in SECT.SPECIALS`, ole2.py:45. -/
def sectSpecial (block : Nat) : Bool :=
  block == sectEnd || block == sectUnused || block == sectBfat || block == sectDifat

/-- `fat[index]["index[%u]" % block].value`, ole2.py:337; `none` for the `LookupError`.  The
table number `i` holds the fields `index[i * items]`, `index[i * items + 1]`, ..
(`SectFat.createFields`, ole2.py:156-158; `start += count`, 353 and 370); a table at the end of
a truncated file holds fewer of them. -/
def fatEntry (tables : List (List Nat)) (items block : Nat) : Option Nat :=
  match tables[block / items]? with
  | none => none
  | some table => table[block % items]?

/-- The loop of `getChain`, ole2.py:325-339: the blocks yielded and how the generator ends
(`none`: it returns).  `n` bounds the iterations of the model. -/
def chainLoop (tables : List (List Nat)) (items : Nat) : Nat → Nat → List Nat → List Nat × Option PyErr
  | 0, _, _ => ([], some .endless)
  | n + 1, block, blockSet =>
    if block = sectEnd then ([], none)
    else if sectSpecial block then ([], some .parser)
    else if block ∈ blockSet then ([], some .parser)
    else
      match fatEntry tables items block with
      | none => ([block], none)
      | some next =>
        let (bs, e) := chainLoop tables items n next (block :: blockSet)
        (block :: bs, e)

/-- `OLE2_File.getChain`, ole2.py:313-339.  `tables` and `items` are `bb_fat`,
`items_per_bbfat` or `ss_fat`, `items_per_ssfat`. -/
def getChain (tables : List (List Nat)) (items n start : Nat) : List Nat × Option PyErr :=
  chainLoop tables items n start []

/-- A `CustomFragment`: its first block and its size, ole2.py:295-300. -/
structure Frag where
  first : Nat
  size : Nat
deriving Repr, DecidableEq

/-- The loop of `parseProperty`, ole2.py:279-311 (and msoffice.py:53-86, the same with
`ss_size`): the fragments yielded and how the generator ends.  The first argument is the rest
of the chain, `e` how the chain ends. -/
def fragLoop (blockSize : Nat) (e : Option PyErr) :
    List Nat → Option Nat → Option Nat → Nat → List Frag × Option PyErr
  | [], first, previous, size =>
    match e with
    | some err => ([], some err)               -- next(chain) raises
    | none =>                                  -- StopIteration, 291-292
      match first with
      | none => ([], none)                     -- 293-294
      | some f => ([⟨f, size⟩], none)          -- 295-308
  | block :: rest, first, previous, size =>
    match first with
    | none => fragLoop blockSize e rest (some block) (some block) (size + blockSize)
    | some f =>
      if previous.all (block == · + 1) && previous.isSome then
        fragLoop blockSize e rest first (some block) (size + blockSize)
      else
        let (fs, e') := fragLoop blockSize e rest (some block) (some block) blockSize
        (⟨f, size⟩ :: fs, e')

/-- `OLE2_File.parseProperty`, ole2.py:267-311: only streams of at least `threshold` bytes and
the root entry. -/
def parseBig (tables : List (List Nat)) (items n sectorSize threshold : Nat) (isRoot : Bool)
    (size start : Nat) : List Frag × Option PyErr :=
  if size = 0 then ([], none)
  else if size < threshold ∧ isRoot = false then ([], none)
  else
    let (bs, e) := getChain tables items n start
    fragLoop sectorSize e bs none none 0

/-- `RootEntry.createFields` and `RootEntry.parseProperty`, msoffice.py:25-86: streams below
the threshold, except the root entry.  `getChain(start, ole2.ss_fat)` (52) uses the small FAT
only if its list of tables is not empty. -/
def parseSmall (bbTables ssTables : List (List Nat)) (items n ssSize threshold : Nat) (isRoot : Bool)
    (size start : Nat) : List Frag × Option PyErr :=
  if isRoot then ([], none)
  else if size = 0 then ([], none)
  else if threshold ≤ size then ([], none)
  else
    let (bs, e) := getChain (if ssTables.isEmpty then bbTables else ssTables) items n start
    fragLoop ssSize e bs none none 0

/-- `HEADER_SIZE`, ole2.py:146. -/
def ole2HeaderSize : Nat := 64 + 68 * 8 + 109 * 32

/-- `self.sector_size`, ole2.py:228. -/
def sectorSize (bbShift : Nat) : Nat := 8 <<< bbShift

/-- Address of a block: `seekBlock`, ole2.py:387-388. -/
def seekBlock (sectorSize block : Nat) : Nat := ole2HeaderSize + block * sectorSize

/-- `FragmentGroup.createInputStream`, /repo/hachoir/field/fragment.py:15-27: the data of all
fragments, joined.  `base` is the address of block 0 (`HEADER_SIZE`, or 0 in the root entry,
msoffice.py:37); `rawdata` holds `size // 8` bytes (fragment.py:41).  Simplification: a
fragment reaching behind the end is a read error here. -/
def groupData (s : InputStream) (base blockSize : Nat) : List Frag → Except PyErr Bytes
  | [] => .ok []
  | f :: fs =>
    match readBytes s ((base + f.first * blockSize : Nat) : Int) (f.size / 8) with
    | .error e => .error e
    | .ok d =>
      match groupData s base blockSize fs with
      | .error e => .error e
      | .ok ds => .ok (d ++ ds)

end Hachoir.Formats
