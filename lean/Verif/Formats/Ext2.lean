import Verif.Formats.Lnk
import Verif.Core.Human

/-!
# EXT2 and EXT3 file systems (`parser/file_system/ext2.py`)

Left out: names and descriptions of fields, what follows the numbers of an inode and of the superblock, paddings, descriptors of groups other
than their numbers.
-/

namespace Hachoir.Formats.Ext2
open Hachoir Hachoir.Stream Hachoir.Field Hachoir.Formats

/-! ## Directories -/

/-- `DirectoryEntry`, ext2.py:26-51. -/
structure Entry where
  inode : Nat
  type : Nat
  name : Bytes
  deriving DecidableEq, Repr

/-- `rec_len` as `__init__` reads it before the size is known, ext2.py:38-40. -/
def recordLength : Rd Nat := fun s _ addr =>
  match readBits s ((addr + 32 : Nat) : Int) 16 .little with
  | .error e => .error e
  | .ok v => .ok (v, addr)

/-- ext2.py:47-48. -/
def entryName (n : Nat) : Rd Bytes := if 0 < n then Rd.text .little .fixed .eightBit (some (n : Int)) else pure []

/-- ext2.py:42-48; the padding that fills the record is left out. -/
def entryBody : Rd Entry := do
  let inode ← Rd.int 4 .little
  let _ ← Rd.int 2 .little
  let n ← Rd.int 1 .little
  let type ← Rd.int 1 .little
  let name ← entryName n
  pure ⟨inode, type, name⟩

/-- `DirectoryEntry`: a field set of `rec_len` bytes.  A record shorter than its own numbers is an error here; the field set then ends the directory. -/
def entry : Rd Entry := do
  let n ← recordLength
  if n < 8 then Rd.fail .field else Rd.within n entryBody

/-- `Directory.createFields`, ext2.py:322-324. -/
def directory (fuel : Nat) : Rd (List Entry) := Rd.whileNotEof entry fuel

/-! ## Modes -/

/-- The widths of the fields of `FileMode`, ext2.py:95-108. -/
def modeWidths : List Nat := [1, 1, 1, 1, 1, 1, 1, 1, 1, 1, 1, 1, 4]

/-- `file_type_letter`, ext2.py:86-93, with `-` for the others as in ext2.py:131-132, 231-232. -/
def typeLetter (t : Nat) : Char :=
  if t = 1 then 'p' else if t = 2 then 'c' else if t = 4 then 'd' else if t = 6 then 'b' else if t = 10 then 'l' else if t = 12 then 's' else '-'

/-- ext2.py:119-122. -/
def permLetter (v : Nat) (letter : Char) : Char := if v ≠ 0 then letter else '-'

/-- ext2.py:123-128: the letter of execution is replaced when the special bit is set. -/
def execLetter (special exec : Nat) (no yes : Char) : Char := if special ≠ 0 then (if exec = 0 then no else yes) else permLetter exec 'x'

/-- `FileMode.createDisplay`, ext2.py:110-133. -/
def modeText (v : List Nat) : List Char :=
  let b := fun i => v.getD i 0
  [typeLetter (b 12), permLetter (b 8) 'r', permLetter (b 7) 'w', execLetter (b 11) (b 6) 'S' 's',
    permLetter (b 5) 'r', permLetter (b 4) 'w', execLetter (b 10) (b 3) 'S' 's',
    permLetter (b 2) 'r', permLetter (b 1) 'w', execLetter (b 9) (b 0) 'T' 't']

/-! ## Inodes -/

/-- The numbers of the superblock that other parts look at, and the size of a block. -/
structure Super where
  inodesCount : Nat
  blocksCount : Nat
  freeBlocks : Nat
  firstDataBlock : Nat
  logBlockSize : Nat
  blocksPerGroup : Nat
  inodesPerGroup : Nat
  magic : Nat
  creatorOs : Nat
  inodeSize : Nat
  volumeName : Bytes
  lastMounted : Bytes
  deriving DecidableEq, Repr

/-- `1024 << log_block_size`, ext2.py:637, 771, 797. -/
def Super.blockSize (c : Super) : Nat := 1024 * 2 ^ c.logBlockSize

/-- ext2.py:207-209, 609-611. -/
def Super.inodeBytes (c : Super) : Nat := if c.inodeSize = 0 then 128 else c.inodeSize

inductive Content where
  | device (minor major : Nat)
  | link (target : Bytes)
  | extents (head : List Nat) (extents : List (List Nat))
  | blocks (bs : List Nat)
  deriving DecidableEq, Repr

/-- `Inode`, ext2.py:257-313. -/
structure Inode where
  mode : List Nat
  head : List Nat
  flags : List Nat
  versionHigh : Nat
  content : Content
  tail : List Nat
  os : List Nat
  deriving DecidableEq, Repr

/-- The fields of `InodeFlags`, ext2.py:139-171. -/
def flagWidths : List Nat := List.replicate 32 1

/-- `is_fast_symlink`, ext2.py:245-255: no blocks but the one of the ACL. -/
def fastLink (log blocks : Nat) : Rd Bool := fun s _ addr =>
  match readBits s ((addr + 512 : Nat) : Int) 32 .little with
  | .error e => .error e
  | .ok acl => .ok (decide (blocks = if 0 < acl then 2 * 2 ^ log else 0), addr)

/-- ext2.py:279-281. -/
def device : Rd Content := do
  let minor ← Rd.int 1 .little
  let major ← Rd.int 1 .little
  let _ ← Rd.raw 58
  pure (.device minor major)

/-- ext2.py:283-286: a target longer than 60 bytes leaves a negative rest, which is refused. -/
def link (size : Nat) : Rd Content := do
  let target ← Rd.text .little .fixed .eightBit (some (size : Int))
  let _ ← Lnk.slack (60 - (size : Int))
  pure (.link target)

/-- `ExtentNode`, ext2.py:179-190. -/
def extentNode : Rd Content := do
  let head ← Asf.numbers [2, 2, 2, 2, 4]
  let es ← Rd.times (Asf.numbers [4, 2, 2, 4]) (head.getD 1 0)
  pure (.extents head es)

/-- ext2.py:290-291. -/
def blockList : Rd Content := do
  let bs ← Rd.times (Rd.int 4 .little) 15
  pure (.blocks bs)

/-- ext2.py:287-291. -/
def mapped (extents : Nat) : Rd Content := if extents ≠ 0 then Rd.within 60 extentNode else blockList

/-- ext2.py:282-291 of a symbolic link. -/
def linked (log size blocks extents : Nat) : Rd Content := do
  let fast ← fastLink log blocks
  if fast then link size else mapped extents

/-- ext2.py:276-291. -/
def contentOf (log : Nat) (letter : Char) (size blocks extents : Nat) : Rd Content :=
  if letter = 'b' ∨ letter = 'c' then device
  else if letter = 'l' then linked log size blocks extents
  else mapped extents

/-- ext2.py:298-313: the sizes of the last numbers (the reserved bytes as one number). -/
def osWidths (os : Nat) : List Nat := if os = 0 then [2, 2, 2, 2, 2, 2] else if os = 1 then [1, 1, 2, 2, 2, 4] else [12]

/-- ext2.py:257-313. -/
def inodeBody (c : Super) : Rd Inode := do
  let mode ← Rd.bits .little modeWidths
  let head ← Asf.numbers [2, 4, 4, 4, 4, 4, 2, 2, 4]
  let flags ← Rd.bits .little flagWidths
  let high ← Rd.int 4 .little
  let content ← contentOf c.logBlockSize (typeLetter (mode.getD 12 0)) (head.getD 1 0) (head.getD 8 0) (flags.getD 19 0)
  let tail ← Asf.numbers [4, 4, 4, 4]
  let os ← Asf.numbers (osWidths c.creatorOs)
  pure ⟨mode, head, flags, high, content, tail, os⟩

def inode (c : Super) : Rd Inode := Rd.within c.inodeBytes (inodeBody c)

/-- The size, ext2.py:215. -/
def Inode.size (i : Inode) : Nat := i.head.getD 1 0 + i.tail.getD 2 0 * 2 ^ 32

/-! ## Superblock and groups -/

/-- `SuperBlock.createFields`, ext2.py:520-572. -/
def superblock : Rd Super := do
  let a ← Asf.numbers [4, 4, 4, 4, 4, 4, 4, 4, 4, 4, 4, 4, 4, 2, 2, 2, 2, 2, 2, 4, 4, 4, 4, 2, 2, 4, 2, 2, 4, 4, 4]
  let _ ← Rd.raw 16
  let name ← Rd.text .little .fixed .eightBit (some 16)
  let dir ← Rd.text .little .fixed .eightBit (some 64)
  let n := fun i => a.getD i 0
  pure ⟨n 0, n 1, n 3, n 5, n 6, n 8, n 10, n 15, n 21, n 26, name, dir⟩

/-- `group_count`, ext2.py:576-583; the divisor 0 is an exception there. -/
def Super.groupCount (c : Super) : Nat := (c.blocksCount - c.firstDataBlock + (c.blocksPerGroup - 1)) / c.blocksPerGroup

/-- `GroupDescriptor`, ext2.py:377-389: the places of the bitmaps and of the table. -/
structure Desc where
  blockBitmap : Nat
  inodeBitmap : Nat
  inodeTable : Nat
  rest : List Nat
  deriving DecidableEq, Repr

def desc : Rd Desc := do
  let a ← Asf.numbers [4, 4, 4, 2, 2, 2, 2, 4, 2, 2, 2, 2]
  pure ⟨a.getD 0 0, a.getD 1 0, a.getD 2 0, a.drop 3⟩

/-- The number of blocks of the group `g` that the bitmap shows, ext2.py:653-662. -/
def Super.blocksOf (c : Super) (g : Nat) : Nat := min c.blocksPerGroup (c.blocksCount - g * c.blocksPerGroup)

/-- The number of inodes of the group `g`, ext2.py:654-664. -/
def Super.inodesOf (c : Super) (g : Nat) : Nat := min c.inodesPerGroup (c.inodesCount - g * c.inodesPerGroup)

/-- The number told for the bit `i` of the bitmap of blocks of the group `g`, ext2.py:336, 341, 655, 673. -/
def Super.blockLabel (c : Super) (g i : Nat) : Nat := 1 + g * c.blocksPerGroup + i

/-- The number told for the bit `i` of the bitmap of inodes (ext2.py:336, 341, 656, 676) and for the inode `i` of the table (ext2.py:211, 618-619, 679). -/
def Super.inodeLabel (c : Super) (g i : Nat) : Nat := 1 + g * c.inodesPerGroup + i

/-- `GroupDescriptor.createDescription`, ext2.py:371-375: the blocks told. -/
def Super.told (c : Super) (g : Nat) : Nat × Nat := (g * c.blocksPerGroup, g * c.blocksPerGroup + c.blocksPerGroup)

/-- `createDescription`, ext2.py:795-809: the size told for the whole and for what is used. -/
def Super.sizes (c : Super) : Nat × Nat := (c.blocksCount * c.blockSize, c.freeBlocks * c.blockSize)

/-- `createDescription`, ext2.py:801-809; `journal` is the number of blocks of the inode 8, if that is there. -/
def description (c : Super) (journal : Option Nat) : List UInt8 :=
  Human.asc (match journal with | none => "EXT2/EXT3" | some n => if 0 < n then "EXT3" else "EXT2") ++ Human.asc " file system: total=" ++
    Human.humanFilesize c.sizes.1 ++ Human.asc ", used=" ++ Human.humanFilesize c.sizes.2 ++ Human.asc ", block=" ++ Human.humanFilesize c.blockSize

/-- `validate`, ext2.py:752-762. -/
def valid (c : Super) : Bool :=
  decide (c.magic = 0xEF53) && decide (c.logBlockSize ≤ 2) &&
    ([0, 128, 256, 512, 1024, 2048, 4096].filter fun s => decide (s ≤ c.blockSize)).contains c.inodeSize

/-! ## Files -/

/-- A block of a file, ext2.py:696-700, 707-711, in a group that holds the blocks from `lo` to `hi`: seeking before the group is an exception
(`seekBit`, /repo/hachoir/field/seekable_field_set.py:37-44), a field behind its end ends it (`_fixFieldSize`, /repo/hachoir/field/generic_field_set.py:203-213);
the group reads no more then.  The blocks that are fields of the group, and whether the group goes on (a field that ends the group has already been added
to the fragments of its file, which is left out). -/
def fragments (size lo hi : Nat) : List Nat → Rd (List Bytes × Bool)
  | [] => Rd.pure ([], true)
  | b :: bs =>
    if b = 0 then fragments size lo hi bs
    else if b < lo ∨ hi ≤ b then Rd.pure ([], false)
    else
      Rd.bind (Rd.jump (b * size)) fun _ => Rd.bind (Rd.raw size) fun d => Rd.bind (fragments size lo hi bs) fun r => Rd.pure (d :: r.1, r.2)

/-- `IndirectBlock`, ext2.py:622-630, at the block `b`, and the blocks it tells of (ext2.py:703-711). -/
def indirect (size lo hi b : Nat) : Rd (List Bytes × Bool) := do
  Rd.jump (b * size)
  let bs ← Rd.times (Rd.int 4 .little) (size / 4)
  fragments size lo hi bs

def more (size lo hi b : Nat) (ds : List Bytes) : Rd (List Bytes × Bool) := do
  let r ← indirect size lo hi b
  pure (ds ++ r.1, r.2)

/-- ext2.py:701-717: double and triple indirect blocks are not read. -/
def single (size lo hi b : Nat) (r : List Bytes × Bool) : Rd (List Bytes × Bool) :=
  if r.2 = false ∨ b = 0 then pure r
  else if b < lo ∨ hi ≤ b then pure (r.1, false)
  else more size lo hi b r.1

/-- ext2.py:695-717: the data of the inode with these 15 blocks. -/
def data (size lo hi : Nat) (blocks : List Nat) : Rd (List Bytes × Bool) := do
  let r ← fragments size lo hi (blocks.take 12)
  single size lo hi (blocks.getD 12 0) r

/-- What the loop of ext2.py:682-689 looks at: the bit of the bitmap, the number of blocks, the list of blocks. -/
def Inode.list (used : Nat) (i : Inode) : Option (List Nat) :=
  match i.content with
  | .blocks bs => if used = 0 ∨ i.head.getD 8 0 = 0 then none else some bs
  | _ => none

/-- The loop of ext2.py:682-717 over the lists of blocks of the inodes (`none`: the inode is skipped): index in the group and data. -/
def files (size lo hi : Nat) : Nat → List (Option (List Nat)) → Rd (List (Nat × List Bytes))
  | _, [] => Rd.pure []
  | n, none :: is => files size lo hi (n + 1) is
  | n, some bs :: is =>
    Rd.bind (data size lo hi bs) fun r =>
      if r.2 then Rd.bind (files size lo hi (n + 1) is) fun rs => Rd.pure ((n, r.1) :: rs) else Rd.pure [(n, r.1)]

/-- `FragmentGroup.createInputStream`, /repo/hachoir/field/fragment.py:15-20. -/
def joined (f : List Bytes) : Bytes := f.flatten

end Hachoir.Formats.Ext2
