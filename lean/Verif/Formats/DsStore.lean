import Verif.Formats.Reader

/-!
# Files of the Mac OS X Finder: .DS_Store

/repo/hachoir/parser/misc/dsstore.py:21-232.  Simplifications: the field sets whose size is told do not check that their fields have room in it; of
the exceptions within a node only that of a record is kept back (field/generic_field_set.py:311-320 and 331-341 keep back all of them); slack space and links are left out.
-/

namespace Hachoir.Formats.DsStore
open Hachoir Hachoir.Stream Hachoir.Field

/-- The value of a `BlockAddress`, dsstore.py:24-29: place and size in bytes. -/
def addressOf : List Nat → Nat × Nat
  | [offset, size] => (offset * 32, 2 ^ size)
  | _ => (0, 0)

def address : Rd (Nat × Nat) := do
  let l ← Rd.bits .big [27, 5]
  pure (addressOf l)

/-- `BudHeader`, dsstore.py:37-46. -/
structure Header where
  magic : Bytes
  offset : Nat
  size : Nat
  backup : Nat
  copies : List (Nat × Nat)
  deriving DecidableEq, Repr

def bud : Rd Header := do
  let magic ← Rd.raw 4
  let offset ← Rd.int 4 .big
  let size ← Rd.int 4 .big
  let backup ← Rd.int 4 .big
  let copies ← Rd.times address 4
  pure ⟨magic, offset, size, backup, copies⟩

/-- `BudDirectory`, dsstore.py:49-56: name and block. -/
def directory : Rd (Bytes × Nat) := do
  let name ← Rd.text .big .pascal8 .eightBit none
  let block ← Rd.int 4 .big
  pure (name, block)

/-- `FreeList`, dsstore.py:62-67. -/
def freeList : Rd (List Nat) := do
  let n ← Rd.int 4 .big
  Rd.times (Rd.int 4 .big) n

/-- `BudAllocator`, dsstore.py:70-86, without the slack. -/
structure Allocator where
  blocks : List (Nat × Nat)
  dirs : List (Bytes × Nat)
  free : List (List Nat)
  deriving DecidableEq, Repr

/-- dsstore.py:77-79: `paddingSize` of core/tools.py:41-60. -/
def skipPadding (n : Nat) : Rd Unit :=
  if n % 256 = 0 then pure () else do
    let _ ← Rd.raw ((256 - n % 256) * 4)
    pure ()

def allocator : Rd Allocator := do
  let n ← Rd.int 4 .big
  let _ ← Rd.int 4 .big
  let blocks ← Rd.times address n
  skipPadding n
  let d ← Rd.int 4 .big
  let dirs ← Rd.times directory d
  let free ← Rd.times freeList 32
  pure ⟨blocks, dirs, free⟩

/-- `DSDB`, dsstore.py:89-98. -/
structure Tree where
  root : Nat
  levels : Nat
  records : Nat
  nodes : Nat
  unknown : Nat
  deriving DecidableEq, Repr

def dsdb : Rd Tree := do
  let root ← Rd.int 4 .big
  let levels ← Rd.int 4 .big
  let records ← Rd.int 4 .big
  let nodes ← Rd.int 4 .big
  let unknown ← Rd.int 4 .big
  pure ⟨root, levels, records, nodes, unknown⟩

/-- `PascalString32UTF16`, dsstore.py:101-108. -/
def longText : Rd Bytes := do
  let n ← Rd.int 4 .big
  Rd.text .big .fixed .utf16be (some ((2 * n : Nat) : Int))

/-- The values of records, dsstore.py:121-134. -/
inductive Value where
  | long (n : Nat)
  | short (n : Nat)
  | bool (n : Nat)
  | blob (b : Bytes)
  | type (b : Bytes)
  | text (b : Bytes)
  deriving DecidableEq, Repr

/-- The comparison of dsstore.py:121-133, of the value of a `Bytes` field with a text: never equal in Python 3. -/
def bytesIsText (_ _ : Bytes) : Bool := false

def short : Rd Value := do
  let _ ← Rd.raw 2
  let n ← Rd.int 2 .big
  pure (.short n)

def blob : Rd Value := do
  let n ← Rd.int 4 .big
  let b ← Rd.raw n
  pure (.blob b)

/-- dsstore.py:121-136; `eq` is the comparison. -/
def value (eq : Bytes → Bytes → Bool) (type : Bytes) : Rd Value :=
  if eq type [0x6C, 0x6F, 0x6E, 0x67] then do
    let n ← Rd.int 4 .big
    pure (.long n)
  else if eq type [0x73, 0x68, 0x6F, 0x72] then short
  else if eq type [0x62, 0x6F, 0x6F, 0x6C] then do
    let n ← Rd.int 1 .big
    pure (.bool n)
  else if eq type [0x62, 0x6C, 0x6F, 0x62] then blob
  else if eq type [0x74, 0x79, 0x70, 0x65] then do
    let b ← Rd.raw 4
    pure (.type b)
  else if eq type [0x75, 0x73, 0x74, 0x72] then do
    let b ← longText
    pure (.text b)
  else Rd.fail .parser

/-- `DSRecord`, dsstore.py:114-139. -/
structure Record where
  filename : Bytes
  property : Bytes
  value : Value
  deriving DecidableEq, Repr

def record (eq : Bytes → Bytes → Bool) : Rd Record := do
  let filename ← longText
  let property ← Rd.raw 4
  let type ← Rd.raw 4
  let v ← value eq type
  pure ⟨filename, property, v⟩

/-- A field whose exception ends the field set around it. -/
def attempt {α : Type} (r : Rd α) : Rd (Option α) := fun s stop addr =>
  match r s stop addr with
  | .error _ => .ok (none, addr)
  | .ok (v, addr) => .ok (some v, addr)

/-- What a loop gives behind a round. -/
def addRound (more : Rd (List Nat × List Record)) (child : List Nat) : Option Record → Rd (List Nat × List Record)
  | none => pure (child, [])
  | some r => do
    let (cs, rs) ← more
    pure (child ++ cs, r :: rs)

/-- The loop of dsstore.py:154-160: children and records. -/
def pairs (eq : Bytes → Bytes → Bool) : Nat → Rd (List Nat × List Record)
  | 0 => pure ([], [])
  | n + 1 => do
    let child ← Rd.int 4 .big
    let r ← attempt (record eq)
    addRound (pairs eq n) [child] r

/-- The loop of dsstore.py:165-166. -/
def records (eq : Bytes → Bytes → Bool) : Nat → Rd (List Nat × List Record)
  | 0 => pure ([], [])
  | n + 1 => do
    let r ← attempt (record eq)
    addRound (records eq n) [] r

/-- `BTNode`, dsstore.py:145-168. -/
structure Node where
  last : Nat
  count : Nat
  children : List Nat
  records : List Record
  deriving DecidableEq, Repr

def node (eq : Bytes → Bytes → Bool) : Rd Node := do
  let last ← Rd.int 4 .big
  let count ← Rd.int 4 .big
  let (cs, rs) ← if last ≠ 0 then pairs eq count else records eq count
  pure ⟨last, count, cs, rs⟩

/-- `getBlock`, dsstore.py:193-194. -/
def getBlock (a : Allocator) (n : Nat) : Rd (Nat × Nat) :=
  match a.blocks[n]? with
  | some x => pure x
  | none => Rd.fail .index

/-- dsstore.py:213-216. -/
def nodeAt (eq : Bytes → Bytes → Bool) (a : Allocator) (block : Nat) : Rd Node := do
  let x ← getBlock a block
  Rd.jump (x.1 + 4)
  Rd.within x.2 (node eq)

/-- dsstore.py:217-222: the blocks that are visited next, in their order. -/
def nextBlocks (n : Node) : List Nat := if n.last ≠ 0 then n.children ++ [n.last] else []

/-- The loop of dsstore.py:211-222; the next block is the first of the list.  `fuel` bounds the rounds. -/
def walk (eq : Bytes → Bytes → Bool) (a : Allocator) : Nat → List Nat → Rd (List (Nat × Node))
  | _, [] => pure []
  | 0, _ :: _ => Rd.fail .endless
  | fuel + 1, block :: blocks => do
    let n ← nodeAt eq a block
    let l ← walk eq a fuel (nextBlocks n ++ blocks)
    pure ((block, n) :: l)

/-- dsstore.py:229-232, of a file of `total` bytes. -/
def freeBlock (total i offset : Nat) : Rd (Option Bytes) :=
  if min (2 ^ i) (total - offset - 4) = 0 then pure none else do
    Rd.jump (offset + 4)
    let b ← Rd.raw (min (2 ^ i) (total - offset - 4))
    pure (some b)

/-- dsstore.py:225-232 from the list number `i` on. -/
def freeBlocks (total : Nat) : Nat → List (List Nat) → Rd (List (List (Option Bytes)))
  | _, [] => pure []
  | i, l :: ls => do
    let x ← Rd.each (freeBlock total i) l
    let xs ← freeBlocks total (i + 1) ls
    pure (x :: xs)

structure File where
  header : Header
  allocator : Allocator
  tree : Tree
  nodes : List (Nat × Node)
  free : List (List (Option Bytes))
  deriving DecidableEq, Repr

/-- dsstore.py:201-205: the block of the first directory named DSDB. -/
def dsdbBlock (a : Allocator) : Rd Nat :=
  match a.dirs.find? (fun d => d.1 == [0x44, 0x53, 0x44, 0x42]) with
  | some d => pure d.2
  | none => Rd.fail .parser

/-- dsstore.py:201-208. -/
def treeAt (a : Allocator) : Rd Tree := do
  let b ← dsdbBlock a
  let x ← getBlock a b
  Rd.jump (x.1 + 4)
  Rd.within x.2 dsdb

/-- `createFields`, dsstore.py:196-232. -/
def file (eq : Bytes → Bytes → Bool) (fuel : Nat) : Rd File := do
  let _ ← Rd.int 4 .big
  let h ← bud
  Rd.jump (h.offset + 4)
  let a ← Rd.within h.size allocator
  let t ← treeAt a
  let nodes ← walk eq a fuel [t.root]
  let total ← Rd.limit
  let free ← freeBlocks (total / 8) 0 a.free
  pure ⟨h, a, t, nodes, free⟩

/-- What the code reads. -/
def readFile (fuel : Nat) : Rd File := file bytesIsText fuel

end Hachoir.Formats.DsStore
