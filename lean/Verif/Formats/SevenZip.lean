import Verif.Formats.Reader
import Verif.Formats.VarInt

/-!
# 7z archives

`/repo/hachoir/parser/archive/sevenzip.py`.  The fields of the header follow each other and are modelled as readers.  Not modelled: fields that
reach beyond the end of the header (they are cut), decompression, names of methods, texts of descriptions.  A bit vector of no bits at all
is an empty field set, which is deleted and ends its parent; here it is an error.
-/

namespace Hachoir.Formats.SevenZip
open Hachoir Hachoir.Stream Hachoir.Field Hachoir.Formats

/-- `SZUInt64`, sevenzip.py:32-53. -/
def num : Rd Nat := fun s _ addr =>
  match szUInt64 s (addr : Nat) with
  | .error e => .error e
  | .ok (v, size) => .ok (v, addr + size)

/-- `PropID`, sevenzip.py:157-158. -/
def propId : Rd Nat := Rd.int 1 .little

/-- The bits of one byte of a bit vector, sevenzip.py:176-178: the first is called `bit[ctr + 7]`, the last `bit[ctr]`; here `bit[ctr]` first. -/
def vectorByte : Rd (List Nat) := do
  let bs ← Rd.bits .little [1, 1, 1, 1, 1, 1, 1, 1]
  pure bs.reverse

/-- The bits of the vector, sevenzip.py:173-178, and its value (line 191): the indexes of the bits that are set. -/
def vectorBits (n : Nat) : Rd (List Nat) :=
  if n = 0 then Rd.fail .field
  else do
    let bs ← Rd.times vectorByte ((n + 7) / 8)
    pure ((List.range n).filter fun i => bs.flatten.getD i 0 != 0)

/-- `SevenZipBitVector` with `has_all_byte`, sevenzip.py:168-191. -/
def vectorAll (n : Nat) : Rd (List Nat) := do
  let all ← Rd.int 1 .little
  if all ≠ 0 then pure (List.range n)
  else if n = 0 then pure []
  else vectorBits n

/-- `ArchiveProperty`, sevenzip.py:201-206: identifier and content. -/
def property : Rd (Nat × Bytes) := do
  let id ← propId
  let size ← num
  if size = 0 then pure (id, [])
  else do
    let data ← Rd.raw size
    pure (id, data)

/-- The loop of `ArchiveProperties`, sevenzip.py:216-221. -/
def properties : Nat → Rd (List (Nat × Bytes))
  | 0 => Rd.fail .endless
  | fuel + 1 => do
    let e ← Rd.eof
    if e then pure []
    else do
      let uid ← Rd.peek .little
      if uid = 0 then do
        let _ ← propId
        pure []
      else do
        let p ← property
        let ps ← properties fuel
        pure (p :: ps)

/-- `Digests`, sevenzip.py:234-241: which are defined, and the digests. -/
def digests (n : Nat) : Rd (List (Nat × Nat)) := do
  let _ ← propId
  let defined ← vectorAll n
  Rd.each (fun i => do
    let d ← Rd.int 4 .little
    pure (i, d)) defined

inductive PackItem
  | sizes (ns : List Nat)
  | digests (ds : List (Nat × Nat))
  deriving DecidableEq, Repr

/-- `PackInfo`, sevenzip.py:246-265. -/
structure PackInfo where
  pos : Nat
  count : Nat
  items : List PackItem
  deriving DecidableEq, Repr

/-- The loop of `PackInfo`, sevenzip.py:253-265. -/
def packItems (n : Nat) : Nat → Rd (List PackItem)
  | 0 => Rd.fail .endless
  | fuel + 1 => do
    let e ← Rd.eof
    if e then pure []
    else do
      let uid ← Rd.peek .little
      if uid = 0 then do
        let _ ← propId
        pure []
      else if uid = 9 then do
        let _ ← propId
        let ns ← Rd.times num n
        let is ← packItems n fuel
        pure (.sizes ns :: is)
      else if uid = 10 then do
        let ds ← digests n
        let is ← packItems n fuel
        pure (.digests ds :: is)
      else Rd.fail .parser

def packInfo (fuel : Nat) : Rd PackInfo := do
  let _ ← propId
  let pos ← num
  let count ← num
  let items ← packItems count fuel
  pure ⟨pos, count, items⟩

/-- `Coder`, sevenzip.py:358-375. -/
structure Coder where
  id : Bytes
  streams : Option (Nat × Nat)
  properties : Option Bytes
  unused : Nat
  more : Bool
  deriving DecidableEq, Repr

/-- `_get_num_streams`, sevenzip.py:377-382. -/
def Coder.ins (c : Coder) : Nat := match c.streams with
  | some (i, _) => i
  | none => 1

def Coder.outs (c : Coder) : Nat := match c.streams with
  | some (_, o) => o
  | none => 1

def coderId (n : Nat) : Rd Bytes := if 0 < n then Rd.raw n else pure []

def coderStreams (simple : Nat) : Rd (Option (Nat × Nat)) :=
  if simple ≠ 0 then do
    let i ← num
    let o ← num
    pure (some (i, o))
  else pure none

def coderProperties (has : Nat) : Rd (Option Bytes) :=
  if has ≠ 0 then do
    let n ← num
    let d ← Rd.raw n
    pure (some d)
  else pure none

def coder : Rd Coder := do
  let fs ← Rd.bits .little [4, 1, 1, 1, 1]
  match fs with
  | [n, notSimple, hasAttribs, unused, more] => do
    let id ← coderId n
    let streams ← coderStreams notSimple
    let props ← coderProperties hasAttribs
    pure ⟨id, streams, props, unused, more ≠ 0⟩
  | _ => Rd.fail .runtime

/-- `CoderList`, sevenzip.py:387-392. -/
def coderList : Nat → Rd (List Coder)
  | 0 => Rd.fail .endless
  | fuel + 1 => do
    let e ← Rd.eof
    if e then pure []
    else do
      let c ← coder
      if c.more then do
        let cs ← coderList fuel
        pure (c :: cs)
      else pure [c]

/-- `Folder`, sevenzip.py:407-433. -/
structure Folder where
  coders : List (List Coder)
  binds : List (Nat × Nat)
  packed : List Nat
  deriving DecidableEq, Repr

/-- `in_streams` and `out_streams`, sevenzip.py:412-421: those of the first coder of each list; an empty list has no `coder[0]`. -/
def addStreams (a : Nat × Nat) : List Coder → Nat × Nat
  | c :: _ => (a.1 + c.ins, a.2 + c.outs)
  | [] => a

def streamsOf (coders : List (List Coder)) : Nat × Nat := coders.foldl addStreams (0, 0)

def bindPair : Rd (Nat × Nat) := do
  let i ← num
  let o ← num
  pure (i, o)

def folder (fuel : Nat) : Rd Folder := do
  let n ← num
  let coders ← Rd.times (coderList fuel) n
  let st := streamsOf coders
  let binds ← Rd.times bindPair (st.2 - 1)
  if st.2 ≤ st.1 ∧ 1 < st.1 + 1 - st.2 then do
    let packed ← Rd.times num (st.1 + 1 - st.2)
    pure ⟨coders, binds, packed⟩
  else pure ⟨coders, binds, []⟩

/-- `UnpackInfo`, sevenzip.py:444-479.  Folders kept elsewhere (`is_external`) end in MissingField (line 466). -/
structure UnpackInfo where
  folders : List Folder
  sizes : List (List Nat)
  digests : List (List (Nat × Nat))
  deriving DecidableEq, Repr

def unpackDigests (n : Nat) : Nat → Rd (List (List (Nat × Nat)))
  | 0 => Rd.fail .endless
  | fuel + 1 => do
    let e ← Rd.eof
    if e then pure []
    else do
      let uid ← Rd.peek .little
      if uid = 0 then do
        let _ ← propId
        pure []
      else if uid = 10 then do
        let ds ← digests n
        let is ← unpackDigests n fuel
        pure (ds :: is)
      else Rd.fail .parser

def unpackInfo (fuel : Nat) : Rd UnpackInfo := do
  let _ ← propId
  let marker ← propId
  if marker ≠ 11 then Rd.fail .assertion
  else do
    let n ← num
    let external ← Rd.int 1 .little
    if external ≠ 0 then do
      let _ ← num
      let marker ← propId
      if marker ≠ 12 then Rd.fail .assertion
      else if n ≠ 0 then Rd.fail .missingField
      else do
        let ds ← unpackDigests n fuel
        pure ⟨[], [], ds⟩
    else do
      let folders ← Rd.times (folder fuel) n
      let marker ← propId
      if marker ≠ 12 then Rd.fail .assertion
      else do
        let sizes ← Rd.each (fun f => Rd.times num (streamsOf f.coders).2) folders
        let ds ← unpackDigests n fuel
        pure ⟨folders, sizes, ds⟩

inductive SubItem
  | counts (ns : List Nat)
  | sizes (ns : List (List Nat))
  | digests (ds : List (Nat × Nat))
  deriving DecidableEq, Repr

/-- How many digests there are, sevenzip.py:507-513: none for folders with one stream if `unpack_info` has digests. -/
def subDigests (known : Bool) (counts : List Nat) : Nat := (counts.map fun n => if n = 1 ∧ known then 0 else n).sum

/-- The loop of `SubStreamInfo`, sevenzip.py:488-515; `counts`: `num_unpackstreams`. -/
def subItems (known : Bool) (folders : Nat) : Nat → List Nat → Rd (List SubItem)
  | 0, _ => Rd.fail .endless
  | fuel + 1, counts => do
    let e ← Rd.eof
    if e then pure []
    else do
      let uid ← Rd.peek .little
      if uid = 0 then do
        let _ ← propId
        pure []
      else if uid = 13 then do
        let _ ← propId
        let ns ← Rd.times num folders
        let is ← subItems known folders fuel ns
        pure (.counts ns :: is)
      else if uid = 9 then do
        let _ ← propId
        let ns ← Rd.each (fun n => Rd.times num (n - 1)) counts
        let is ← subItems known folders fuel counts
        pure (.sizes ns :: is)
      else if uid = 10 then do
        let ds ← digests (subDigests known counts)
        let is ← subItems known folders fuel counts
        pure (.digests ds :: is)
      else Rd.fail .parser

/-- `SubStreamInfo`, sevenzip.py:484-515. -/
def subInfo (unpack : UnpackInfo) (fuel : Nat) : Rd (List SubItem) := do
  let _ ← propId
  subItems (unpack.digests != []) unpack.folders.length fuel (List.replicate unpack.folders.length 1)

inductive StreamsItem
  | pack (p : PackInfo)
  | unpack (u : UnpackInfo)
  | sub (is : List SubItem)
  deriving DecidableEq, Repr

/-- The loop of `StreamsInfo`, sevenzip.py:522-534; `known`: the first `unpack_info`. -/
def streamsItems : Nat → Option UnpackInfo → Rd (List StreamsItem)
  | 0, _ => Rd.fail .endless
  | fuel + 1, known => do
    let e ← Rd.eof
    if e then pure []
    else do
      let uid ← Rd.peek .little
      if uid = 0 then do
        let _ ← propId
        pure []
      else if uid = 6 then do
        let p ← packInfo fuel
        let is ← streamsItems fuel known
        pure (.pack p :: is)
      else if uid = 7 then do
        let u ← unpackInfo fuel
        let is ← streamsItems fuel (some (known.getD u))
        pure (.unpack u :: is)
      else if uid = 8 then
        match known with
        | none => Rd.fail .missingField
        | some u => do
          let i ← subInfo u fuel
          let is ← streamsItems fuel known
          pure (.sub i :: is)
      else Rd.fail .parser

/-- `StreamsInfo`, sevenzip.py:520-534. -/
def streams (fuel : Nat) : Rd (List StreamsItem) := do
  let _ ← propId
  streamsItems fuel none

/-- `CString` in UTF-16-LE. -/
def name : Rd Bytes := fun s _ addr =>
  match genericString s .little addr .c .utf16le none with
  | .error e => .error e
  | .ok sizes =>
    match stringContent s addr sizes with
    | .error e => .error e
    | .ok b => .ok (b, addr + sizes.size.toNat)

inductive FilesItem
  | emptyStreams (is : List Nat)
  | emptyFiles (anti : Bool) (is : List Nat)
  | times (id : Nat) (ts : List (Nat × Nat))
  | names (ns : List Bytes)
  | attributes (as : List (Nat × Nat))
  | property (p : Nat × Bytes)
  deriving DecidableEq, Repr

/-- `EmptyStreamProperty`, sevenzip.py:543-549. -/
def emptyStreams (n : Nat) : Rd (List Nat) := do
  let _ ← propId
  let _ ← num
  vectorBits n

/-- `EmptyFileProperty`, sevenzip.py:557-565. -/
def emptyFiles (empty : List Nat) : Rd (List Nat) := do
  let _ ← propId
  let _ ← num
  let is ← vectorBits empty.length
  pure (is.filterMap fun i => empty[i]?)

/-- `FileTimeProperty` (sevenzip.py:573-584, `width` 8) and `FileAttributes` (602-613, `width` 4, as numbers); data kept elsewhere only give
an offset: no values. -/
def perFile (n width : Nat) : Rd (List (Nat × Nat)) := do
  let _ ← propId
  let _ ← num
  let defined ← vectorAll n
  let external ← Rd.int 1 .little
  if external ≠ 0 then do
    let _ ← num
    pure []
  else
    Rd.each (fun i => do
      let t ← Rd.int width .little
      pure (i, t)) defined

/-- `FileNames`, sevenzip.py:589-597. -/
def fileNames (n : Nat) : Rd (List Bytes) := do
  let _ ← propId
  let _ ← num
  let external ← Rd.int 1 .little
  if external ≠ 0 then do
    let _ ← num
    pure []
  else Rd.times name n

/-- The loop of `FilesInfo`, sevenzip.py:621-645; `empty`: the value of the first `empty_streams`. -/
def filesItems (n : Nat) : Nat → Option (List Nat) → Rd (List FilesItem)
  | 0, _ => Rd.fail .endless
  | fuel + 1, empty => do
    let e ← Rd.eof
    if e then pure []
    else do
      let uid ← Rd.peek .little
      if uid = 0 then do
        let _ ← propId
        pure []
      else if uid = 14 then do
        let is ← emptyStreams n
        let fs ← filesItems n fuel (some (empty.getD is))
        pure (.emptyStreams is :: fs)
      else if uid = 15 ∨ uid = 16 then
        match empty with
        | none => Rd.fail .missingField
        | some es => do
          let is ← emptyFiles es
          let fs ← filesItems n fuel empty
          pure (.emptyFiles (uid = 16) is :: fs)
      else if uid = 18 ∨ uid = 19 ∨ uid = 20 then do
        let ts ← perFile n 8
        let fs ← filesItems n fuel empty
        pure (.times uid ts :: fs)
      else if uid = 17 then do
        let ns ← fileNames n
        let fs ← filesItems n fuel empty
        pure (.names ns :: fs)
      else if uid = 21 then do
        let as ← perFile n 4
        let fs ← filesItems n fuel empty
        pure (.attributes as :: fs)
      else do
        let p ← property
        let fs ← filesItems n fuel empty
        pure (.property p :: fs)

/-- `FilesInfo`, sevenzip.py:618-645: number of files and what is told of them. -/
def files (fuel : Nat) : Rd (Nat × List FilesItem) := do
  let _ ← propId
  let n ← num
  let is ← filesItems n fuel none
  pure (n, is)

inductive HeaderItem
  | properties (ps : List (Nat × Bytes))
  | additional (ss : List StreamsItem)
  | main (ss : List StreamsItem)
  | files (fs : Nat × List FilesItem)
  deriving DecidableEq, Repr

/-- `ArchiveProperties`, sevenzip.py:214-221. -/
def archiveProperties (fuel : Nat) : Rd (List (Nat × Bytes)) := do
  let _ ← propId
  properties fuel

/-- The loop of `Header`, sevenzip.py:652-666. -/
def headerItems : Nat → Rd (List HeaderItem)
  | 0 => Rd.fail .endless
  | fuel + 1 => do
    let e ← Rd.eof
    if e then pure []
    else do
      let uid ← Rd.peek .little
      if uid = 0 then do
        let _ ← propId
        pure []
      else if uid = 2 then do
        let ps ← archiveProperties fuel
        let is ← headerItems fuel
        pure (.properties ps :: is)
      else if uid = 3 then do
        let ss ← streams fuel
        let is ← headerItems fuel
        pure (.additional ss :: is)
      else if uid = 4 then do
        let ss ← streams fuel
        let is ← headerItems fuel
        pure (.main ss :: is)
      else if uid = 5 then do
        let fs ← files fuel
        let is ← headerItems fuel
        pure (.files fs :: is)
      else Rd.fail .parser

inductive NextHeader
  | header (is : List HeaderItem)
  | encoded (ss : List StreamsItem)
  deriving DecidableEq, Repr

/-- `NextHeader.createFields`, sevenzip.py:675-682, `Header`, 650-651. -/
def nextHeader (fuel : Nat) : Rd NextHeader := do
  let uid ← Rd.peek .little
  if uid = 1 then do
    let _ ← propId
    let is ← headerItems fuel
    pure (.header is)
  else if uid = 23 then do
    let ss ← streams fuel
    pure (.encoded ss)
  else Rd.fail .parser

/-- `SignatureHeader`, sevenzip.py:787-796, `StartHeader`, 776-784. -/
structure Signature where
  magic : Bytes
  major : Nat
  minor : Nat
  startCrc : Nat
  nextOffset : Nat
  nextSize : Nat
  nextCrc : Nat
  deriving DecidableEq, Repr

def signature : Rd Signature := do
  let magic ← Rd.raw 6
  let major ← Rd.int 1 .little
  let minor ← Rd.int 1 .little
  let startCrc ← Rd.int 4 .little
  let nextOffset ← Rd.int 8 .little
  let nextSize ← Rd.int 8 .little
  let nextCrc ← Rd.int 4 .little
  pure ⟨magic, major, minor, startCrc, nextOffset, nextSize, nextCrc⟩

/-- `SevenZipParser.createFields`, sevenzip.py:812-815: the signature and the next header behind the body.  A field set of size 0, be it the
body or the header, ends the reading, field/generic_field_set.py:184-190, 203-213. -/
def archive (fuel : Nat) (s : InputStream) (total : Nat) : Except PyErr (Signature × NextHeader) :=
  match signature s total 0 with
  | .error e => .error e
  | .ok (g, addr) =>
    if g.nextOffset = 0 ∨ g.nextSize = 0 then .error .stopIteration
    else match Rd.within g.nextSize (nextHeader fuel) s total (addr + 8 * g.nextOffset) with
    | .error e => .error e
    | .ok (h, _) => .ok (g, h)

/-- `createContentSize`, sevenzip.py:822-826. -/
def contentSize (g : Signature) : Nat := g.nextOffset * 8 + g.nextSize * 8 + 256

/-- The parts of the body: (name, address, bytes), sevenzip.py:758-773; the body is not empty.  `RawBytes` of 0 bytes is refused. -/
def packOf (ss : List StreamsItem) : Option PackInfo := ss.findSome? fun
  | .pack p => some p
  | _ => none

def packSizes (p : PackInfo) : List Nat := p.items.flatMap fun
  | .sizes ns => ns
  | _ => []

def body (g : Signature) (h : NextHeader) : Except PyErr (List (String × Nat × Nat)) :=
  match h with
  | .header _ => .ok [("compressed_data", 256, g.nextOffset)]
  | .encoded ss =>
    match packOf ss with
    | none => .error .missingField
    | some p =>
      let pack := (packSizes p).sum
      if pack = 0 then .error .field
      else .ok ((if p.pos = 0 then [] else [("compressed_data", 256, p.pos)]) ++ [("compressed_file_info", 256 + 8 * p.pos, pack)] ++
        (if pack + p.pos < g.nextOffset then [("unknown_data", 256 + 8 * p.pos + 8 * pack, g.nextOffset - pack - p.pos)] else []))

end Hachoir.Formats.SevenZip
