import Verif.Formats.VarInt

/-!
# Elements and blocks of Matroska files

Model of `EBML`, `MkvFile.createFields`, `Lace` and `Block` of
/repo/hachoir/parser/container/mkv.py.  Addresses and sizes are in bits, addresses absolute.
-/

namespace Hachoir.Formats.Mkv
open Hachoir Hachoir.Stream Hachoir.Formats

/-- The dictionaries of identifiers, /repo/hachoir/parser/container/mkv.py:264-550, by numbers: the
name of an element and the dictionary of the elements inside of it.  What the elements are is a
parameter of the model; the fields of elements with another content are not modelled. -/
abbrev Schema := Nat → Nat → Option (String × Option Nat)

/-- Numbers of the dictionaries `ebml`, the one of level 0 and `signature`. -/
def headerDict : Nat := 0
def levelDict : Nat := 1
def signatureDict : Nat := 2

/-- `self.val` in `EBML.__init__`, /repo/hachoir/parser/container/mkv.py:558-569. -/
def lookUp (schema : Schema) (dict id : Nat) : String × Option Nat :=
  match schema dict id with
  | some v => v
  | none =>
    if id = 0xbf then ("CRC-32[]", none)
    else if id = 0xec then ("Void[]", none)
    else if id = 0x1b538667 then ("SignatureSlot[]", some signatureDict)
    else ("Unknown[]", none)

/-- A field `EBML`; `head` is the size of identifier and size. -/
structure Elem where
  depth : Nat
  id : Nat
  name : String
  addr : Nat
  head : Nat
  size : Nat
  deriving DecidableEq, Repr

/-- `EBML.__init__`, /repo/hachoir/parser/container/mkv.py:555-580, in a parent that ends at `stop`;
`depth` is 0 in the file.  An element that does not fit into its parent is an error. -/
def readElem (s : InputStream) (schema : Schema) (depth dict addr stop : Nat) : Except PyErr (Elem × Option Nat) :=
  match rawIntSize s .big addr with
  | .error e => .error e
  | .ok idSize =>
    match readInteger s addr false idSize .big with
    | .error e => .error e
    | .ok id =>
      match mkvUnsigned s .big ((addr + idSize : Nat) : Int) with
      | .error e => .error e
      | .ok (value, sizeSize) =>
        let head := idSize + sizeSize
        let (name, child) := lookUp schema dict id.toNat
        match value with
        | some v =>
          if stop < addr + head + v.toNat * 8 then .error .parser
          else .ok (⟨depth, id.toNat, name, addr, head, head + v.toNat * 8⟩, child)
        | none =>
          if depth ≠ 0 then .error .parser
          else if stop < addr + head then .error .parser
          else .ok (⟨depth, id.toNat, name, addr, head, stop - addr⟩, child)

/-- The loop `while not self.eof` of `EBML.createFields` and `MkvFile.createFields`,
/repo/hachoir/parser/container/mkv.py:582-590 and 630-631: the elements from `addr` up to `stop`, with
those inside of an element behind it.  `fuel` bounds the number of elements. -/
def readElems (s : InputStream) (schema : Schema) : Nat → Nat → Nat → Nat → Nat → Except PyErr (List Elem)
  | 0, _, _, _, _ => .error .endless
  | fuel + 1, depth, dict, addr, stop =>
    if addr < stop then
      match readElem s schema depth dict addr stop with
      | .error e => .error e
      | .ok (el, child) =>
        match
          match child with
          | some d => readElems s schema fuel (depth + 1) d (addr + el.head) (addr + el.size)
          | none => .ok [] with
        | .error e => .error e
        | .ok inner =>
          match readElems s schema fuel depth dict (addr + el.size) stop with
          | .error e => .error e
          | .ok rest => .ok (el :: (inner ++ rest))
    else .ok []

/-- `MkvFile.createFields`, /repo/hachoir/parser/container/mkv.py:626-631, of a file of `size` bits. -/
def readFile (s : InputStream) (schema : Schema) (fuel size : Nat) : Except PyErr (List Elem) :=
  match readElem s schema 0 headerDict 0 size with
  | .error e => .error e
  | .ok (el, child) =>
    match
      match child with
      | some d => readElems s schema fuel 1 d el.head el.size
      | none => .ok [] with
    | .error e => .error e
    | .ok inner =>
      match readElems s schema fuel 0 levelDict el.size size with
      | .error e => .error e
      | .ok rest => .ok (el :: (inner ++ rest))

/-! ### Blocks -/

/-- Frames with the given sizes one behind the other, and one up to `stop`.  `RawBytes` refuses sizes
below one, and the frames have to fit into the lace. -/
def framesOf (stop : Nat) : Nat → List Int → Except PyErr (List (Nat × Nat))
  | addr, [] => if stop < addr + 8 then .error .field else .ok [(addr, (stop - addr) / 8 * 8)]
  | addr, n :: sizes =>
    if n < 1 then .error .field
    else if stop < addr + n.toNat * 8 then .error .field
    else
      match framesOf stop (addr + n.toNat * 8) sizes with
      | .error e => .error e
      | .ok l => .ok ((addr, n.toNat * 8) :: l)

/-- The sizes of `Lace.parseXiph`, /repo/hachoir/parser/container/mkv.py:202-203, and the address
behind them. -/
def xiphSizes (s : InputStream) (fuel : Nat) : Nat → Nat → Except PyErr (List Int × Nat)
  | 0, addr => .ok ([], addr)
  | n + 1, addr =>
    match xiphInt s fuel none addr with
    | .error e => .error e
    | .ok (v, size) =>
      match xiphSizes s fuel n (addr + size) with
      | .error e => .error e
      | .ok (l, stop) => .ok ((v : Int) :: l, stop)

/-- The fields `dsize[]` of `Lace.parseEBML` and the sums of them, /repo/hachoir/parser/container/mkv.py:210-216:
the sizes, and the address behind the fields.  A size without value is a TypeError. -/
def ebmlDiffs (s : InputStream) : Nat → Int → Nat → Except PyErr (List Int × Nat)
  | 0, _, addr => .ok ([], addr)
  | n + 1, prev, addr =>
    match mkvSigned s .big addr with
    | .error e => .error e
    | .ok (none, _) => .error .type
    | .ok (some d, size) =>
      match ebmlDiffs s n (prev + d) (addr + size) with
      | .error e => .error e
      | .ok (l, stop) => .ok ((prev + d) :: l, stop)

/-- `Lace`, /repo/hachoir/parser/container/mkv.py:193-223, at `addr` with `size` bits, where `n` is the
value of `n_frames`: the frames with address and size.  `lacing` is 0 for Xiph, 1 for fixed sizes, 2
for EBML. -/
def readLace (s : InputStream) (fuel lacing n addr size : Nat) : Except PyErr (List (Nat × Nat)) :=
  if lacing = 0 then
    match xiphSizes s fuel n addr with
    | .error e => .error e
    | .ok (sizes, stop) => framesOf (addr + size) stop sizes
  else if lacing = 1 then
    let each := size / 8 / (n + 1)
    if each < 1 then .error .field
    else .ok ((List.range (n + 1)).map fun i => (addr + i * (each * 8), each * 8))
  else
    match mkvUnsigned s .big addr with
    | .error e => .error e
    | .ok (first, sz) =>
      match first with
      | none => .error .type
      | some first =>
        match ebmlDiffs s (n - 1) first (addr + sz) with
        | .error e => .error e
        | .ok (sizes, stop) => framesOf (addr + size) stop (first :: sizes)

/-- `Block.createFields` in a `Block` or `SimpleBlock`, /repo/hachoir/parser/container/mkv.py:235-261, at `addr`
with `size` bits: track, time code and frames. -/
def readBlock (s : InputStream) (fuel addr size : Nat) : Except PyErr (Option Int × Int × List (Nat × Nat)) :=
  match mkvUnsigned s .big addr with
  | .error e => .error e
  | .ok (track, n) =>
    match readInteger s ((addr + n : Nat) : Int) true 16 .big with
    | .error e => .error e
    | .ok time =>
      match readBits s ((addr + n + 21 : Nat) : Int) 2 .big with
      | .error e => .error e
      | .ok lacing =>
        if lacing ≠ 0 then
          match readBits s ((addr + n + 24 : Nat) : Int) 8 .big with
          | .error e => .error e
          | .ok frames =>
            match readLace s fuel (lacing - 1) frames (addr + n + 32) (size - n - 32) with
            | .error e => .error e
            | .ok l => .ok (track, time, l)
        else if size < n + 32 then .error .field
        else .ok (track, time, [(addr + n + 24, (size - n - 24) / 8 * 8)])

end Hachoir.Formats.Mkv
