import Verif.Formats.VarInt

/-!
# Pages and packets of Ogg files

Model of `OggPage`, `Segments`, `Packets` and `OggFile.createFields` of
/repo/hachoir/parser/container/ogg.py.  Addresses and sizes are in bits, addresses absolute.
-/

namespace Hachoir.Formats.Ogg
open Hachoir Hachoir.Stream Hachoir.Formats

/-- A field `OggPage`: the values of its fields, `segment_size` and the fields `chunk[]`. -/
structure Page where
  addr : Nat
  size : Nat
  continued : Bool
  first : Bool
  last : Bool
  granule : Nat
  serial : Nat
  number : Nat
  checksum : Nat
  segments : List Nat
  chunks : List (Nat × Nat)
  deriving DecidableEq, Repr

/-- `Segments.createFields`, /repo/hachoir/parser/container/ogg.py:219-222, at `addr`. -/
def chunksFrom : Nat → List Nat → List (Nat × Nat)
  | _, [] => []
  | addr, n :: ns => if n ≠ 0 then (addr, n * 8) :: chunksFrom (addr + n * 8) ns else chunksFrom addr ns

/-- The values of the fields of `Lacing`, if it is there, /repo/hachoir/parser/container/ogg.py:230-234. -/
def readTable (s : InputStream) (n m addr count : Nat) : Except PyErr (List Nat) :=
  if count ≠ 0 then
    match lacing s n m addr (count * 8) with
    | .error e => .error e
    | .ok fields => .ok (fields.map (·.1))
  else .ok []

/-- `OggPage`, /repo/hachoir/parser/container/ogg.py:225-255, in a file that ends at `stop`.  `n` and
`m` bound the loops of `Lacing`.  A page that does not fit is an error.  Without table of segments,
`segment_size` is missing (here: empty). -/
def readPage (s : InputStream) (n m addr stop : Nat) : Except PyErr Page := do
  let _ ← readBytes s addr 4
  let continued ← readBits s ((addr + 40 : Nat) : Int) 1 .little
  let first ← readBits s ((addr + 41 : Nat) : Int) 1 .little
  let last ← readBits s ((addr + 42 : Nat) : Int) 1 .little
  let granule ← readBits s ((addr + 48 : Nat) : Int) 64 .little
  let serial ← readBits s ((addr + 112 : Nat) : Int) 32 .little
  let number ← readBits s ((addr + 144 : Nat) : Int) 32 .little
  let checksum ← readBits s ((addr + 176 : Nat) : Int) 32 .little
  let count ← readBits s ((addr + 208 : Nat) : Int) 8 .little
  let segments ← readTable s n m (addr + 216) count
  let size := (27 + count + segments.sum) * 8
  if stop < addr + size then .error .parser
  else pure ⟨addr, size, continued ≠ 0, first ≠ 0, last ≠ 0, granule, serial, number, checksum, segments,
    chunksFrom (addr + (27 + count) * 8) segments⟩

/-- `OggFile.createFields`, /repo/hachoir/parser/container/ogg.py:317-320, up to `stop`.  `fuel` bounds
the number of pages. -/
def readPages (s : InputStream) (n m : Nat) : Nat → Nat → Nat → Except PyErr (List Page)
  | 0, _, _ => .error .endless
  | fuel + 1, addr, stop =>
    if addr < stop then
      match readPage s n m addr stop with
      | .error e => .error e
      | .ok p =>
        match readPages s n m fuel (addr + p.size) stop with
        | .error e => .error e
        | .ok ps => .ok (p :: ps)
    else .ok []

/-- `Segments.createNext` again and again, /repo/hachoir/parser/container/ogg.py:186-217: the pages
behind a page of the stream `serial` that are linked to it.  A page without the field `segments`
ends the search (MissingField); it is missing if there are no segments, and taken out if it would be
empty (/repo/hachoir/field/generic_field_set.py:186-188).  Assumes that the field `segments` of the
first page of a stream is made before those of the other pages. -/
def chain (serial : Nat) : List Page → List Page
  | [] => []
  | p :: ps =>
    if p.segments.sum = 0 then []
    else if p.serial = serial then p :: (if p.last then [] else chain serial ps)
    else chain serial ps

/-- The fragments of the stream that begins with the page `p`; `ps` are the pages behind it. -/
def streamPages (p : Page) (ps : List Page) : List Page := p :: if p.last then [] else chain p.serial ps

/-- The inner loop of `Packets.__iter__`, /repo/hachoir/parser/container/ogg.py:173-180: the sizes given
and the last `size`. -/
def pagePackets : Bool → Option Nat → List Nat → Except PyErr (List Nat × Option Nat)
  | _, size, [] => .ok ([], size)
  | continued, size, n :: ns =>
    if continued then
      match size with
      | none => .error .type
      | some k => pagePackets false (some (k + n)) ns
    else
      match pagePackets false (some n) ns with
      | .error e => .error e
      | .ok (l, last) =>
        .ok ((match size with
              | some k => if k ≠ 0 then k * 8 :: l else l
              | none => l), last)

/-- `Packets.__iter__`, /repo/hachoir/parser/container/ogg.py:167-183: the sizes given and the exception
behind them.  Behind the first page, `fragment.__next__` is an AttributeError: no class of fields has
such a method. -/
def packets (p : Page) : List Nat × PyErr :=
  match pagePackets p.continued none p.segments with
  | .error e => ([], e)
  | .ok (l, _) => (l, .attribute)

end Hachoir.Formats.Ogg
