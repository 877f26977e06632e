import Verif.Formats.Png
import Verif.Stream.Compose

/-!
# The image data of PNG files

Model of `ImageData` of /repo/hachoir/parser/image/png.py and of the links of `Fragment`, /repo/hachoir/field/link.py: the
fields `compressed_data` of the chunks `data[0]`, `data[1]`, … are linked to one stream.  Left out: inflating that stream.
-/

namespace Hachoir.Formats.Png
open Hachoir Hachoir.Stream

/-- The tag of the chunks `data[]`, /repo/hachoir/parser/image/png.py:203. -/
def dataTag : Bytes := [0x49, 0x44, 0x41, 0x54]

/-- The chunks `data[0]`, `data[1]`, …: they are numbered in their order. -/
def dataChunks (cs : List Chunk) : List Chunk := cs.filter fun c => c.tag == dataTag

/-- `chunk["compressed_data"]` of the chunk `data[i]`, as address and size in bits, png.py:155-176, 239-242: a chunk without content has
no such field, and none has one if the first has not (png.py:167 raises `MissingField`, and the content of the chunk becomes
`raw[]`). -/
def imageField (ds : List Chunk) (i : Nat) : Except PyErr (Nat × Nat) :=
  match ds[i]?, ds[0]? with
  | some c, some f => if c.bytes = 0 ∨ f.bytes = 0 then .error .missingField else .ok (c.content, 8 * c.bytes)
  | _, _ => .error .missingField

/-- `Fragment.next` of the field of `data[i]`, png.py:168-175 and link.py:71-76: `None` behind the last chunk. -/
def imageNext (ds : List Chunk) (i : Nat) : Except PyErr (Option (Nat × Nat)) :=
  match ds[i + 1]? with
  | none => .ok none
  | some _ =>
    match imageField ds (i + 1) with
    | .error e => .error e
    | .ok f => .ok (some f)

/-- The fields that follow that of `data[i]` by `next`, and the exception at their end, if there is one. -/
def imageFollow (ds : List Chunk) : Nat → Nat → List (Nat × Nat) × Option PyErr
  | 0, _ => ([], none)
  | fuel + 1, i =>
    match imageNext ds i with
    | .error e => ([], some e)
    | .ok none => ([], none)
    | .ok (some f) => (f :: (imageFollow ds fuel (i + 1)).1, (imageFollow ds fuel (i + 1)).2)

/-- `data[0]["compressed_data"].getSubIStream()` before it is inflated: `FragmentedStream(first)`, link.py:78-82 and
/repo/hachoir/stream/input.py:508-517.  A `next` of the first field that raises is an error; the model also has an
error when one of the others raises, which in the code happens not before it is read up to there. -/
def imageStream (cs : List Chunk) : Except PyErr FragState :=
  match imageField (dataChunks cs) 0 with
  | .error e => .error e
  | .ok f =>
    match (imageFollow (dataChunks cs) (dataChunks cs).length 0).2 with
    | some e => .error e
    | none => FragState.init f ((imageFollow (dataChunks cs) (dataChunks cs).length 0).1.map some)

end Hachoir.Formats.Png
