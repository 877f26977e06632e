import Verif.Formats.Reader
import Verif.Field.Replace

/-!
# Videos of a Spider-Man game (`parser/game/spider_man_video.py`)
-/

namespace Hachoir.Formats.Spider
open Hachoir Hachoir.Stream Hachoir.Field Hachoir.Formats Hachoir.FieldSet

/-- `Chunk.__init__` and `Chunk.createFields`, spider_man_video.py:28-47: the tag and the data.  The tag is kept as bytes.  A chunk that is told to be of no bytes is
deleted (/repo/hachoir/field/generic_field_set.py:185-216); one of 1 to 7 bytes, which is shorter than its own header, is not modelled. -/
def chunk : Rd (Bytes × Bytes) :=
  Rd.bind (Rd.raw 4) fun tag => Rd.bind (Rd.int 4 .big) fun n =>
    if n < 8 then Rd.fail .stopIteration
    else if 0 < n - 8 then Rd.bind (Rd.raw (n - 8)) fun d => Rd.pure (tag, d)
    else Rd.pure (tag, [])

/-- `createFields`, spider_man_video.py:64-66. -/
def file (fuel : Nat) : Rd (List (Bytes × Bytes)) := Rd.whileNotEof chunk fuel

/-- `validate`, spider_man_video.py:61-62. -/
def valid (data : Bytes) : Bool := data.take 4 == "CONF".toUTF8.toList

/-- The name of a chunk before it is numbered, spider_man_video.py:17-26, 32-33 and 66. -/
def askedName (tag : Bytes) : Name :=
  if tag = "CONF".toUTF8.toList then "conf[]".toList
  else if tag = "AUDI".toUTF8.toList then "audio[]".toList
  else if tag = "SYNC".toUTF8.toList then "sync[]".toList
  else if tag = "IVRA".toUTF8.toList then "ivra[]".toList
  else if tag = "VRAM".toUTF8.toList then "video[]".toList
  else if tag = "CRAM".toUTF8.toList then "color[]".toList
  else if tag = "CEND".toUTF8.toList then "video_end[]".toList
  else if tag = "MEND".toUTF8.toList then "end_file".toList
  else "chunk[]".toList

/-- The names given to fields added one after the other, /repo/hachoir/field/generic_field_set.py:154-155 and 193-199: a name that is there already is numbered.
Simplification: that the number makes the name unique is taken for granted (it is, see C21). -/
def nameLoop : List (Name × Nat) → List Name → List Name → List Name
  | _, _, [] => []
  | counts, used, n :: ns =>
    if (ownName counts n).1 ∈ used then
      (uniqueName (ownName counts n).2 ((ownName counts n).1 ++ ['[', ']'])).1 ::
        nameLoop (uniqueName (ownName counts n).2 ((ownName counts n).1 ++ ['[', ']'])).2
          (used ++ [(uniqueName (ownName counts n).2 ((ownName counts n).1 ++ ['[', ']'])).1]) ns
    else (ownName counts n).1 :: nameLoop (ownName counts n).2 (used ++ [(ownName counts n).1]) ns

/-- The names of the fields of a new field set. -/
def fieldNames (asked : List Name) : List Name := nameLoop [] [] asked

/-- The names of the chunks of a file. -/
def chunkNames (chunks : List (Bytes × Bytes)) : List Name := fieldNames (chunks.map fun c => askedName c.1)

end Hachoir.Formats.Spider
