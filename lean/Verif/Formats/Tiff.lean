import Verif.Formats.Exif

/-!
# Images of TIFF files

/repo/hachoir/parser/image/tiff.py.  The directories are those of `Formats/Exif.lean`.  Simplifications: offsets and sizes that are not whole
numbers are errors at once; a strip that reaches behind the end of the file ends the reading (the code may keep the strips before it); names of the
fields and the raw fields between them are left out.
-/

namespace Hachoir.Formats.Tiff
open Hachoir Hachoir.Stream Hachoir.Formats.Exif

abbrev Entries := List (Nat × Nat × Option Value)

/-- `data[name]`, tiff.py:15-17: the last entry with this tag; the names are only known in the directories of class `IFD` itself
(exif.py:160-162, 206-207). -/
def lastEntry (kind : DirKind) (tag : Nat) (es : Entries) : Option (Option Value) :=
  if kind = .ifd then (es.reverse.find? fun x => x.1 == tag).map fun x => x.2.2 else none

/-- The values of the fields of an entry (exif.py:376-389); iterating over None is a TypeError. -/
def numbers (v : Option Value) : Except PyErr (List Int) :=
  match v with
  | some (.items l) => itemOffsets l
  | _ => .error .type

/-- `zip` of two entries, tiff.py:19-23 and 26-30. -/
def zipped (offs sizes : Option (Option Value)) : Except PyErr (List (Int × Int)) :=
  match offs, sizes with
  | some o, some n =>
    match numbers o, numbers n with
    | .ok o, .ok n => .ok (o.zip n)
    | .error e, _ => .error e
    | _, .error e => .error e
  | _, _ => .ok []

/-- `getStrips`, tiff.py:14-30. -/
def getStrips (kind : DirKind) (es : Entries) : Except PyErr (List (Int × Int)) :=
  match zipped (lastEntry kind 0x0111 es) (lastEntry kind 0x0117 es), zipped (lastEntry kind 0x0144 es) (lastEntry kind 0x0145 es) with
  | .ok a, .ok b => .ok (a ++ b)
  | .error e, _ => .error e
  | _, .error e => .error e

/-- One strip, tiff.py:41-43, of an image at the byte `start`. -/
def strip (s : InputStream) (start : Int) (x : Int × Int) : Except PyErr Bytes :=
  if x.1 < start then .error .parser
  else if x.2 ≤ 0 then .error .field
  else readBytes s (8 * x.1) x.2.toNat

/-- `ImageFile`, tiff.py:39-43. -/
def strips (s : InputStream) (start : Int) : List (Int × Int) → Except PyErr (List Bytes)
  | [] => .ok []
  | x :: xs =>
    match strip s start x with
    | .error e => .error e
    | .ok b =>
      match strips s start xs with
      | .error e => .error e
      | .ok bs => .ok (b :: bs)

/-- `min` of offsets, tiff.py:82: ValueError for none. -/
def firstByte : List Int → Except PyErr Int
  | [] => .error .value
  | x :: xs => .ok (xs.foldl min x)

/-- The image of a directory, tiff.py:81-84; a negative address is refused (seekable_field_set.py:40-42). -/
def image (s : InputStream) (kind : DirKind) (es : Entries) : Except PyErr (List Bytes) :=
  match getStrips kind es with
  | .error e => .error e
  | .ok xs =>
    match firstByte (xs.map (·.1)) with
    | .error e => .error e
    | .ok start => if start < 0 then .error .parser else strips s start xs

/-- The loop of tiff.py:78-84: the images, and the error that ended it.  (The loop itself ends in an error as well, when it asks for more fields
while they are made, but nothing is to be made then.) -/
def images (s : InputStream) : List (Int × DirKind × Dir) → List (List Bytes) × Option PyErr
  | [] => ([], none)
  | (_, kind, dir) :: dirs =>
    match image s kind dir.entries with
    | .error e => ([], some e)
    | .ok bs =>
      let (l, e) := images s dirs
      (bs :: l, e)

/-- `createFields`, tiff.py:75-84: the directories and the images; an error in the directories leaves no images.  `n` bounds the directories. -/
def tiffFile (s : InputStream) (n : Nat) : Except PyErr (List (Int × DirKind × Dir) × List (List Bytes)) :=
  match tiff s n 0 with
  | .error e => .error e
  | .ok (dirs, some (.ok ())) => .ok (dirs, (images s dirs).1)
  | .ok (dirs, _) => .ok (dirs, [])

end Hachoir.Formats.Tiff
