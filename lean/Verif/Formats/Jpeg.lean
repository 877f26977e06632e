import Verif.Stream.Input

/-!
# Parts of JPEG files

Model of `JpegChunk`, `JpegImageData.__init__` and `JpegFile.createFields` of
/repo/hachoir/parser/image/jpeg.py.  Addresses and sizes are in bits, addresses absolute.
-/

namespace Hachoir.Formats.Jpeg
open Hachoir Hachoir.Stream

/-- `MAX_FILESIZE`, /repo/hachoir/parser/image/jpeg.py:30, in bits. -/
def maxBits : Nat := 100 * 1024 * 1024 * 8

/-- The loop of `JpegImageData.__init__`, /repo/hachoir/parser/image/jpeg.py:385-401: the end of the
data, where `size` is the size of the stream.  `fuel` bounds the number of steps. -/
def imageEnd (s : InputStream) (size : Nat) : Nat → Nat → Except PyErr Nat
  | 0, _ => .error .endless
  | fuel + 1, start =>
    match searchBytes s [0xff] start (some maxBits) with
    | .error e => .error e
    | .ok none => .ok size
    | .ok (some stop) =>
      match readBytes s stop 2 with
      | .error e => .error e
      | .ok bs => if bs = [0xff, 0] then imageEnd s size fuel (stop.toNat + 16) else .ok stop.toNat

/-- A field of the file. -/
inductive Part
  | chunk (tag : Nat) (addr size : Nat)
  | image (addr size : Nat)
  deriving DecidableEq, Repr

/-- Restart markers. -/
def isRestart (tag : Nat) : Bool := 0xd0 ≤ tag && tag < 0xd8

/-- Chunks that are only a marker, /repo/hachoir/parser/image/jpeg.py:536. -/
def isBare (tag : Nat) : Bool := tag == 0xd8 || tag == 0xd9 || isRestart tag

/-- `START_OF_FRAME`, /repo/hachoir/parser/image/jpeg.py:494-508. -/
def isFrame (tag : Nat) : Bool := tag ∈ [0xc0, 0xc1, 0xc2, 0xc3, 0xc5, 0xc6, 0xc7, 0xc9, 0xca, 0xcb, 0xcd, 0xce, 0xcf]

/-- `JpegChunk`, /repo/hachoir/parser/image/jpeg.py:513-547, in a file of `size` bits: tag, size of
the chunk, size of its content.  For Exif the constructor looks at six bytes (518).  A field that
does not fit is an error. -/
def readChunk (s : InputStream) (addr size : Nat) : Except PyErr (Nat × Nat × Nat) :=
  if size < addr + 16 then .error .parser
  else
    match readBits s addr 8 .big with
    | .error e => .error e
    | .ok header =>
      if header ≠ 0xff then .error .parser
      else
        match readBits s (addr + 8) 8 .big with
        | .error e => .error e
        | .ok tag =>
          match if tag = 0xe1 then readBytes s (addr + 32) 6 else .ok [] with
          | .error e => .error e
          | .ok _ =>
            if isBare tag then .ok (tag, 16, 0)
            else if size < addr + 32 then .error .parser
            else
              match readBits s (addr + 16) 16 .big with
              | .error e => .error e
              | .ok n =>
                if 2 < n then
                  if size < addr + 32 + (n - 2) * 8 then .error .parser else .ok (tag, 32 + (n - 2) * 8, (n - 2) * 8)
                else .ok (tag, 32, 0)

/-- `JpegFile.createFields`, /repo/hachoir/parser/image/jpeg.py:588-617, of a file of `size` bits;
`frame` tells whether the chunk of a frame was seen.  The fields behind the loop are made only if
the size is unknown.  A field set without a bit is refused
(/repo/hachoir/field/generic_field_set.py:186).  `fuel` bounds the number of chunks. -/
def readParts (s : InputStream) (size : Nat) : Nat → Bool → Nat → Except PyErr (List Part)
  | 0, _, _ => .error .endless
  | fuel + 1, frame, addr =>
    if addr < size then
      match readChunk s addr size with
      | .error e => .error e
      | .ok (tag, n, content) =>
        if isFrame tag && content == 0 then .error .missingField
        else if (tag == 0xda && (frame || isFrame tag)) || isRestart tag then
          if tag = 0xda ∧ content = 0 then .error .missingField
          else
            match imageEnd s size fuel (addr + n) with
            | .error e => .error e
            | .ok stop =>
              if stop ≤ addr + n then .error .parser
              else
                match readParts s size fuel (frame || isFrame tag) stop with
                | .error e => .error e
                | .ok ps => .ok (.chunk tag addr n :: .image (addr + n) (stop - (addr + n)) :: ps)
        else
          match readParts s size fuel (frame || isFrame tag) (addr + n) with
          | .error e => .error e
          | .ok ps => .ok (.chunk tag addr n :: ps)
    else .ok []

end Hachoir.Formats.Jpeg
