import Verif.Stream.Output

/-!
# Files that are carved out (`subfile/output.py` and `subfile/search.py:144-170`)

Left out: the directory of the files and errors of the file system; what is printed.
-/

namespace Hachoir.Subfile.Output
open Hachoir Hachoir.Stream

/-- A file that was found: where it begins, its `content_size` (both in bits), `filename_suffix`, and whether the filter lets it pass. -/
structure Found where
  offset : Nat
  contentSize : Option Nat
  suffix : Option (List Char)
  wanted : Bool

/-- `Output`: the next number, output.py:14, and the files written, with their bytes, or nothing if copying ended with an error (then the file has only the first of them). -/
structure State where
  fileId : Nat
  files : List (List Char × Option Bytes)

/-- `Output.__init__`, output.py:12-15. -/
def start : State := ⟨1, []⟩

/-- `"%04u"`. -/
def padded (n : Nat) : List Char := List.replicate (4 - (Nat.toDigits 10 n).length) '0' ++ Nat.toDigits 10 n

/-- `createFilename`, output.py:26-31, for the number `n`. An empty suffix is none. -/
def fileName (n : Nat) (suffix : Option (List Char)) : List Char := "file-".toList ++ padded n ++ suffix.getD []

/-- `FILE_MAX_SIZE`, search.py:16. -/
def fileMaxSize : Nat := 100 * 1024 * 1024

/-- `writeFile`, output.py:33-48: `size // 8` bytes; stream errors are caught. -/
def copied (s : InputStream) (offset size : Nat) : Option Bytes :=
  match copyBytesFrom OutputStream.init s (offset : Int) (size / 8) with
  | .ok o => some o.out
  | .error _ => none

/-- `createFilename` and `writeFile`, search.py:163-165. -/
def store (s : InputStream) (st : State) (f : Found) (size : Nat) : State :=
  ⟨st.fileId + 1, st.files ++ [(fileName st.fileId f.suffix, copied s f.offset size)]⟩

/-- `processParser`, search.py:157-166; `total` is the size of the stream in bits. -/
def processParser (s : InputStream) (total : Nat) (st : State) (f : Found) : State :=
  match f.contentSize with
  | none => st
  | some size =>
    if size = 0 then st
    else if f.offset = 0 ∧ size = total then st
    else if fileMaxSize ≤ size / 8 then st
    else if f.wanted then store s st f size
    else st

/-- search.py:136-137: all files found, in order. -/
def processAll (s : InputStream) (total : Nat) (fs : List Found) : State := fs.foldl (processParser s total) start

end Hachoir.Subfile.Output
