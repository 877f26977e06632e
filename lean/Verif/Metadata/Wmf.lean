import Verif.Metadata.Metadata
import Verif.Formats.Wmf

/-!
# What is told of Windows metafiles (`metadata/image.py:290-313`)
-/

namespace Hachoir.Metadata.Wmf
open Hachoir Hachoir.Metadata

/-- The kind of the file: its name of the first field, /repo/hachoir/parser/image/wmf.py:603-619, and the header. -/
inductive Kind where
  | apm (header : List Int)
  | emf (header : Formats.Wmf.EmfHeader)
  | plain

/-- The value of the description, wmf.py:511: without null characters and blanks at its ends; `decode` is UTF-16-LE. -/
def descriptionText (decode : Bytes → Text) (b : Bytes) : Text := Field.stripText (fun c => c == 0 || c == 32) (decode b)

/-- `"\0" in desc` and `desc.split("\0", 1)`, image.py:302-305. -/
def split (t : Text) : Text × Option Text :=
  if 0 ∈ t then (t.takeWhile (· ≠ 0), some ((t.dropWhile (· ≠ 0)).drop 1)) else (t, none)

/-- A number assigned. -/
def num (k : String) (n : Int) : String × Arg := (k, .value (.num (.int n)))

/-- image.py:300-305. -/
def texts (decode : Bytes → Text) : Option Bytes → List (String × Arg)
  | none => []
  | some b =>
    let p := split (descriptionText decode b)
    ("producer", .value (.text p.1)) :: p.2.toList.map fun t => ("title", .value (.text t))

/-- image.py:306-310. -/
def colors (n : Int) : List (String × Arg) := if n ≠ 0 then [num "nb_colors" n, num "bits_per_pixel" 8] else [num "bits_per_pixel" 24]

/-- The assignments of `WmfMetadata.extract`, image.py:292-313. The field `rect` is always in the header. -/
def assignments (decode : Bytes → Text) : Kind → List (String × Arg)
  | .apm h => [num "width" (h.getD 4 0 - h.getD 2 0), num "height" (h.getD 5 0 - h.getD 3 0), num "bits_per_pixel" 24]
  | .emf h => texts decode h.description ++ colors (h.numbers.getD 19 0) ++ [num "width" (h.numbers.getD 20 0), num "height" (h.numbers.getD 21 0)]
  | .plain => []

/-- `WmfMetadata.extract`, image.py:292-313. -/
def extract (cfg : Config) (env : Env) (decode : Bytes → Text) (k : Kind) : Metadata := (Metadata.new env (txt "Metadata")).run cfg (assignments decode k)

end Hachoir.Metadata.Wmf
