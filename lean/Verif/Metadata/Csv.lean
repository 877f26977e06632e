import Verif.Core.Printable
import Verif.Py

/-!
# Export of metadata to a table (`metadata/csv.py`)

Left out: what is written to the terminal, and the file to which the lines go (it is the list of the characters written). File systems and parsers are parameters: `os.walk` gives directories with the names of their
files, and for each path there is an outcome.
-/

namespace Hachoir.Csv
open Hachoir

abbrev Text := List Nat

/-- What comes of one file in `processFile`, csv.py:50-63. -/
inductive Outcome where
  /-- `createParser` raises, /repo/hachoir/parser/guess.py:136: the file is empty or cannot be opened -/
  | raises (e : PyErr)
  | noParser
  /-- `extractMetadata` raises -/
  | failed
  | nothing
  /-- the texts told, by name of field: `getText(field, '')`, /repo/hachoir/metadata/metadata.py:94-110 -/
  | told (text : Text → Option Text)

/-- `makePrintable(value, self.charset)`, csv.py:65 and 69. -/
def printable (t : Text) : Text := Printable.makePrintable (.text t) .utf8 none true

/-- `'; '.join(line)`, csv.py:71. -/
def join : List Text → Text
  | [] => []
  | [t] => t
  | t :: ts => t ++ (59 :: 32 :: join ts)

/-- `processFile`, csv.py:50-71. -/
def processFile (fields : List Text) (name : Text) : Outcome → Except PyErr (Option Text)
  | .raises e => .error e
  | .noParser => .ok none
  | .failed => .ok none
  | .nothing => .ok none
  | .told text => .ok (some (join (printable name :: fields.map fun f => printable ((text f).getD []))))

/-- The characters written, and the counts `total` and `invalid`. -/
structure State where
  output : Text
  total : Nat
  invalid : Nat
  deriving DecidableEq, Repr

/-- The loop of `main`, csv.py:25-31; an exception ends it, with what was done before. -/
def loop (fields : List Text) (outcome : Text → Outcome) : List Text → State → State × Option PyErr
  | [], s => (s, none)
  | name :: names, s =>
    match processFile fields name (outcome name) with
    | .error e => ({ s with total := s.total + 1 }, some e)
    | .ok none => loop fields outcome names ⟨s.output, s.total + 1, s.invalid + 1⟩
    | .ok (some line) =>
      if line = [] then loop fields outcome names ⟨s.output, s.total + 1, s.invalid + 1⟩
      else loop fields outcome names ⟨s.output ++ line ++ [10], s.total + 1, s.invalid⟩

/-- `os.path.join`, for a name without slashes. -/
def pathJoin (dir name : Text) : Text :=
  match dir.getLast? with
  | none => name
  | some c => if c = 47 then dir ++ name else dir ++ 47 :: name

/-- `findFiles(directory, '*.doc')`, csv.py:43-48; `lower` is `str.lower`. -/
def findFiles (lower : Text → Text) (walk : List (Text × List Text)) : List Text :=
  walk.flatMap fun d => (d.2.filter fun n => [46, 100, 111, 99].isSuffixOf (lower n)).map (pathJoin d.1)

/-- `str.split(",")`. -/
def splitComma : Text → List Text
  | [] => [[]]
  | c :: t =>
    match splitComma t with
    | [] => [[c]]
    | x :: xs => if c = 44 then [] :: x :: xs else (c :: x) :: xs

/-- The main program, csv.py:82-83 and 23-31; `strip` is `str.strip`. -/
def main (lower strip : Text → Text) (walk : List (Text × List Text)) (outcome : Text → Outcome) (arg : Text) : State × Option PyErr :=
  loop ((splitComma arg).map strip) outcome (findFiles lower walk) ⟨[], 0, 0⟩

end Hachoir.Csv
