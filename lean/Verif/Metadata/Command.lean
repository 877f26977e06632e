import Verif.Metadata.Metadata

/-!
# The command for metadata (`metadata/main.py`)

What is printed and the status at exit, given what parsers and extractors do with each file. Charsets of the terminal (`makePrintable`) are left out.
-/

namespace Hachoir.Metadata.Command
open Hachoir Hachoir.Metadata

/-- What `createParser` and the parser give for a file, main.py:73-103. `extract` is `none` for an exception of `extractMetadata`. -/
inductive Source
  | noStream
  | noParser
  | crash (e : PyErr)
  | parsed (description mime : Text) (extract : Option Metadata)

/-- The options that matter, main.py:24-53. -/
structure Values where
  type : Bool
  mime : Bool
  level : Nat
  raw : Bool
  bench : Bool
  profiler : Bool

/-- `"%s: %s" % (filename, line)`, main.py:111-117 and 119-122. -/
def shown (displayName : Bool) (name line : Text) : Text := if displayName then name ++ txt ": " ++ line else line

/-- `processFile`, main.py:68-123: the lines printed and the value returned, or an exception of the parser. -/
def processFile (env : Env) (v : Values) (name : Text) (source : Source) (displayName : Bool) (priority : Int) (human display : Bool) : Except PyErr (List Text × Bool) :=
  match source with
  | .noStream => .ok ([], false)
  | .noParser => .ok ([], false)
  | .crash e => .error e
  | .parsed description mime extract =>
    if v.mime || v.type then
      .ok (if display then [shown displayName name (if v.type then description else mime)] else [], true)
    else
      match extract with
      | none => .ok ([], false)
      | some m =>
        if m.nonEmpty then
          .ok (if display then ((m.exportPlaintext env (some priority) human (txt "- ") none).getD [txt "(no metadata, priority may be too small)"]).map (shown displayName name)
            else [], true)
        else .ok ([], false)

/-- The loop of `processFiles`, main.py:131-134. -/
def loop (env : Env) (v : Values) (displayName : Bool) (priority : Int) (human display : Bool) : List (Text × Source) → Bool → List Text × Except PyErr Bool
  | [], ok => ([], .ok ok)
  | (name, s) :: l, ok =>
    match processFile env v name s displayName priority human display with
    | .error e => ([], .error e)
    | .ok (lines, r) =>
      let rest := loop env v displayName priority human display l (ok && r)
      (lines ++ rest.1, rest.2)

/-- `processFiles`, main.py:126-134. -/
def processFiles (env : Env) (v : Values) (files : List (Text × Source)) (display : Bool) : List Text × Except PyErr Bool :=
  loop env v (decide (1 < files.length)) (v.level * 100 + 99) (!v.raw) display files true

/-- `main`, main.py:147-168, from the call of `processFiles` on: the lines and the status at exit. `runProfiler` imports a module that Python 3 does not have
(/repo/hachoir/core/profiler.py:1). `benchmarkMetadata` (main.py:137-139) returns None; it is told for a benchmark that ends without an error. -/
def main (env : Env) (v : Values) (files : List (Text × Source)) : List Text × Except PyErr Nat :=
  if v.profiler then ([], .error .attribute)
  else if v.bench then
    match processFiles env v files false with
    | (_, .error e) => ([], .error e)
    | (_, .ok _) => ([], .ok 1)
  else
    match processFiles env v files true with
    | (lines, .error e) => (lines, .error e)
    | (lines, .ok ok) => (lines, .ok (if ok then 0 else 1))

end Hachoir.Metadata.Command
