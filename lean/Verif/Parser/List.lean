import Verif.Py

/-!
# Model of the parser list, /repo/hachoir/parser/parser_list.py

`P` is the type of parser classes.  Dictionaries are association lists in
insertion order.
-/

set_option linter.unusedVariables false

namespace Hachoir.Parser
open Hachoir

/-- Values inside tags: texts, numbers, anything else (byte strings, pairs, ...). -/
inductive Val where
  | str (s : List Char)
  | int (n : Int)
  | other (n : Nat)
  deriving DecidableEq, Repr

/-- Value of a tag in `PARSER_TAGS`. -/
inductive TagValue where
  | one (v : Val)
  | tuple (l : List Val)
  | list (l : List Val)
  deriving DecidableEq, Repr

/-- Result of `getParserTags()`, parser/parser.py:128-134. -/
abbrev Tags := List (String × TagValue)

/-- `tags.get(name)`. -/
def Tags.get (tags : Tags) (name : String) : Option TagValue :=
  (tags.find? (fun p => p.1 = name)).map Prod.snd

/-- `VALID_CATEGORY`, parser_list.py:11-12. -/
def validCategory : List String :=
  ["archive", "audio", "container", "file_system", "game", "image", "misc", "program", "video"]

/-- Characters `[a-z0-9]`. -/
def lowerDigit (c : Char) : Bool := ('a' ≤ c && c ≤ 'z') || ('0' ≤ c && c ≤ '9')

/-- `ID_REGEX.match`, parser_list.py:13: `^[a-z0-9][a-z0-9_]{2,}$`; the `$` of Python also
matches in front of a newline at the end. -/
def idMatch (s : List Char) : Bool :=
  let s := if s.getLast? = some '\n' then s.dropLast else s
  match s with
  | [] => false
  | c :: r => lowerDigit c && 2 ≤ r.length && r.all (fun c => lowerDigit c || c = '_')

/-- `ParserList`, parser_list.py:15-17: the parsers and `bytag`. -/
structure ParserList (P : Type) where
  parsers : List P
  bytag : List (String × List (Val × List P))
  deriving DecidableEq

/-- `ParserList()`, parser_list.py:15-17. -/
def ParserList.new (P : Type) : ParserList P := ⟨[], [("id", []), ("category", [])]⟩

/-- `self.bytag.get(name, {})`. -/
def ParserList.byname {P : Type} (db : ParserList P) (name : String) : List (Val × List P) :=
  ((db.bytag.find? (fun p => p.1 = name)).map Prod.snd).getD []

/-- `byname.get(value, ())`. -/
def valueGet {P : Type} (byname : List (Val × List P)) (v : Val) : List P :=
  ((byname.find? (fun p => p.1 = v)).map Prod.snd).getD []

/-- Results of `translate`. -/
inductive Translated where
  | skip                                  -- `True`: the tag is not listed
  | keep (values : List Val)
  | error                                 -- a text: the parser is refused
  | typeError
  deriving DecidableEq

/-- A value as tuple, parser_list.py:37-41. -/
def asTuple : TagValue → List Val
  | .one v => [v]
  | .tuple l => l
  | .list l => l

/-- `translate`, parser_list.py:19-41. -/
def ParserList.translate {P : Type} (db : ParserList P) (name : String) (value : TagValue) : Translated :=
  if name = "magic" then .skip
  else if name = "min_size" then
    match value with
    | .one (.int n) => if -n < 0 then .skip else .error
    | _ => .typeError
  else if name = "description" then
    match value with
    | .one (.str s) => if s ≠ [] then .skip else .error
    | _ => .error
  else if name = "category" then
    match value with
    | .one (.str s) => if s ∈ validCategory.map String.toList then .keep [.str s] else .error
    | _ => .error
  else if name = "id" then
    match value with
    | .one (.str s) =>
      if !idMatch s then .error
      else if valueGet (db.byname "id") (.str s) ≠ [] then .error
      else .keep [.str s]
    | _ => .error
  else .keep (asTuple value)

/-- Values of a tuple or list, `none` for anything else. -/
def sequence : TagValue → Option (List Val)
  | .one _ => none
  | .tuple l => some l
  | .list l => some l

/-- A text? -/
def Val.isStr : Val → Bool
  | .str _ => true
  | _ => false

/-- `validParser`, parser_list.py:43-60: true if there is no objection. -/
def validParser (tags : Tags) : Bool :=
  (tags.get "id").isSome && (tags.get "description").isSome &&
  (match tags.get "file_ext" with
    | none => true
    | some v => (sequence v).isSome) &&
  (match tags.get "mime" with
    | none => true
    | some (.tuple l) => l.all Val.isStr
    | some _ => false)

/-- `byname.setdefault(value, []).append(parser)`. -/
def addValue {P : Type} (byname : List (Val × List P)) (v : Val) (p : P) : List (Val × List P) :=
  match byname with
  | [] => [(v, [p])]
  | (v', l) :: r => if v' = v then (v', l ++ [p]) :: r else (v', l) :: addValue r v p

/-- Lines 80-83 for one tag. -/
def addTag {P : Type} (bytag : List (String × List (Val × List P))) (name : String) (values : List Val) (p : P) :
    List (String × List (Val × List P)) :=
  match bytag with
  | [] => [(name, values.foldl (fun b v => addValue b v p) [])]
  | (n, b) :: r =>
    if n = name then (n, values.foldl (fun b v => addValue b v p) b) :: r else (n, b) :: addTag r name values p

/-- The loop of lines 69-76 over the tags: `none` if the parser is refused. -/
def ParserList.collect {P : Type} (db : ParserList P) : Tags → Except PyErr (Option (List (String × List Val)))
  | [] => .ok (some [])
  | (name, value) :: r =>
    match db.translate name value with
    | .error => .ok none
    | .typeError => .error .type
    | .skip => db.collect r
    | .keep values =>
      match db.collect r with
      | .ok (some l) => .ok (some ((name, values) :: l))
      | x => x

/-- `add`, parser_list.py:62-83. -/
def ParserList.add {P : Type} (db : ParserList P) (tags : Tags) (p : P) : Except PyErr (ParserList P) :=
  if !validParser tags then .ok db
  else
    match db.collect tags with
    | .error e => .error e
    | .ok none => .ok db
    | .ok (some l) =>
      .ok { parsers := db.parsers ++ [p], bytag := l.foldl (fun b nv => addTag b nv.1 nv.2 p) db.bytag }

/-- `_load`, parser_list.py:194-220: add the classes of all modules; `tags` is
`getParserTags()` of the class. -/
def ParserList.load {P : Type} (tags : P → Tags) (db : ParserList P) : List P → Except PyErr (ParserList P)
  | [] => .ok db
  | p :: r => do
    let db ← db.add (tags p) p
    db.load tags r

end Hachoir.Parser
