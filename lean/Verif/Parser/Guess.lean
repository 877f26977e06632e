import Verif.Parser.List
import Mathlib.Data.List.Dedup

/-!
# Model of parser guessing, /repo/hachoir/parser/guess.py
-/

set_option linter.unusedVariables false

namespace Hachoir.Parser
open Hachoir

/-- What is outside of the code: `str.lower` and the order in which Python iterates over a set
of classes. -/
structure GuessEnv (P : Type) where
  lower : List Char → List Char
  order : List P → List P

/-- Tags given to `QueryParser`; `args` only stores its argument.  A callable is a total
function. -/
inductive Tag (P : Type) where
  | stop                                          -- `None`
  | call (f : P → Bool)
  | cls (p : P)                                   -- `("class", p)`
  | args                                          -- `("args", ...)`
  | named (name : String) (value : Option Val)    -- `(name, value)`

/-- `os.path.basename`: the part behind the last slash. -/
def basename (path : List Char) : List Char := (path.reverse.takeWhile (· ≠ '/')).reverse

/-- `translate`, guess.py:39-47; the last part of `split(".")` if there are at least two. -/
def translate {P : Type} (env : GuessEnv P) (name : String) (value : Option Val) :
    Except PyErr (String × Option Val) :=
  if name = "filename" then
    match value with
    | some (.str path) =>
      let base := basename path
      if '.' ∈ base then .ok ("file_ext", some (.str (env.lower (base.reverse.takeWhile (· ≠ '.')).reverse)))
      else .ok ("file_ext", some (.str []))
    | _ => .error .type
  else .ok (name, value)

variable {P : Type} [DecidableEq P]

/-- The inner loop of lines 75-79: move parsers from the set to the list. -/
def takeFrom : List P → List P → List P × List P
  | left, [] => ([], left)
  | left, p :: r =>
    if p ∈ left then
      let (taken, left) := takeFrom (left.erase p) r
      (p :: taken, left)
    else takeFrom left r

/-- `_getByTag`, guess.py:49-80: the parsers, what is left of `self.parsers`, `self.validate`. -/
def getByTag (env : GuessEnv P) (db : ParserList P) (left : List P) (validate : Bool) :
    Tag P → Except PyErr (List P × List P × Bool)
  | .stop => .ok ([], [], validate)
  | .call f =>
    let parsers := (env.order left).filter f
    .ok (parsers, parsers.foldl List.erase left, validate)
  | .cls p => .ok ([p], left, false)
  | .args => .ok ([], left, validate)
  | .named name value =>
    match translate env name value with
    | .error e => .error e
    | .ok (key, value) =>
      let byname := db.byname key
      let values := match value with
        | none => byname.map Prod.snd
        | some v => [valueGet byname v]
      -- `values` is an iterator or a tuple with one element, both are true
      let validate := if key = "id" then false else validate
      let (parsers, left) := takeFrom left values.flatten
      .ok (parsers, left, validate)

/-- State of `QueryParser`, guess.py:13-34. -/
structure Query (P : Type) where
  parsers : List P
  validate : Bool
  fallback : Option Bool
  other : Option P
  deriving DecidableEq

/-- The loop of lines 24-29. -/
def queryLoop (env : GuessEnv P) (db : ParserList P) : List P → Bool → List P → Option Bool → List (Tag P) →
    Except PyErr (List P × List P × Bool × Option Bool)
  | left, validate, parsers, fallback, [] => .ok (parsers, left, validate, fallback)
  | left, validate, parsers, fallback, tag :: r =>
    if left = [] then .ok (parsers, left, validate, fallback)
    else
      match getByTag env db left validate tag with
      | .error e => .error e
      | .ok (more, left, validate) =>
        let parsers := parsers ++ more
        let fallback := match fallback with
          | none => some (parsers.length == 1)
          | some b => some b
        queryLoop env db left validate parsers fallback r

/-- `QueryParser(tags)`, guess.py:17-34.  The set of the listed parsers is a list without
repetitions. -/
def Query.new (env : GuessEnv P) (db : ParserList P) (tags : List (Tag P)) : Except PyErr (Query P) :=
  match queryLoop env db db.parsers.dedup true [] none tags with
  | .error e => .error e
  | .ok (parsers, left, validate, fallback) =>
    if left ≠ [] then
      let all := parsers ++ env.order left
      .ok ⟨all, validate, fallback, all[parsers.length]?⟩
    else .ok ⟨parsers, validate, fallback, none⟩

/-- Behaviour of the parser classes on a stream. -/
structure World (P : Type) where
  /-- does `GenericParser.__init__` succeed? -/
  opens : P → Bool
  /-- does `setattr` succeed for all arguments? -/
  setattr : P → Bool
  /-- `stream.sizeGe(min_size)`; `none`: `KeyError` or an exception of the stream -/
  large : P → Option Bool
  /-- is the result of `validate()` `True`?  `none`: an exception -/
  valid : P → Option Bool

/-- Outcomes of creating a parser object in `doparse`, guess.py:99-114. -/
inductive Outcome where
  | created
  | validateError
  | exception
  deriving DecidableEq

/-- `parser(stream, validate=...)`, parser/parser.py:31-44 and 139-141, then `setattr` for the
arguments. -/
def create (w : World P) (validate : Bool) (p : P) : Outcome :=
  if !w.opens p then .exception
  else if validate then
    match w.large p with
    | none => .exception
    | some false => .validateError
    | some true =>
      match w.valid p with
      | none => .exception
      | some false => .validateError
      | some true => if w.setattr p then .created else .exception
  else if w.setattr p then .created else .exception

/-- The loop of `doparse`, guess.py:98-115: the parsers that were tried, the one that was
created, `fb`. -/
def doparseLoop (w : World P) (validate : Bool) (selfFallback : Bool) : Bool → Option P → List P →
    List P × Option P × Option P
  | fallback, fb, [] => ([], none, fb)
  | fallback, fb, p :: r =>
    match create w validate p with
    | .created => ([p], some p, fb)
    | .validateError =>
      let fb := if fallback && selfFallback then some p else fb
      let (tried, found, fb) := doparseLoop w validate selfFallback false fb r
      (p :: tried, found, fb)
    | .exception =>
      let (tried, found, fb) := doparseLoop w validate selfFallback false fb r
      (p :: tried, found, fb)

/-- Results of `doparse` and `parse`. -/
inductive Found (P : Type) where
  | nothing                -- `None`
  | parser (p : P)         -- a new object of class `p`
  | forced (p : P)         -- `fb(stream)`
  | cached (p : P)         -- the object that was cached
  deriving DecidableEq

/-- `doparse`, guess.py:95-118, with the parsers that were tried.  `fb(stream)` may raise what
the constructor raises. -/
def Query.doparse (q : Query P) (w : World P) (useFallback fallback : Bool) : List P × Except PyErr (Found P) :=
  let (tried, found, fb) := doparseLoop w q.validate (q.fallback == some true) fallback none q.parsers
  match found with
  | some p => (tried, .ok (.parser p))
  | none =>
    match fb with
    | some p =>
      if useFallback then (tried, if w.opens p then .ok (.forced p) else .error .runtime)
      else (tried, .ok .nothing)
    | none => (tried, .ok .nothing)

/-- `parse`, guess.py:82-93; `cache` is the class of the parser object cached in the stream,
if it still exists.  Returns the result and the new cache. -/
def Query.parse (q : Query P) (w : World P) (useFallback fallback : Bool) (cache : Option P) :
    List P × Except PyErr (Found P) × Option P :=
  match cache with
  | some p =>
    if p ∈ q.parsers then ([], .ok (.cached p), cache)
    else
      match q.doparse w useFallback fallback with
      | (tried, .ok (.parser c)) => (tried, .ok (.parser c), some c)
      | (tried, .ok (.forced c)) => (tried, .ok (.forced c), some c)
      | (tried, x) => (tried, x, cache)
  | none =>
    match q.doparse w useFallback fallback with
    | (tried, .ok (.parser c)) => (tried, .ok (.parser c), some c)
    | (tried, .ok (.forced c)) => (tried, .ok (.forced c), some c)
    | (tried, x) => (tried, x, cache)

end Hachoir.Parser
