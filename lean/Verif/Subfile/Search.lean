import Verif.Stream.Input
import Verif.Regex.Pattern

/-!
# Model of the search for embedded files, /repo/hachoir/subfile/search.py and pattern.py

`C` is the type of parser classes.  Not modelled: the output directory, progress and statistics,
the memory limit, `KeyboardInterrupt`.
-/

set_option linter.unusedVariables false

namespace Hachoir.Subfile
open Hachoir Hachoir.Stream Hachoir.Regex

/-- What the search uses of a parser object: `content_size` in bits and whether the tag "subfile"
is "skip" (`skipSubfile`, search.py:11-13). -/
structure Obj where
  contentSize : Option Int
  skip : Bool
  deriving DecidableEq

/-- User data of a pattern: offset of the signature in the file (in bits) and parser class,
pattern.py:26. -/
abbrev User (C : Type) := Int × C

/-- The loops over "magic" in `HachoirPatternMatching.__init__`, pattern.py:24-26; the entries are
tuples, without a second element there is no offset and unpacking raises ValueError.  The
patterns of "magic_regex" (lines 29-31) are left out. -/
def addEntries {C : Type} (c : C) (p : Patterns (User C)) : List (List Nat × Option Int) →
    Except PyErr (Patterns (User C))
  | [] => .ok p
  | (magic, some offset) :: r => addEntries c (p.addString magic (offset, c)) r
  | (_, none) :: _ => .error .value

/-- The outer loop, pattern.py:24-26: for the parsers of the list. -/
def loadMagics {C : Type} (p : Patterns (User C)) : List (C × List (List Nat × Option Int)) →
    Except PyErr (Patterns (User C))
  | [] => .ok p
  | (c, entries) :: r =>
    match addEntries c p entries with
    | .error e => .error e
    | .ok p => loadMagics p r

/-- `compiled_regex.finditer(data)`: matches that do not overlap, from left to right; `hit` is the
match of the expression at a position.  Empty matches are left out (simplification: no signature
is empty). -/
def finditer (hit : List Nat → Nat → Option Nat) (data : List Nat) (pos : Nat) : List (Nat × Nat) :=
  if h : pos < data.length then
    match hit data pos with
    | some stop => if pos < stop then (pos, stop) :: finditer hit data stop else finditer hit data (pos + 1)
    | none => finditer hit data (pos + 1)
  else []
termination_by data.length - pos

/-- Everything the search depends on: the patterns, `max_length`, the regular expression engine
(`hit` for the merged expression, `hitOne` for a single pattern) and the parsers. -/
structure Env (C : Type) where
  stream : InputStream
  patterns : Patterns (User C)
  maxLength : Nat
  hit : List Nat → Nat → Option Nat
  hitOne : Rx → List Nat → Bool
  guess : Int → C → Option Obj

/-- `getPattern` for all matches; a text that is not found raises KeyError. -/
def items {C : Type} (env : Env C) (data : List Nat) : List (Nat × Nat) → Except PyErr (List (C × Int))
  | [] => .ok []
  | (start, stop) :: r =>
    match env.patterns.getPattern env.hitOne ((data.drop start).take (stop - start)) with
    | none => .error .key
    | some user =>
      match items env data r with
      | .error e => .error e
      | .ok l => .ok ((user.2, (start : Int) * 8 - user.1) :: l)

/-- `search`, subfile/pattern.py:34-36 and regex/pattern.py:149-159; the bytes are decoded as
Latin-1. -/
def search {C : Type} (env : Env C) (data : Bytes) : Except PyErr (List (C × Int)) :=
  if env.maxLength = 0 then .ok []
  else items env (data.map UInt8.toNat) (finditer env.hit (data.map UInt8.toNat) 0)

/-- `self.slice_size`, search.py:17,53,102 (in bits). -/
def sliceSize {C : Type} (env : Env C) : Nat := max (64 * 1024 * 8) (env.maxLength * 8)

/-- `self.next_offset and offset < self.next_offset`. -/
def blocked (next : Option Int) (offset : Int) : Bool :=
  match next with
  | none => false
  | some n => n ≠ 0 && offset < n

/-- A file that was found. -/
structure Hit (C : Type) where
  offset : Int
  cls : C
  obj : Obj

/-- The loop of `findMagic`, search.py:183-214: the files found and `next_offset`. -/
def magicLoop {C : Type} (env : Env C) (start stop : Nat) : Option Int → List (C × Int) → List (Hit C) × Option Int
  | next, [] => ([], next)
  | next, (c, offset) :: r =>
    let offset := offset + start
    if offset < 0 then magicLoop env start stop next r
    else if blocked next offset then magicLoop env start stop next r
    else
      match env.guess offset c with
      | none => magicLoop env start stop next r
      | some obj =>
        match obj.contentSize with
        | some size =>
          if obj.skip then
            let next := offset + size
            if (stop : Int) ≤ next then ([⟨offset, c, obj⟩], some next)
            else
              let (found, next) := magicLoop env start stop (some next) r
              (⟨offset, c, obj⟩ :: found, next)
          else
            let (found, next) := magicLoop env start stop next r
            (⟨offset, c, obj⟩ :: found, next)
        | none =>
          let (found, next) := magicLoop env start stop next r
          (⟨offset, c, obj⟩ :: found, next)

/-- A slice that was searched, with the files found. -/
structure Visit (C : Type) where
  start : Nat
  stop : Nat
  found : List (Hit C)

/-- `findMagic`, search.py:170-214. -/
def findMagic {C : Type} (env : Env C) (size : Nat) (next : Option Int) (start : Nat) :
    Except PyErr (Visit C × Option Int) :=
  let stop := min (start + sliceSize env) size
  match readBytes env.stream (start : Int) ((stop - start) / 8) with
  | .error e => .error e
  | .ok data =>
    match search env data with
    | .error e => .error e
    | .ok l =>
      let (found, next) := magicLoop env start stop next l
      .ok (⟨start, stop, found⟩, next)

/-- The next `current_offset`, search.py:138-142. -/
def nextCurrent {C : Type} (env : Env C) (size current : Nat) (next : Option Int) : Nat :=
  let current := current + sliceSize env
  let current := match next with
    | none => current
    | some n => max current n.toNat
  min current size

theorem sliceSize_pos {C : Type} (env : Env C) : 0 < sliceSize env :=
  Nat.lt_of_lt_of_le (by decide) (Nat.le_max_left (64 * 1024 * 8) (env.maxLength * 8))

theorem nextCurrent_lt {C : Type} (env : Env C) (size current : Nat) (next : Option Int) (h : current < size) :
    current < nextCurrent env size current next := by
  have hs := sliceSize_pos env
  unfold nextCurrent
  cases next <;> simp only <;> omega

/-- The loop of `searchSubfiles`, search.py:132-142. -/
def sliceLoop {C : Type} (env : Env C) (size : Nat) (next : Option Int) (current : Nat) :
    Except PyErr (List (Visit C)) :=
  if h : current < size then
    match findMagic env size next current with
    | .error e => .error e
    | .ok (v, next) =>
      match sliceLoop env size next (nextCurrent env size current next) with
      | .error e => .error e
      | .ok l => .ok (v :: l)
  else .ok []
termination_by size - current
decreasing_by
  have := nextCurrent_lt env size current next h
  omega

/-- `SearchSubfile(stream, offset, size)` and `main`, search.py:32-53 and 126-142: the start and
the end of the search in bits, `offset` and `size` in bytes. -/
def run {C : Type} (env : Env C) (streamSize offset : Nat) (size : Option Nat) : Except PyErr (List (Visit C)) :=
  let stop := match size with
    | none => streamSize
    | some n => min streamSize ((offset + n) * 8)
  sliceLoop env stop none (offset * 8)

end Hachoir.Subfile
