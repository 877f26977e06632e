import Verif.Field.FieldSet

/-!
# Model of paths and array views, /repo/hachoir/field/field.py and fake_array.py

The tree is the root field set (of known size); a field of the tree is its
position: the list of indices leading to it from the root.
-/

set_option linter.unusedVariables false

namespace Hachoir.FieldSet
open Hachoir

/-- `s.split("/")`. -/
def split : Name → List Name
  | [] => [[]]
  | c :: r =>
    if c = '/' then [] :: split r
    else match split r with
      | [] => [[c]]                 -- not reached
      | p :: ps => (c :: p) :: ps

/-- The field at a position; the root is a field set that is not in a list, it
gets an empty name here (its name is never looked at). -/
def fieldAt (fs : FS) : List Nat → Option Fld
  | [] => some (.set [] 0 fs)
  | i :: p =>
    match fs.fields[i]? with
    | none => none
    | some f =>
      match p, f with
      | [], f => some f
      | p, .set _ _ sub => fieldAt sub p
      | _, .leaf _ _ _ => none

/-- Names on the way to a position. -/
def namesTo (fs : FS) : List Nat → List Name
  | [] => []
  | i :: p =>
    match fs.fields[i]? with
    | some (.set n _ sub) => n :: namesTo sub p
    | some (.leaf n _ _) => [n]
    | none => []

/-- `'/'.join(l)`. -/
def join : List Name → Name
  | [] => []
  | [n] => n
  | n :: r => n ++ '/' :: join r

/-- `Field.path`, /repo/hachoir/field/field.py:187-198. -/
def pathOf (root : FS) (pos : List Nat) : Name :=
  if pos = [] then ['/'] else join ([] :: namesTo root pos)

/-- How a lookup ends: position found, exception, or the model's bound on the
number of steps. -/
inductive Found
  | at (pos : List Nat)
  | raise (e : PyErr)
  | fuel
  deriving DecidableEq, Repr

/-- Lookup of a name in the field set at a position: `_getField` of field sets,
/repo/hachoir/field/generic_field_set.py:215-222; of other fields nothing is
found. -/
def childOf (fuel : Nat) (af : Bool) (const : Bool) (root : FS) (pos : List Nat) (name : Name) : FS × Found :=
  match fieldAt root pos with
  | some (.set _ _ sub) =>
    if const then
      match sub.fields.findIdx? (fun f => decide (f.name = name)) with
      | some i => (root, .at (pos ++ [i]))
      | none => (root, .raise .missingField)
    else
      match accessAt fuel af root pos (.name name) with
      | (root', .field _) =>
        match fieldAt root' pos with
        | some (.set _ _ sub') =>
          match sub'.fields.findIdx? (fun f => decide (f.name = name)) with
          | some i => (root', .at (pos ++ [i]))
          | none => (root', .raise .key)            -- not reached
        | _ => (root', .raise .key)                 -- not reached
      | (root', .raise e) => (root', .raise e)
      | (root', .fuel) => (root', .fuel)
      | (root', _) => (root', .raise .type)         -- not reached
  | _ => (root, .raise .missingField)

/-- One part of a key, `Field._getField`, /repo/hachoir/field/field.py:219-228,
with the lookup of field sets: a part consisting of dots only (also the empty
part) goes up. -/
def getPart (fuel : Nat) (af : Bool) (const : Bool) (root : FS) (pos : List Nat) (part : Name) : FS × Found :=
  if part.all (· = '.') ∧ part.length - 1 ≤ pos.length then
    (root, .at (pos.take (pos.length - (part.length - 1))))
  else childOf fuel af const root pos part

/-- The loop over the parts of a key, /repo/hachoir/field/field.py:252-257. -/
def getParts (fuel : Nat) (af : Bool) (const : Bool) : FS → List Nat → List Name → FS × Found
  | root, pos, [] => (root, .at pos)
  | root, pos, part :: parts =>
    match getPart fuel af const root pos part with
    | (root', .at pos') => getParts fuel af const root' pos' parts
    | (root', e) => (root', e)

/-- `Field.getField`, /repo/hachoir/field/field.py:230-258, of the field at `pos`. -/
def getField (fuel : Nat) (af : Bool) (const : Bool) (root : FS) (pos : List Nat) (key : Name) : FS × Found :=
  match key with
  | [] => (root, .raise .key)
  | c :: r =>
    if c = '/' then
      if r = [] then (root, .at [])
      else getParts fuel af const root [] (split r)
    else getParts fuel af const root pos (split (c :: r))

/-- `field.absolute_address`, /repo/hachoir/field/field.py:205-213: the sum of the
relative addresses (the address of the root is 0). -/
def absoluteAddress (fs : FS) : List Nat → Nat
  | [] => 0
  | i :: p =>
    match fs.fields[i]? with
    | some (.set _ a sub) => a + absoluteAddress sub p
    | some (.leaf _ a _) => a
    | none => 0

/-! ### Array views -/

/-- Attributes of a `FakeArray`, /repo/hachoir/field/fake_array.py:18-31: name and
`_cache` (index and place of the field), `_known_size`, `_max_index`. -/
structure Arr where
  name : Name
  cache : List (Int × Nat)
  known : Bool
  maxIndex : Int

/-- A new view. -/
def Arr.new (name : Name) : Arr := { name := name, cache := [], known := false, maxIndex := -1 }

/-- `"%s[%%u]" % name % index`; Python prints negative numbers with a sign. -/
def indexedInt (key : Name) : Int → Name
  | .ofNat i => indexed key i
  | .negSucc i => key ++ '[' :: '-' :: decimal (i + 1) ++ [']']

/-- The place of a name in a field set. -/
def placeOf (fs : FS) (n : Name) : Option Nat := fs.fields.findIdx? (fun f => decide (f.name = n))

/-- Result of `array[index]`: place of the field. -/
inductive ItemAt
  | at (place : Nat)
  | raise (e : PyErr)
  | fuel
  deriving DecidableEq, Repr

/-- `fieldset[name]` with the place of the result. -/
def lookupPlace (fuel : Nat) (af : Bool) (ctx : Int) (fs : FS) (n : Name) : FS × ItemAt :=
  match access fuel af ctx fs (.name n) with
  | (fs', .field _) =>
    match placeOf fs' n with
    | some p => (fs', .at p)
    | none => (fs', .raise .key)          -- not reached
  | (fs', .raise e) => (fs', .raise e)
  | (fs', .fuel) => (fs', .fuel)
  | (fs', _) => (fs', .raise .type)       -- not reached

/-- `FakeArray.__getitem__`, lines 58-74. -/
def Arr.get (fuel : Nat) (af : Bool) (ctx : Int) (fs : FS) (a : Arr) (index : Int) : FS × Arr × ItemAt :=
  match a.cache.find? (fun x => decide (x.1 = index)) with
  | some x => (fs, a, .at x.2)
  | none =>
    match lookupPlace fuel af ctx fs (indexedInt a.name index) with
    | (fs', .at p) =>
      (fs', { a with cache := (index, p) :: a.cache, maxIndex := max index a.maxIndex }, .at p)
    | (fs', .raise .missingField) => (fs', { a with known := true }, .raise .missingField)
    | (fs', r) => (fs', a, r)

/-- Result of `len(array)`. -/
inductive LenRes
  | len (n : Int)
  | raise (e : PyErr)
  | fuel
  deriving DecidableEq, Repr

/-- The loop of `FakeArray.__len__`, lines 42-48; `steps` bounds the number of
rounds. -/
def Arr.lenLoop (fuel : Nat) (af : Bool) (ctx : Int) : (steps : Nat) → FS → Arr → (total : Int) → FS × Arr × LenRes
  | 0, fs, a, _ => (fs, a, .fuel)
  | steps + 1, fs, a, total =>
    match a.get fuel af ctx fs total with
    | (fs', a', .at _) => Arr.lenLoop fuel af ctx steps fs' a' (total + 1)
    | (fs', a', .raise .missingField) => (fs', a', .len total)
    | (fs', a', .raise e) => (fs', a', .raise e)
    | (fs', a', .fuel) => (fs', a', .fuel)

/-- `FakeArray.__len__`, lines 38-48. -/
def Arr.len (fuel : Nat) (af : Bool) (ctx : Int) (steps : Nat) (fs : FS) (a : Arr) : FS × Arr × LenRes :=
  if a.known then (fs, a, .len (a.maxIndex + 1))
  else Arr.lenLoop fuel af ctx steps fs a (a.maxIndex + 1)

/-- A complete iteration, `FakeArray.__iter__`, lines 76-85: the places of the
fields. -/
def Arr.iterLoop (fuel : Nat) (af : Bool) (ctx : Int) : (steps : Nat) → FS → Arr → (index : Nat) → FS × Arr × Option (List Nat)
  | 0, fs, a, _ => (fs, a, none)
  | steps + 1, fs, a, index =>
    match a.get fuel af ctx fs index with
    | (fs', a', .at p) =>
      match Arr.iterLoop fuel af ctx steps fs' a' (index + 1) with
      | (fs'', a'', some l) => (fs'', a'', some (p :: l))
      | r => r
    | (fs', a', .raise .missingField) => (fs', a', some [])
    | (fs', a', _) => (fs', a', none)

/-- Accesses to the array view or to the field set itself. -/
inductive ArrOp
  | get (index : Int)
  | len
  | iter
  | direct (op : Op)

/-- One access; only the state matters here. -/
def arrStep (fuel : Nat) (af : Bool) (ctx : Int) (steps : Nat) (s : FS × Arr) : ArrOp → FS × Arr
  | .get i => let (fs, a, _) := s.2.get fuel af ctx s.1 i; (fs, a)
  | .len => let (fs, a, _) := s.2.len fuel af ctx steps s.1; (fs, a)
  | .iter => let (fs, a, _) := s.2.iterLoop fuel af ctx steps s.1 0; (fs, a)
  | .direct op => ((access fuel af ctx s.1 op).1, s.2)

end Hachoir.FieldSet
