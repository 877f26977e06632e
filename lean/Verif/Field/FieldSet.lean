import Verif.Core.Tools

/-!
# Model of the lazily built field sets, /repo/hachoir/field/generic_field_set.py

The root of the tree is a `Parser` over a stream of known size, so that some
ancestor of every field set has a known size.

What a field set does with its `createFields` generator is modelled for every
generator: a generator is a function from what it can have seen so far (number of
`next` calls, consumed size, names, addresses and sizes of the fields created
before) to its next action.  Reads of the stream are part of that function.
Generators that look at other field sets while these are half read, or that call
methods of their own field set which feed it again, are not modelled.

`_fields` (a `Dict`) is the list of its values, see property C18; keys are the
names of the fields.
-/

set_option linter.unusedVariables false

namespace Hachoir.FieldSet
open Hachoir

/-- Field names (Python `str`). -/
abbrev Name := List Char

/-- Decimal digits of a number, Python `"%u" % n`. -/
def decimal (n : Nat) : List Char :=
  if h : n < 10 then [Char.ofNat (48 + n)] else decimal (n / 10) ++ [Char.ofNat (48 + n % 10)]
termination_by n
decreasing_by omega

/-- `key + "[%u]" % i`, /repo/hachoir/field/basic_field_set.py:121. -/
def indexed (key : Name) (i : Nat) : Name := key ++ '[' :: decimal i ++ [']']

/-- `name.endswith("[]")`. -/
def isArray (name : Name) : Bool := ['[', ']'].isSuffixOf name

/-- `name[:-2]`. -/
def arrayKey (name : Name) : Name := name.take (name.length - 2)

/-- What a generator knows when it is resumed: number of earlier `next` calls,
`current_size`, and name, address, size of the existing fields. -/
structure View where
  calls : Nat
  cur : Nat
  fields : List (Name × Nat × Nat)

mutual
/-- What a generator yields: a field with its size (or an exception raised when
the size is asked for), or a field set with an optional declared size and its own
generator. -/
inductive Item : Type
  | leaf (name : Name) (size : Except PyErr Nat)
  | set (name : Name) (declared : Option Nat) (gen : View → GenStep)
/-- What `next(generator)` does. -/
inductive GenStep : Type
  | yield (i : Item)
  | stop
  | raise (e : PyErr)
end

/-- `createFields()` of one field set. -/
abbrev Gen := View → GenStep

/-- Instance attributes of a field set with fields of type `φ`: `_size`,
`_current_size`, `_fields`, `_field_array_count`, `_field_generator` and the
number of `next` calls made on it. -/
structure FSet (φ : Type) where
  size : Option Nat
  cur : Nat
  fields : List φ
  counts : List (Name × Nat)
  gen : Option Gen
  calls : Nat

/-- Fields. -/
inductive Fld : Type
  | leaf (name : Name) (addr size : Nat)
  | set (name : Name) (addr : Nat) (fs : FSet Fld)

/-- `field._name`. -/
def Fld.name : Fld → Name
  | .leaf n _ _ => n
  | .set n _ _ => n

/-- `field._address`. -/
def Fld.addr : Fld → Nat
  | .leaf _ a _ => a
  | .set _ a _ => a

/-- `field._size` of a field whose size is known. -/
def Fld.size : Fld → Nat
  | .leaf _ _ s => s
  | .set _ _ fs => fs.size.getD 0

/-- Change of `field._name`. -/
def Fld.rename (n : Name) : Fld → Fld
  | .leaf _ a s => .leaf n a s
  | .set _ a fs => .set n a fs

abbrev FS := FSet Fld

/-- A field set before anything is read, /repo/hachoir/field/generic_field_set.py:66-70. -/
def FSet.new (size : Option Nat) (gen : Gen) : FS :=
  { size := size, cur := 0, fields := [], counts := [], gen := some gen, calls := 0 }

/-- What the generator sees. -/
def FSet.view (fs : FS) : View :=
  { calls := fs.calls, cur := fs.cur, fields := fs.fields.map (fun f => (f.name, f.addr, f.size)) }

/-- Counter of a key in `_field_array_count`. -/
def lookup (counts : List (Name × Nat)) (key : Name) : Option Nat :=
  match counts with
  | [] => none
  | (k, n) :: r => if k = key then some n else lookup r key

/-- `setUniqueFieldName`, /repo/hachoir/field/basic_field_set.py:115-121: new name
and new counters. -/
def uniqueName (counts : List (Name × Nat)) (name : Name) : Name × List (Name × Nat) :=
  let key := arrayKey name
  let n := match lookup counts key with
    | none => 0
    | some n => n + 1
  (indexed key n, (key, n) :: counts)

/-- `_fields.append(name, field)`: `UniqKeyError` if the name exists. -/
def appendField (fs : FS) (f : Fld) : Except PyErr FS :=
  if f.name ∈ fs.fields.map Fld.name then .error .uniqKey
  else .ok { fs with fields := fs.fields ++ [f] }

/-- The name given to filling fields: `createRawField(self, size, "raw[]")` is
appended under this literal name (no `setUniqueFieldName`). -/
def rawName : Name := "raw[]".toList

/-- `_truncate`, /repo/hachoir/field/generic_field_set.py:231-255, `fuel` bounds
the depth of the recursion into the last field. -/
def truncate : Nat → FS → Nat → Except PyErr FS
  | 0, _, _ => .error .runtime
  | fuel + 1, fs, size =>
    if size = 0 then .error .assertion
    else if size < fs.cur then
      let kept := fs.fields.reverse.dropWhile (fun f => decide (size ≤ f.addr))
      match kept with
      | [] => .error .index                       -- `_fields.values[-1]`
      | last :: before =>
        let rest := size - last.addr
        let r : Except PyErr (List Fld) :=
          if rest < last.size then
            match last with
            | .set n a sub => (truncate fuel sub rest).map (fun sub' => (Fld.set n a sub') :: before)
            | .leaf _ a _ =>
              if rawName ∈ before.map Fld.name then .error .uniqKey
              else .ok (.leaf rawName a rest :: before)
          else .ok (last :: before)
        r.map (fun l => { fs with size := some size, fields := l.reverse, cur := size, gen := none })
    else if (match fs.size with
        | none => true
        | some z => decide (size < z)) = false then .error .assertion
    else .ok { fs with size := some size, gen := if size = fs.cur then none else fs.gen }

/-- The loop of `_fixLastField` that deletes fields, lines 275-277. -/
def deleteLast : List Fld → (cur size : Nat) → Except PyErr (List Fld × Nat)
  | l, cur, size =>
    if size < cur then
      match l with
      | [] => .error .index
      | f :: r => deleteLast r (cur - f.size) size
    else .ok (l, cur)

/-- `_fixLastField`, lines 264-294; `size` is the known size.  Returns the field
set and the added field. -/
def fixLastField (fs : FS) (size : Nat) : Except PyErr (FS × Option Fld) :=
  match deleteLast fs.fields.reverse fs.cur size with
  | .error e => .error e
  | .ok (l, cur) =>
    let fs := { fs with fields := l.reverse, cur := cur, gen := none }
    if size - cur = 0 then .ok (fs, none)
    else
      let raw : Fld := .leaf rawName cur (size - cur)
      match appendField { fs with cur := size } raw with
      | .error e => .error e
      | .ok fs' => .ok (fs', some raw)

/-- `_stopFeeding`, lines 296-307, of a field set that has a parent or a known
size; `af` is `autofix`.  The second component is the exception or the returned
new field.  After an exception inside `_fixLastField` the fields deleted by it are
kept in the model (this exception never happens, see the proofs). -/
def stopFeeding (af : Bool) (fs : FS) : FS × Except PyErr (Option Fld) :=
  match fs.size with
  | none => ({ fs with size := some fs.cur, gen := none }, .ok none)
  | some z =>
    if z ≠ fs.cur then
      if af then
        match fixLastField fs z with
        | .ok (fs', new) => (fs', .ok new)
        | .error e => ({ fs with gen := none }, .error e)
      else (fs, .error .parser)
    else ({ fs with gen := none }, .ok none)

/-- The handling of other exceptions while feeding (`_fixFeedError`, lines
309-317, and the re-raise of its callers). -/
def fixFeedError (af : Bool) (fs : FS) (e : PyErr) : FS × Except PyErr (Option Fld) :=
  match fs.size with
  | none => (fs, .error e)
  | some z =>
    if af then
      match fixLastField fs z with
      | .ok (fs', new) => (fs', .ok new)
      | .error e' => ({ fs with gen := none }, .error e')
    else (fs, .error e)

/-- Result of adding one field. -/
inductive Added
  | ok (name : Name)        -- added under this name
  | stop                    -- StopIteration
  | raise (e : PyErr)
  | fuel                    -- the model's bound on the number of steps was reached
  deriving DecidableEq, Repr

/-- Result of one step of feeding. -/
inductive Step
  | more (name : Name)          -- a field was added, go on
  | done (new : Option Fld)     -- the generator is finished; field added while finishing
  | raise (e : PyErr)
  | fuel

/-- Result of feeding. -/
inductive Fed
  | done
  | raise (e : PyErr)
  | fuel
  deriving DecidableEq, Repr

/-- `_checkSize(size, False)` without its argument: the room of a field set is
its own size or what its ancestors leave (`ctx`),
/repo/hachoir/field/generic_field_set.py:125-138. -/
def room (fs : FS) (ctx : Int) : Int :=
  match fs.size with
  | some z => z
  | none => ctx

/-- The check of the place, lines 183-189, with `_fixFieldSize`, lines 205-215:
the field to append, or how `_addField` ends instead. -/
def fixFieldSize (fuel : Nat) (af : Bool) (ctx : Int) (fs : FS) (f : Fld) (isSet : Bool) : FS × Except Added Fld :=
  let dsize : Int := room fs ctx - (fs.cur + f.size : Nat)
  if dsize < 0 ∨ (isSet ∧ f.size = 0) then
    if af ∧ fs.cur ≠ 0 then
      let newSize : Int := f.size + dsize
      if 0 < newSize then
        if isSet ∧ 0 < f.size then
          match f with
          | .set n a sub =>
            match truncate fuel sub newSize.toNat with
            | .ok sub' => (fs, .ok (.set n a sub'))
            | .error .runtime => (fs, .error .fuel)
            | .error e => (fs, .error (.raise e))
          | .leaf _ _ _ => (fs, .error (.raise .attribute))
        else
          match fs.size with
          | none => ({ fs with size := some (fs.cur + newSize.toNat) }, .error .stop)
          | some _ => (fs, .error .stop)
      else (fs, .error .stop)
    else (fs, .error (.raise .parser))
  else (fs, .ok f)

/-- End of `_addField`, lines 190-203: append under the name, or under a numbered
name if the name is in use. -/
def appendPart (fs : FS) (f : Fld) (askStop : Bool) : FS × Added :=
  let fs := { fs with cur := fs.cur + f.size }
  match appendField fs f with
  | .ok fs' => (fs', if askStop then .stop else .ok f.name)
  | .error _ =>
    let (n, counts) := uniqueName fs.counts (f.name ++ ['[', ']'])
    let fs := { fs with counts := counts }
    match appendField fs (f.rename n) with
    | .ok fs' => (fs', if askStop then .stop else .ok n)
    | .error e => (fs, .raise e)

/-- Second half of `_addField`, lines 183-203: check the place, fix or reject,
append.  `f` has its name, address and size. -/
def placeField (fuel : Nat) (af : Bool) (ctx : Int) (fs : FS) (f : Fld) (isSet askStop : Bool) : FS × Added :=
  match fixFieldSize fuel af ctx fs f isSet with
  | (fs, .error a) => (fs, a)
  | (fs, .ok f) => appendPart fs f askStop

/-- What `next` gives: a field set whose declared size is 0 is refused by its
constructor, inside the generator
(/repo/hachoir/field/basic_field_set.py:66-68). -/
def genNext (g : Gen) (v : View) : GenStep :=
  match g v with
  | .yield (.set _ (some 0) _) => .raise .parser
  | s => s

/-- A generator that is exhausted. -/
def deadGen : Gen := fun _ => .stop

/-- The name under which `_addField` will try to add the item, with the new
counters, lines 152-153. -/
def nameItem (fs : FS) (name : Name) : Name × List (Name × Nat) :=
  if isArray name then uniqueName fs.counts name else (name, fs.counts)

/-- Outcome of finishing. -/
def finish : FS × Except PyErr (Option Fld) → FS × Step
  | (fs, .ok new) => (fs, .done new)
  | (fs, .error e) => (fs, .raise e)

mutual
/-- `_addField`, lines 142-203. -/
def addField : (fuel : Nat) → (af : Bool) → (ctx : Int) → FS → Item → FS × Added
  | 0, _, _, fs, _ => (fs, .fuel)
  | fuel + 1, af, ctx, fs, item =>
    match item with
    | .leaf name size =>
      let (n, counts) := nameItem fs name
      let fs := { fs with counts := counts }
      match size with
      | .error e => (fs, .raise e)
      | .ok s => placeField fuel af ctx fs (.leaf n fs.cur s) false false
    | .set name declared gen =>
      let (n, counts) := nameItem fs name
      let fs := { fs with counts := counts }
      match declared with
      | some z => placeField fuel af ctx fs (.set n fs.cur (FSet.new (some z) gen)) true false
      | none =>
        let cctx : Int := room fs ctx - fs.cur
        match feedAll fuel af cctx (FSet.new none gen) with
        | (sub, .done) => placeField fuel af ctx fs (.set n fs.cur sub) true false
        | (_, .fuel) => (fs, .fuel)
        | (sub, .raise e) =>
          -- `field.current_length and field.eof`
          if sub.fields ≠ [] ∧ room sub cctx - (sub.cur + 1) < 0 then
            match stopFeeding af sub with
            | (sub', .ok _) => placeField fuel af ctx fs (.set n fs.cur sub') true true
            | (_, .error e) => (fs, .raise e)
          else (fs, .raise e)

/-- The block `try: ... self._addField(next(self._field_generator)) ... except
StopIteration: self._stopFeeding() except Exception: self._fixFeedError(err)`
shared by `_feedUntil` (331-343), `readMoreFields` (354-361), `_feedAll`
(366-374) and `__iter__` (381-408), for a field set with a generator `g`. -/
def feedStep : (fuel : Nat) → (af : Bool) → (ctx : Int) → FS → Gen → FS × Step
  | 0, _, _, fs, _ => (fs, .fuel)
  | fuel + 1, af, ctx, fs, g =>
    let fs1 : FS := { fs with calls := fs.calls + 1 }
    match genNext g fs.view with
    | .stop => finish (stopFeeding af { fs1 with gen := some deadGen })
    | .raise e => finish (fixFeedError af { fs1 with gen := some deadGen } e)
    | .yield item =>
      match addField fuel af ctx fs1 item with
      | (fs', .ok n) => (fs', .more n)
      | (fs', .stop) => finish (stopFeeding af fs')
      | (fs', .raise e) => finish (fixFeedError af fs' e)
      | (fs', .fuel) => (fs', .fuel)

/-- `_feedAll`, lines 363-374. -/
def feedAll : (fuel : Nat) → (af : Bool) → (ctx : Int) → FS → FS × Fed
  | 0, _, _, fs => (fs, .fuel)
  | fuel + 1, af, ctx, fs =>
    match fs.gen with
    | none => (fs, .done)
    | some g =>
      match feedStep fuel af ctx fs g with
      | (fs', .more _) => feedAll fuel af ctx fs'
      | (fs', .done _) => (fs', .done)
      | (fs', .raise e) => (fs', .raise e)
      | (fs', .fuel) => (fs', .fuel)
end

/-! ### Accesses -/

/-- What an access returns. -/
inductive Out
  | field (f : Fld)
  | fields (l : List Fld)
  | number (n : Int)
  | raise (e : PyErr)
  | fuel

/-- `_fields[name]`. -/
def findField (fs : FS) (name : Name) : Option Fld := fs.fields.find? (fun f => decide (f.name = name))

/-- `_feedUntil`, lines 319-344. -/
def feedUntil : (fuel : Nat) → (af : Bool) → (ctx : Int) → Name → FS → FS × Out
  | 0, _, _, _, fs => (fs, .fuel)
  | fuel + 1, af, ctx, name, fs =>
    match fs.gen with
    | none => (fs, .raise .type)      -- `next(None)`, not reached
    | some g =>
      match feedStep fuel af ctx fs g with
      | (fs', .more n) =>
        if n = name then
          match findField fs' n with
          | some f => (fs', .field f)
          | none => (fs', .raise .key)    -- not reached, `field` is the field just added
        else
          feedUntil fuel af ctx name fs'
      | (fs', .done _) => (fs', .raise .missingField)     -- `None`, `getField` then raises
      | (fs', .raise e) => (fs', .raise e)
      | (fs', .fuel) => (fs', .fuel)

/-- `self[name]` for a plain name: `getField` (/repo/hachoir/field/field.py:230-257)
and `_getField`, lines 217-224. -/
def getByName (fuel : Nat) (af : Bool) (ctx : Int) (fs : FS) (name : Name) : FS × Out :=
  match findField fs name with
  | some f => (fs, .field f)
  | none =>
    match fs.gen with
    | none => (fs, .raise .missingField)
    | some _ => feedUntil fuel af ctx name fs

/-- The loop of `readMoreFields`, lines 354-361: the result is the exception, if
any, or `fuel`. -/
def readLoop (fuel : Nat) (af : Bool) (ctx : Int) : Nat → FS → FS × Fed
  | 0, fs => (fs, .done)
  | n + 1, fs =>
    match fs.gen with
    | none => (fs, .done)             -- not reached
    | some g =>
      match feedStep fuel af ctx fs g with
      | (fs', .more _) => readLoop fuel af ctx n fs'
      | (fs', .done _) => (fs', .done)
      | (fs', .raise e) => (fs', .raise e)
      | (fs', .fuel) => (fs', .fuel)

/-- `readMoreFields`, lines 346-361. -/
def readMoreFields (fuel : Nat) (af : Bool) (ctx : Int) (fs : FS) (number : Nat) : FS × Out :=
  match fs.gen with
  | none => (fs, .number 0)
  | some _ =>
    match readLoop fuel af ctx number fs with
    | (fs', .done) => (fs', .number ((fs'.fields.length : Int) - fs.fields.length))
    | (fs', .raise e) => (fs', .raise e)
    | (fs', .fuel) => (fs', .fuel)

/-- `self[key]` for an integer, lines 226-234, with `readFirstFields`
(/repo/hachoir/field/basic_field_set.py:123-133). -/
def getByIndex (fuel : Nat) (af : Bool) (ctx : Int) (fs : FS) (key : Int) : FS × Out :=
  if key < 0 then (fs, .raise .key)
  else
    let number : Int := key + 1 - fs.fields.length
    let (fs', o) := if 0 < number then readMoreFields fuel af ctx fs number.toNat else (fs, .number 0)
    match o with
    | .raise e => (fs', .raise e)
    | .fuel => (fs', .fuel)
    | _ =>
      match fs'.fields[key.toNat]? with
      | some f => (fs', .field f)
      | none => (fs', .raise .missingField)

/-- `len(self)`, lines 97-103. -/
def getLen (fuel : Nat) (af : Bool) (ctx : Int) (fs : FS) : FS × Out :=
  match feedAll fuel af ctx fs with
  | (fs', .done) => (fs', .number fs'.fields.length)
  | (fs', .raise e) => (fs', .raise e)
  | (fs', .fuel) => (fs', .fuel)

/-- A complete iteration over the field set, lines 376-408: everything it
yields.  `acc` holds what was yielded so far, `done` its number. -/
def iterLoop : (fuel : Nat) → (af : Bool) → (ctx : Int) → FS → List Fld → FS × Out
  | 0, _, _, fs, _ => (fs, .fuel)
  | fuel + 1, af, ctx, fs, acc =>
    let acc := acc ++ fs.fields.drop acc.length
    match fs.gen with
    | none => (fs, .fields acc)
    | some g =>
      match feedStep fuel af ctx fs g with
      | (fs', .more _) => iterLoop fuel af ctx fs' acc
      | (fs', .done new) => (fs', .fields (acc ++ new.toList))
      | (fs', .raise e) => (fs', .raise e)
      | (fs', .fuel) => (fs', .fuel)

/-- Accesses to one field set. -/
inductive Op
  | name (n : Name)
  | index (k : Int)
  | readMore (n : Nat)
  | len
  | iter

/-- One access. -/
def access (fuel : Nat) (af : Bool) (ctx : Int) (fs : FS) : Op → FS × Out
  | .name n => getByName fuel af ctx fs n
  | .index k => getByIndex fuel af ctx fs k
  | .readMore n => readMoreFields fuel af ctx fs n
  | .len => getLen fuel af ctx fs
  | .iter => iterLoop fuel af ctx fs []

/-- A history of accesses to one field set: final state and all results. -/
def accesses (fuel : Nat) (af : Bool) (ctx : Int) : FS → List Op → FS × List Out
  | fs, [] => (fs, [])
  | fs, op :: ops =>
    let (fs', o) := access fuel af ctx fs op
    let (fs'', os) := accesses fuel af ctx fs' ops
    (fs'', o :: os)

/-- An access somewhere in the tree below a field set of known size: `path` gives
the indices of the field sets to descend into.  Accesses to places that do not
exist change nothing. -/
def accessAt (fuel : Nat) (af : Bool) (fs : FS) : (path : List Nat) → Op → FS × Out
  | [], op => access fuel af 0 fs op
  | i :: path, op =>
    match fs.fields[i]? with
    | some (.set n a sub) =>
      let (sub', o) := accessAt fuel af sub path op
      ({ fs with fields := fs.fields.set i (.set n a sub') }, o)
    | _ => (fs, .raise .missingField)

/-- A history of accesses all over the tree. -/
def accessesAt (fuel : Nat) (af : Bool) : FS → List (List Nat × Op) → FS × List Out
  | fs, [] => (fs, [])
  | fs, (path, op) :: rest =>
    let (fs', o) := accessAt fuel af fs path op
    let (fs'', os) := accessesAt fuel af fs' rest
    (fs'', o :: os)

end Hachoir.FieldSet
