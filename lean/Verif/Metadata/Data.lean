import Verif.Field.StringField
import Verif.Core.Timestamp

/-!
# Metadata values

`hachoir/metadata/metadata_item.py`, `hachoir/metadata/filter.py`, `normalizeString` of
`hachoir/metadata/setter.py` and `normalizeNewline` of `hachoir/core/tools.py`.

A text is a list of code points.  Values are the ones the extractors store: texts, bytes,
numbers, dates, durations, languages; anything else is `other`.  `bool` is not told apart from
`int`.  Warnings that are only printed are not modelled.
-/

namespace Hachoir.Metadata
open Hachoir Hachoir.Time

abbrev Text := List Nat

/-- A Python float: not a number, the infinities or a fraction (both zeros are one). -/
inductive Flt where
  | nan
  | posInf
  | negInf
  | fin (q : Rat)
  deriving DecidableEq, Repr

/-- `int` or `float`. -/
inductive Num where
  | int (i : Int)
  | float (f : Flt)
  deriving DecidableEq, Repr

/-- The float a number is compared as: Python compares integers and floats exactly. -/
def Num.toFlt : Num → Flt
  | .int i => .fin i
  | .float f => f

/-- `a < b` for floats. -/
def Flt.lt : Flt → Flt → Bool
  | .nan, _ => false
  | _, .nan => false
  | .fin a, .fin b => a < b
  | .negInf, .negInf => false
  | .negInf, _ => true
  | .fin _, .posInf => true
  | _, _ => false

/-- `a == b` for floats. -/
def Flt.eq : Flt → Flt → Bool
  | .nan, _ => false
  | a, b => a = b

/-- A value. `datetime` may have a time zone, its distance from UTC in hours (`createTimezone`,
hachoir/metadata/timezone.py:42-46). -/
inductive Value where
  | none
  | text (t : Text)
  | bytes (b : Bytes)
  | num (n : Num)
  | date (year month day : Nat)
  | datetime (t : DateTime) (zone : Option Int)
  | duration (us : Int)
  | language (code : Text)
  | other (n : Nat)
  deriving DecidableEq, Repr

/-- The Python types used in `type=`. -/
inductive Ty where
  | str | int | float | date | datetime | timedelta | language
  deriving DecidableEq, Repr

/-- `isinstance(value, ty)`; a `datetime` is a `date`. -/
def Value.isInstance : Value → Ty → Bool
  | .text _, .str => true
  | .num (.int _), .int => true
  | .num (.float _), .float => true
  | .date .., .date => true
  | .datetime .., .date => true
  | .datetime .., .datetime => true
  | .duration _, .timedelta => true
  | .language _, .language => true
  | _, _ => false

/-- `datetime.utcoffset`, Lib/datetime.py:2020-2026 with `_check_utc_offset`, 491-501: a
distance of a day or more is refused. -/
def utcOffset (hours : Int) : Except PyErr Int :=
  if -24 < hours ∧ hours < 24 then .ok hours else .error .value

/-- Microseconds since the beginning of year 1 of the clock shown. -/
def clock (t : DateTime) : Int :=
  ((((ymd2ord t.year t.month t.day * 24 + t.hour) * 60 + t.minute) * 60 + t.second) * 1000000 + t.microsecond : Nat)

/-- Microseconds UTC. -/
def instant (t : DateTime) (hours : Int) : Int := clock t - hours * 3600000000

/-- `a == b`.  Different types are different, except `int` and `float`; a moment with time zone
is never equal to one without (Lib/datetime.py:2134-2173). -/
def Value.eq : Value → Value → Except PyErr Bool
  | .num a, .num b => .ok (a.toFlt.eq b.toFlt)
  | .datetime a .none, .datetime b .none => .ok (a = b)
  | .datetime a (.some h), .datetime b (.some k) => do
    let h ← utcOffset h
    let k ← utcOffset k
    .ok (instant a h = instant b k)
  | .datetime _ (.some h), .datetime _ .none => do
    let _ ← utcOffset h
    .ok false
  | .datetime _ .none, .datetime _ (.some k) => do
    let _ ← utcOffset k
    .ok false
  | a, b => .ok (a = b)

/-! ## Filters -/

/-- `Filter`, `NumberFilter` and `DatetimeFilter`, filter.py. -/
inductive Filter where
  | number (min max : Option Num)
  | duration (min max : Int)
  | datetime
  deriving DecidableEq, Repr

/-- `MIN_YEAR`, `MAX_YEAR`, filter.py:5-6. -/
def minYear : Nat := 1850
def maxYear : Nat := 2030

/-- `self.min is not None and value < self.min` -/
def below (v : Num) : Option Num → Bool
  | .none => false
  | .some m => v.toFlt.lt m.toFlt

/-- `self.max is not None and self.max < value` -/
def above (v : Num) : Option Num → Bool
  | .none => false
  | .some m => m.toFlt.lt v.toFlt

/-- Order of `(year, month, day)`. -/
def dateLe (a b : Nat × Nat × Nat) : Bool :=
  a.1 < b.1 || (a.1 == b.1 && (a.2.1 < b.2.1 || (a.2.1 == b.2.1 && a.2.2 ≤ b.2.2)))

/-- `Filter.__call__`, filter.py:16-23, and `DatetimeFilter.__call__`, 43-56.  A moment is
compared through the microseconds of its clock, or of UTC when it has a time zone. -/
def Filter.call : Filter → Value → Except PyErr Bool
  | .number min max, .num v => .ok (!below v min && !above v max)
  | .duration min max, .duration us => .ok (!(us < min) && !(max < us))
  | .datetime, .date y m d => .ok (dateLe (minYear, 1, 1) (y, m, d) && dateLe (y, m, d) (maxYear, 12, 31))
  | .datetime, .datetime t .none =>
    .ok (clock ⟨minYear, 1, 1, 0, 0, 0, 0⟩ ≤ clock t && clock t ≤ clock ⟨maxYear, 12, 31, 0, 0, 0, 0⟩)
  | .datetime, .datetime t (.some h) => do
    let h ← utcOffset h
    .ok (clock ⟨minYear, 1, 1, 0, 0, 0, 0⟩ ≤ instant t h && instant t h ≤ clock ⟨maxYear, 12, 31, 0, 0, 0, 0⟩)
  | _, _ => .ok true

/-! ## Texts -/

/-- The characters of `" \t\v\n\r\0"`, setter.py:178. -/
def isStrip (c : Nat) : Bool := c == 32 || c == 9 || c == 11 || c == 10 || c == 13 || c == 0

/-- `hachoir/metadata/config.py`. -/
structure Config where
  maxStrLength : Nat := 300
  rawOutput : Bool := false

/-- `normalizeString`, setter.py:175-178. -/
def normalizeString (cfg : Config) (t : Text) : Text :=
  if cfg.rawOutput then t else Field.stripText isStrip t

/-- `text.replace("\r\n", "\n")` -/
def replaceCRLF : Text → Text
  | [] => []
  | [c] => [c]
  | c :: d :: r => if c = 13 ∧ d = 10 then 10 :: replaceCRLF r else c :: replaceCRLF (d :: r)

/-- `NEWLINES_REGEX.sub("\n", text)`: runs of newlines become one. -/
def squeeze : Text → Text
  | [] => []
  | [c] => [c]
  | c :: d :: r => if c = 10 ∧ d = 10 then squeeze (d :: r) else c :: squeeze (d :: r)

/-- `normalizeNewline`, core/tools.py:625-639. -/
def normalizeNewline (t : Text) : Text :=
  squeeze ((replaceCRLF t).map fun c => if c = 13 then 10 else c)

/-- The text `(...)`. -/
def dots : Text := [40, 46, 46, 46, 41]

/-- Cut of long texts, metadata_item.py:109-111. -/
def cutText (cfg : Config) (t : Text) : Text :=
  if cfg.maxStrLength ≠ 0 ∧ cfg.maxStrLength < t.length then t.take cfg.maxStrLength ++ dots else t

/-! ## Data -/

/-- What a conversion returns: it raised, `None`, a value, or a value and its text. -/
inductive Conv where
  | raised
  | nothing
  | value (v : Value)
  | pair (v : Value) (t : Text)
  deriving DecidableEq, Repr

/-- `DataValue`, metadata_item.py:15-19. -/
structure Item where
  value : Value
  text : Text
  deriving DecidableEq, Repr

/-- `Data`, metadata_item.py:22-42.  `textHandler` is `None` or a function that may raise;
without it the text is `makeUnicode(value)`, which is `plainText` here. -/
structure Data where
  key : String
  priority : Nat
  description : String
  type : Option (List Ty) := .none
  filter : Option Filter := .none
  textHandler : Option (Value → Except PyErr Text) := .none
  plainText : Value → Text
  conversion : Option (Value → Conv) := .none
  values : List Item := []

/-- `_createItem`, metadata_item.py:47-56. -/
def Data.createItem (d : Data) (v : Value) (text : Option Text) : Except PyErr Item :=
  match text with
  | .some t => .ok ⟨v, t⟩
  | .none =>
    match v with
    | .text t => .ok ⟨v, t⟩
    | _ =>
      match d.textHandler with
      | .some f => do
        let t ← f v
        .ok ⟨v, t⟩
      | .none => .ok ⟨v, d.plainText v⟩

/-- The argument of `add`: a value, a pair, or a tuple of another length. -/
inductive Arg where
  | value (v : Value)
  | pair (v : Value) (text : Option Text)
  | tuple
  deriving DecidableEq, Repr

/-- The conversion, metadata_item.py:72-94; the result `none` means that nothing is added. -/
def Data.convert (d : Data) (v : Value) (text : Option Text) : Except PyErr (Option (Value × Option Text)) :=
  match d.conversion with
  | .some f =>
    match f v with
    | .raised => .ok .none
    | .nothing => if d.type.isNone then .error .type else .ok .none
    | .value w => .ok (.some (w, text))
    | .pair w t =>
      match text with
      | .some (c :: r) => .ok (.some (w, .some (c :: r)))
      | _ => .ok (.some (w, .some t))
  | .none =>
    match v with
    | .bytes b => .ok (.some (.text (b.map UInt8.toNat), text))
    | _ => .ok (.some (v, text))

/-- `self.type and not isinstance(value, self.type)` is false. -/
def Data.typeOk (d : Data) (v : Value) : Bool :=
  match d.type with
  | .none => true
  | .some [] => true
  | .some l => l.any v.isInstance

/-- First half of `add`, metadata_item.py:59-111: the value to store. -/
def Data.candidate (cfg : Config) (d : Data) (arg : Arg) : Except PyErr (Option (Value × Option Text)) :=
  match (match arg with
    | .value v => .some (v, .none)
    | .pair v t => .some (v, t)
    | .tuple => .none : Option (Value × Option Text)) with
  | .none => .error .value
  | .some (.none, _) => .ok .none
  | .some (v, text) => do
    match ← d.convert v text with
    | .none => .ok .none
    | .some (.text t, text) =>
      let t := normalizeString cfg t
      if t = [] then .ok .none
      else if !d.typeOk (.text t) then .ok .none
      else .ok (.some (.text (cutText cfg (normalizeNewline t)), text))
    | .some (v, text) => if !d.typeOk v then .ok .none else .ok (.some (v, text))

/-- `__contains__`, metadata_item.py:147-151. -/
def contains (v : Value) : List Item → Except PyErr Bool
  | [] => .ok false
  | i :: r => do
    if ← v.eq i.value then .ok true else contains v r

/-- `self.filter and not self.filter(value)` is false. -/
def Data.filterOk (d : Data) (v : Value) : Except PyErr Bool :=
  match d.filter with
  | .none => .ok true
  | .some f => f.call v

/-- The loop over the texts, metadata_item.py:125-136, with the final `append` (139). -/
def placeText (t : Text) (item : Item) : List Item → List Item
  | [] => [item]
  | i :: r =>
    match i.value with
    | .text u =>
      if u.isPrefixOf t then item :: r
      else if t.isPrefixOf u then i :: r
      else i :: placeText t item r
    | _ => i :: placeText t item r

/-- `Data.add`, metadata_item.py:58-139. -/
def Data.add (cfg : Config) (d : Data) (arg : Arg) : Except PyErr Data := do
  match ← d.candidate cfg arg with
  | .none => .ok d
  | .some (v, text) =>
    if ← contains v d.values then .ok d
    else if !(← d.filterOk v) then .ok d
    else
      match v with
      | .text t => .ok { d with values := placeText t ⟨v, text.getD t⟩ d.values }
      | _ => do
        let item ← d.createItem v text
        .ok { d with values := d.values ++ [item] }

/-- A history of `add`; an exception leaves the values as they were. -/
def Data.run (cfg : Config) (d : Data) : List Arg → Data
  | [] => d
  | a :: r =>
    match d.add cfg a with
    | .ok d' => d'.run cfg r
    | .error _ => d.run cfg r

end Hachoir.Metadata
