import Verif.Metadata.ParseDate
import Verif.Metadata.Metadata

/-!
# Dates with names of months

The last part of `parseDatetime`, /repo/hachoir/metadata/setter.py:97-129, and `createTimezone`,
/repo/hachoir/metadata/timezone.py:42-46.  `strptime` is modelled for the three formats used, in
the C locale and for ASCII texts: no directive matches a `~`, so that a text is compared with a
format part by part; letters match in any case, and the name of the day is not compared with the
date.
-/

namespace Hachoir.Metadata
open Hachoir Hachoir.Time

/-- A date, or a moment with the hours of its time zone. -/
inductive Named where
  | date (d : DateTime)
  | datetime (d : DateTime) (zone : Option Int)
  deriving DecidableEq, Repr

def lowered (t : List Char) : List Char := t.map Char.toLower

/-- `%a` -/
def isWeekday (t : List Char) : Bool := ["mon", "tue", "wed", "thu", "fri", "sat", "sun"].any fun n => n.toList == lowered t

/-- `%b` -/
def shortNames : List String := ["jan", "feb", "mar", "apr", "may", "jun", "jul", "aug", "sep", "oct", "nov", "dec"]

/-- `%B` -/
def longNames : List String := ["january", "february", "march", "april", "may", "june", "july", "august", "september", "october", "november", "december"]

def monthOf (names : List String) (t : List Char) : Option Nat := (names.findIdx? fun n => n.toList == lowered t).map (· + 1)

/-- `%d`, `%H`, `%M` and `%S`: one or two digits in a range. -/
def ranged (low high : Nat) (t : List Char) : Bool := oneOrTwo t && decide (low ≤ number t) && decide (number t ≤ high)

/-- `strptime` of the parts of a moment and `datetime`, setter.py:108-110. -/
def moment (y b d h mi s : List Char) : Option DateTime :=
  if exactly 4 y && ranged 1 31 d && ranged 0 23 h && ranged 0 59 mi && ranged 0 61 s then
    match monthOf shortNames b with
    | some m =>
      match datetime (number y) m (number d) (number h) (number mi) (number s) with
      | .ok r => some r
      | .error _ => none
    | none => none
  else none

/-- `ISO_TIMESTAMP`, setter.py:33 -/
def isoStamp : List (List Char) → Option DateTime
  | [a, d, b, y, h, mi, s] => if a.getLast? = some ',' && isWeekday a.dropLast then moment y b d h mi s else none
  | _ => none

/-- `RIFF_TIMESTAMP`, setter.py:30 -/
def riffStamp : List (List Char) → Option DateTime
  | [a, b, d, h, mi, s, y] => if isWeekday a then moment y b d h mi s else none
  | _ => none

/-- `MONTH_YEAR`, setter.py:27, and `date`, 121-124 -/
def monthYear : List (List Char) → Option DateTime
  | [b, y] =>
    if exactly 4 y then
      match monthOf longNames b with
      | some m =>
        match datetime (number y) m 1 0 0 0 with
        | .ok r => some r
        | .error _ => none
      | none => none
    else none
  | _ => none

/-- `TIMEZONE_REGEX`, setter.py:24 and 99-106. -/
def zoneOf (fs : List (List Char)) : List (List Char) × Option Int :=
  match fs.getLast? with
  | some [g, a, b, c, d] =>
    if (g == '+' || g == '-') && digit a && digit b && c == '0' && d == '0' && decide (2 ≤ fs.length) then
      (fs.dropLast, some (if g = '-' then -(number [a, b] : Int) else number [a, b]))
    else (fs, none)
  | _ => (fs, none)

/-- setter.py:97-129, on the parts of the text. -/
def namedFields (fs : List (List Char)) : Option Named :=
  match isoStamp (zoneOf fs).1 with
  | some r => some (.datetime r (zoneOf fs).2)
  | none =>
    match riffStamp (zoneOf fs).1 with
    | some r => some (.datetime r (zoneOf fs).2)
    | none => (monthYear fs).map .date

/-- What `parseDatetime` returns. -/
inductive Read where
  | numeric (p : Parsed)
  | named (n : Named)
  deriving DecidableEq, Repr

/-- `parseDatetime`, setter.py:36-129. -/
def readDate (t : List Char) : Option Read :=
  match parseNumeric t with
  | some p => some (.numeric p)
  | none => (namedFields (splitTilde (normalize false (stripText t)))).map .named

/-- The result as a conversion of `Data.add`; a `date` is a day. -/
def readConv (t : Text) : Conv :=
  match readDate (t.map Char.ofNat) with
  | none => .nothing
  | some (.numeric (.year d x)) => .pair (.date d.year d.month d.day) (x.map Char.toNat)
  | some (.numeric (.date d)) => .value (.date d.year d.month d.day)
  | some (.numeric (.datetime d)) => .value (.datetime d none)
  | some (.named (.date d)) => .value (.date d.year d.month d.day)
  | some (.named (.datetime d z)) => .value (.datetime d z)

end Hachoir.Metadata
