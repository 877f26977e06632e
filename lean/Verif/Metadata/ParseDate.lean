import Verif.Core.Timestamp

/-!
# Dates written as text

`hachoir/metadata/setter.py:9-129` (`parseDatetime`) and `hachoir/core/tools.py:604-622`
(`humanDatetime`).  The last part of `parseDatetime` (98-128: `strptime` with names of months and
days, in the C locale) is a parameter.
-/

set_option linter.unusedVariables false

namespace Hachoir.Metadata
open Hachoir Hachoir.Time

/-- White space of `str.strip()`. -/
def isWhite (c : Char) : Bool :=
  let n := c.toNat
  (9 ≤ n && n ≤ 13) || (28 ≤ n && n ≤ 32) || n == 0x85 || n == 0xa0 || n == 0x1680 ||
  (0x2000 ≤ n && n ≤ 0x200a) || n == 0x2028 || n == 0x2029 || n == 0x202f || n == 0x205f || n == 0x3000

/-- `str.strip()`. -/
def stripText (t : List Char) : List Char := ((t.dropWhile isWhite).reverse.dropWhile isWhite).reverse

/-- The character class of `NORMALIZE_REGEX`, setter.py:9. -/
def isSep (c : Char) : Bool := c == '-' || c == '/' || c == '.' || c == ':' || c == ' '

/-- `NORMALIZE_REGEX.sub("~", text)`: every longest run of separators becomes one `~`.  The flag
tells that the last character was a separator. -/
def normalize : Bool → List Char → List Char
  | _, [] => []
  | inRun, c :: cs =>
    if isSep c then (if inRun then normalize true cs else '~' :: normalize true cs)
    else c :: normalize false cs

/-- The parts between the `~`: the groups of the regexes (setter.py:10-24) contain no `~`, and
all have `~` between them, so matching compares part by part.  (`$` also matches in front of a
newline at the end, but `strip` has removed it.) -/
def splitTilde : List Char → List (List Char)
  | [] => [[]]
  | c :: cs =>
    if c == '~' then [] :: splitTilde cs
    else
      match splitTilde cs with
      | [] => [[c]]
      | f :: fs => (c :: f) :: fs

def digit (c : Char) : Bool := 48 ≤ c.toNat && c.toNat ≤ 57

/-- `int(group)` of digits. -/
def number (t : List Char) : Nat := t.foldl (fun a c => 10 * a + (c.toNat - 48)) 0

/-- `[0-9]{n}`, `[0-9]{1,2}`, `[01][0-9]`, `[01]?[0-9]`. -/
def exactly (n : Nat) (t : List Char) : Bool := t.length == n && t.all digit
def oneOrTwo (t : List Char) : Bool := (t.length == 1 || t.length == 2) && t.all digit
def monthUS (t : List Char) : Bool :=
  match t with
  | [a, b] => (a == '0' || a == '1') && digit b
  | _ => false
def monthFR (t : List Char) : Bool :=
  match t with
  | [a] => digit a
  | [a, b] => (a == '0' || a == '1') && digit b
  | _ => false

/-- What `parseDatetime` returns: a year with its text, a day, a time. -/
inductive Parsed where
  | year (d : DateTime) (text : List Char)
  | date (d : DateTime)
  | datetime (d : DateTime)
  deriving DecidableEq, Repr

/-- `str(year)`. -/
def yearText (n : Nat) : List Char := (toString n).toList

/-- The four numeric branches of `parseDatetime`, setter.py:57-96, on the parts of the text; a
`date` is a `datetime` at midnight here.  `none`: none of them returned. -/
def parseFields (fields : List (List Char)) : Option Parsed :=
  match fields with
  | [y] =>
    if exactly 4 y then
      match datetime (number y) 1 1 0 0 0 with
      | .ok d => some (.year d (yearText (number y)))
      | .error _ => none
    else none
  | [y, m, d] =>
    if exactly 4 y && monthUS m && exactly 2 d then
      match datetime (number y) (number m) (number d) 0 0 0 with
      | .ok d => some (.date d)
      | .error _ => none
    else none
  | [a, b, c, h, mi, s] =>
    let us :=
      if exactly 4 a && monthUS b && exactly 2 c && oneOrTwo h && exactly 2 mi && oneOrTwo s then
        match datetime (number a) (number b) (number c) (number h) (number mi) (number s) with
        | .ok d => some (.datetime d)
        | .error _ => none
      else none
    match us with
    | some r => some r
    | none =>
      if monthFR a && exactly 2 b && exactly 4 c && oneOrTwo h && exactly 2 mi && oneOrTwo s then
        match datetime (number c) (number a) (number b) (number h) (number mi) (number s) with
        | .ok d => some (.datetime d)
        | .error _ => none
      else none
  | _ => none

/-- setter.py:56 and the numeric branches. -/
def parseNumeric (t : List Char) : Option Parsed :=
  parseFields (splitTilde (normalize false (stripText t)))

/-- `parseDatetime`; `other` is what lines 97-129 (dates with names of months, by `strptime`) do with the normalised text. -/
def parseDatetime (other : List Char → Option Parsed) (t : List Char) : Option Parsed :=
  match parseNumeric t with
  | some r => some r
  | none => other (normalize false (stripText t))

/-- `%0wd` of a number with at most `w` digits. -/
def padded : Nat → Nat → List Char
  | 0, _ => []
  | w + 1, n => padded w (n / 10) ++ [Char.ofNat (48 + n % 10)]

/-- `datetime.isoformat()`: microseconds are written if they are not zero; `tz` is the text of the
time zone, as `+02:00` (empty without time zone). -/
def isoformat (d : DateTime) (tz : List Char) : List Char :=
  padded 4 d.year ++ ['-'] ++ padded 2 d.month ++ ['-'] ++ padded 2 d.day ++ ['T'] ++
  padded 2 d.hour ++ [':'] ++ padded 2 d.minute ++ [':'] ++ padded 2 d.second ++
  (if d.microsecond = 0 then [] else ['.'] ++ padded 6 d.microsecond) ++ tz

/-- `date.isoformat()`. -/
def dateIso (d : DateTime) : List Char :=
  padded 4 d.year ++ ['-'] ++ padded 2 d.month ++ ['-'] ++ padded 2 d.day

/-- `humanDatetime` behind `isoformat`, core/tools.py:615-619. -/
def humanIso (iso : List Char) (strip : Bool) : List Char :=
  let text := iso.map fun c => if c == 'T' then ' ' else c
  if strip && text.contains '.' then text.takeWhile (· != '.') else text

end Hachoir.Metadata
