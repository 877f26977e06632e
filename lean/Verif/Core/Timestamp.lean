import Verif.Stream.Input

/-!
# Timestamps

`hachoir/core/tools.py:473-601` and `hachoir/field/timestamp.py`.

`datetime` and `timedelta` belong to Python's standard library.  They are modelled after
its own source in Python, `Lib/datetime.py` of CPython 3.11 (`_ymd2ord`, `_ord2ymd`,
`timedelta.__new__`, `datetime.__add__`), for durations that are not negative: a duration is
its number of microseconds.  A float is only used for the quotient by ten of an integer; it
is a fraction here, rounded as IEEE 754 doubles are.  Arguments that are floats are not
modelled (the fields pass integers).
-/

namespace Hachoir.Time
open Hachoir Hachoir.Stream

/-- `datetime.datetime` without time zone. -/
structure DateTime where
  year : Nat
  month : Nat
  day : Nat
  hour : Nat
  minute : Nat
  second : Nat
  microsecond : Nat
  deriving DecidableEq, Repr

/-- `_is_leap`, Lib/datetime.py:42-44. -/
def isLeap (year : Nat) : Bool := year % 4 == 0 && (year % 100 != 0 || year % 400 == 0)

/-- `_DAYS_IN_MONTH` (33), with `_days_in_month` (51-56). -/
def daysInMonth (year month : Nat) : Nat :=
  if month == 2 && isLeap year then 29
  else [0, 31, 28, 31, 30, 31, 30, 31, 31, 30, 31, 30, 31].getD month 0

/-- `_DAYS_BEFORE_MONTH` (35-39). -/
def daysBeforeMonthTable : List Nat := [0, 0, 31, 59, 90, 120, 151, 181, 212, 243, 273, 304, 334]

/-- `_days_before_year` (46-49). -/
def daysBeforeYear (year : Nat) : Nat :=
  let y := year - 1
  y * 365 + y / 4 - y / 100 + y / 400

/-- `_days_before_month` (58-61). -/
def daysBeforeMonth (year month : Nat) : Nat :=
  daysBeforeMonthTable.getD month 0 + (if month > 2 && isLeap year then 1 else 0)

/-- `_ymd2ord` (63-70). -/
def ymd2ord (year month day : Nat) : Nat := daysBeforeYear year + daysBeforeMonth year month + day

/-- The end of `_ord2ymd` (134-147): month and day of the day number `n` of a year. -/
def monthDay (leapyear : Bool) (n : Nat) : Nat × Nat :=
  let month := (n + 50) >>> 5
  let preceding := daysBeforeMonthTable.getD month 0 + (if month > 2 && leapyear then 1 else 0)
  if preceding > n then
    let month := month - 1
    let preceding := preceding -
      ([0, 31, 28, 31, 30, 31, 30, 31, 31, 30, 31, 30, 31].getD month 0 + (if month == 2 && leapyear then 1 else 0))
    (month, n - preceding + 1)
  else (month, n - preceding + 1)

/-- `_ord2ymd` (88-147). -/
def ord2ymd (n : Nat) : Nat × Nat × Nat :=
  let n := n - 1
  let n400 := n / 146097
  let n := n % 146097
  let year := n400 * 400 + 1
  let n100 := n / 36524
  let n := n % 36524
  let n4 := n / 1461
  let n := n % 1461
  let n1 := n / 365
  let n := n % 365
  let year := year + (n100 * 100 + n4 * 4 + n1)
  if n1 == 4 || n100 == 4 then (year - 1, 12, 31)
  else
    let leapyear := n1 == 3 && (n4 != 24 || n100 == 3)
    let md := monthDay leapyear n
    (year, md.1, md.2)

/-- `_MAXORDINAL`: 31 December 9999. -/
def maxOrdinal : Nat := 3652059

/-- `datetime.__add__` (2177-2194) for a day at 00:00 and a duration in microseconds;
`timedelta.__new__` (683) refuses more than 999999999 days. -/
def addMicroseconds (year month day us : Nat) : Except PyErr DateTime :=
  if us / 86400000000 > 999999999 then .error .overflow
  else
    let days := ymd2ord year month day + us / 86400000000
    let seconds := us / 1000000 % 86400
    if 0 < days ∧ days ≤ maxOrdinal then
      let d := ord2ymd days
      .ok ⟨d.1, d.2.1, d.2.2, seconds / 3600, seconds % 3600 / 60, seconds % 3600 % 60, us % 1000000⟩
    else .error .overflow

/-- `datetime(...)` with its checks (515-543). -/
def datetime (year month day hour minute second : Nat) : Except PyErr DateTime :=
  if ¬ (1 ≤ year ∧ year ≤ 9999) then .error .value
  else if ¬ (1 ≤ month ∧ month ≤ 12) then .error .value
  else if ¬ (1 ≤ day ∧ day ≤ daysInMonth year month) then .error .value
  else if ¬ hour ≤ 23 then .error .value
  else if ¬ minute ≤ 59 then .error .value
  else if ¬ second ≤ 59 then .error .value
  else .ok ⟨year, month, day, hour, minute, second, 0⟩

/-- `timestampUNIX` of an integer, core/tools.py:474-498. -/
def timestampUNIX (value : Int) : Except PyErr DateTime :=
  if ¬ (0 ≤ value ∧ value ≤ 2147483647) then .error .value
  else addMicroseconds 1970 1 1 (value.toNat * 1000000)

/-- What `timestampMac32` returns: a date or a text. -/
inductive MacValue where
  | date (d : DateTime)
  | invalid
  deriving DecidableEq, Repr

/-- `timestampMac32` of an integer, core/tools.py:501-519. -/
def timestampMac32 (value : Int) : Except PyErr MacValue :=
  if ¬ (0 ≤ value ∧ value ≤ 4294967295) then .ok .invalid
  else
    match addMicroseconds 1904 1 1 (value.toNat * 1000000) with
    | .error e => .error e
    | .ok d => .ok (.date d)

/-- Rounding of `n / d` to the nearest integer, ties to even. -/
def roundHalfEven (n d : Nat) : Nat :=
  let q := n / d
  let r := n % d
  if 2 * r < d then q
  else if 2 * r > d then q + 1
  else if q % 2 = 0 then q
  else q + 1

/-- A float that is not negative: `num / 2 ^ exp`. -/
structure Dyadic where
  num : Nat
  exp : Nat
  deriving DecidableEq, Repr

/-- The float `n / d`: the nearest number with 53 significant bits, ties to even
(CPython `long_true_divide` is correctly rounded).  For `d ≤ n * 2 ^ 64` or `n = 0`, and far
from the range ends of doubles. -/
def trueDiv (n d : Nat) : Dyadic :=
  if n = 0 then ⟨0, 0⟩
  else
    -- `2 ^ (k - 1) ≤ n / d * 2 ^ 64 < 2 ^ k`
    let k := Nat.log2 (n * 2 ^ 64 / d) + 1
    if k ≤ 64 + 53 then ⟨roundHalfEven (n * 2 ^ (64 + 53 - k)) d, 64 + 53 - k⟩
    else ⟨roundHalfEven n (d * 2 ^ (k - (64 + 53))) * 2 ^ (k - (64 + 53)), 0⟩

/-- `timedelta(microseconds=x)` of a float (655-660): `round(x)`. -/
def Dyadic.round (x : Dyadic) : Nat := roundHalfEven x.num (2 ^ x.exp)

/-- `durationWin64` of an integer, core/tools.py:522-536, in microseconds. -/
def durationWin64 (value : Int) : Except PyErr Nat :=
  if value < 0 then .error .value
  else
    let us := (trueDiv value.toNat 10).round
    if us / 86400000000 > 999999999 then .error .overflow else .ok us

/-- `durationMillisWin64` of an integer, core/tools.py:539-553, in microseconds. -/
def durationMillisWin64 (value : Int) : Except PyErr Nat :=
  if value < 0 then .error .value
  else
    let us := value.toNat * 1000
    if us / 86400000000 > 999999999 then .error .overflow else .ok us

/-- `except OverflowError: raise ValueError`, core/tools.py:574-576, 600-601. -/
def noOverflow {α : Type} : Except PyErr α → Except PyErr α
  | .error .overflow => .error .value
  | r => r

/-- `timestampWin64` of an integer, core/tools.py:556-576. -/
def timestampWin64 (value : Int) : Except PyErr DateTime :=
  noOverflow (match durationWin64 value with
    | .error e => .error e
    | .ok us => addMicroseconds 1601 1 1 us)

/-- `timestampUUID60` of an integer, core/tools.py:579-601. -/
def timestampUUID60 (value : Int) : Except PyErr DateTime :=
  if value < 0 then .error .value
  else noOverflow (addMicroseconds 1582 10 15 (trueDiv value.toNat 10).round)

/-- `TimeDateMSDOS32.createValue`, field/timestamp.py:62-65, from the values of its
fields. -/
def msdosValue (second minute hour day month year : Nat) : Except PyErr DateTime :=
  datetime (1980 + year) (if month = 0 then 1 else month) (if day = 0 then 1 else day) hour minute (2 * second)

/-- The value of a `TimeDateMSDOS32` at an address, field/timestamp.py:45-65: `Bits` fields
one after the other. -/
def timeDateMSDOS32 (s : InputStream) (endian : Endian) (addr : Nat) : Except PyErr DateTime := do
  let second ← readBits s addr 5 endian
  let minute ← readBits s (addr + 5 : Nat) 6 endian
  let hour ← readBits s (addr + 11 : Nat) 5 endian
  let day ← readBits s (addr + 16 : Nat) 5 endian
  let month ← readBits s (addr + 21 : Nat) 4 endian
  let year ← readBits s (addr + 25 : Nat) 7 endian
  msdosValue second minute hour day month year

/-- The value of a `DateTimeMSDOS32` at an address, field/timestamp.py:71-82. -/
def dateTimeMSDOS32 (s : InputStream) (endian : Endian) (addr : Nat) : Except PyErr DateTime := do
  let day ← readBits s addr 5 endian
  let month ← readBits s (addr + 5 : Nat) 4 endian
  let year ← readBits s (addr + 9 : Nat) 7 endian
  let second ← readBits s (addr + 16 : Nat) 5 endian
  let minute ← readBits s (addr + 21 : Nat) 6 endian
  let hour ← readBits s (addr + 27 : Nat) 5 endian
  msdosValue second minute hour day month year

end Hachoir.Time
