import Verif.Core.Timestamp
import Verif.Core.Tools
import Verif.Spec.Decimal

/-!
# Texts for people: durations, sizes, attributes, hexadecimal numbers

/repo/hachoir/core/tools.py and /repo/hachoir/core/text_handler.py.  A text is the list of the
codes of its characters (all are ASCII).
-/

set_option linter.unusedVariables false

namespace Hachoir.Human
open Hachoir Hachoir.Time Spec

/-- The codes of a literal. -/
def asc (s : String) : List UInt8 := s.toList.map fun c => UInt8.ofNat c.toNat

/-- Digits of a number in base 8 or 16 (`%o`, `%x`), lower case. -/
def baseDigits (b n : Nat) : List UInt8 :=
  if h : n < b ∨ b < 2 then [UInt8.ofNat (hexDigit n)]
  else baseDigits b (n / b) ++ [UInt8.ofNat (hexDigit (n % b))]
termination_by n
decreasing_by exact Nat.div_lt_self (by omega) (by omega)
where hexDigit (n : Nat) : Nat := if n < 10 then 48 + n else 87 + n

/-- `timedelta.days`, `.seconds`, `.microseconds` of a duration in microseconds. -/
def tdDays (us : Int) : Int := us.fdiv 86400000000
def tdSeconds (us : Int) : Int := (us.fmod 86400000000).fdiv 1000000
def tdMicroseconds (us : Int) : Int := us.fmod 1000000

/-- `if count: text.append("%u unit" % count)`. -/
def durationPart (count : Int) (unit : String) : List (List UInt8) :=
  if count ≠ 0 then [decimalInt count ++ asc (" " ++ unit)] else []

/-- `" ".join(texts)`. -/
def joinSpace : List (List UInt8) → List UInt8
  | [] => []
  | [t] => t
  | t :: ts => t ++ [32] ++ joinSpace ts

/-- `humanDuration` of a `timedelta`, core/tools.py:119-161, given in microseconds. -/
def humanTimedelta (us : Int) : List UInt8 :=
  let micro := tdMicroseconds us
  let text := if 1000 ≤ micro then [decimalInt (micro.fdiv 1000) ++ asc " ms"] else []
  let minutes := (tdSeconds us).fdiv 60
  let seconds := (tdSeconds us).fmod 60
  let hours := minutes.fdiv 60
  let minutes := minutes.fmod 60
  let text := text ++ durationPart seconds "sec" ++ durationPart minutes "min" ++ durationPart hours "hours"
  let years := (tdDays us).fdiv 365
  let days := (tdDays us).fmod 365
  let text := text ++ durationPart days "days" ++ durationPart years "years"
  if 3 < text.length then joinSpace (text.drop (text.length - 3)).reverse
  else if text = [] then asc "0 ms"
  else joinSpace text.reverse

/-- `humanDuration` of an integer number of milliseconds: `timedelta(microseconds=delta * 1000)`
raises `OverflowError` above 999999999 days. -/
def humanDuration (ms : Int) : Except PyErr (List UInt8) :=
  if (tdDays (ms * 1000)).natAbs > 999999999 then .error .overflow else .ok (humanTimedelta (ms * 1000))

/-- A float divided by an integer: correctly rounded, see `trueDiv`. -/
def divFloat (x : Time.Dyadic) (d : Nat) : Time.Dyadic := trueDiv x.num (d * 2 ^ x.exp)

/-- `float(n)`. -/
def toFloat (n : Nat) : Time.Dyadic := trueDiv n 1

/-- `x < n` for a float and an integer. -/
def ltFloat (x : Time.Dyadic) (n : Nat) : Bool := x.num < n * 2 ^ x.exp

/-- `"%.1f" % x`: correctly rounded to tenths. -/
def fixed1 (x : Time.Dyadic) : List UInt8 :=
  let t := roundHalfEven (10 * x.num) (2 ^ x.exp)
  decimal (t / 10) ++ [46] ++ decimal (t % 10)

/-- The loop over the units shared by `humanFilesize`, `humanBitSize` and `humanFrequency`; what
happens after the last unit is `last`. -/
def unitLoop (divisor : Nat) (last : Time.Dyadic → String → List UInt8) :
    List String → String → Time.Dyadic → List UInt8
  | [], unit, size => last size unit
  | unit :: units, _, size =>
    let size := divFloat size divisor
    if ltFloat size divisor then fixed1 size ++ asc (" " ++ unit)
    else unitLoop divisor last units unit size

/-- `"%u %s" % (size, unit)` of a float. -/
def lastInt (size : Time.Dyadic) (unit : String) : List UInt8 :=
  decimal (size.num / 2 ^ size.exp) ++ asc (" " ++ unit)

/-- `humanFilesize` of an integer, core/tools.py:164-186 (below `2 ** 1024`, where `float(size)`
raises `OverflowError`). -/
def humanFilesize (size : Int) : List UInt8 :=
  if size < 10000 then decimalInt size ++ asc " bytes"
  else unitLoop 1024 lastInt ["KB", "MB", "GB", "TB"] "" (toFloat size.toNat)

/-- `humanBitSize` of an integer, core/tools.py:189-211. -/
def humanBitSize (size : Int) : List UInt8 :=
  if size < 1000 then decimalInt size ++ asc " bits"
  else unitLoop 1000 lastInt ["Kbit", "Mbit", "Gbit", "Tbit"] "" (toFloat size.toNat)

/-- `humanBitRate`, core/tools.py:214-224. -/
def humanBitRate (size : Int) : List UInt8 := humanBitSize size ++ asc "/sec"

/-- `humanFrequency` of an integer, core/tools.py:227-249; `repr` stands for `"%s" % hertz` of a
float, used only from 1000 THz on. -/
def humanFrequency (repr : Time.Dyadic → List UInt8) (hertz : Int) : List UInt8 :=
  if hertz < 1000 then decimalInt hertz ++ asc " Hz"
  else unitLoop 1000 (fun x unit => repr x ++ asc (" " ++ unit)) ["kHz", "MHz", "GHz", "THz"] ""
    (toFloat hertz.toNat)

/-- `_ftypelet`, core/tools.py:406-421; `S_IFMT(mode)` is `mode & 0o170000`. -/
def ftypelet (mode : Nat) : UInt8 :=
  let fmt := mode &&& 0o170000
  if fmt = 0o100000 ∨ fmt = 0 then 45
  else if fmt = 0o060000 then 98
  else if fmt = 0o020000 then 99
  else if fmt = 0o040000 then 100
  else if fmt = 0o010000 then 112
  else if fmt = 0o120000 then 108
  else if fmt = 0o140000 then 115
  else 63

/-- The loop that replaces missing rights by `-`, core/tools.py:438-440, for `chars[i]`. -/
def permission (mode i : Nat) : UInt8 :=
  if mode &&& (1 <<< (9 - i)) = 0 then 45
  else if i % 3 = 1 then 114
  else if i % 3 = 2 then 119
  else 120

/-- `if mode & flag: chars[i] = ...`, core/tools.py:441-455. -/
def special (mode flag : Nat) (c upper lower : UInt8) : UInt8 :=
  if mode &&& flag ≠ 0 then (if c ≠ 120 then upper else lower) else c

/-- `humanUnixAttributes`, core/tools.py:424-456, for a mode that is not negative (and below
`2 ** 32`: the functions of `stat` raise `OverflowError` above). -/
def humanUnixAttributes (mode : Nat) : List UInt8 :=
  [ftypelet mode, permission mode 1, permission mode 2,
    special mode 0o4000 (permission mode 3) 83 115,
    permission mode 4, permission mode 5,
    special mode 0o2000 (permission mode 6) 83 115,
    permission mode 7, permission mode 8,
    special mode 0o1000 (permission mode 9) 84 116] ++
  asc " (" ++ baseDigits 8 mode ++ asc ")"

/-- `"0x%0Nx" % value`: zeros up to the width `n`, the sign counts. -/
def hexPadded (n : Nat) (value : Int) : List UInt8 :=
  let digits := baseDigits 16 value.natAbs
  if value < 0 then [45] ++ List.replicate (n - 1 - digits.length) 48 ++ digits
  else List.replicate (n - digits.length) 48 ++ digits

/-- `hexadecimal`, core/text_handler.py:51-64, for a field with this size and value. -/
def hexadecimal (size : Nat) (value : Int) : Except PyErr (List UInt8) :=
  match Tools.alignValue size 4 with
  | .error e => .error e
  | .ok a => .ok (asc "0x" ++ hexPadded (a.fdiv 4).toNat value)

end Hachoir.Human
