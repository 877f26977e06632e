import Verif.Py

/-!
# Model of /repo/hachoir/core/bits.py
-/

set_option linter.unusedVariables false

namespace Hachoir.Bits

/-- `swap16`, /repo/hachoir/core/bits.py:10-17. -/
def swap16 (value : Nat) : Nat := (value &&& 0xFF) <<< 8 ||| (value >>> 8)

/-- `swap32`, /repo/hachoir/core/bits.py:20-31. -/
def swap32 (value : Nat) : Nat :=
  ((value &&& 0x000000FF) <<< 24) |||
  ((value &&& 0x0000FF00) <<< 8) |||
  ((value &&& 0x00FF0000) >>> 8) |||
  ((value &&& 0xFF000000) >>> 24)

/-- `seq[0::2]`. -/
def evens {α : Type _} : List α → List α
  | [] => []
  | [x] => [x]
  | x :: _ :: rest => x :: evens rest

/-- `seq[1::2]`. -/
def odds {α : Type _} : List α → List α
  | [] => []
  | [_] => []
  | _ :: y :: rest => y :: odds rest

/-- The list `ret` with `ret[0::2] = a` and `ret[1::2] = b` (both of half the
length), used for the two extended slice assignments of
/repo/hachoir/core/bits.py:44-45. -/
def interleave {α : Type _} : List α → List α → List α
  | a :: as, b :: bs => a :: b :: interleave as bs
  | _, _ => []

/-- `arrswapmid`, /repo/hachoir/core/bits.py:34-46. -/
def arrswapmid (data : Bytes) : Except PyErr Bytes :=
  if data.length % 2 = 0 then .ok (interleave (odds data) (evens data))
  else .error .assertion

/-- `strswapmid`, /repo/hachoir/core/bits.py:49-56. -/
def strswapmid (data : Bytes) : Except PyErr Bytes := arrswapmid data

/-- The loop `for bit in bits: value *= 2; value += bit`,
/repo/hachoir/core/bits.py:78-81. -/
def bin2longLoop (value : Nat) : List Nat → Nat
  | [] => value
  | bit :: rest => bin2longLoop (value * 2 + bit) rest

/-- `bin2long`, /repo/hachoir/core/bits.py:59-82. -/
def bin2long (text : List Char) (endian : Endian) : Except PyErr Nat :=
  if endian = .middle then .error .assertion
  else
    let bits := (text.filter (fun c => c == '0' || c == '1')).map
      (fun c => c.toNat - '0'.toNat)
    let bits := if endian ≠ .big then bits.reverse else bits
    if 0 < bits.length then .ok (bin2longLoop 0 bits)
    else .error .assertion

/-- First loop of `countBits`, /repo/hachoir/core/bits.py:125-128.  Returns
`(count, bits, value)`.  The loop terminates since `value` decreases. -/
def countBitsUp (count bits value : Nat) (hb : 0 < bits) : Nat × Nat × Nat :=
  if h : 1 <<< bits ≤ value then
    countBitsUp (count + bits) (bits <<< 1) (value >>> bits)
      (by rw [Nat.shiftLeft_eq]; omega)
  else (count, bits, value)
termination_by value
decreasing_by
  rw [Nat.shiftLeft_eq, Nat.one_mul] at h
  rw [Nat.shiftRight_eq_div_pow]
  have : 0 < 2 ^ bits := Nat.two_pow_pos _
  exact Nat.div_lt_self (by omega) (Nat.one_lt_two_pow (by omega))

/-- Inner loop of the second loop of `countBits`,
/repo/hachoir/core/bits.py:134-136, for `bits > 0`.  For `bits = 0` the Python
loop does not terminate when entered (`1 << 0 <= value` holds for
`value >= 2`); the model then returns `none`. -/
def countBitsInner (count bits value : Nat) : Option (Nat × Nat) :=
  if h : 1 <<< bits ≤ value then
    if hb : bits = 0 then none
    else countBitsInner (count + bits) bits (value >>> bits)
  else some (count, value)
termination_by value
decreasing_by
  rw [Nat.shiftLeft_eq, Nat.one_mul] at h
  rw [Nat.shiftRight_eq_div_pow]
  have : 0 < 2 ^ bits := Nat.two_pow_pos _
  exact Nat.div_lt_self (by omega) (Nat.one_lt_two_pow hb)

/-- Second loop of `countBits`, /repo/hachoir/core/bits.py:129-137; `none`
means that the Python code would loop for ever. `bits` strictly decreases in
each round (`bits >>= 1`, or `bits -= 1` from 1). A round that would start with
`bits = 0` (endless inner loop in Python) is `none` as well. -/
def countBitsDown (count bits value : Nat) : Option Nat :=
  if 2 ≤ value then
    if hb0 : bits = 0 then none
    else
      let bits' := if bits ≠ 1 then bits >>> 1 else bits - 1
      match countBitsInner count bits' value with
      | none => none
      | some (count', value') => countBitsDown count' bits' value'
  else some count
termination_by bits
decreasing_by
  split
  · rw [Nat.shiftRight_eq_div_pow]; omega
  · omega

/-- `countBits`, /repo/hachoir/core/bits.py:109-137, for `value >= 0` (the
`assert` of line 122 is the type `Nat`). `none`: no termination. -/
def countBits (value : Nat) : Option Nat :=
  let r := countBitsUp 1 1 value (by omega)
  countBitsDown r.1 r.2.1 r.2.2

/-- `byte2bin`, /repo/hachoir/core/bits.py:140-160. -/
def byte2bin (number : Nat) (classic : Bool := true) : List Char :=
  (List.range 8).map fun i =>
    let mask := if classic then 1 <<< (7 - i) else 1 <<< i
    if number &&& mask = mask then '1' else '0'

/-- Loop of `long2raw`, /repo/hachoir/core/bits.py:177-181.  The test
`text == ""` compares a list with a string and is always false. -/
def long2rawLoop (value : Nat) : Bytes :=
  if h : value ≠ 0 then UInt8.ofNat (value % 256) :: long2rawLoop (value >>> 8) else []
termination_by value
decreasing_by rw [Nat.shiftRight_eq_div_pow]; omega

/-- `long2raw`, /repo/hachoir/core/bits.py:163-188.  `size = none` is Python's
`None`; a size of 0 is falsy and behaves like `None`.  Negative values fail the
first assertion. -/
def long2raw (value : Int) (endian : Endian) (size : Option Nat) : Except PyErr Bytes :=
  let noSize := size = none ∨ size = some 0
  if ¬ ((noSize ∧ 0 < value) ∨ 0 ≤ value) then .error .assertion
  else if endian = .middle then .error .assertion
  else
    let text := long2rawLoop value.toNat
    let text := match size with
      | some n => text ++ List.replicate (n - text.length) 0
      | none => text
    .ok (if endian = .big then text.reverse else text)

/-- Loop of `long2bin` producing one character per bit,
/repo/hachoir/core/bits.py:212-217. -/
def long2binLoop : Nat → Nat → List Char
  | 0, _ => []
  | size + 1, value => (if value &&& 1 = 1 then '1' else '0') :: long2binLoop size (value >>> 1)

/-- Grouping loop of `long2bin`, /repo/hachoir/core/bits.py:220-229.
`text[7::-1]` is the reversed first eight characters. `first` is true while
`result` is empty. -/
def group8 (classic first : Bool) (text : List Char) : List Char :=
  if h : text.length ≠ 0 then
    (if first then [] else [' ']) ++
    (if classic then (text.take 8).reverse else text.take 8) ++
    group8 classic false (text.drop 8)
  else []
termination_by text.length
decreasing_by simp; omega

/-- `long2bin`, /repo/hachoir/core/bits.py:191-229. -/
def long2bin (size value : Nat) (endian : Endian) (classic : Bool := false) :
    Except PyErr (List Char) :=
  if endian = .middle then .error .assertion
  else
    let text := long2binLoop size value
    let text := if endian = .little then text.reverse else text
    .ok (group8 classic true text)

/-- `int.from_bytes(data, "big")` (C implementation of CPython, modelled as
left-to-right accumulation). -/
def intFromBytesBig (data : Bytes) : Nat := data.foldl (fun v b => v * 256 + b.toNat) 0

/-- `int.from_bytes(data, "little")`. -/
def intFromBytesLittle (data : Bytes) : Nat := data.foldr (fun b v => b.toNat + 256 * v) 0

/-- `str2long`, /repo/hachoir/core/bits.py:273-302. -/
def str2long (data : Bytes) (endian : Endian) : Except PyErr Nat :=
  match endian with
  | .little => .ok (intFromBytesLittle data)
  | .big => .ok (intFromBytesBig data)
  | .middle =>
    match strswapmid data with
    | .ok d => .ok (intFromBytesBig d)
    | .error e => .error e

/-- `str2bin`, /repo/hachoir/core/bits.py:232-248, on the list of character
codes (`ord` of each character). -/
def str2bin (value : List Nat) (classic : Bool := true) : List Char :=
  value.foldl (fun text c =>
    (if text ≠ [] then text ++ [' '] else text) ++ byte2bin c classic) []

/-- Upper case hexadecimal digit. -/
def hexDigit (n : Nat) : Char := (["0","1","2","3","4","5","6","7","8","9","A","B","C","D","E","F"].getD n "0").toList.headD '0'

/-- `"%02X" % n` for a byte. -/
def hex02 (b : UInt8) : List Char := [hexDigit (b.toNat / 16), hexDigit (b.toNat % 16)]

/-- `str2hex` with the default format, /repo/hachoir/core/bits.py:85-106. -/
def str2hex (value : Bytes) (prefix_ glue : List Char := []) : List Char :=
  let items := (if 0 < prefix_.length then [prefix_] else []) ++ value.map hex02
  (items.intersperse glue).flatten

end Hachoir.Bits
