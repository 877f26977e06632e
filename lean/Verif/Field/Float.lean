import Verif.Stream.Input
import Verif.Core.Timestamp

/-!
# Floating point fields

/repo/hachoir/field/float.py.  The values of `Float32` and `Float64` come from `struct.unpack` and
are not modelled; their parts, and the value of `Float80`, are computed by the code.  Python's
floats (IEEE 754 binary64) are modelled by exact binary fractions with the rounding of each
operation written out.
-/

set_option linter.unusedVariables false

namespace Hachoir.Floats
open Hachoir Hachoir.Stream Hachoir.Time

/-- `float(v)`: 53 bits, half to even. -/
def floatOfNat (v : Nat) : Nat :=
  if v < 2 ^ 53 then v
  else roundHalfEven v (2 ^ (Nat.log2 v - 52)) * 2 ^ (Nat.log2 v - 52)

/-- `FloatMantissa.createValue`, float.py:14-16: `1 + float(value) / (2 ** self.size)`.  The quotient
is exact; the sum, between 1 and 2, is rounded to a multiple of `2 ** -52`. -/
def mantissaValue (size v : Nat) : Time.Dyadic :=
  if size ≤ 52 then ⟨2 ^ size + v, size⟩
  else ⟨2 ^ 52 + roundHalfEven (floatOfNat v) (2 ^ (size - 52)), 52⟩

/-- `FloatExponent.createValue`, float.py:24-29. -/
def exponentValue (size v : Nat) : Int := v - (2 ^ (size - 1) - 1 : Nat)

/-- The values of the fields of `createFields`, float.py:80-87. -/
structure Parts where
  negative : Bool
  exponent : Int
  one : Option Bool
  mantissa : Time.Dyadic
deriving DecidableEq

/-- `Float.createFields`, float.py:80-87. -/
def floatParts (s : InputStream) (e : Endian) (addr : Int) (mantissaBits exponentBits : Nat) : Except PyErr Parts :=
  match readBits s addr 1 e with
  | .error x => .error x
  | .ok negative =>
    match readBits s (addr + 1) exponentBits e with
    | .error x => .error x
    | .ok exponent =>
      if 64 ≤ mantissaBits then
        match readBits s (addr + 1 + exponentBits) 1 e with
        | .error x => .error x
        | .ok one =>
          match readBits s (addr + 1 + exponentBits + 1) (mantissaBits - 1) e with
          | .error x => .error x
          | .ok mantissa =>
            .ok ⟨negative == 1, exponentValue exponentBits exponent, some (one == 1), mantissaValue (mantissaBits - 1) mantissa⟩
      else
        match readBits s (addr + 1 + exponentBits) mantissaBits e with
        | .error x => .error x
        | .ok mantissa => .ok ⟨negative == 1, exponentValue exponentBits exponent, none, mantissaValue mantissaBits mantissa⟩

/-- A Python float: `num * 2 ** exp` with a sign, or an infinity. -/
inductive PyFloat where
  | finite (negative : Bool) (num : Nat) (exp : Int)
  | infinite (negative : Bool)
deriving Repr, DecidableEq

/-- `mantissa * (2.0 ** float(exponent))` with the sign, float.py:69-75, for a mantissa between 1
and 2 in units of `2 ** -52`: `2.0 ** 1024.0` raises `OverflowError`, which becomes a
`ValueError`; powers below `2 ** -1074` are zero; products below `2 ** -1022` are rounded to a
multiple of `2 ** -1074`; 2 times `2 ** 1023` is an infinity. -/
def scaled (negative : Bool) (num : Nat) (e : Int) : Except PyErr PyFloat :=
  if 1024 ≤ e then .error .value
  else if -1022 ≤ e then
    if e = 1023 ∧ num = 2 ^ 53 then .ok (.infinite negative)
    else .ok (.finite negative num (e - 52))
  else if -1074 ≤ e then .ok (.finite negative (roundHalfEven num (2 ^ (-1022 - e).toNat)) (-1074))
  else .ok (.finite negative 0 0)

/-- The value of a `Float80`, float.py:53-78, 100-102: 15 bits of exponent, 64 of mantissa. -/
def float80 (s : InputStream) (e : Endian) (addr : Int) : Except PyErr PyFloat :=
  match floatParts s e addr 64 15 with
  | .error x => .error x
  | .ok p => scaled p.negative p.mantissa.num p.exponent

end Hachoir.Floats
