/-!
# Unicode encoding forms

RFC 3629 and RFC 2781: the bytes of a text in UTF-8 and in UTF-16.
-/

namespace Hachoir.Spec

/-- Unicode scalar values: code points that are not surrogates. -/
def Scalar (n : Nat) : Prop := n < 0xd800 ∨ (0xe000 ≤ n ∧ n < 0x110000)

/-- The bytes of a character in UTF-8. -/
def utf8Char (n : Nat) : List UInt8 :=
  if n < 0x80 then [.ofNat n]
  else if n < 0x800 then [.ofNat (0xc0 + n / 64), .ofNat (0x80 + n % 64)]
  else if n < 0x10000 then
    [.ofNat (0xe0 + n / 4096), .ofNat (0x80 + n / 64 % 64), .ofNat (0x80 + n % 64)]
  else
    [.ofNat (0xf0 + n / 262144), .ofNat (0x80 + n / 4096 % 64), .ofNat (0x80 + n / 64 % 64),
     .ofNat (0x80 + n % 64)]

/-- A text in UTF-8. -/
def utf8 (text : List Nat) : List UInt8 := text.flatMap utf8Char

/-- Two bytes in the given order. -/
def unit16 (big : Bool) (n : Nat) : List UInt8 :=
  if big then [.ofNat (n / 256), .ofNat (n % 256)] else [.ofNat (n % 256), .ofNat (n / 256)]

/-- The bytes of a character in UTF-16: one unit, or a pair of surrogates. -/
def utf16Char (big : Bool) (n : Nat) : List UInt8 :=
  if n < 0x10000 then unit16 big n
  else unit16 big (0xd800 + (n - 0x10000) / 1024) ++ unit16 big (0xdc00 + (n - 0x10000) % 1024)

/-- A text in UTF-16, without byte order mark. -/
def utf16 (big : Bool) (text : List Nat) : List UInt8 := text.flatMap (utf16Char big)

end Hachoir.Spec
