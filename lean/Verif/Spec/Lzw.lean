import Verif.Spec.ToBits
import Verif.Spec.Decimal

/-!
# LZW as GIF uses it, and Python list expressions

A picture is cut into segments; each segment ends with a clear code or, for the last one, with
the end code.  The pixels of a segment are cut into phrases.  Sending phrase `j + 1` defines the
entry `j`: phrase `j` followed by the first pixel of phrase `j + 1`.
-/

namespace Spec

/-- The table entry number `j` defined by the phrases `ws` of a segment. -/
def lzwEntry (ws : List (List Nat)) (j : Nat) : Option (List Nat) :=
  match ws[j]?, ws[j + 1]? with
  | some w, some (p :: _) => some (w ++ [p])
  | _, _ => none

/-- `c` is a code for the phrase number `i` of the segment `ws`: a pixel stands for itself, and
the number `2 ^ sb + 2 + j` for the entry number `j`, which must have been defined by the
phrases up to and including `i`. -/
def LzwCodeFor (sb : Nat) (ws : List (List Nat)) (i c : Nat) : Prop :=
  (c < 2 ^ sb ∧ ws[i]? = some [c]) ∨
  ∃ j w, j < i ∧ c = 2 ^ sb + 2 + j ∧ ws[i]? = some w ∧ lzwEntry ws j = some w

/-- The size of the code sent after `i` phrases of a segment: as many bits as the largest number
usable there, `2 ^ sb + 1 + i`, has binary digits. -/
def lzwWidth (sb i : Nat) : Nat := Nat.log2 (2 ^ sb + 1 + i) + 1

/-- The same size with the limit of the GIF format: no code has more than 12 bits. -/
def gifWidth (sb i : Nat) : Nat := min 12 (lzwWidth sb i)

/-- A segment: its phrases and their codes. -/
structure LzwSegment where
  words : List (List Nat)
  codes : List Nat

/-- The codes of a segment name its phrases. -/
def LzwSegment.Valid (sb : Nat) (g : LzwSegment) : Prop :=
  g.codes.length = g.words.length ∧ ∀ i c, g.codes[i]? = some c → LzwCodeFor sb g.words i c

/-- The bits of the codes `cs`, the first of them being sent after `i` phrases. -/
def lzwBits (width : Nat → Nat) : Nat → List Nat → List Bool
  | _, [] => []
  | i, c :: cs => toBitsLSB (width i) c ++ lzwBits width (i + 1) cs

/-- The bits of a picture: every segment but the last ends with the clear code `2 ^ sb`, the last
one with the end code `2 ^ sb + 1`. -/
def gifBits (sb : Nat) (width : Nat → Nat) : List LzwSegment → LzwSegment → List Bool
  | [], g => lzwBits width 0 (g.codes ++ [2 ^ sb + 1])
  | h :: hs, g => lzwBits width 0 (h.codes ++ [2 ^ sb]) ++ gifBits sb width hs g

/-- Python list expressions made of displays of numbers, repetition and concatenation.
`ListItems text l`: the text between the brackets of a display of the list `l`. -/
inductive ListItems : List UInt8 → List Nat → Prop
  | one (n : Nat) : ListItems (decimal n) [n]
  | more {t l} (n : Nat) : ListItems t l → ListItems (decimal n ++ [44, 32] ++ t) (n :: l)

/-- `ListTerm text l`: a display or a repeated display with the value `l`. -/
inductive ListTerm : List UInt8 → List Nat → Prop
  | empty : ListTerm [91, 93] []
  | display {t l} : ListItems t l → ListTerm ([91] ++ t ++ [93]) l
  | repeated {t l} (n : Nat) : ListItems t l →
      ListTerm ([91] ++ t ++ [93] ++ [42] ++ decimal n) (List.replicate n l).flatten

/-- `ListExpr text l`: a sum of terms with the value `l`. -/
inductive ListExpr : List UInt8 → List Nat → Prop
  | term {t l} : ListTerm t l → ListExpr t l
  | plus {t l u m} : ListTerm t l → ListExpr u m → ListExpr (t ++ [32, 43, 32] ++ u) (l ++ m)

end Spec
