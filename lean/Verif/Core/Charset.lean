import Verif.Py

/-!
# Guessing a charset and converting bytes to text

`hachoir/core/i18n.py` (`guessBytesCharset`), `hachoir/stream/input_helper.py`
(`guessStreamCharset`) and `GenericString._convertText` of
`hachoir/field/string_field.py`.  Texts are lists of code points.  The strict decoders of
Python (ASCII, UTF-8, UTF-16 and the charmap codecs) are modelled too: they are part of
CPython and belong to the trusted base.
-/

set_option linter.unusedVariables false

namespace Hachoir.Charset
open Hachoir

/-- The charsets that `guessBytesCharset` may return, /repo/hachoir/core/i18n.py:79-93, 121, 128. -/
inductive Name where
  | ascii | utf8 | utf16le | utf16be | latin1 | latin15 | macRoman | greek
  deriving DecidableEq, Repr

/-- `UTF_BOMS`, /repo/hachoir/core/i18n.py:79-83. -/
def utfBoms : List (Bytes × Name) :=
  [([0xef, 0xbb, 0xbf], .utf8), ([0xff, 0xfe], .utf16le), ([0xfe, 0xff], .utf16be)]

/-- `CHARSET_CHARACTERS`, /repo/hachoir/core/i18n.py:86-92: the encoded characters. -/
def charsetCharacters : List (Bytes × Name) :=
  [([0xa9, 0xae, 0xe9, 0xea, 0xe8, 0xe0, 0xe7], .latin1),
   ([0xa9, 0xae, 0xe9, 0xea, 0xe8, 0xe0, 0xe7, 0xa4], .latin15),
   ([0xa9, 0xa8], .macRoman),
   ([0xe5, 0xe4, 0xe7, 0xe9, 0xe8, 0xea, 0xec, 0xef, 0xd1, 0xf3, 0xf2, 0xf5, 0xb8, 0xdf], .greek)]

/-- `bytes.decode("ascii", "strict")` (CPython). -/
def asciiDecode : Bytes → Option (List Nat)
  | [] => some []
  | b :: rest => if b.toNat < 128 then (asciiDecode rest).map (b.toNat :: ·) else none

/-- A continuation byte of UTF-8 whose value is between two bounds. -/
def inRange (lo hi : Nat) (b : UInt8) : Bool := decide (lo ≤ b.toNat ∧ b.toNat ≤ hi)

/-- The bounds of the second byte of a sequence of three bytes (CPython `utf8_decode`,
table 3-7 of the Unicode standard): no overlong form, no surrogate. -/
def second3 (b : UInt8) (c : UInt8) : Bool :=
  inRange (if b.toNat = 0xe0 then 0xa0 else 0x80) (if b.toNat = 0xed then 0x9f else 0xbf) c

/-- The bounds of the second byte of a sequence of four bytes: no overlong form, nothing
beyond U+10FFFF. -/
def second4 (b : UInt8) (c : UInt8) : Bool :=
  inRange (if b.toNat = 0xf0 then 0x90 else 0x80) (if b.toNat = 0xf4 then 0x8f else 0xbf) c

/-- `bytes.decode("utf-8", "strict")` (CPython). -/
def utf8Decode : Bytes → Option (List Nat)
  | [] => some []
  | b :: rest =>
    if b.toNat < 0x80 then (utf8Decode rest).map (b.toNat :: ·)
    else if inRange 0xc2 0xdf b then
      match rest with
      | c :: rest =>
        if inRange 0x80 0xbf c then
          (utf8Decode rest).map (((b.toNat - 0xc0) * 64 + (c.toNat - 0x80)) :: ·)
        else none
      | _ => none
    else if inRange 0xe0 0xef b then
      match rest with
      | c :: d :: rest =>
        if second3 b c && inRange 0x80 0xbf d then
          (utf8Decode rest).map
            (((b.toNat - 0xe0) * 4096 + (c.toNat - 0x80) * 64 + (d.toNat - 0x80)) :: ·)
        else none
      | _ => none
    else if inRange 0xf0 0xf4 b then
      match rest with
      | c :: d :: e :: rest =>
        if second4 b c && inRange 0x80 0xbf d && inRange 0x80 0xbf e then
          (utf8Decode rest).map
            (((b.toNat - 0xf0) * 262144 + (c.toNat - 0x80) * 4096 + (d.toNat - 0x80) * 64
              + (e.toNat - 0x80)) :: ·)
        else none
      | _ => none
    else none

/-- A UnicodeDecodeError: is the reason "truncated data", is `err.end == len(text)`. -/
structure DecodeErr where
  truncated : Bool
  atEnd : Bool
  deriving DecidableEq, Repr

/-- The value of two bytes. -/
def codeUnit (big : Bool) (b c : UInt8) : Nat :=
  if big then b.toNat * 256 + c.toNat else c.toNat * 256 + b.toNat

/-- `str(text, "UTF-16-LE", "strict")` and `"UTF-16-BE"` (CPython `utf16_decode`): a single
byte at the end is "truncated data"; a high surrogate with less than two bytes behind it is
"unexpected end of data"; any other surrogate that is not part of a pair is an illegal
encoding. -/
def utf16Decode (big : Bool) : Bytes → Except DecodeErr (List Nat)
  | [] => .ok []
  | [_] => .error ⟨true, true⟩
  | b :: c :: rest =>
    let u := codeUnit big b c
    if u < 0xd800 ∨ 0xdfff < u then
      match utf16Decode big rest with
      | .ok l => .ok (u :: l)
      | .error e => .error e
    else if 0xdc00 ≤ u then .error ⟨false, rest.isEmpty⟩
    else
      match rest with
      | d :: e :: rest =>
        let v := codeUnit big d e
        if 0xdc00 ≤ v ∧ v ≤ 0xdfff then
          match utf16Decode big rest with
          | .ok l => .ok ((0x10000 + (u - 0xd800) * 1024 + (v - 0xdc00)) :: l)
          | .error e => .error e
        else .error ⟨false, false⟩
      | _ => .error ⟨false, true⟩

/-- A charmap codec: bytes without a character are 0 in the table of the upper half. -/
def tableDecode (table : List Nat) : Bytes → Option (List Nat)
  | [] => some []
  | b :: rest =>
    let n := if b.toNat < 128 then b.toNat else table.getD (b.toNat - 128) 0
    if b.toNat < 128 ∨ n ≠ 0 then (tableDecode table rest).map (n :: ·) else none

/-- The upper half of ISO-8859-15 (CPython `encodings/iso8859_15.py`). -/
def latin15Table : List Nat :=
  [
    128, 129, 130, 131, 132, 133, 134, 135, 136, 137, 138, 139, 140, 141, 142, 143, 144, 145,
    146, 147, 148, 149, 150, 151, 152, 153, 154, 155, 156, 157, 158, 159, 160, 161, 162, 163,
    8364, 165, 352, 167, 353, 169, 170, 171, 172, 173, 174, 175, 176, 177, 178, 179, 381, 181,
    182, 183, 382, 185, 186, 187, 338, 339, 376, 191, 192, 193, 194, 195, 196, 197, 198, 199,
    200, 201, 202, 203, 204, 205, 206, 207, 208, 209, 210, 211, 212, 213, 214, 215, 216, 217,
    218, 219, 220, 221, 222, 223, 224, 225, 226, 227, 228, 229, 230, 231, 232, 233, 234, 235,
    236, 237, 238, 239, 240, 241, 242, 243, 244, 245, 246, 247, 248, 249, 250, 251, 252, 253,
    254, 255]

/-- The upper half of MacRoman (CPython `encodings/mac_roman.py`). -/
def macRomanTable : List Nat :=
  [
    196, 197, 199, 201, 209, 214, 220, 225, 224, 226, 228, 227, 229, 231, 233, 232, 234, 235,
    237, 236, 238, 239, 241, 243, 242, 244, 246, 245, 250, 249, 251, 252, 8224, 176, 162, 163,
    167, 8226, 182, 223, 174, 169, 8482, 180, 168, 8800, 198, 216, 8734, 177, 8804, 8805, 165,
    181, 8706, 8721, 8719, 960, 8747, 170, 186, 937, 230, 248, 191, 161, 172, 8730, 402, 8776,
    8710, 171, 187, 8230, 160, 192, 195, 213, 338, 339, 8211, 8212, 8220, 8221, 8216, 8217, 247,
    9674, 255, 376, 8260, 8364, 8249, 8250, 64257, 64258, 8225, 183, 8218, 8222, 8240, 194, 202,
    193, 203, 200, 205, 206, 207, 204, 211, 212, 63743, 210, 218, 219, 217, 305, 710, 732, 175,
    728, 729, 730, 184, 733, 731, 711]

/-- The upper half of ISO-8859-7 (CPython `encodings/iso8859_7.py`). -/
def greekTable : List Nat :=
  [
    128, 129, 130, 131, 132, 133, 134, 135, 136, 137, 138, 139, 140, 141, 142, 143, 144, 145,
    146, 147, 148, 149, 150, 151, 152, 153, 154, 155, 156, 157, 158, 159, 160, 8216, 8217, 163,
    8364, 8367, 166, 167, 168, 169, 890, 171, 172, 173, 0, 8213, 176, 177, 178, 179, 900, 901,
    902, 183, 904, 905, 906, 187, 908, 189, 910, 911, 912, 913, 914, 915, 916, 917, 918, 919,
    920, 921, 922, 923, 924, 925, 926, 927, 928, 929, 0, 931, 932, 933, 934, 935, 936, 937, 938,
    939, 940, 941, 942, 943, 944, 945, 946, 947, 948, 949, 950, 951, 952, 953, 954, 955, 956,
    957, 958, 959, 960, 961, 962, 963, 964, 965, 966, 967, 968, 969, 970, 971, 972, 973, 974, 0]

/-- `data.decode(charset, "strict")`. -/
def decode : Name → Bytes → Except DecodeErr (List Nat)
  | .ascii, b => match asciiDecode b with | some t => .ok t | none => .error ⟨false, false⟩
  | .utf8, b => match utf8Decode b with | some t => .ok t | none => .error ⟨false, false⟩
  | .utf16le, b => utf16Decode false b
  | .utf16be, b => utf16Decode true b
  | .latin1, b => .ok (b.map UInt8.toNat)
  | .latin15, b => match tableDecode latin15Table b with | some t => .ok t | none => .error ⟨false, false⟩
  | .macRoman, b => match tableDecode macRomanTable b with | some t => .ok t | none => .error ⟨false, false⟩
  | .greek, b => match tableDecode greekTable b with | some t => .ok t | none => .error ⟨false, false⟩

/-- `guessBytesCharset`, /repo/hachoir/core/i18n.py:95-138. -/
def guessBytesCharset (data : Bytes) (default : Option Name) : Option Name :=
  match utfBoms.find? (fun bom => bom.1.isPrefixOf data) with
  | some bom => some bom.2
  | none =>
    if (asciiDecode data).isSome then some .ascii
    else if (utf8Decode data).isSome then some .utf8
    else
      let nonAscii := data.filter fun b => decide (128 ≤ b.toNat)
      match charsetCharacters.find? (fun set => nonAscii.all fun b => set.1.contains b) with
      | some set => some set.2
      | none => default

/-- `GenericString._convertText`, /repo/hachoir/field/string_field.py:228-256, for the charsets
above: the text.  `FALLBACK_CHARSET` is ISO-8859-1 (27), whose decoder never fails. -/
def convertText (charset : Option Name) (text : Bytes) : List Nat :=
  let charset := match charset with
    | some c => some c
    | none => guessBytesCharset text (some .latin1)
  match charset with
  | none => []   -- not reached: the guess has a default
  | some c =>
    match decode c text with
    | .ok t => t
    | .error err =>
      if err.truncated && err.atEnd && decide (c = .utf16le) then
        match decode c (text ++ [0]) with
        | .ok t => t
        | .error _ => text.map UInt8.toNat
      else text.map UInt8.toNat

end Hachoir.Charset
