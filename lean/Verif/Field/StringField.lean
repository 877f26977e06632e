import Verif.Stream.Input
import Verif.Core.Tools

/-!
# String fields

`hachoir/field/string_field.py`.  Modelled: the sizes computed by `GenericString.__init__`,
the bytes of the content, truncation and stripping of the text.  The conversion of bytes
to text belongs to Python's codecs and is a parameter.
-/

namespace Hachoir.Field
open Hachoir Hachoir.Stream

/-- `VALID_FORMATS`, string_field.py:38-39. -/
inductive StrFormat where
  | c | unixLine | fixed | pascal8 | pascal16 | pascal32
  deriving DecidableEq, Repr

/-- Charsets, string_field.py:42-83: none or one of the 8 bit charsets, the UTF charsets
(the last two with a byte order mark), and names that are not known. -/
inductive Charset where
  | eightBit | utf8 | utf16le | utf32le | utf16be | utf32be | utf16bom | utf32bom | unknown
  deriving DecidableEq, Repr

/-- `UTF_CHARSET[charset][0] // 8`, string_field.py:75-83: bytes of a code unit; 1 for 8 bit
charsets (see `staticSuffixStr`, 211-217). -/
def Charset.unit : Charset → Nat
  | .eightBit | .utf8 | .unknown => 1
  | .utf16le | .utf16be | .utf16bom => 2
  | .utf32le | .utf32be | .utf32bom => 4

/-- `SUFFIX_FORMAT`, string_field.py:92-104; the endian is the one of the parent
(219-222).  There is no entry for MIDDLE_ENDIAN. -/
def suffixStr (format : StrFormat) (unit : Nat) (endian : Endian) : Except PyErr Bytes :=
  match format, endian with
  | _, .middle => .error .key
  | .c, _ => .ok (List.replicate unit 0)
  | .unixLine, .little => .ok (10 :: List.replicate (unit - 1) 0)
  | .unixLine, .big => .ok (List.replicate (unit - 1) 0 ++ [10])
  | _, _ => .ok []

/-- The sizes of a string field: `_charset`, `_content_offset` and `_content_size` in bytes,
`_size` in bits. -/
structure StrSizes where
  charset : Charset
  offset : Nat
  content : Int
  size : Int
  deriving DecidableEq, Repr

/-- Prefix size in bytes, `PASCAL_FORMATS`, string_field.py:107-111. -/
def pascalPrefix : StrFormat → Option Nat
  | .pascal8 => some 1
  | .pascal16 => some 2
  | .pascal32 => some 4
  | _ => none

/-- The sizes before the byte order mark, string_field.py:139-187. -/
def stringSizes (s : InputStream) (endian : Endian) (addr : Nat) (format : StrFormat) (charset : Charset)
    (nbytes : Option Int) : Except PyErr StrSizes :=
  match nbytes with
  | some n =>
    if format ≠ .fixed then .error .assertion
    else if ¬ (1 ≤ n ∧ n ≤ 0xffff) then .error .field
    else .ok ⟨charset, 0, n, n * 8⟩
  | none =>
    if format = .c ∨ format = .unixLine then
      match suffixStr format charset.unit endian with
      | .error e => .error e
      | .ok suffix =>
        match searchBytesLength s suffix false addr none with
        | .error e => .error e
        | .ok none => .error .field
        | .ok (some length) =>
          match (if 1 < suffix.length then Tools.alignValue length suffix.length else .ok length) with
          | .error e => .error e
          | .ok length => .ok ⟨charset, 0, length, (length + suffix.length) * 8⟩
    else
      match pascalPrefix format with
      | none => .error .assertion
      | some prefixSize =>
        match readBits s addr (prefixSize * 8) endian with
        | .error e => .error e
        | .ok value => .ok ⟨charset, prefixSize, value, (prefixSize + value) * 8⟩

/-- `UTF_BOM`, string_field.py:86-89. -/
def bomCharset : Nat → Bytes → Option Charset
  | 2, bom => if bom = [0xff, 0xfe] then some .utf16le else if bom = [0xfe, 0xff] then some .utf16be else none
  | _, bom => if bom = [0xff, 0xfe, 0, 0] then some .utf32le else if bom = [0, 0, 0xfe, 0xff] then some .utf32be else none

/-- `GenericString.__init__`, string_field.py:117-209. -/
def genericString (s : InputStream) (endian : Endian) (addr : Nat) (format : StrFormat) (charset : Charset)
    (nbytes : Option Int) : Except PyErr StrSizes :=
  if charset = .unknown then .error .field
  else
    match stringSizes s endian addr format charset nbytes with
    | .error e => .error e
    | .ok sizes =>
      if charset = .utf16bom ∨ charset = .utf32bom then
        match readBytes s addr charset.unit with
        | .error e => .error e
        | .ok bom =>
          match bomCharset charset.unit bom with
          | none => .error .field
          | some c => .ok ⟨c, sizes.offset + charset.unit, sizes.content - charset.unit, sizes.size⟩
      else .ok sizes

/-- The bytes that `createValue` converts, string_field.py:262-279.  A negative size is a
ReadStreamError of the stream (input.py:460-467). -/
def stringContent (s : InputStream) (addr : Nat) (sizes : StrSizes) : Except PyErr Bytes :=
  if sizes.content < 0 then .error .readStream
  else if sizes.content = 0 then .ok []
  else readBytes s (addr + sizes.offset * 8 : Nat) sizes.content.toNat

/-- `text.find(pattern)`: the text before the first occurrence, if there is one
(string_field.py:288-291). -/
def truncateText {α : Type} [BEq α] (pattern : List α) : List α → Option (List α)
  | [] => if pattern.isPrefixOf [] then some [] else none
  | c :: cs =>
    if pattern.isPrefixOf (c :: cs) then some []
    else (truncateText pattern cs).map (c :: ·)

/-- `text.strip(chars)` (string_field.py:294-298). -/
def stripText {α : Type} (isStrip : α → Bool) (text : List α) : List α :=
  ((text.dropWhile isStrip).reverse.dropWhile isStrip).reverse

/-- The end of `createValue`, string_field.py:281-300: the text after conversion; `truncate`
and `strip` are options.  An empty truncation pattern is the same as none. -/
def textValue {α : Type} [BEq α] (text : List α) (truncate : Option (List α)) (strip : Option (α → Bool)) : List α :=
  let text := match truncate with
    | none => text
    | some [] => text
    | some p => (truncateText p text).getD text
  match strip with
  | none => text
  | some f => stripText f text

/-- `createValue`, string_field.py:262-300; `decode` is the conversion of the content. -/
def stringValue {α : Type} [BEq α] (s : InputStream) (addr : Nat) (sizes : StrSizes) (decode : Bytes → List α)
    (truncate : Option (List α)) (strip : Option (α → Bool)) : Except PyErr (List α) :=
  match stringContent s addr sizes with
  | .error e => .error e
  | .ok [] => .ok []
  | .ok b => .ok (textValue (decode b) truncate strip)

end Hachoir.Field
