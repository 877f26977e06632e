import Verif.Formats.VarInt
import Verif.Formats.Bencode
import Verif.Spec.Decimal
import Verif.Metadata.ParseDate

/-!
# ASN.1 objects

/repo/hachoir/parser/container/asn1.py.  A field set is modelled by the tree of values below it
and its size in bits.  Simplifications: an error inside an object ends the reading, while the
code keeps the fields read so far (C20); an object that is longer than the one around it is not
truncated; the value of a text is its bytes and the charset it is decoded with (C70); names and
descriptions are not modelled, except the text of object identifiers and times below.
-/

set_option linter.unusedVariables false

namespace Hachoir.Formats
open Hachoir Hachoir.Stream

/-- The charsets of asn1.py:112-121. -/
inductive AsnCharset where
  | ascii | utf8 | utf16
deriving Repr, DecidableEq

/-- The content of an object that has no objects inside. -/
inductive AsnLeaf where
  | empty                                        -- size zero: no field
  | bool (v : Nat)
  | int (v : Int)
  | bits (padding : Nat) (value : Option Bytes)
  | octets (b : Bytes)
  | oid (first : Nat) (items : List Nat)
  | text (c : AsnCharset) (b : Bytes)
  | raw (b : Bytes)
deriving Repr, DecidableEq

mutual
/-- Objects with their class, form and type. -/
inductive Asn where
  | leaf (cls form key : Nat) (v : AsnLeaf)
  | seq (cls form key : Nat) (l : Asns)
  | set (cls form key : Nat) (l : Asns)
deriving Repr, DecidableEq
inductive Asns where
  | nil
  | cons (o : Asn) (l : Asns)
deriving Repr, DecidableEq
end

/-- The functions an object can have as its `_handler`; `raw` is `None`. -/
inductive AsnHandler where
  | bool | int | bits | octets | oid | text (c : AsnCharset) | raw | seq | set
deriving Repr, DecidableEq

/-- The handlers of `Object.TYPE_INFO`, asn1.py:194-236; a type that is missing (15) has none. -/
def asnTypeInfo : Nat → AsnHandler
  | 1 => .bool
  | 2 => .int
  | 3 => .bits
  | 4 => .octets
  | 6 => .oid
  | 9 => .text .ascii
  | 10 => .int
  | 12 => .text .utf8
  | 16 => .seq
  | 17 => .set
  | 18 => .text .ascii
  | 19 => .text .ascii
  | 20 => .text .ascii
  | 21 => .text .ascii
  | 22 => .text .ascii
  | 23 => .text .ascii
  | 24 => .text .ascii
  | 25 => .text .ascii
  | 26 => .text .ascii
  | 27 => .text .ascii
  | 28 => .text .ascii
  | 29 => .text .ascii
  | 30 => .text .utf16
  | _ => .raw

/-- The choice of the handler in `Object.__init__`, asn1.py:244-269. -/
def asnHandler (cls form key : Nat) : Except PyErr AsnHandler :=
  if cls = 0 then
    if key = 31 then .error .parser
    else .ok (asnTypeInfo key)
  else if form = 1 then .ok .seq
  else .ok (.text .ascii)

/-- Loop of `readObjectID`, asn1.py:143-144; `left` is `size - current_size`, `n` bounds the
iterations of the model. -/
def oidItems (s : InputStream) : Nat → Int → Int → Except PyErr (List Nat)
  | 0, _, _ => .error .endless
  | n + 1, addr, left =>
    if left ≤ 0 then .ok []
    else
      match oidInteger s addr with
      | .error e => .error e
      | .ok (v, size) =>
        match oidItems s n (addr + size) (left - size) with
        | .error e => .error e
        | .ok l => .ok (v :: l)

/-- The handlers without objects inside, asn1.py:112-156, for a content of `size` bytes, not
zero, at `addr`; the last line is `RawBytes`, asn1.py:286.  `GenericInteger` refuses more than
16384 bits (/repo/hachoir/field/integer.py:16-18). -/
def asnLeaf (s : InputStream) (n : Nat) (h : AsnHandler) (addr : Int) (size : Nat) : Except PyErr AsnLeaf :=
  match h with
  | .bool =>
    if size ≠ 1 then .error .parser
    else
      match readBits s addr 8 .big with
      | .error e => .error e
      | .ok v => .ok (.bool v)
  | .int =>
    if 16384 < size * 8 then .error .field
    else
      match readInteger s addr true (size * 8) .big with
      | .error e => .error e
      | .ok v => .ok (.int v)
  | .bits =>
    match readBits s addr 8 .big with
    | .error e => .error e
    | .ok padding =>
      if size > 1 then
        match readBytes s (addr + 8) (size - 1) with
        | .error e => .error e
        | .ok b => .ok (.bits padding (some b))
      else .ok (.bits padding none)
  | .octets =>
    match readBytes s addr size with
    | .error e => .error e
    | .ok b => .ok (.octets b)
  | .oid =>
    match readBits s addr 8 .big with
    | .error e => .error e
    | .ok first =>
      match oidItems s n (addr + 8) (size * 8 - 8 : Int) with
      | .error e => .error e
      | .ok l => .ok (.oid first l)
  | .text c =>
    match readBytes s addr size with
    | .error e => .error e
    | .ok b => .ok (.text c b)
  | _ =>
    match readBytes s addr size with
    | .error e => .error e
    | .ok b => .ok (.raw b)

/-- The header of an object, asn1.py:244-280: class, form, type, handler, size of the content in
bytes and size of the header in bits. -/
def asnHeader (s : InputStream) (addr : Int) : Except PyErr (Nat × Nat × Nat × AsnHandler × Nat × Nat) :=
  match readBits s addr 2 .big with
  | .error e => .error e
  | .ok cls =>
    match readBits s (addr + 2) 1 .big with
    | .error e => .error e
    | .ok form =>
      match readBits s (addr + 3) 5 .big with
      | .error e => .error e
      | .ok key =>
        match asnHandler cls form (key &&& 31) with
        | .error e => .error e
        | .ok h =>
          match asnInteger s (addr + 8) with
          | .error e => .error e
          | .ok (size, fsize) => .ok (cls, form, key, h, size, 8 + fsize)

mutual
/-- `Object`, asn1.py:242-286; the size is asn1.py:271.  `n` bounds the depth and the number of
objects in the model. -/
def asnObject (s : InputStream) : Nat → Int → Except PyErr (Asn × Nat)
  | 0, _ => .error .endless
  | n + 1, addr =>
    match asnHeader s addr with
    | .error e => .error e
    | .ok (cls, form, key, h, size, header) =>
      if size = 0 then .ok (.leaf cls form key .empty, header)
      else
        match h with
        | .seq =>
          match asnItems s n (addr + header) (size * 8 : Nat) with
          | .error e => .error e
          | .ok l => .ok (.seq cls form key l, header + size * 8)
        | .set =>
          match asnObject s n (addr + header) with
          | .error e => .error e
          | .ok (o, _) => .ok (.set cls form key (.cons o .nil), header + size * 8)
        | h =>
          match asnLeaf s n h (addr + header) size with
          | .error e => .error e
          | .ok v => .ok (.leaf cls form key v, header + size * 8)
/-- Loop of `readSequence`, asn1.py:103-105; `left` is `size - current_size`. -/
def asnItems (s : InputStream) : Nat → Int → Int → Except PyErr Asns
  | 0, _, _ => .error .endless
  | n + 1, addr, left =>
    if left ≤ 0 then .ok .nil
    else
      match asnObject s n addr with
      | .error e => .error e
      | .ok (o, size) =>
        match asnItems s n (addr + size) (left - size) with
        | .error e => .error e
        | .ok l => .ok (.cons o l)
end

/-- `".".join(texts)` behind a first text. -/
def dotJoin : List Bytes → Bytes
  | [] => []
  | [t] => t
  | t :: ts => t ++ 46 :: dotJoin ts

/-- `formatFirstObjectID`, asn1.py:161-163. -/
def formatFirstObjectID (value : Nat) : Bytes :=
  Spec.decimal (value / 40) ++ 46 :: Spec.decimal (value % 40)

/-- `formatObjectID`, asn1.py:134-138, for the fields `first` and `item[]`. -/
def formatObjectID (first : Nat) (items : List Nat) : Bytes :=
  dotJoin (formatFirstObjectID first :: items.map Spec.decimal)

/-- `int(value[a:b])`, asn1.py:178-182; a negative number is refused by `datetime` later, with
the same exception. -/
def utcNumber (value : Bytes) (a b : Nat) : Except PyErr Nat :=
  match pyInt ((value.take b).drop a) with
  | none => .error .value
  | some n => if n < 0 then .error .value else .ok n.toNat

/-- `formatUTCTime`, asn1.py:170-188, up to `humanDatetime`.  The year has two characters and is
not less than -9, so that the sum is positive. -/
def formatUTCTime (value : Bytes) : Except PyErr Time.DateTime :=
  match pyInt (value.take 2) with
  | none => .error .value
  | some year =>
    let year := (if year < 50 then year + 2000 else year + 1900).toNat
    match utcNumber value 2 4 with
    | .error e => .error e
    | .ok month =>
      match utcNumber value 4 6 with
      | .error e => .error e
      | .ok day =>
        match utcNumber value 6 8 with
        | .error e => .error e
        | .ok hour =>
          match utcNumber value 8 10 with
          | .error e => .error e
          | .ok minute =>
            match value.getLast? with
            | none => .error .index
            | some c =>
              if c = 90 then
                match utcNumber value 10 12 with
                | .error e => .error e
                | .ok second => Time.datetime year month day hour minute second
              else Time.datetime year month day hour minute 0

end Hachoir.Formats
