import Verif.Stream.Input
import Verif.Core.Human
import Verif.Spec.Decimal

/-!
# Network addresses and GUIDs

/repo/hachoir/parser/network/common.py and `GUID` of /repo/hachoir/parser/common/win32.py.
Texts are lists of character codes.  Host names (`ip2name`) and the names of organizations are not
modelled.
-/

set_option linter.unusedVariables false

namespace Hachoir.Formats
open Hachoir Hachoir.Stream Hachoir.Human

/-- `glue.join(texts)`. -/
def joinWith (glue : Bytes) : List Bytes → Bytes
  | [] => []
  | [t] => t
  | t :: ts => t ++ glue ++ joinWith glue ts

/-- The lower case letters of hexadecimal digits as upper case ones. -/
def upperDigit (c : UInt8) : UInt8 := if 97 ≤ c.toNat then c - 32 else c

/-- `"%0NX" % value`. -/
def hexUpper (n : Nat) (value : Nat) : Bytes := (hexPadded n value).map upperDigit

/-- `str2hex(value)`, /repo/hachoir/core/bits.py:85-106, with the default format. -/
def str2hex (value : Bytes) : Bytes := joinWith [] (value.map fun c => hexUpper 2 c.toNat)

/-- `IPv4_Address.createValue`, network/common.py:40-42. -/
def ipv4 (s : InputStream) (addr : Int) : Except PyErr Bytes :=
  match readBytes s addr 4 with
  | .error e => .error e
  | .ok value => .ok (joinWith [46] (value.map fun byte => Spec.decimal byte.toNat))

/-- Loop of `IPv6_Address.createValue`, network/common.py:56-59: `parts` after `n` rounds. -/
def ipv6Parts : Nat → Nat → List Bytes
  | 0, _ => []
  | n + 1, value => hexPadded 4 ((value &&& 0xffff : Nat) : Int) :: ipv6Parts n (value >>> 16)

/-- `IPv6_Address.createValue`, network/common.py:53-60. -/
def ipv6 (s : InputStream) (addr : Int) (endian : Endian) : Except PyErr Bytes :=
  match readBits s addr 128 endian with
  | .error e => .error e
  | .ok value => .ok (joinWith [58] (ipv6Parts 8 value).reverse)

/-- `MAC48_Address.createValue`, network/common.py:121-123: with a glue behind every byte, the
last one cut off. -/
def mac48 (s : InputStream) (addr : Int) : Except PyErr Bytes :=
  match readBytes s addr 6 with
  | .error e => .error e
  | .ok bytes => .ok ((bytes.flatMap fun c => hexPadded 2 c.toNat ++ [58]).dropLast)

/-- `GUID.createValue`, win32.py:125-132. -/
def guid (s : InputStream) (addr : Int) (endian : Endian) : Except PyErr Bytes :=
  match readBits s addr 32 endian with
  | .error e => .error e
  | .ok a =>
    match readBits s (addr + 32) 16 endian with
    | .error e => .error e
    | .ok b =>
      match readBits s (addr + 48) 16 endian with
      | .error e => .error e
      | .ok c =>
        match readBytes s (addr + 64) 2 with
        | .error e => .error e
        | .ok d =>
          match readBytes s (addr + 80) 6 with
          | .error e => .error e
          | .ok e' =>
            .ok (hexUpper 8 a ++ [45] ++ hexUpper 4 b ++ [45] ++ hexUpper 4 c ++ [45] ++ str2hex d ++ [45] ++ str2hex e')

/-- `self.version`, win32.py:96-99. -/
def guidVersion (s : InputStream) (addr : Int) (endian : Endian) : Except PyErr Nat :=
  readBits s (addr + 32 + 16 + 12) 4 endian

/-- The value of the field `variant`, win32.py:105, 118: the three bits behind the version. -/
def guidVariant (s : InputStream) (addr : Int) (endian : Endian) : Except PyErr Nat :=
  readBits s (addr + 64) 3 endian

end Hachoir.Formats
