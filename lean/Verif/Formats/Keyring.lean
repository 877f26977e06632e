import Verif.Formats.Reader

/-!
# Gnome keyrings (`parser/misc/gnome_keyring.py`)

Left out: descriptions; the cipher (`Deflate`, `generate_key`, lines 21-54 and 214-218), so that `encrypted` is the model of `EncryptedData` over the deciphered bytes.
Times are the number of seconds (C45 for the date they are).
-/

namespace Hachoir.Formats.Keyring
open Hachoir Hachoir.Stream Hachoir.Field Hachoir.Formats

/-- The text of a `KeyringString`, gnome_keyring.py:61-64: none for the size 0xffffffff. -/
def keyTextOf (n : Nat) : Rd (Option Bytes) :=
  if n = 0xffffffff then pure none
  else do
    let b ← Rd.text .big .fixed .utf8 (some n)
    pure (some b)

/-- `KeyringString.createFields`, gnome_keyring.py:59-64. -/
def keyText : Rd (Option Bytes) := do
  let n ← Rd.int 4 .big
  keyTextOf n

/-- `KeyringString.createValue`, gnome_keyring.py:66-70. -/
def keyValue (t : Option Bytes) : Bytes := t.getD []

inductive Value where
  | text (t : Option Bytes)
  | number (n : Nat)
  deriving DecidableEq, Repr

/-- gnome_keyring.py:84-90 -/
def valueOf (type : Nat) : Rd Value :=
  if type = 0 then do
    let t ← keyText
    pure (.text t)
  else if type = 1 then do
    let n ← Rd.int 4 .big
    pure (.number n)
  else Rd.fail .type

structure Attribute where
  name : Option Bytes
  value : Value
  deriving DecidableEq, Repr

/-- `Attribute`, gnome_keyring.py:79-93. -/
def attr : Rd Attribute := do
  let name ← keyText
  let type ← Rd.int 4 .big
  let v ← valueOf type
  pure ⟨name, v⟩

structure Acl where
  types : Nat
  display : Option Bytes
  path : Option Bytes
  reserved : Option Bytes
  reserved2 : Nat
  deriving DecidableEq, Repr

/-- `ACL`, gnome_keyring.py:96-103. -/
def acl : Rd Acl := do
  let t ← Rd.int 4 .big
  let d ← keyText
  let p ← keyText
  let r ← keyText
  let n ← Rd.int 4 .big
  pure ⟨t, d, p, r, n⟩

structure Item where
  id : Nat
  type : Nat
  attributes : List Attribute
  deriving DecidableEq, Repr

/-- `Item`, gnome_keyring.py:106-116. -/
def item : Rd Item := do
  let id ← Rd.int 4 .big
  let type ← Rd.int 4 .big
  let n ← Rd.int 4 .big
  let l ← Rd.times attr n
  pure ⟨id, type, l⟩

/-- `Items`, gnome_keyring.py:119-124. -/
def items : Rd (List Item) := do
  let n ← Rd.int 4 .big
  Rd.times item n

structure Secret where
  display : Option Bytes
  secret : Option Bytes
  mtime : Nat
  ctime : Nat
  reserved : Option Bytes
  numbers : List Nat
  attributes : List Attribute
  acls : List Acl
  deriving DecidableEq, Repr

/-- `EncryptedItem`, gnome_keyring.py:127-142. -/
def secret : Rd Secret := do
  let d ← keyText
  let s ← keyText
  let m ← Rd.int 8 .big
  let c ← Rd.int 8 .big
  let r ← keyText
  let ns ← Rd.times (Rd.int 4 .big) 4
  let n ← Rd.int 4 .big
  let l ← Rd.times attr n
  let k ← Rd.int 4 .big
  let a ← Rd.times acl k
  pure ⟨d, s, m, c, r, ns, l, a⟩

/-- The loop in `EncryptedData.createFields`, gnome_keyring.py:161-165; `n` bounds the number of rounds. -/
def secrets : Nat → Rd (List Secret)
  | 0 => Rd.fail .endless
  | n + 1 => Rd.bind Rd.limit fun stop => Rd.bind Rd.place fun addr =>
    if (stop - addr) / 8 < 77 then Rd.pure [] else Rd.bind secret fun s => Rd.bind (secrets n) fun l => Rd.pure (s :: l)

/-- `NullBytes`, gnome_keyring.py:166-168, with `paddingSize` of /repo/hachoir/core/tools.py:41-57. -/
def alignment (n : Nat) : Rd Unit :=
  if n = 0 then pure ()
  else do
    let _ ← Rd.raw n
    pure ()

def align : Rd Unit := do
  let addr ← Rd.place
  alignment ((16 - addr / 8 % 16) % 16)

/-- `EncryptedData.createFields`, gnome_keyring.py:159-168. -/
def encrypted (fuel : Nat) : Rd (Bytes × List Secret) := do
  let md5 ← Rd.raw 16
  let l ← secrets fuel
  let _ ← align
  pure (md5, l)

structure Ring where
  major : Nat
  minor : Nat
  crypto : Nat
  hash : Nat
  name : Option Bytes
  mtime : Nat
  ctime : Nat
  lockOnIdle : Nat
  flags : Nat
  lockTimeout : Nat
  iterations : Nat
  salt : Bytes
  reserved : Bytes
  items : List Item
  encrypted : Bytes
  deriving DecidableEq, Repr

/-- `SubFile` of no bytes is refused, /repo/hachoir/field/sub_file.py and /repo/hachoir/field/byte_field.py:23-24. -/
def cipher (n : Nat) : Rd Bytes := Rd.raw n

/-- `GnomeKeyring.createFields`, gnome_keyring.py:194-211. -/
def ring : Rd Ring := do
  let _ ← Rd.text .big .fixed .eightBit (some 16)
  let major ← Rd.int 1 .big
  let minor ← Rd.int 1 .big
  let crypto ← Rd.int 1 .big
  let hash ← Rd.int 1 .big
  let name ← keyText
  let m ← Rd.int 8 .big
  let c ← Rd.int 8 .big
  let fl ← Rd.bits .big [1, 31]
  let t ← Rd.int 4 .big
  let it ← Rd.int 4 .big
  let salt ← Rd.raw 8
  let res ← Rd.raw 16
  let l ← items
  let n ← Rd.int 4 .big
  let e ← cipher n
  pure ⟨major, minor, crypto, hash, name, m, c, fl.getD 0 0, fl.getD 1 0, t, it, salt, res, l, e⟩

end Hachoir.Formats.Keyring
