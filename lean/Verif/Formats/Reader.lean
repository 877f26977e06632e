import Verif.Stream.Input
import Verif.Field.StringField

/-!
# Readers: fields that follow each other

A field set whose fields follow each other without gap is a reader: it starts at an address (in bits), gives the values of its fields and
the address behind the last one.  `stop` is the end of the innermost field set whose size is known, as `eof` sees it.
-/

namespace Hachoir.Formats
open Hachoir Hachoir.Stream Hachoir.Field

/-- A reader: the stream, the end of the field set, the address; the result and the address behind. -/
def Rd (α : Type) : Type := InputStream → Nat → Nat → Except PyErr (α × Nat)

namespace Rd

def bind {α β : Type} (r : Rd α) (f : α → Rd β) : Rd β := fun s stop addr =>
  match r s stop addr with
  | .error e => .error e
  | .ok (a, addr) => f a s stop addr

def pure {α : Type} (a : α) : Rd α := fun _ _ addr => .ok (a, addr)

instance : Monad Rd where
  bind := bind
  pure := pure

/-- An exception. -/
def fail {α : Type} (e : PyErr) : Rd α := fun _ _ _ => .error e

/-- An integer field of `n` bytes (`createValue` of `GenericInteger`, /repo/hachoir/field/integer.py:22-24). -/
def int (n : Nat) (endian : Endian) : Rd Nat := fun s _ addr =>
  match readBits s (addr : Nat) (8 * n) endian with
  | .error e => .error e
  | .ok v => .ok (v, addr + 8 * n)

/-- A signed integer field of `n` bytes. -/
def signed (n : Nat) (endian : Endian) : Rd Int := fun s _ addr =>
  match readInteger s (addr : Nat) true (8 * n) endian with
  | .error e => .error e
  | .ok v => .ok (v, addr + 8 * n)

/-- A text field, /repo/hachoir/field/string_field.py: the bytes of its content. -/
def text (endian : Endian) (format : StrFormat) (charset : Charset) (n : Option Int) : Rd Bytes := fun s _ addr =>
  match genericString s endian addr format charset n with
  | .error e => .error e
  | .ok sizes =>
    match stringContent s addr sizes with
    | .error e => .error e
    | .ok b => .ok (b, addr + sizes.size.toNat)

/-- `Bytes` of `n` bytes, /repo/hachoir/field/byte_field.py:13-72: 0 bytes are refused (lines 23-24). -/
def raw (n : Nat) : Rd Bytes := fun s _ addr =>
  if n = 0 then .error .field
  else
    match readBytes s (addr : Nat) n with
    | .error e => .error e
    | .ok v => .ok (v, addr + 8 * n)

/-- The value of the byte at the current address, without a field. -/
def peek (endian : Endian) : Rd Nat := fun s _ addr =>
  match readBits s (addr : Nat) 8 endian with
  | .error e => .error e
  | .ok v => .ok (v, addr)

/-- One `Bits` field. -/
def bit (endian : Endian) (w : Nat) : Rd Nat := fun s _ addr =>
  match readBits s (addr : Nat) w endian with
  | .error e => .error e
  | .ok v => .ok (v, addr + w)

/-- `Bits` fields of these widths. -/
def bits (endian : Endian) : List Nat → Rd (List Nat)
  | [] => pure []
  | w :: ws => bind (bit endian w) fun v => bind (bits endian ws) fun vs => pure (v :: vs)

/-- `eof`, /repo/hachoir/field/generic_field_set.py:124-125. -/
def eof : Rd Bool := fun _ stop addr => .ok (decide (stop ≤ addr), addr)

/-- The address. -/
def place : Rd Nat := fun _ _ addr => .ok (addr, addr)

/-- The end of the field set. -/
def limit : Rd Nat := fun _ stop addr => .ok (stop, addr)

/-- `seekByte` of the whole file (/repo/hachoir/field/generic_field_set.py:414-440, C75): padding up to the address, never back. -/
def seek (n : Nat) : Rd Unit := fun _ _ addr => if 8 * n < addr then .error .parser else .ok ((), 8 * n)

/-- `seekByte` of a seekable file (/repo/hachoir/field/seekable_field_set.py:37-47, C76): anywhere. -/
def jump (n : Nat) : Rd Unit := fun _ _ _ => .ok ((), 8 * n)

/-- A field set whose size is told: `n` bytes. -/
def within {α : Type} (n : Nat) (r : Rd α) : Rd α := fun s _ addr =>
  match r s (addr + 8 * n) addr with
  | .error e => .error e
  | .ok (a, _) => .ok (a, addr + 8 * n)

/-- `n` times the same. -/
def times {α : Type} (r : Rd α) : Nat → Rd (List α)
  | 0 => pure []
  | n + 1 => bind r fun a => bind (times r n) fun as => pure (a :: as)

/-- For every element. -/
def each {α β : Type} (f : α → Rd β) : List α → Rd (List β)
  | [] => pure []
  | x :: xs => bind (f x) fun a => bind (each f xs) fun as => pure (a :: as)

/-- `while not self.eof`, `n` bounds the number of rounds. -/
def whileNotEof {α : Type} (r : Rd α) : Nat → Rd (List α)
  | 0 => fail .endless
  | n + 1 => bind eof fun e => if e then pure [] else bind r fun a => bind (whileNotEof r n) fun as => pure (a :: as)

end Rd
end Hachoir.Formats
