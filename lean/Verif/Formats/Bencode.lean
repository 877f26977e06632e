import Verif.Stream.Input

/-!
# Bencoded data (torrent files)

/repo/hachoir/parser/misc/torrent.py.  A field set is modelled by the tree of values below it and
its size in bits; the children are read when their size is asked for, that is in order.
Simplification: an error inside a child ends the reading here, while the code keeps the fields
read so far and fills the rest with raw bytes (C20).
-/

set_option linter.unusedVariables false

namespace Hachoir.Formats
open Hachoir Hachoir.Stream

/-- The white space that Python's `int` skips around a number, among the characters 0..255 (less than what
`str.strip` removes: not 28..31). -/
def isPySpace (c : UInt8) : Bool :=
  (9 ≤ c.toNat && c.toNat ≤ 13) || c.toNat == 32 || c.toNat == 0x85 || c.toNat == 0xa0

/-- The digits of `int(text)`, with single underscores between digits. -/
def pyDigits : Nat → Bool → List UInt8 → Option Nat
  | acc, afterDigit, [] => if afterDigit then some acc else none
  | acc, afterDigit, c :: cs =>
    if 48 ≤ c.toNat ∧ c.toNat ≤ 57 then pyDigits (acc * 10 + (c.toNat - 48)) true cs
    else if c.toNat = 95 ∧ afterDigit then pyDigits acc false cs
    else none

/-- Python's `int(text)` for a text of characters 0..255; `none` for `ValueError`. -/
def pyInt (t : List UInt8) : Option Int :=
  match ((t.dropWhile isPySpace).reverse.dropWhile isPySpace).reverse with
  | [] => none
  | c :: cs =>
    if c.toNat = 45 then (pyDigits 0 false cs).map fun n : Nat => -(n : Int)
    else if c.toNat = 43 then (pyDigits 0 false cs).map Int.ofNat
    else (pyDigits 0 false (c :: cs)).map Int.ofNat

mutual
/-- Bencoded values over integers `I` and strings `S`. -/
inductive Ben (I S : Type) where
  | int (n : I)
  | str (b : S)
  | list (l : Bens I S)
  | dict (l : BenPairs I S)
deriving Repr, DecidableEq
inductive Bens (I S : Type) where
  | nil
  | cons (v : Ben I S) (l : Bens I S)
deriving Repr, DecidableEq
inductive BenPairs (I S : Type) where
  | nil
  | cons (k v : Ben I S) (l : BenPairs I S)
deriving Repr, DecidableEq
end

/-- The values the parser shows: an integer may fail to convert (`Integer.createValue`,
torrent.py:42-44), a string may have no value (`TorrentString.createValue`, 77-85). -/
abbrev Shown := Ben (Option Int) (Option Bytes)

/-- `Integer.createFields`, torrent.py:26-40, behind the tag; the constant is
`MAX_INTEGER_SIZE`. -/
def benInteger (s : InputStream) (addr : Int) : Except PyErr (Shown × Nat) :=
  match searchBytesLength s [101] false (addr + 8) (some (addr + 8 + (21 + 1) * 8)) with
  | .error e => .error e
  | .ok none => .error .parser
  | .ok (some len) =>
    if len = 0 then .error .parser
    else
      match readBytes s (addr + 8) len.toNat with
      | .error e => .error e
      | .ok text => .ok (.int (pyInt text), 8 + 8 * len.toNat + 8)

/-- `TorrentString.createFields`, torrent.py:50-75; the constant is `MAX_STRING_LENGTH`. -/
def benString (s : InputStream) (addr : Int) : Except PyErr (Shown × Nat) :=
  match searchBytesLength s [58] false addr (some (addr + (6 + 1) * 8)) with
  | .error e => .error e
  | .ok none => .error .parser
  | .ok (some len) =>
    if len = 0 then .error .parser
    else
      match readBytes s addr len.toNat with
      | .error e => .error e
      | .ok text =>
        let n : Int := (pyInt text).getD (-1)
        if n < 0 then .error .parser
        else if n = 0 then .ok (.str none, 8 * len.toNat + 8)
        else
          match readBytes s (addr + 8 * len + 8) n.toNat with
          | .error e => .error e
          | .ok value => .ok (.str (if n < 512 then some value else none), 8 * len.toNat + 8 + 8 * n.toNat)

mutual
/-- `Entry`, torrent.py:150-156, with `Dictionary`, `List` (88-106); `TAGS` is 142-144.  `n`
bounds the depth and the number of items in the model. -/
def benEntry (s : InputStream) : Nat → Int → Except PyErr (Shown × Nat)
  | 0, _ => .error .endless
  | n + 1, addr =>
    match readBytes s addr 1 with
    | .error e => .error e
    | .ok tag =>
      if tag = [100] then
        match benPairs s n (addr + 8) with
        | .error e => .error e
        | .ok (l, size) => .ok (.dict l, 8 + size + 8)
      else if tag = [105] then benInteger s addr
      else if tag = [108] then
        match benItems s n (addr + 8) with
        | .error e => .error e
        | .ok (l, size) => .ok (.list l, 8 + size + 8)
      else if tag.all (fun c => decide (48 ≤ c.toNat ∧ c.toNat ≤ 57)) then benString s addr
      else .error .parser
/-- The loop of `List.createFields`, torrent.py:104-105. -/
def benItems (s : InputStream) : Nat → Int → Except PyErr (Bens (Option Int) (Option Bytes) × Nat)
  | 0, _ => .error .endless
  | n + 1, addr =>
    match readBytes s addr 1 with
    | .error e => .error e
    | .ok c =>
      if c = [101] then .ok (.nil, 0)
      else
        match benEntry s n addr with
        | .error e => .error e
        | .ok (v, size) =>
          match benItems s n (addr + size) with
          | .error e => .error e
          | .ok (l, size') => .ok (.cons v l, size + size')
/-- The loop of `Dictionary.createFields`, torrent.py:93-94, with `DictionaryItem.createFields`,
132-134.  Simplification: the names of the items (`__init__`, 111-119) are not modelled. -/
def benPairs (s : InputStream) : Nat → Int → Except PyErr (BenPairs (Option Int) (Option Bytes) × Nat)
  | 0, _ => .error .endless
  | n + 1, addr =>
    match readBytes s addr 1 with
    | .error e => .error e
    | .ok c =>
      if c = [101] then .ok (.nil, 0)
      else
        match benEntry s n addr with
        | .error e => .error e
        | .ok (k, size) =>
          match benEntry s n (addr + size) with
          | .error e => .error e
          | .ok (v, size') =>
            match benPairs s n (addr + size + size') with
            | .error e => .error e
            | .ok (l, size'') => .ok (.cons k v l, size + size' + size'')
end

end Hachoir.Formats
