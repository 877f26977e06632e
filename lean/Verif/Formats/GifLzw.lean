import Verif.Stream.Input
import Verif.Spec.Decimal

/-!
# The LZW codes of GIF images

/repo/hachoir/parser/image/gif.py: `rle_repr` (30-65) and `GifImageBlock` (68-126).
-/

set_option linter.unusedVariables false

namespace Hachoir.Formats
open Hachoir Hachoir.Stream

/-- `previous` formatted with `%s` or `%i`: the decimal text of a non-negative integer. -/
def showInt (n : Nat) : Bytes := Spec.decimal n

/-- `add_rle`, gif.py:39-48, on a list of integers (the `isinstance` branch for nested lists is
not modelled: the only callers pass lists of integers).  `result` is kept last element first. -/
def addRle (previous runlen : Nat) (result : List Bytes) : List Bytes :=
  if runlen > 1 then ([91] ++ showInt previous ++ [93, 42] ++ showInt runlen) :: result
  else
    match result with
    | [] => [[91] ++ showInt previous ++ [93]]
    | last :: before =>
      if (42 : UInt8) ∉ last then
        ([91] ++ (last.drop 1).dropLast ++ [44, 32] ++ showInt previous ++ [93]) :: before
      else ([91] ++ showInt previous ++ [93]) :: last :: before

/-- The `for` loop of `rle_repr` and the final `add_rle`, gif.py:56-64. -/
def rleLoop : List Nat → Nat → Nat → List Bytes → List Bytes
  | [], previous, runlen, result => addRle previous runlen result
  | element :: rest, previous, runlen, result =>
    if element = previous then rleLoop rest previous (runlen + 1) result
    else rleLoop rest element 1 (addRle previous runlen result)

/-- `' + '.join(result)`, gif.py:65, for `result` in its own order. -/
def joinPlus : List Bytes → Bytes
  | [] => []
  | [t] => t
  | t :: ts => t ++ [32, 43, 32] ++ joinPlus ts

/-- `rle_repr`, gif.py:30-65. -/
def rleRepr : List Nat → Bytes
  | [] => [91, 93]
  | previous :: rest => joinPlus (rleLoop rest previous 1 []).reverse

/-- A field `code[]` of `GifImageBlock`: its size in bits, its value, the pixels named in its
description (none for the reset and the end code, the literal or the chain printed with
`rle_repr` otherwise), whether the description says "guessed", and the "Current Decoded
Length". -/
structure GifCode where
  width : Nat
  value : Nat
  word : List Nat
  guessed : Bool
  total : Nat
deriving Repr, DecidableEq

/-- The local variables of `GifImageBlock.createFields`, gif.py:71-78.  The keys of `dictionary`
are always `CLEAR_CODE + 2 .. compress_code - 1` in order of insertion, so the list of its values
represents both `dictionary` and `compress_code`; `total` is `len(output)` (the list `output`
is used for nothing else). -/
structure LzwState where
  nbits : Nat
  dict : List (List Nat)
  obuf : List Nat
  total : Nat
deriving Repr, DecidableEq

/-- `compress_code`, gif.py:76. -/
def LzwState.compressCode (st : LzwState) (startbits : Nat) : Nat := 2 ^ startbits + 2 + st.dict.length

/-- `dictionary[code.value]` when present, gif.py:109-110. -/
def LzwState.lookup (st : LzwState) (startbits code : Nat) : Option (List Nat) :=
  st.dict[code - (2 ^ startbits + 2)]?

/-- A literal or compression code, gif.py:102-121: the new state and the field. -/
def lzwCode (startbits : Nat) (st : LzwState) (value : Nat) : Except PyErr (LzwState × GifCode) :=
  if value < 2 ^ startbits then
    let dict := if st.obuf ≠ [] then st.dict ++ [st.obuf ++ [value]] else st.dict
    let total := st.total + 1
    .ok ({ st with dict := dict, obuf := [value], total := total },
      { width := st.nbits, value := value, word := [value], guessed := false, total := total })
  else
    match st.lookup startbits value with
    | some chain =>
      match chain with
      | [] => .error .index
      | c :: _ =>
        let total := st.total + chain.length
        .ok ({ st with dict := st.dict ++ [st.obuf ++ [c]], obuf := chain, total := total },
          { width := st.nbits, value := value, word := chain, guessed := false, total := total })
    | none =>
      match st.obuf with
      | [] => .error .index
      | c :: _ =>
        let chain := st.obuf ++ [c]
        let total := st.total + chain.length
        .ok ({ st with dict := st.dict ++ [st.obuf ++ [c]], obuf := chain, total := total },
          { width := st.nbits, value := value, word := chain, guessed := true, total := total })

/-- The `while True` loop of `GifImageBlock.createFields`, gif.py:79-123, from bit `addr` of the
stream: the fields yielded, where the next field starts, and how the generator ends (`none`: it
leaves the loop with `break`).  `n` bounds the iterations of the model.  The value of a field is
read when the field is created, so a field whose bits are missing is not yielded. -/
def gifLoop (s : InputStream) (startbits : Nat) : Nat → Nat → LzwState → List GifCode × Nat × Option PyErr
  | 0, addr, _ => ([], addr, some .endless)
  | n + 1, addr, st =>
    let nbits := if st.compressCode startbits ≥ 2 ^ st.nbits then st.nbits + 1 else st.nbits
    match readBits s addr nbits .little with
    | .error e => ([], addr, some e)
    | .ok value =>
      if value = 2 ^ startbits then
        let width := if st.compressCode startbits = 2 ^ (nbits - 1) then nbits - 1 else nbits
        match readBits s addr width .little with
        | .error e => ([], addr, some e)
        | .ok value =>
          let (fs, r) := gifLoop s startbits n (addr + width)
            { nbits := startbits + 1, dict := [], obuf := [], total := st.total }
          ({ width := width, value := value, word := [], guessed := false, total := st.total } :: fs, r)
      else if value = 2 ^ startbits + 1 then
        ([{ width := nbits, value := value, word := [], guessed := false, total := st.total }],
          addr + nbits, none)
      else
        match lzwCode startbits { st with nbits := nbits } value with
        | .error e => ([], addr, some e)
        | .ok (st, f) =>
          let (fs, r) := gifLoop s startbits n (addr + nbits) st
          (f :: fs, r)

/-- `GifImageBlock.createFields` without the final padding, gif.py:71-123, on the concatenated
sub-blocks of an image. -/
def gifImageBlock (s : InputStream) (startbits n : Nat) : List GifCode × Nat × Option PyErr :=
  gifLoop s startbits n 0 { nbits := startbits, dict := [], obuf := [], total := 0 }

end Hachoir.Formats
