import Verif.Spec.ToBits

/-!
# Specification: canonical Huffman codes and back-references

RFC 1951, 3.2.2: codes of the same length are consecutive in the order of the symbols, and
shorter codes come before longer ones.  Only lists and arithmetic.
-/

namespace Spec

/-- Number of codes of the given length that the shorter codes take away. -/
def shorter (lengths : List Nat) (l : Nat) : Nat :=
  (lengths.map fun x => if 0 < x ∧ x < l then 2 ^ (l - x) else 0).sum

/-- The code of symbol `i` as a number: behind all the shorter codes, and behind those of
the same length with a smaller symbol. -/
def codeOf (lengths : List Nat) (i : Nat) : Nat :=
  shorter lengths (lengths.getD i 0) + (lengths.take i).count (lengths.getD i 0)

/-- The code of symbol `i` as a sequence of bits. -/
def codeWord (lengths : List Nat) (i : Nat) : List Bool :=
  toBitsMSB (lengths.getD i 0) (codeOf lengths i)

/-- The symbols that have a code. -/
def HasCode (lengths : List Nat) (i : Nat) : Prop := i < lengths.length ∧ lengths.getD i 0 ≠ 0

/-- Kraft's inequality: the lengths can be those of a prefix code. -/
def Kraft (lengths : List Nat) : Prop :=
  ∃ m, (∀ x ∈ lengths, x ≤ m) ∧ (lengths.map fun x => if 0 < x then 2 ^ (m - x) else 0).sum ≤ 2 ^ m

/-- Copying one byte at a time from `offset` bytes back. -/
def lzCopy (data : List UInt8) (offset : Nat) : Nat → List UInt8
  | 0 => data
  | n + 1 =>
    let d := lzCopy data offset n
    d ++ [d.getD (d.length - offset) 0]

end Spec
