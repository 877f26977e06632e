import Verif.Spec.Huffman

/-!
# Specification: the DEFLATE format (RFC 1951)

What a sequence of blocks stands for and how it may be written in bits.  Numbers are
written with the least significant bit first, Huffman codes from their first bit.
-/

namespace Spec

/-- Literal byte, or copy of `length` bytes from `distance` bytes back. -/
inductive Token where
  | lit (b : UInt8)
  | copy (length distance : Nat)
  deriving DecidableEq, Repr

/-- Base length and number of extra bits of a length symbol (RFC 1951, 3.2.5). -/
def lengthCode (sym : Nat) : Option (Nat × Nat) :=
  if sym < 257 then none
  else if sym < 265 then some (sym - 254, 0)
  else if sym < 285 then
    let i := sym - 257
    some (3 + (4 + i % 4) * 2 ^ (i / 4 - 1), i / 4 - 1)
  else if sym = 285 then some (258, 0)
  else none

/-- Base distance and number of extra bits of a distance symbol. -/
def distanceCode (sym : Nat) : Option (Nat × Nat) :=
  if sym < 4 then some (sym + 1, 0)
  else if sym < 30 then some (1 + (2 + sym % 2) * 2 ^ (sym / 2 - 1), sym / 2 - 1)
  else none

/-- The bits of a token for given code lengths. -/
inductive TokenBits (ll dl : List Nat) : Token → List Bool → Prop where
  | lit (b : UInt8) : HasCode ll b.toNat → TokenBits ll dl (.lit b) (codeWord ll b.toNat)
  | copy (sym base n x dsym dbase m y : Nat) : lengthCode sym = some (base, n) → x < 2 ^ n →
      distanceCode dsym = some (dbase, m) → y < 2 ^ m → HasCode ll sym → HasCode dl dsym →
      TokenBits ll dl (.copy (base + x) (dbase + y))
        (codeWord ll sym ++ toBitsLSB n x ++ (codeWord dl dsym ++ toBitsLSB m y))

/-- The bits of the tokens of a block with the end of block symbol. -/
inductive TokensBits (ll dl : List Nat) : List Token → List Bool → Prop where
  | stop : HasCode ll 256 → TokensBits ll dl [] (codeWord ll 256)
  | cons (t : Token) (b : List Bool) (ts : List Token) (bs : List Bool) : TokenBits ll dl t b →
      TokensBits ll dl ts bs → TokensBits ll dl (t :: ts) (b ++ bs)

/-- The data after some tokens; a copy must not reach before the beginning. -/
def expand : List UInt8 → List Token → Option (List UInt8)
  | data, [] => some data
  | data, .lit b :: ts => expand (data ++ [b]) ts
  | data, .copy n d :: ts => if 0 < d ∧ d ≤ data.length then expand (lzCopy data d n) ts else none

/-- The code lengths of fixed Huffman codes (RFC 1951, 3.2.6). -/
def fixedLengths : List Nat :=
  List.replicate 144 8 ++ List.replicate 112 9 ++ List.replicate 24 7 ++ List.replicate 8 8

/-- The distance code lengths of fixed Huffman codes. -/
def fixedDistances : List Nat := List.replicate 32 5

/-- Symbols of the code length alphabet (RFC 1951, 3.2.7): a length, the previous length
`n` times, `n` zeros in two ways. -/
inductive Run where
  | len (n : Nat)
  | prev (n : Nat)
  | zeros (n : Nat)
  | manyZeros (n : Nat)
  deriving DecidableEq, Repr

/-- Counts in range, and codes that exist. -/
def Run.Valid (cl : List Nat) : Run → Prop
  | .len n => n < 16 ∧ HasCode cl n
  | .prev n => 3 ≤ n ∧ n ≤ 6 ∧ HasCode cl 16
  | .zeros n => 3 ≤ n ∧ n ≤ 10 ∧ HasCode cl 17
  | .manyZeros n => 11 ≤ n ∧ n ≤ 138 ∧ HasCode cl 18

/-- Its bits. -/
def Run.bits (cl : List Nat) : Run → List Bool
  | .len n => codeWord cl n
  | .prev n => codeWord cl 16 ++ toBitsLSB 2 (n - 3)
  | .zeros n => codeWord cl 17 ++ toBitsLSB 3 (n - 3)
  | .manyZeros n => codeWord cl 18 ++ toBitsLSB 7 (n - 11)

/-- The code lengths after some symbols. -/
def runLengths : List Nat → List Run → Option (List Nat)
  | acc, [] => some acc
  | acc, .len n :: rs => runLengths (acc ++ [n]) rs
  | acc, .prev n :: rs =>
    match acc.getLast? with
    | none => none
    | some v => runLengths (acc ++ List.replicate n v) rs
  | acc, .zeros n :: rs => runLengths (acc ++ List.replicate n 0) rs
  | acc, .manyZeros n :: rs => runLengths (acc ++ List.replicate n 0) rs

/-- Order of the code lengths of the code length alphabet. -/
def runOrder : List Nat := [16, 17, 18, 0, 8, 7, 9, 6, 10, 5, 11, 4, 12, 3, 13, 2, 14, 1, 15]

/-- The description of dynamic Huffman codes. -/
structure Header where
  /-- Code lengths of the code length alphabet. -/
  cl : List Nat
  /-- How many of them are written, minus 4. -/
  hclen : Nat
  /-- The code lengths of literals and lengths, then of distances. -/
  runs : List Run
  /-- Code lengths of literals and lengths. -/
  ll : List Nat
  /-- Code lengths of distances. -/
  dl : List Nat

/-- A correct description. -/
structure Header.Valid (h : Header) : Prop where
  cl19 : h.cl.length = 19
  cl7 : ∀ x ∈ h.cl, x < 8
  clKraft : Kraft h.cl
  hclen : h.hclen < 16
  written : ∀ i, i ∉ runOrder.take (h.hclen + 4) → h.cl.getD i 0 = 0
  runs : ∀ r ∈ h.runs, r.Valid h.cl
  lengths : runLengths [] h.runs = some (h.ll ++ h.dl)
  ll : 257 ≤ h.ll.length ∧ h.ll.length < 257 + 32
  dl : 1 ≤ h.dl.length ∧ h.dl.length < 1 + 32
  llKraft : Kraft h.ll
  dlKraft : Kraft h.dl

/-- Its bits. -/
def Header.bits (h : Header) : List Bool :=
  toBitsLSB 5 (h.ll.length - 257) ++ (toBitsLSB 5 (h.dl.length - 1) ++ (toBitsLSB 4 h.hclen ++
    ((runOrder.take (h.hclen + 4)).flatMap (fun i => toBitsLSB 3 (h.cl.getD i 0)) ++
      h.runs.flatMap (Run.bits h.cl))))

/-- A block. -/
inductive Block where
  | stored (bytes : List UInt8)
  | fixed (tokens : List Token)
  | dynamic (header : Header) (tokens : List Token)

/-- The bits of a block that begins at bit `pos`, after the final bit. -/
inductive BlockBits (pos : Nat) : Block → List Bool → Prop where
  | stored (bytes : List UInt8) (pad : List Bool) : bytes.length < 65536 → pad.length < 8 →
      (pos + 3 + pad.length) % 8 = 0 →
      BlockBits pos (.stored bytes)
        ([false, false] ++ (pad ++ (toBitsLSB 16 bytes.length ++ (toBitsLSB 16 (65535 - bytes.length) ++ bitsLSB bytes))))
  | fixed (ts : List Token) (bs : List Bool) : TokensBits fixedLengths fixedDistances ts bs →
      BlockBits pos (.fixed ts) ([true, false] ++ bs)
  | dynamic (h : Header) (ts : List Token) (bs : List Bool) : h.Valid → TokensBits h.ll h.dl ts bs →
      BlockBits pos (.dynamic h ts) ([false, true] ++ (h.bits ++ bs))

/-- The bits of a sequence of blocks from bit `pos`; the last one is marked. -/
inductive BlocksBits : Nat → List Block → List Bool → Prop where
  | last (pos : Nat) (b : Block) (bs : List Bool) : BlockBits pos b bs → BlocksBits pos [b] (true :: bs)
  | cons (pos : Nat) (b : Block) (bs : List Bool) (l : List Block) (ls : List Bool) : BlockBits pos b bs →
      BlocksBits (pos + (bs.length + 1)) l ls → BlocksBits pos (b :: l) ((false :: bs) ++ ls)

/-- The data after a block. -/
def expandBlock (data : List UInt8) : Block → Option (List UInt8)
  | .stored bytes => some (data ++ bytes)
  | .fixed ts => expand data ts
  | .dynamic _ ts => expand data ts

/-- The data after some blocks. -/
def expandBlocks : List UInt8 → List Block → Option (List UInt8)
  | data, [] => some data
  | data, b :: bs =>
    match expandBlock data b with
    | none => none
    | some d => expandBlocks d bs

end Spec
