import Verif.Spec.Lzx

/-!
# Specification: translation of Intel jumps in LZX

Before compression the relative targets of E8 instructions (4 bytes, signed, little endian) may be
made absolute, frame by frame; the decompressor makes them relative again.  The last 10 bytes of a
frame are left alone, and an instruction cannot begin inside of another one.
-/

namespace Spec.Jumps
open Spec Spec.Lzx

/-- Number of the four bytes. -/
def target (a b c d : UInt8) : Int := twosComplement 32 (ofBytesLE [a, b, c, d])

/-- The four bytes of a number. -/
def bytes (v : Int) : List UInt8 :=
  let n := (v % 2 ^ 32).toNat
  [UInt8.ofNat (n % 256), UInt8.ofNat (n / 256 % 256), UInt8.ofNat (n / 65536 % 256), UInt8.ofNat (n / 16777216)]

/-- The relative target, from the absolute one, of an instruction at `pos`. -/
def relative (filesize pos : Nat) (a : Int) : Int :=
  if 0 ≤ a ∧ a < filesize then a - pos else if -(pos : Int) ≤ a ∧ a < 0 then a + filesize else a

/-- The absolute target, from the relative one. -/
def absolute (filesize pos : Nat) (r : Int) : Int :=
  if -(pos : Int) ≤ r ∧ r < (filesize : Int) - pos then r + pos
  else if (filesize : Int) - pos ≤ r ∧ r < filesize then r - filesize
  else r

/-- A frame that begins at `pos`, with the targets changed by `f`. -/
def inFrame (f : Nat → Int → Int) (pos : Nat) : List UInt8 → List UInt8
  | x :: a :: b :: c :: d :: rest =>
    if rest.length + 5 ≤ 10 then x :: a :: b :: c :: d :: rest
    else if x = 0xE8 then x :: (bytes (f pos (target a b c d)) ++ inFrame f (pos + 5) rest)
    else x :: inFrame f (pos + 1) (a :: b :: c :: d :: rest)
  | l => l

/-- All the frames. -/
def inAll (f : Nat → Int → Int) (pos : Nat) (data : List UInt8) : List UInt8 :=
  if h : data.length ≤ 32768 then inFrame f pos data
  else inFrame f pos (data.take 32768) ++ inAll f (pos + 32768) (data.drop 32768)
termination_by data.length
decreasing_by simp; omega

/-- What the compressor does. -/
def makeAbsolute (filesize : Nat) (data : List UInt8) : List UInt8 := inAll (absolute filesize) 0 data

/-- What the decompressor is to do. -/
def makeRelative (filesize : Nat) (data : List UInt8) : List UInt8 := inAll (relative filesize) 0 data

/-- The places at which the translation block by block is the one of the whole: `c` bytes come
before the blocks.  No block ends behind 6 to 9 bytes; no byte E8 has its operand on both sides of
the tenth byte from the end of a block; and without E8 in the codes there is none in the bytes. -/
def Calm (raw : List UInt8) : Nat → List Info → Prop
  | _, [] => True
  | c, i :: is => (c + i.size ≤ 5 ∨ 10 ≤ c + i.size) ∧
      (∀ p, p + 10 < c → c ≤ p + 14 → raw[p]? ≠ some 0xE8) ∧
      (i.e8 = false → ∀ p, c ≤ p + 10 → p < c + i.size → raw[p]? ≠ some 0xE8) ∧ Calm raw (c + i.size) is

end Spec.Jumps
