
/-!
# Git's delta format (gitformat-pack, "Deltified representation"), written independently

A copy instruction stores only the non-zero bytes of its offset (four bytes, least significant
first) and of its size (three bytes, least significant first); the low bits of the first byte
say which of them are present.  A size of zero means 0x10000.
-/

namespace Spec

structure GitCopy where
  o0 : Option UInt8
  o1 : Option UInt8
  o2 : Option UInt8
  o3 : Option UInt8
  s0 : Option UInt8
  s1 : Option UInt8
  s2 : Option UInt8

def flag (o : Option UInt8) (bit : Nat) : Nat := if o.isSome then bit else 0

def byteOf (o : Option UInt8) : Nat := (o.map UInt8.toNat).getD 0

/-- The bytes of a copy instruction. -/
def GitCopy.bytes (c : GitCopy) : List UInt8 :=
  UInt8.ofNat (128 + flag c.s2 64 + flag c.s1 32 + flag c.s0 16 + flag c.o3 8 + flag c.o2 4 + flag c.o1 2 + flag c.o0 1)
    :: (c.o0.toList ++ c.o1.toList ++ c.o2.toList ++ c.o3.toList ++ c.s0.toList ++ c.s1.toList ++ c.s2.toList)

def GitCopy.offset (c : GitCopy) : Nat :=
  byteOf c.o0 + 256 * byteOf c.o1 + 65536 * byteOf c.o2 + 16777216 * byteOf c.o3

def GitCopy.rawSize (c : GitCopy) : Nat := byteOf c.s0 + 256 * byteOf c.s1 + 65536 * byteOf c.s2

def GitCopy.size (c : GitCopy) : Nat := if c.rawSize = 0 then 0x10000 else c.rawSize

inductive GitInstr where
  | copy (c : GitCopy)
  | add (data : List UInt8)

/-- An insertion holds 1 to 127 bytes. -/
def GitInstr.Valid : GitInstr → Prop
  | .copy _ => True
  | .add d => 0 < d.length ∧ d.length < 128

def GitInstr.bytes : GitInstr → List UInt8
  | .copy c => c.bytes
  | .add d => UInt8.ofNat d.length :: d

end Spec
