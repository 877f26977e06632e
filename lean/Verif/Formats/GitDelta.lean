import Verif.Formats.VarInt

/-!
# Instructions of a git delta

`DeltaInstruction`, /repo/hachoir/parser/misc/git_pack.py:57-110.
-/

set_option linter.unusedVariables false

namespace Hachoir.Formats
open Hachoir Hachoir.Stream

/-- What `DeltaInstruction` shows in its description (`self.desc`, git_pack.py:103 and 109). -/
inductive Delta where
  | copy (size offset : Nat)
  | add (data : Bytes)
deriving Repr, DecidableEq

/-- One of the seven optional operands, git_pack.py:78-101: `if self["x_set"].value: yield
UInt8(self, "x"); acc |= self["x"].value << shift`.  `addr` is the address of the next field. -/
def deltaOperand (s : InputStream) (set_ : Nat) (shift : Nat) (acc : Nat) (addr : Int) :
    Except PyErr (Nat × Int) :=
  if set_ ≠ 0 then
    match readBits s addr 8 .big with
    | .error e => .error e
    | .ok v => .ok (acc ||| (v <<< shift), addr + 8)
  else .ok (acc, addr)

/-- The operands of a copy, git_pack.py:77-101, with the flags in the order of their fields:
`size1_set`, `size2_set`, `size3_set`, `offset1_set`, .., `offset4_set`. -/
def deltaOperands (s : InputStream) (s1 s2 s3 o1 o2 o3 o4 : Nat) (addr : Int) :
    Except PyErr (Nat × Nat × Int) := do
  let (off, addr) ← deltaOperand s o1 24 0 addr
  let (off, addr) ← deltaOperand s o2 16 off addr
  let (off, addr) ← deltaOperand s o3 8 off addr
  let (off, addr) ← deltaOperand s o4 0 off addr
  let (size, addr) ← deltaOperand s s1 16 0 addr
  let (size, addr) ← deltaOperand s s2 8 size addr
  let (size, addr) ← deltaOperand s s3 0 size addr
  .ok (size, off, addr)

/-- `DeltaInstruction.createFields`, git_pack.py:65-109: the description and the size of the
field set.  All fields are read BIG_ENDIAN (the parser's endian).  `RawBytes` refuses the
length 0 (/repo/hachoir/field/byte_field.py:23).  Simplification: a field that does not fit
its parent is reported as a read error. -/
def deltaInstruction (s : InputStream) (addr : Int) : Except PyErr (Delta × Nat) := do
  let copyOrAdd ← readBits s addr 1 .big
  if copyOrAdd ≠ 0 then
    let s1 ← readBits s (addr + 1) 1 .big
    let s2 ← readBits s (addr + 2) 1 .big
    let s3 ← readBits s (addr + 3) 1 .big
    let o1 ← readBits s (addr + 4) 1 .big
    let o2 ← readBits s (addr + 5) 1 .big
    let o3 ← readBits s (addr + 6) 1 .big
    let o4 ← readBits s (addr + 7) 1 .big
    let (size, off, last) ← deltaOperands s s1 s2 s3 o1 o2 o3 o4 (addr + 8)
    .ok (.copy size off, (last - addr).toNat)
  else
    let dataSize ← readBits s (addr + 1) 7 .big
    if dataSize = 0 then .error .field
    else
      let data ← readBytes s (addr + 8) dataSize
      .ok (.add data, 8 + 8 * dataSize)

/-- The loop of `ObjOfsDeltaParser.createFields`, git_pack.py:53-54: instructions until
`size` bits are used.  `n` bounds the iterations of the model. -/
def deltaInstructions (s : InputStream) : Nat → Int → Nat → Except PyErr (List Delta)
  | 0, _, _ => .error .endless
  | n + 1, addr, size =>
    if 0 < size then
      match deltaInstruction s addr with
      | .error e => .error e
      | .ok (d, fsize) =>
        match deltaInstructions s n (addr + fsize) (size - fsize) with
        | .error e => .error e
        | .ok ds => .ok (d :: ds)
    else .ok []

end Hachoir.Formats
