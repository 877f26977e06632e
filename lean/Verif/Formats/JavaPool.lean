import Verif.Field.StringField
import Verif.Formats.JavaDescriptor

/-!
# The constant pool of a Java class

/repo/hachoir/parser/program/java.py:203-271 (`ConstantPool`, `CPIndexBase`), 738-888 (`CPInfo`),
1270-1288 (`CONSTANT_TYPES`).  The conversion of bytes to text and the display of floating point
numbers belong to Python and are parameters.  All numbers are in big endian.
-/

set_option linter.unusedVariables false

namespace Hachoir.Formats.Java
open Hachoir Hachoir.Stream Hachoir.Field

/-- The values of the fields of a `CPInfo`; `tag` is kept where types share their fields. -/
inductive Const where
  | utf8 (text : Str)
  | integer (v : Int)
  | float (raw : Bytes)
  | long (v : Int)
  | double (raw : Bytes)
  | cls (name : Nat)
  | string (index : Nat)
  | ref (tag cls nameType : Nat)
  | nameType (name descriptor : Nat)
  | handle (kind ref : Nat)
  | methodType (descriptor : Nat)
  | dynamic (tag bootstrap nameType : Nat)
  | unit (tag name : Nat)
deriving Repr, DecidableEq

/-- `tag`: `CONSTANT_TYPES`, java.py:1270-1288.  `constant_type` is its name. -/
def Const.tag : Const → Nat
  | .utf8 _ => 1
  | .integer _ => 3
  | .float _ => 4
  | .long _ => 5
  | .double _ => 6
  | .cls _ => 7
  | .string _ => 8
  | .ref tag _ _ => tag
  | .nameType _ _ => 12
  | .handle _ _ => 15
  | .methodType _ => 16
  | .dynamic tag _ _ => tag
  | .unit tag _ => tag

/-- The value and the size in bits of a field or of several fields. -/
abbrev Sized (α : Type) := Except PyErr (α × Nat)

/-- One `CPIndex` behind the tag. -/
def readIndex (s : InputStream) (addr : Nat) (f : Nat → Const) : Sized Const :=
  match readBits s (addr + 8 : Nat) 16 .big with
  | .error x => .error x
  | .ok i => .ok (f i, 24)

/-- Two numbers of 16 bits behind the tag. -/
def readIndexes (s : InputStream) (addr : Nat) (f : Nat → Nat → Const) : Sized Const :=
  match readBits s (addr + 8 : Nat) 16 .big with
  | .error x => .error x
  | .ok i =>
    match readBits s (addr + 24 : Nat) 16 .big with
    | .error x => .error x
    | .ok j => .ok (f i j, 40)

/-- `refkind_map`, java.py:777-787: the name, and the tags a kind may point to. -/
def refKind : Nat → Option (Str × List Nat)
  | 1 => some ("getField".toList, [9])
  | 2 => some ("getStatic".toList, [9])
  | 3 => some ("putField".toList, [9])
  | 4 => some ("putStatic".toList, [9])
  | 5 => some ("invokeVirtual".toList, [10])
  | 6 => some ("invokeStatic".toList, [10, 11])
  | 7 => some ("invokeSpecial".toList, [10, 11])
  | 8 => some ("newInvokeSpecial".toList, [10])
  | 9 => some ("invokeInterface".toList, [11])
  | _ => none

/-- `CPInfo.createFields`, java.py:744-808; `decode` is the conversion of `PascalString16`. -/
def readConst (decode : Bytes → Str) (s : InputStream) (addr : Nat) : Sized Const :=
  match readBits s (addr : Nat) 8 .big with
  | .error x => .error x
  | .ok tag =>
    match tag with
    | 1 =>
      match genericString s .big (addr + 8) .pascal16 .utf8 none with
      | .error x => .error x
      | .ok sizes =>
        match stringValue s (addr + 8) sizes decode none none with
        | .error x => .error x
        | .ok text => .ok (.utf8 text, 8 + sizes.size.toNat)
    | 3 =>
      match readInteger s (addr + 8 : Nat) true 32 .big with
      | .error x => .error x
      | .ok v => .ok (.integer v, 40)
    | 4 =>
      match readBytes s (addr + 8 : Nat) 4 with
      | .error x => .error x
      | .ok b => .ok (.float b, 40)
    | 5 =>
      match readInteger s (addr + 8 : Nat) true 64 .big with
      | .error x => .error x
      | .ok v => .ok (.long v, 72)
    | 6 =>
      match readBytes s (addr + 8 : Nat) 8 with
      | .error x => .error x
      | .ok b => .ok (.double b, 72)
    | 7 => readIndex s addr .cls
    | 8 => readIndex s addr .string
    | 9 => readIndexes s addr (.ref 9)
    | 10 => readIndexes s addr (.ref 10)
    | 11 => readIndexes s addr (.ref 11)
    | 12 => readIndexes s addr .nameType
    | 15 =>
      match readBits s (addr + 8 : Nat) 8 .big with
      | .error x => .error x
      | .ok kind =>
        match refKind kind with
        | none => .error .key
        | some _ =>
          match readBits s (addr + 16 : Nat) 16 .big with
          | .error x => .error x
          | .ok i => .ok (.handle kind i, 32)
    | 16 => readIndex s addr .methodType
    | 17 => readIndexes s addr (.dynamic 17)
    | 18 => readIndexes s addr (.dynamic 18)
    | 19 => readIndex s addr (.unit 19)
    | 20 => readIndex s addr (.unit 20)
    | _ => .error .parser

/-- `ConstantPool.createFields`, java.py:214-221: the entries with their numbers, and the address
behind.  The first argument bounds the steps, which `length` does. -/
def readPool (decode : Bytes → Str) (s : InputStream) (length : Nat) :
    Nat → Nat → Nat → Except PyErr (List (Nat × Const) × Nat)
  | 0, i, addr => .ok ([], addr)
  | n + 1, i, addr =>
    if i < length then
      match readConst decode s addr with
      | .error x => .error x
      | .ok (c, size) =>
        match readPool decode s length n (if c.tag = 5 ∨ c.tag = 6 then i + 2 else i + 1) (addr + size) with
        | .error x => .error x
        | .ok (l, last) => .ok ((i, c) :: l, last)
    else .ok ([], addr)

/-- The pool with its `constant_pool_count`. -/
structure Pool where
  entries : List (Nat × Const)
  count : Nat

/-- `CPIndexBase._get_cp_entry`, java.py:251-263, for a field that must not be zero. -/
def Pool.entry (p : Pool) (types : List Nat) (i : Nat) : Except PyErr Const :=
  if ¬ i < p.count then .error .assertion
  else
    match p.entries.lookup i with
    | none => .error .missingField
    | some c => if c.tag ∈ types then .ok c else .error .assertion

/-- `rawvalue` of a Utf8 entry through an index, java.py:268-269, 817-818. -/
def Pool.text (p : Pool) (i : Nat) : Except PyErr Str :=
  match p.entry [1] i with
  | .error x => .error x
  | .ok (.utf8 t) => .ok t
  | .ok _ => .error .assertion

/-- `rawvalue` of a Class entry, java.py:821-822. -/
def Pool.className (p : Pool) (i : Nat) : Except PyErr Str :=
  match p.entry [7] i with
  | .error x => .error x
  | .ok (.cls name) => p.text name
  | .ok _ => .error .assertion

/-- `rawvalue` of a NameAndType entry, java.py:828-830: descriptor and name. -/
def Pool.nameAndType (p : Pool) (i : Nat) : Except PyErr (Str × Str) :=
  match p.entry [12] i with
  | .error x => .error x
  | .ok (.nameType name descriptor) =>
    match p.text descriptor with
    | .error x => .error x
    | .ok d =>
      match p.text name with
      | .error x => .error x
      | .ok n => .ok (d, n)
  | .ok _ => .error .assertion

/-- `text.replace(c, by)` for a character. -/
def replaceChar (c : Char) (by_ : Str) (text : Str) : Str := text.flatMap fun d => if d = c then by_ else [d]

/-- `str` of a Utf8 entry, java.py:857-858. -/
def quote (text : Str) : Str := '"' :: (replaceChar '"' ['\\', '"'] (replaceChar '\\' ['\\', '\\'] text) ++ ['"'])

/-- `str` of a Fieldref, Methodref or InterfaceMethodref entry, java.py:824-827, 865-868. -/
def Pool.refText (p : Pool) (cls nameType : Nat) : Except PyErr Str :=
  match p.nameAndType nameType with
  | .error x => .error x
  | .ok (d, n) =>
    match p.className cls with
    | .error x => .error x
    | .ok c => parseAny d (dots c ++ '.' :: n)

/-- `str` of a NameAndType entry through an index, java.py:869-871. -/
def Pool.nameAndTypeText (p : Pool) (i : Nat) : Except PyErr Str :=
  match p.nameAndType i with
  | .error x => .error x
  | .ok (d, n) => parseAny d n

/-- `str` of a Utf8 entry through an index. -/
def Pool.quoted (p : Pool) (i : Nat) : Except PyErr Str :=
  match p.text i with
  | .error x => .error x
  | .ok t => .ok (quote t)

/-- `str(v)` of an integer. -/
def intText (v : Int) : Str := (toString v).toList

/-- `CPInfo.__str__`, java.py:850-888; `floatText` is the display of floating point numbers. -/
def Pool.show (floatText : Bytes → Str) (p : Pool) (c : Const) : Except PyErr Str :=
  match c with
  | .utf8 t => .ok (quote t)
  | .integer v => .ok (intText v)
  | .long v => .ok (intText v)
  | .float b => .ok (floatText b)
  | .double b => .ok (floatText b)
  | .cls name =>
    match p.text name with
    | .error x => .error x
    | .ok t => .ok (dots t)
  | .string i => p.quoted i
  | .ref _ cls nt => p.refText cls nt
  | .nameType name descriptor =>
    match p.text descriptor with
    | .error x => .error x
    | .ok d =>
      match p.text name with
      | .error x => .error x
      | .ok n => parseAny d n
  | .handle kind i =>
    match refKind kind with
    | none => .error .key
    | some (kindName, types) =>
      match p.entry types i with
      | .error x => .error x
      | .ok (.ref _ cls nt) =>
        match p.refText cls nt with
        | .error x => .error x
        | .ok t => .ok (kindName ++ '(' :: (t ++ [')']))
      | .ok _ => .error .assertion
  | .methodType d => p.quoted d
  | .dynamic _ bootstrap nt =>
    match p.nameAndTypeText nt with
    | .error x => .error x
    | .ok t => .ok (intText bootstrap ++ ", ".toList ++ t)
  | .unit _ name => p.quoted name

end Hachoir.Formats.Java
