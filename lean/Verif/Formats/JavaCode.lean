import Verif.Formats.Fields
import Verif.Core.Tools

/-!
# Code of Java methods

/repo/hachoir/parser/program/java.py:289-518 (opcodes), 520-734 (`JavaBytecode`).  An instruction is
modelled by its address in the code, the name of its opcode and the values of its operands.  Where
the field sets end when the code is cut is not modelled (C08, C09).
-/

set_option linter.unusedVariables false

namespace Hachoir.Formats.Java
open Hachoir Hachoir.Stream Hachoir.Formats

/-- The classes of opcodes, java.py:289-518. -/
inductive OpClass where
  | noArgs | cpIndex | cpIndexShort | index | shortJump | longJump | bipush | sipush | iinc | wide
  | invokeInterface | invokeDynamic | newArray | multiANewArray | tableSwitch | lookupSwitch
deriving Repr, DecidableEq

/-- The classes in `OPCODE_TABLE`, java.py:521-718; other opcodes: java.py:733. -/
def opClass (op : Nat) : OpClass :=
  if op = 0x10 then .bipush
  else if op = 0x11 then .sipush
  else if op = 0x12 then .cpIndexShort
  else if op = 0x13 ∨ op = 0x14 then .cpIndex
  else if 0x15 ≤ op ∧ op ≤ 0x19 then .index
  else if 0x36 ≤ op ∧ op ≤ 0x3a then .index
  else if op = 0x84 then .iinc
  else if 0x99 ≤ op ∧ op ≤ 0xa8 then .shortJump
  else if op = 0xa9 then .index
  else if op = 0xaa then .tableSwitch
  else if op = 0xab then .lookupSwitch
  else if 0xb2 ≤ op ∧ op ≤ 0xb8 then .cpIndex
  else if op = 0xb9 then .invokeInterface
  else if op = 0xba then .invokeDynamic
  else if op = 0xbb then .cpIndex
  else if op = 0xbc then .newArray
  else if op = 0xbd then .cpIndex
  else if op = 0xc0 ∨ op = 0xc1 then .cpIndex
  else if op = 0xc4 then .wide
  else if op = 0xc5 then .multiANewArray
  else if op = 0xc6 ∨ op = 0xc7 then .shortJump
  else if op = 0xc8 ∨ op = 0xc9 then .longJump
  else .noArgs

/-- The names in `OPCODE_TABLE`, java.py:521-716, from 0 to 0xca. -/
def opNames : List String :=
  ["nop", "aconst_null", "iconst_m1", "iconst_0", "iconst_1", "iconst_2", "iconst_3", "iconst_4", "iconst_5",
   "lconst_0", "lconst_1", "fconst_0", "fconst_1", "fconst_2", "dconst_0", "dconst_1", "bipush", "sipush", "ldc",
   "ldc_w", "ldc2_w", "iload", "lload", "fload", "dload", "aload", "iload_0", "iload_1", "iload_2", "iload_3",
   "lload_0", "lload_1", "lload_2", "lload_3", "fload_0", "fload_1", "fload_2", "fload_3", "dload_0", "dload_1",
   "dload_2", "dload_3", "aload_0", "aload_1", "aload_2", "aload_3", "iaload", "laload", "faload", "daload",
   "aaload", "baload", "caload", "saload", "istore", "lstore", "fstore", "dstore", "astore", "istore_0", "istore_1",
   "istore_2", "istore_3", "lstore_0", "lstore_1", "lstore_2", "lstore_3", "fstore_0", "fstore_1", "fstore_2",
   "fstore_3", "dstore_0", "dstore_1", "dstore_2", "dstore_3", "astore_0", "astore_1", "astore_2", "astore_3",
   "iastore", "lastore", "fastore", "dastore", "aastore", "bastore", "castore", "sastore", "pop", "pop2", "dup",
   "dup_x1", "dup_x2", "dup2", "dup2_x1", "dup2_x2", "swap", "iadd", "ladd", "fadd", "dadd", "isub", "lsub", "fsub",
   "dsub", "imul", "lmul", "fmul", "dmul", "idiv", "ldiv", "fdiv", "ddiv", "irem", "lrem", "frem", "drem", "ineg",
   "lneg", "fneg", "dneg", "ishl", "lshl", "ishr", "lshr", "iushr", "lushr", "iand", "land", "ior", "lor", "ixor",
   "lxor", "iinc", "i2l", "i2f", "i2d", "l2i", "l2f", "l2d", "f2i", "f2l", "f2d", "d2i", "d2l", "d2f", "i2b", "i2c",
   "i2s", "lcmp", "fcmpl", "fcmpg", "dcmpl", "dcmpg", "ifeq", "ifne", "iflt", "ifge", "ifgt", "ifle", "if_icmpeq",
   "if_icmpne", "if_icmplt", "if_icmpge", "if_icmpgt", "if_icmple", "if_acmpeq", "if_acmpne", "goto", "jsr", "ret",
   "tableswitch", "lookupswitch", "ireturn", "lreturn", "freturn", "dreturn", "areturn", "return", "getstatic",
   "putstatic", "getfield", "putfield", "invokevirtual", "invokespecial", "invokestatic", "invokeinterface",
   "invokedynamic", "new", "newarray", "anewarray", "arraylength", "athrow", "checkcast", "instanceof",
   "monitorenter", "monitorexit", "wide", "multianewarray", "ifnull", "ifnonnull", "goto_w", "jsr_w", "breakpoint"]

/-- `op`, java.py:523-733. -/
def opName (op : Nat) : String :=
  match opNames[op]? with
  | some name => name
  | none => if op = 0xfe then "impdep1" else if op = 0xff then "impdep2" else "<reserved_opcode>"

/-- The operands of opcodes of a fixed size, java.py:309-478. -/
def opFields : OpClass → List (Bool × Nat)
  | .noArgs => []
  | .cpIndex => [(false, 16)]
  | .cpIndexShort => [(false, 8)]
  | .index => [(false, 8)]
  | .shortJump => [(true, 16)]
  | .longJump => [(true, 32)]
  | .bipush => [(true, 8)]
  | .sipush => [(true, 16)]
  | .iinc => [(false, 8), (true, 8)]
  | .invokeInterface => [(false, 16), (false, 8), (false, 8)]
  | .invokeDynamic => [(false, 16), (false, 8), (false, 8)]
  | .newArray => [(false, 8)]
  | .multiANewArray => [(false, 16), (false, 8)]
  | _ => []

/-- An instruction. -/
structure Instr where
  name : String
  args : List Int
deriving Repr, DecidableEq

/-- `OpcodeSpecial_wide.createFields`, java.py:406-419, behind the opcode. -/
def readWide (s : InputStream) (addr : Int) : Except PyErr (List Int × Nat) :=
  match readFields s .big addr [(false, 8), (false, 16)] with
  | .error x => .error x
  | .ok args =>
    if args.head? = some 0x84 then
      match readFields s .big (addr + 24) [(true, 16)] with
      | .error x => .error x
      | .ok value => .ok (args ++ value, 40)
    else .ok (args, 24)

/-- `OpcodeSpecial_tableswitch.createFields`, java.py:481-494, behind the padding. -/
def readTable (s : InputStream) (addr : Int) : Except PyErr (List Int × Nat) :=
  match readFields s .big addr [(true, 32), (true, 32), (true, 32)] with
  | .error x => .error x
  | .ok args =>
    match args with
    | [d, low, high] =>
      match readFields s .big (addr + 96) (List.replicate (high - low + 1).toNat (true, 32)) with
      | .error x => .error x
      | .ok offsets => .ok (d :: low :: high :: offsets, 96 + 32 * (high - low + 1).toNat)
    | _ => .error .value

/-- `OpcodeSpecial_lookupswitch.createFields`, java.py:502-514, behind the padding. -/
def readLookup (s : InputStream) (addr : Int) : Except PyErr (List Int × Nat) :=
  match readFields s .big addr [(true, 32), (true, 32)] with
  | .error x => .error x
  | .ok args =>
    match args with
    | [d, n] =>
      match readFields s .big (addr + 64) (List.replicate (2 * n.toNat) (true, 32)) with
      | .error x => .error x
      | .ok pairs => .ok (d :: n :: pairs, 64 + 64 * n.toNat)
    | _ => .error .value

/-- The instruction at a position of the code that begins at `base`, and its size. -/
def readInstr (s : InputStream) (base pos : Nat) : Except PyErr (Instr × Nat) :=
  match readBits s (base + pos : Nat) 8 .big with
  | .error x => .error x
  | .ok op =>
    match opClass op with
    | .wide =>
      match readWide s (base + pos + 8 : Nat) with
      | .error x => .error x
      | .ok (args, size) => .ok (⟨opName op, args⟩, 8 + size)
    | .tableSwitch =>
      match Tools.paddingSize (pos + 8 : Nat) 32 with
      | .error x => .error x
      | .ok pad =>
        match readTable s ((base + pos + 8 : Nat) + pad) with
        | .error x => .error x
        | .ok (args, size) => .ok (⟨opName op, args⟩, 8 + pad.toNat + size)
    | .lookupSwitch =>
      match Tools.paddingSize (pos + 8 : Nat) 32 with
      | .error x => .error x
      | .ok pad =>
        match readLookup s ((base + pos + 8 : Nat) + pad) with
        | .error x => .error x
        | .ok (args, size) => .ok (⟨opName op, args⟩, 8 + pad.toNat + size)
    | c =>
      match readFields s .big (base + pos + 8 : Nat) (opFields c) with
      | .error x => .error x
      | .ok args => .ok (⟨opName op, args⟩, 8 + fieldsSize (opFields c))

/-- `JavaBytecode.createFields`, java.py:728-734, with a bound of the steps: the instructions with
their addresses in the code. -/
def readCode (s : InputStream) (base size : Nat) : Nat → Nat → Except PyErr (List (Nat × Instr))
  | 0, pos => if pos < size then .error .endless else .ok []
  | n + 1, pos =>
    if pos < size then
      match readInstr s base pos with
      | .error x => .error x
      | .ok (i, w) =>
        match readCode s base size n (pos + w) with
        | .error x => .error x
        | .ok l => .ok ((pos, i) :: l)
    else .ok []

end Hachoir.Formats.Java
