import Verif.Formats.Asf

/-!
# ACE archives (`parser/archive/ace.py`)

Descriptions and names of enumerations are left out. The dates and the attributes of files are told as the numbers they are made from.
-/

namespace Hachoir.Formats.Ace
open Hachoir Hachoir.Stream Hachoir.Field Hachoir.Formats

/-- `MarkerFlags`, ace.py:63-75. -/
def markerFlags : Rd (List Nat) := Rd.bits .little [1, 1, 7, 1, 1, 1, 1, 1, 1, 1]

/-- `FileFlags`, ace.py:101-110. -/
def fileFlags : Rd (List Nat) := Rd.bits .little [1, 1, 10, 1, 1, 1, 1]

/-- `BaseFlags`, ace.py:187-191. -/
def baseFlags : Rd (List Nat) := Rd.bits .little [1, 15]

/-- Bytes that are left out when there are none of them, ace.py:96-98, 135-136, 141-142, 205-206, 251-252. -/
def rawOr (n : Nat) : Rd Bytes := if 0 < n then Rd.raw n else Rd.pure []

/-- A comment with its size, if the flag is set, ace.py:93-98, 133-136. -/
def commentOf (flag : Nat) : Rd (Option Bytes) :=
  if flag = 0 then Rd.pure none
  else Rd.bind (Rd.int 2 .little) fun n => Rd.bind (rawOr n) fun b => Rd.pure (some b)

/-- ace.py:91-92. -/
def avOf (flag : Nat) : Rd (Option Bytes) :=
  if flag = 0 then Rd.pure none
  else Rd.bind (Rd.text .little .pascal8 .eightBit none) fun b => Rd.pure (some b)

/-- `**ACE**` and the like: a text of 7 bytes, ace.py:83, 152, 180. -/
def signature : Rd Bytes := Rd.text .little .fixed .eightBit (some 7)

/-- What the blocks that can be read are made of. -/
inductive Kind where
  /-- ace.py:82-98; versions, system, volume, date; reserved bits. -/
  | header (flags : List Nat) (sign : Bytes) (ns : List Nat) (reserved : Nat) (av comment : Option Bytes)
  /-- ace.py:117-136; sizes, date, attributes, sum, type, mode, parameters, reserved bits. -/
  | file (flags ns : List Nat) (name : Bytes) (comment : Option Bytes)
  /-- ace.py:171-184. -/
  | newRecovery (flags : List Nat) (bodySize : Option Nat) (first : Nat) (sign : Bytes) (ns : List Nat)
  deriving DecidableEq, Repr

/-- `markerHeader` behind the flags, ace.py:82-98. -/
def markerHeader (flags : List Nat) : Rd Kind :=
  Rd.bind signature fun sign => Rd.bind (Asf.numbers [1, 1, 1, 1, 4]) fun ns => Rd.bind (Rd.int 8 .little) fun reserved =>
    Rd.bind (avOf (flags.getD 6 0)) fun av => Rd.bind (commentOf (flags.getD 1 0)) fun comment =>
      Rd.pure (.header flags sign ns reserved av comment)

/-- `fileHeader` behind the flags, ace.py:117-136. `/header/host_os` is looked up behind the first three numbers (line 121); both kinds of attributes take 4 bytes. -/
def fileHeader (headed : Bool) (flags : List Nat) : Rd Kind :=
  Rd.bind (Asf.numbers [4, 4, 4]) fun ns =>
    if headed then
      Rd.bind (Asf.numbers [4, 4, 1, 1, 2, 2]) fun ms => Rd.bind (Rd.text .little .pascal16 .eightBit none) fun name =>
        Rd.bind (commentOf (flags.getD 1 0)) fun comment => Rd.pure (.file flags (ns ++ ms) name comment)
    else Rd.fail .missingField

/-- The size of the body, if the flag is set, ace.py:175-177. -/
def bodySizeOf (flag : Nat) : Rd (Option Nat) :=
  if flag = 0 then Rd.pure none else Rd.bind (Rd.int 4 .little) fun n => Rd.pure (some n)

/-- `newRecoveryHeader` behind the flags, ace.py:171-184. -/
def newRecoveryHeader (flags : List Nat) : Rd Kind :=
  Rd.bind (bodySizeOf (flags.getD 0 0)) fun size => Rd.bind (Rd.int 4 .little) fun first => Rd.bind signature fun sign =>
    Rd.bind (Asf.numbers [4, 4]) fun ns => Rd.pure (.newRecovery flags size first sign ns)

/-- `recoveryHeader`, ace.py:149-164. -/
def recoveryHeader : Rd Unit :=
  Rd.bind (Rd.int 4 .little) fun _ => Rd.bind signature fun _ => Rd.bind (Asf.numbers [4, 4, 4, 2]) fun ns =>
    Rd.bind (Rd.times (Rd.raw (ns.getD 2 0)) (ns.getD 1 0)) fun _ => Rd.bind (Rd.raw (ns.getD 2 0)) fun _ => Rd.pure ()

/-- The blocks of `TAG_INFO`, ace.py:210-215, read in the order of lines 245-248. In place of the flags, old recovery blocks have their own fields (line 213), and `parseHeader` (lines 198-199) then
finds no field `flags`. For other types `parseFlags` has not been set when it is asked for (line 232). -/
def blockKind (headed : Bool) (type : Nat) : Rd Kind :=
  if type = 0 then Rd.bind markerFlags markerHeader
  else if type = 1 then Rd.bind fileFlags (fileHeader headed)
  else if type = 2 then Rd.bind recoveryHeader fun _ => Rd.fail .missingField
  else if type = 5 then Rd.bind baseFlags newRecoveryHeader
  else Rd.fail .attribute

/-- The size of the body: `fileBody`, ace.py:139-142, or `parseBody`, ace.py:204-206, with the size of line 177 or line 219. -/
def bodyOf : Kind → Nat
  | .header .. => 0
  | .file _ ns _ _ => ns.getD 0 0
  | .newRecovery _ size _ _ _ => size.getD 0

/-- `Block`, ace.py:209-255. -/
structure Block where
  crc : Nat
  headSize : Nat
  kind : Kind
  extra : Bytes
  body : Bytes
  deriving DecidableEq, Repr

/-- A reader, and how many bytes it took (`current_size // 8`, ace.py:250). -/
def measured {α : Type} (r : Rd α) : Rd (α × Nat) := fun s stop addr =>
  match r s stop addr with
  | .error e => .error e
  | .ok (a, behind) => .ok ((a, (behind - addr) / 8), behind)

/-- ace.py:240-248. -/
def blockHead (headed : Bool) : Rd (List Nat × Kind) :=
  Rd.bind (Asf.numbers [2, 2]) fun ns => Rd.bind (Rd.int 1 .little) fun type => Rd.bind (blockKind headed type) fun k => Rd.pure (ns, k)

/-- `Block.createFields`, ace.py:239-255. -/
def block (headed : Bool) : Rd Block :=
  Rd.bind (measured (blockHead headed)) fun x =>
    Rd.bind (rawOr (x.1.1.getD 1 0 + 4 - x.2)) fun extra => Rd.bind (rawOr (bodyOf x.1.2)) fun body =>
      Rd.pure ⟨x.1.1.getD 0 0, x.1.1.getD 1 0, x.1.2, extra, body⟩

def isHeader : Kind → Bool
  | .header .. => true
  | _ => false

/-- A block and the ones behind it. The size of the archive is known, so that a block that cannot be read ends the list of blocks (/repo/hachoir/field/generic_field_set.py:311-319): the error is
told beside the blocks before. That a block cut by the end of the file is kept in part (/repo/hachoir/field/generic_field_set.py:169-176) is left out. -/
def andMore (r : Rd Block) (next : Block → Rd (List Block × Option PyErr)) : Rd (List Block × Option PyErr) := fun s stop addr =>
  match r s stop addr with
  | .error e => .ok (([], some e), addr)
  | .ok (b, behind) =>
    match next b s stop behind with
    | .error e => .error e
    | .ok (r, behind) => .ok ((b :: r.1, r.2), behind)

/-- `AceFile.createFields`, ace.py:280-282. `headed`: whether there is a field `/header`; `n` bounds the number of rounds. -/
def blocks : Nat → Bool → Rd (List Block × Option PyErr)
  | 0, _ => Rd.fail .endless
  | n + 1, headed => Rd.bind Rd.eof fun e =>
    if e then Rd.pure ([], none) else andMore (block headed) fun b => blocks n (headed || isHeader b.kind)

def archive (n : Nat) : Rd (List Block × Option PyErr) := blocks n false

/-- `AceFile.validate`, ace.py:275-278. -/
def validate (s : InputStream) : Except PyErr Bool :=
  match readBytes s (7 * 8) 7 with
  | .error e => .error e
  | .ok b => .ok (b == [0x2A, 0x2A, 0x41, 0x43, 0x45, 0x2A, 0x2A])

end Hachoir.Formats.Ace
