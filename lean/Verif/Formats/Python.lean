import Verif.Formats.Reader

/-!
# Compiled Python modules (`parser/program/python.py`)
-/

namespace Hachoir.Formats.Python
open Hachoir Hachoir.Stream Hachoir.Field Hachoir.Formats

/-- `MAGIC`, python.py:412-669: magic number and version (`VERSION`, 392-395, is worked out). -/
def magics : List (Nat × Nat) := [
  (20121, 0x1050000), (50428, 0x1060000), (50823, 0x2000000), (60202, 0x2010000), (60717, 0x2020000), (62011, 0x2030000), (62021, 0x2030000),
  (62041, 0x2040000), (62051, 0x2040000), (62061, 0x2040000), (62071, 0x2050000), (62081, 0x2050000), (62091, 0x2050000), (62092, 0x2050000),
  (62101, 0x2050000), (62111, 0x2050000), (62121, 0x2050000), (62131, 0x2050000), (62151, 0x2070000), (62161, 0x2070000), (62171, 0x2070000),
  (62181, 0x2070000), (62191, 0x2070000), (62201, 0x2070000), (62211, 0x2070000), (3000, 0x3000000), (3010, 0x3000000), (3020, 0x3000000),
  (3030, 0x3000000), (3040, 0x3000000), (3050, 0x3000000), (3060, 0x3000000), (3061, 0x3000000), (3071, 0x3000000), (3081, 0x3000000),
  (3091, 0x3000000), (3101, 0x3000000), (3103, 0x3000000), (3111, 0x3000000), (3131, 0x3000000), (3141, 0x3010000), (3151, 0x3010000),
  (3160, 0x3020000), (3170, 0x3020000), (3180, 0x3020000), (3190, 0x3030000), (3200, 0x3030000), (3210, 0x3030000), (3220, 0x3030000),
  (3230, 0x3030000), (3250, 0x3040000), (3260, 0x3040000), (3270, 0x3040000), (3280, 0x3040000), (3290, 0x3040000), (3300, 0x3040000),
  (3310, 0x3040000), (3320, 0x3050000), (3330, 0x3050000), (3340, 0x3050000), (3350, 0x3050000), (3351, 0x3050000), (3360, 0x3060000),
  (3361, 0x3060000), (3370, 0x3060000), (3371, 0x3060000), (3372, 0x3060000), (3373, 0x3060000), (3375, 0x3060000), (3376, 0x3060000),
  (3377, 0x3060000), (3378, 0x3060000), (3379, 0x3060000), (3390, 0x30700A1), (3391, 0x30700A2), (3392, 0x30700A4), (3393, 0x30700B1),
  (3394, 0x30700B5), (3400, 0x30800F0), (3401, 0x30800F0), (3410, 0x30800F0), (3411, 0x30800F0), (3412, 0x30800F0), (3413, 0x30800F0),
  (3420, 0x30900F0), (3421, 0x30900F0), (3422, 0x30900F0), (3423, 0x30900F0), (3424, 0x30900F0), (3425, 0x30900F0), (3430, 0x30A00F0),
  (3431, 0x30A00F0), (3432, 0x30A00F0), (3433, 0x30A00F0), (3434, 0x30A00F0), (3435, 0x30A00F0), (3436, 0x30A00F0), (3437, 0x30A00F0),
  (3438, 0x30A00F0), (3439, 0x30A00F0), (3450, 0x30B00F0), (3451, 0x30B00F0), (3452, 0x30B00F0), (3453, 0x30B00F0), (3454, 0x30B00F0),
  (3455, 0x30B00F0), (3456, 0x30B00F0), (3457, 0x30B00F0), (3458, 0x30B00F0), (3459, 0x30B00F0), (3460, 0x30B00F0), (3461, 0x30B00F0),
  (3462, 0x30B00F0), (3463, 0x30B00F0), (3464, 0x30B00F0), (3465, 0x30B00F0), (3466, 0x30B00F0), (3467, 0x30B00F0), (3468, 0x30B00F0),
  (3469, 0x30B00F0), (3470, 0x30B00F0), (3471, 0x30B00F0), (3472, 0x30B00F0), (3473, 0x30B00F0), (3474, 0x30B00F0), (3475, 0x30B00F0),
  (3476, 0x30B00F0), (3477, 0x30B00F0), (3478, 0x30B00F0), (3479, 0x30B00F0), (3480, 0x30B00F0), (3481, 0x30B00F0), (3482, 0x30B00F0),
  (3483, 0x30B00F0), (3484, 0x30B00F0), (3485, 0x30B00F0), (3486, 0x30B00F0), (3487, 0x30B00F0), (3488, 0x30B00F0), (3489, 0x30B00F0),
  (3490, 0x30B00F0), (3491, 0x30B00F0), (3492, 0x30B00F0), (3493, 0x30B00F0), (3494, 0x30B00F0), (3500, 0x30C00F0), (3501, 0x30C00F0),
  (3502, 0x30C00F0), (3503, 0x30C00F0), (3504, 0x30C00F0), (3505, 0x30C00F0), (3506, 0x30C00F0), (3507, 0x30C00F0), (3508, 0x30C00F0),
  (3509, 0x30C00F0), (3510, 0x30C00F0), (3511, 0x30C00F0), (3512, 0x30C00F0), (3513, 0x30C00F0), (3514, 0x30C00F0), (3515, 0x30C00F0),
  (3516, 0x30C00F0), (3517, 0x30C00F0), (3518, 0x30C00F0), (3519, 0x30C00F0), (3520, 0x30C00F0), (3521, 0x30C00F0), (3522, 0x30C00F0),
  (3523, 0x30C00F0), (3524, 0x30C00F0), (3525, 0x30C00F0), (3526, 0x30C00F0), (3527, 0x30C00F0), (3528, 0x30C00F0), (3529, 0x30C00F0),
  (3530, 0x30C00F0), (3531, 0x30C00F0), (3550, 0x30D00F0), (3551, 0x30D00F0), (3552, 0x30D00F0), (3553, 0x30D00F0), (3554, 0x30D00F0),
  (3555, 0x30D00F0), (3556, 0x30D00F0), (3557, 0x30D00F0), (3558, 0x30D00F0), (3559, 0x30D00F0), (3560, 0x30D00F0), (3561, 0x30D00F0),
  (3562, 0x30D00F0), (3563, 0x30D00F0), (3564, 0x30D00F0), (3565, 0x30D00F0), (3566, 0x30D00F0), (3567, 0x30D00F0), (3568, 0x30D00F0),
  (3569, 0x30D00F0), (3570, 0x30D00F0), (3571, 0x30D00F0), (3600, 0x30E00F0), (3601, 0x30E00F0), (3602, 0x30E00F0), (3603, 0x30E00F0),
  (3604, 0x30E00F0), (3605, 0x30E00F0), (3606, 0x30E00F0), (3607, 0x30E00F0), (3608, 0x30E00F0), (3609, 0x30E00F0), (3610, 0x30E00F0),
  (3611, 0x30E00F0), (3612, 0x30E00F0), (3613, 0x30E00F0), (3614, 0x30E00F0), (3615, 0x30E00F0), (3616, 0x30E00F0), (3617, 0x30E00F0),
  (3618, 0x30E00F0), (3619, 0x30E00F0), (3620, 0x30E00F0), (3621, 0x30E00F0), (3622, 0x30E00F0), (3623, 0x30E00F0), (3624, 0x30E00F0),
  (3625, 0x30E00F0), (3626, 0x30E00F0), (3627, 0x30E00F0), (3650, 0x30F00F0), (3651, 0x30F00F0), (3652, 0x30F00F0), (3653, 0x30F00F0),
  (3654, 0x30F00F0), (3655, 0x30F00F0), (3656, 0x30F00F0), (3657, 0x30F00F0), (3658, 0x30F00F0), (3659, 0x30F00F0), (3660, 0x30F00F0),
  (3661, 0x30F00F0)]

/-- `getVersion`, python.py:689-693. -/
def versionOf (magic : Nat) : Option Nat := magics.lookup magic

/-- An object: its character is `code`, `flag` is `flag_ref` (python.py:365-374). -/
inductive PyObj
  /-- `0 N F T S . ?`: no data, python.py:294-300. -/
  | atom (code : Nat) (flag : Bool)
  /-- `i` and `I`, python.py:80-85. -/
  | num (code : Nat) (flag : Bool) (v : Int)
  /-- `f`, python.py:111-112. -/
  | float (flag : Bool) (v : Bytes)
  /-- `g`, python.py:119-120: the bits. -/
  | double (flag : Bool) (v : Nat)
  /-- `x`, python.py:123-125. -/
  | complex (flag : Bool) (re im : Bytes)
  /-- `y`, python.py:128-130: the bits. -/
  | doubles (flag : Bool) (re im : Nat)
  /-- `l`, python.py:92-95. -/
  | long (flag : Bool) (count : Int) (digits : List Nat)
  /-- `s t u a A z Z`, python.py:36-54, 218-229. -/
  | text (code : Nat) (flag : Bool) (v : Bytes)
  /-- `R`, python.py:63-64. -/
  | textRef (flag : Bool) (n : Nat)
  /-- `r`, python.py:198-199. -/
  | ref (flag : Bool) (n : Nat)
  /-- `( ) [ < >`, python.py:140-155. -/
  | seq (code : Nat) (flag : Bool) (items : List PyObj)
  /-- Braces, python.py:171-183: key, value, key, value, …, the last key. -/
  | dict (code : Nat) (flag : Bool) (items : List PyObj)
  /-- `:`, python.py:232-235. -/
  | slice (flag : Bool) (start stop step : PyObj)
  /-- `c`, python.py:240-288: the numbers, the objects before the line number, the line number, the objects behind. -/
  | code (flag : Bool) (nums : List Nat) (objs : List PyObj) (line : Nat) (last : List PyObj)

def PyObj.char : PyObj → Nat
  | .atom c _ => c
  | .num c _ _ => c
  | .float _ _ => 102
  | .double _ _ => 103
  | .complex _ _ _ => 120
  | .doubles _ _ _ => 121
  | .long _ _ _ => 108
  | .text c _ _ => c
  | .textRef _ _ => 82
  | .ref _ _ => 114
  | .seq c _ _ => c
  | .dict c _ _ => c
  | .slice _ _ _ _ => 58
  | .code _ _ _ _ _ => 99

def PyObj.flag : PyObj → Bool
  | .atom _ f => f
  | .num _ f _ => f
  | .float f _ => f
  | .double f _ => f
  | .complex f _ _ => f
  | .doubles f _ _ => f
  | .long f _ _ => f
  | .text _ f _ => f
  | .textRef f _ => f
  | .ref f _ => f
  | .seq _ f _ => f
  | .dict _ f _ => f
  | .slice f _ _ _ => f
  | .code f _ _ _ _ => f

/-- The numbers of code in this version: names and bytes, python.py:242-260. -/
def codeNumbers (version : Nat) : List (String × Nat) :=
  if 0x3000000 ≤ version then
    [("arg_count", 4)] ++ (if 0x3080000 ≤ version then [("posonlyargcount", 4)] else []) ++ [("kwonlyargcount", 4)] ++
      (if version < 0x30B0000 then [("nb_locals", 4)] else []) ++ [("stack_size", 4), ("flags", 4)]
  else if 0x2030000 ≤ version then [("arg_count", 4), ("nb_locals", 4), ("stack_size", 4), ("flags", 4)]
  else [("arg_count", 2), ("nb_locals", 2), ("stack_size", 2), ("flags", 2)]

/-- The objects of code before the line number, python.py:262-277. -/
def codeObjects (version : Nat) : List String :=
  ["compiled_code", "consts", "names"] ++
    (if 0x30B0000 ≤ version then ["co_localsplusnames", "co_localspluskinds"]
     else ["varnames"] ++ (if 0x2000000 ≤ version then ["freevars", "cellvars"] else [])) ++
    ["filename", "name"] ++ (if 0x30B0000 ≤ version then ["qualname"] else [])

/-- The bytes of the line number, python.py:279-282. -/
def lineBytes (version : Nat) : Nat := if 0x2030000 ≤ version then 4 else 2

/-- The objects behind the line number, python.py:283-288. -/
def codeLast (version : Nat) : List String :=
  if 0x30A0000 ≤ version then ["linetable"] ++ (if 0x30B0000 ≤ version then ["exceptiontable"] else []) else ["lnotab"]

/-- `bytecode` and `flag_ref`, python.py:366-367. -/
def head : Rd (Nat × Bool) := do
  let bits ← Rd.bits .little [7, 1]
  pure (bits.getD 0 0, bits.getD 1 0 != 0)

/-- `parseString`, python.py:36-54; `lnotab`: this is the name of the field. -/
def string (lnotab : Bool) : Rd Bytes := do
  let n ← Rd.int 4 .little
  if lnotab then do
    let pairs ← Rd.times (do
      let a ← Rd.int 1 .little
      let b ← Rd.int 1 .little
      pure [UInt8.ofNat a, UInt8.ofNat b]) ((n + 1) / 2)
    pure pairs.flatten
  else if n = 0 then pure []
  else Rd.raw n

/-- `parseASCII` and `parseShortASCII`, python.py:218-229. -/
def ascii (width : Nat) : Rd Bytes := do
  let n ← Rd.int width .little
  if n = 0 then pure [] else Rd.text .little .fixed .eightBit (some n)

/-- The loop of `parseDict`, python.py:177-183. -/
def dictItems (object : Rd PyObj) : Nat → Rd (List PyObj)
  | 0 => Rd.fail .endless
  | fuel + 1 => do
    let k ← object
    if k.char = 48 then pure [k]
    else do
      let v ← object
      let is ← dictItems object fuel
      pure (k :: v :: is)

/-- `parseCode`, python.py:240-288; `object name` reads an object. -/
def codeFields (version : Nat) (flag : Bool) (object : Bool → Rd PyObj) : Rd PyObj := do
  let nums ← Rd.each (fun f => Rd.int f.2 .little) (codeNumbers version)
  let objs ← Rd.times (object false) (codeObjects version).length
  let line ← Rd.int (lineBytes version) .little
  let last ← Rd.each (fun name => object (name == "lnotab")) (codeLast version)
  pure (.code flag nums objs line last)

/-- The data behind the character, python.py:292-327, 372-374; `lnotab`: the name of the field. -/
def content (version : Nat) (object : Bool → Rd PyObj) (fuel : Nat) (lnotab : Bool) (code : Nat) (flag : Bool) : Rd PyObj :=
  if code = 48 ∨ code = 78 ∨ code = 70 ∨ code = 84 ∨ code = 83 ∨ code = 46 ∨ code = 63 then pure (.atom code flag)
  else if code = 105 then do
    let v ← Rd.signed 4 .little
    pure (.num code flag v)
  else if code = 73 then do
    let v ← Rd.signed 8 .little
    pure (.num code flag v)
  else if code = 102 then do
    let v ← Rd.text .little .pascal8 .eightBit none
    pure (.float flag v)
  else if code = 103 then do
    let v ← Rd.int 8 .little
    pure (.double flag v)
  else if code = 120 then do
    let re ← Rd.text .little .pascal8 .eightBit none
    let im ← Rd.text .little .pascal8 .eightBit none
    pure (.complex flag re im)
  else if code = 121 then do
    let re ← Rd.int 8 .little
    let im ← Rd.int 8 .little
    pure (.doubles flag re im)
  else if code = 108 then do
    let count ← Rd.signed 4 .little
    let digits ← Rd.times (Rd.int 2 .little) count.natAbs
    pure (.long flag count digits)
  else if code = 115 ∨ code = 116 ∨ code = 117 then do
    let v ← string lnotab
    pure (.text code flag v)
  else if code = 82 then do
    let n ← Rd.int 4 .little
    pure (.textRef flag n)
  else if code = 40 ∨ code = 91 ∨ code = 60 ∨ code = 62 then do
    let n ← Rd.int 4 .little
    let items ← Rd.times (object false) n
    pure (.seq code flag items)
  else if code = 41 then do
    let n ← Rd.int 1 .little
    let items ← Rd.times (object false) n
    pure (.seq code flag items)
  else if code = 123 ∨ code = 125 then do
    let items ← dictItems (object false) fuel
    pure (.dict code flag items)
  else if code = 99 then codeFields version flag object
  else if code = 114 then do
    let n ← Rd.int 4 .little
    pure (.ref flag n)
  else if code = 97 ∨ code = 65 then do
    let v ← ascii 4
    pure (.text code flag v)
  else if code = 122 ∨ code = 90 then do
    let v ← ascii 1
    pure (.text code flag v)
  else if code = 58 then do
    let a ← object false
    let b ← object false
    let c ← object false
    pure (.slice flag a b c)
  else Rd.fail .parser

/-- `Object`, python.py:329-374. -/
def object (version : Nat) : Nat → Bool → Rd PyObj
  | 0, _ => Rd.fail .endless
  | fuel + 1, lnotab => do
    let (code, flag) ← head
    content version (object version fuel) fuel lnotab code flag

/-! ## Values -/

/-- Values of objects.  A set or dict is the sequence of what it was made of. -/
inductive PyVal
  | none
  | bool (b : Bool)
  | ellipsis
  | int (v : Int)
  | float (v : Bytes)
  | double (v : Nat)
  | complex (re im : Bytes)
  | doubles (re im : Nat)
  | bytes (v : Bytes)
  | seq (code : Nat) (items : List PyVal)
  | dict (items : List (PyVal × PyVal))

/-- `createLongValue`, python.py:98-107. -/
def longValue (count : Int) (digits : List Nat) : Int :=
  let total : Nat := digits.reverse.foldl (fun t d => t * 2 ^ 15 + d) 0
  if count < 0 then -(total : Int) else total

mutual
/-- `object_table`, python.py:368-371: the objects whose flag is set, in the order of their fields. -/
def objectTable : PyObj → List PyObj
  | .seq c f items => (if f then [.seq c f items] else []) ++ objectTables items
  | .dict c f items => (if f then [.dict c f items] else []) ++ objectTables items
  | .slice f a b c => (if f then [.slice f a b c] else []) ++ (objectTable a ++ (objectTable b ++ objectTable c))
  | .code f nums objs line last => (if f then [.code f nums objs line last] else []) ++ (objectTables objs ++ objectTables last)
  | o => if o.flag then [o] else []

def objectTables : List PyObj → List PyObj
  | [] => []
  | o :: os => objectTable o ++ objectTables os
end

mutual
/-- `string_table`, python.py:338-341: the objects `t`, `A` and `Z`. -/
def stringTable : PyObj → List PyObj
  | .text c f v => if c = 116 ∨ c = 65 ∨ c = 90 then [.text c f v] else []
  | .seq _ _ items => stringTables items
  | .dict _ _ items => stringTables items
  | .slice _ a b c => stringTable a ++ (stringTable b ++ stringTable c)
  | .code _ _ objs _ last => stringTables objs ++ stringTables last
  | _ => []

def stringTables : List PyObj → List PyObj
  | [] => []
  | o :: os => stringTable o ++ stringTables os
end

/-- Keys and values, `zip(array("key"), array("value"))`, python.py:194-195. -/
def pairsOf {α : Type} : List α → List (α × α)
  | k :: v :: is => (k, v) :: pairsOf is
  | _ => []

/-- `value`, python.py:343-351, of an object that is not `lnotab`; an exception gives None (field/field.py:126-131).  `fuel` bounds the depth of
recursion. -/
def value (objects strings : List PyObj) : Nat → PyObj → Option PyVal
  | 0, _ => Option.none
  | fuel + 1, o => match o with
    | .atom c _ => some (if c = 70 then .bool false else if c = 84 then .bool true else if c = 46 then .ellipsis else .none)
    | .num _ _ v => some (.int v)
    | .float _ v => some (.float v)
    | .double _ v => some (.double v)
    | .complex _ re im => some (.complex re im)
    | .doubles _ re im => some (.doubles re im)
    | .long _ count digits => some (.int (longValue count digits))
    | .text _ _ v => some (if v = [] then .none else .bytes v)
    | .textRef _ n => match strings[n]? with
      | some o => value objects strings fuel o
      | Option.none => some .none
    | .ref _ n => match objects[n]? with
      | some o => value objects strings fuel o
      | Option.none => some .none
    | .seq c _ items => do
      let vs ← items.mapM (value objects strings fuel)
      pure (.seq c vs)
    | .dict _ _ items => do
      let vs ← items.mapM (value objects strings fuel)
      pure (.dict (pairsOf vs))
    | .slice _ _ _ _ => some .none
    | .code _ _ _ _ _ => some .none

/-! ## Files -/

structure PycHeader where
  magic : Nat
  crlf : Bytes
  /-- `use_hash`, `checked`, `reserved` -/
  flags : Option (List Nat)
  hash : Option Nat
  timestamp : Option Nat
  filesize : Option Nat
  deriving DecidableEq, Repr

def sourceSize (version magic : Nat) : Rd (Option Nat) :=
  if 0x3030000 ≤ version ∧ 3200 ≤ magic then do
    let n ← Rd.int 4 .little
    pure (some n)
  else pure Option.none

/-- The flags, python.py:701-708. -/
def pycFlags (version : Nat) : Rd (Option (List Nat)) :=
  if 0x30700A4 ≤ version then do
    let fs ← Rd.bits .little [1, 1, 30]
    pure (some fs)
  else pure Option.none

/-- `createFields`, python.py:695-717. -/
def header : Rd PycHeader := do
  let magic ← Rd.int 2 .little
  let crlf ← Rd.text .little .fixed .eightBit (some 2)
  match versionOf magic with
  | Option.none => Rd.fail .key
  | some version => do
    let flags ← pycFlags version
    if (flags.getD []).head? = some 1 then do
      let hash ← Rd.int 8 .little
      pure ⟨magic, crlf, flags, some hash, Option.none, Option.none⟩
    else do
      let timestamp ← Rd.int 4 .little
      let size ← sourceSize version magic
      pure ⟨magic, crlf, flags, Option.none, some timestamp, size⟩

def pyc (fuel : Nat) : Rd (PycHeader × PyObj) := do
  let h ← header
  match versionOf h.magic with
  | Option.none => Rd.fail .key
  | some version => do
    let o ← object version fuel false
    pure (h, o)

/-- `validate`, python.py:678-687, once the first fields were read. -/
def valid (h : PycHeader) (o : PyObj) : Bool := (versionOf h.magic).isSome && h.crlf == [13, 10] && o.char == 99

end Hachoir.Formats.Python
