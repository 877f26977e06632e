import Verif.Formats.Pifv

/-!
# Windows metafiles (`parser/image/wmf.py`)

Names of functions and descriptions are left out, `validate` too, and records that are too small for the fields of their function.
-/

namespace Hachoir.Formats.Wmf
open Hachoir Hachoir.Stream Hachoir.Field Hachoir.Formats

/-- A number of so many bytes, and whether it has a sign. -/
structure Num where
  width : Nat
  sign : Bool
  deriving DecidableEq, Repr

def u (n : Nat) : Num := ⟨n, false⟩
def i (n : Nat) : Num := ⟨n, true⟩

def number (x : Num) : Rd Int :=
  if x.sign then Rd.signed x.width .little else Rd.bind (Rd.int x.width .little) fun v => Rd.pure (v : Int)

def numbers : List Num → Rd (List Int) := Rd.each number

/-- The parameters of a function: numbers, and what is repeated as often as the last of them tells. -/
structure Layout where
  front : List Num
  again : List Num
  deriving DecidableEq, Repr

/-- `RGBA`, /repo/hachoir/parser/image/common.py:27-34. -/
def rgba : List Num := [u 1, u 1, u 1, u 1]

/-- The parsers of `META`, wmf.py:84-128 and 131-195. -/
def layout : Nat → Option Layout
  | 0x0104 => some ⟨[u 2], []⟩
  | 0x0106 => some ⟨[u 2], []⟩
  | 0x012D => some ⟨[u 2], []⟩
  | 0x01F0 => some ⟨[u 2], []⟩
  | 0x020B => some ⟨[i 2, i 2], []⟩
  | 0x020C => some ⟨[i 2, i 2], []⟩
  | 0x02FA => some ⟨[u 2, u 2, u 2] ++ rgba, []⟩
  | 0x02FC => some ⟨[u 2] ++ rgba ++ [u 2], []⟩
  | 0x0324 => some ⟨[u 2], [i 2, i 2]⟩
  | _ => none

/-- `parsePoint16array`, wmf.py:249-253 with `Point16` and `RECT32`. -/
def points : Layout := ⟨[i 4, i 4, i 4, i 4, u 4], [i 2, i 2]⟩

/-- The parsers of `EMF_META`, wmf.py:218-281 and 283-387; the bytes of a comment (lines 256-260) as so many numbers. -/
def layoutEmf : Nat → Option Layout
  | 9 => some ⟨[i 4, i 4], []⟩
  | 10 => some ⟨[i 4, i 4], []⟩
  | 11 => some ⟨[i 4, i 4], []⟩
  | 12 => some ⟨[i 4, i 4], []⟩
  | 17 => some ⟨[i 4], []⟩
  | 27 => some ⟨[i 4, i 4], []⟩
  | 37 => some ⟨[u 4], []⟩
  | 39 => some ⟨[u 4, u 4] ++ rgba ++ [i 4], []⟩
  | 40 => some ⟨[u 4], []⟩
  | 54 => some ⟨[i 4, i 4], []⟩
  | 70 => some ⟨[u 4], [u 1]⟩
  | 86 => some points
  | 87 => some points
  | 88 => some points
  | 89 => some points
  | 91 => some points
  | 95 => some ⟨[u 4, u 4, u 4, u 4, u 4, u 4, u 4, u 4] ++ rgba ++ [u 4, u 4], [u 4]⟩
  | 98 => some ⟨[u 4], []⟩
  | _ => none

/-- A function with its parameters, and the bytes behind them. -/
structure Func where
  function : Nat
  front : List Int
  again : List (List Int)
  rest : Bytes
  deriving DecidableEq, Repr

/-- Whether something is repeated. -/
def roundsOf (l : Layout) (ns : List Int) : Nat := if l.again = [] then 0 else (ns.getLastD 0).toNat

/-- The parameters, wmf.py:416-421. Behind the fields of a parser the rest of the record is filled with bytes, since its size is known (/repo/hachoir/field/generic_field_set.py:267-296). -/
def params (fn : Nat) : Option Layout → Rd Func
  | none => Rd.bind Pifv.content fun b => Rd.pure ⟨fn, [], [], b⟩
  | some l => Rd.bind (numbers l.front) fun ns => Rd.bind (Rd.times (numbers l.again) (roundsOf l ns)) fun ms =>
      Rd.bind Pifv.content fun b => Rd.pure ⟨fn, ns, ms, b⟩

/-- `Function` of a WMF file, wmf.py:394-399, 410-421: the size is told in words of 2 bytes. -/
def func : Rd Func :=
  Rd.bind (Rd.int 4 .little) fun size => Rd.bind (Rd.int 2 .little) fun fn =>
    if 2 * size < 6 then Rd.fail .parser else Rd.within (2 * size - 6) (params fn (layout fn))

/-- `Function` of an EMF file, wmf.py:394-397, 402-409, 416-421: the size is told in bytes. -/
def funcEmf : Rd Func :=
  Rd.bind (Rd.int 4 .little) fun fn => Rd.bind (Rd.int 4 .little) fun size =>
    if size < 8 then Rd.fail .parser else Rd.within (size - 8) (params fn (layoutEmf fn))

/-- The fields of `EMF_Header`, wmf.py:486-504. -/
def emfFields : List Num :=
  [u 4, u 4] ++ [i 4, i 4, i 4, i 4] ++ [i 4, i 4, i 4, i 4] ++ [u 4, u 2, u 2, u 4, u 4, u 2, u 2, u 4, u 4, u 4] ++ [i 4, i 4, i 4, i 4]

/-- The description, wmf.py:507-511, at `current`; its text is told as bytes, with the characters stripped. -/
def description (ns : List Int) (current : Nat) : Rd (Option Bytes) :=
  let size := 2 * (ns.getD 17 0).toNat
  if ns.getD 18 0 = current ∧ size ≠ 0 then Rd.bind (Rd.text .little .fixed .utf16le (some size)) fun b => Rd.pure (some b)
  else Rd.pure none

structure EmfHeader where
  numbers : List Int
  description : Option Bytes
  padding : Bytes
  deriving DecidableEq, Repr

/-- `EMF_Header`, wmf.py:478-516, which begins the file; its fields take 88 bytes. -/
def emfHeader : Rd EmfHeader :=
  Rd.bind (numbers emfFields) fun ns =>
    if (ns.getD 1 0).toNat < 88 then Rd.fail .parser
    else Rd.within ((ns.getD 1 0).toNat - 88) (Rd.bind (description ns 88) fun d => Rd.bind Pifv.content fun p => Rd.pure ⟨ns, d, p⟩)

/-- `PlaceableHeader`, wmf.py:469-475. -/
def placeable : List Num := [u 4, u 2, i 2, i 2, i 2, i 2, u 2, u 4, u 2]

/-- The header of a WMF file, wmf.py:591-598. -/
def plain : List Num := [u 2, u 2, u 1, u 1, u 4, u 2, u 4, u 2]

/-- `WMF_File.createFields`, wmf.py:585-601, of an EMF file; `n` bounds the rounds. -/
def emf (n : Nat) : Rd (EmfHeader × List Func) :=
  Rd.bind emfHeader fun h => Rd.bind (Rd.whileNotEof funcEmf n) fun fs => Rd.pure (h, fs)

/-- Of other files, with the header of line 590 if `apm`. -/
def wmf (apm : Bool) (n : Nat) : Rd (List Int × List Int × List Func) :=
  Rd.bind (numbers (if apm then placeable else [])) fun a => Rd.bind (numbers plain) fun h => Rd.bind (Rd.whileNotEof func n) fun fs => Rd.pure (a, h, fs)

/-- `createContentSize`, wmf.py:634-640, for a first function at `start`. -/
def contentSize (isEmf : Bool) (s : InputStream) (start : Nat) : Except PyErr (Option Int) :=
  if isEmf then .ok none
  else
    match searchBytes s [3, 0, 0, 0, 0, 0] start (some (50 * 1024 * 1024 * 8)) with
    | .error e => .error e
    | .ok none => .ok none
    | .ok (some pos) => .ok (some (pos + 6 * 8))

end Hachoir.Formats.Wmf
