import Verif.Formats.Pifv

/-!
# Models of Renderdroid (`parser/misc/file_3do.py`)

All numbers have 4 bytes; floats and numbers with a sign are told as the numbers of their bits. Descriptions are left out, and texts are told with the null characters that `strip` takes away.
-/

namespace Hachoir.Formats.Model3do
open Hachoir Hachoir.Stream Hachoir.Field Hachoir.Formats

/-- Numbers of 4 bytes one after another: `UInt32`, `Float32` and `Vertex`, `MapUV` of /repo/hachoir/parser/misc/common.py:4-15. -/
def words (e : Endian) (n : Nat) : Rd (List Nat) := Rd.times (Rd.int 4 e) n

/-- `Vector` of items of so many words, file_3do.py:32-34. -/
def items (e : Endian) (width n : Nat) : Rd (List (List Nat)) := Rd.times (words e width) n

/-- `String(self, …, 32)`, file_3do.py:72, 134, 184, 214. -/
def text32 (e : Endian) : Rd Bytes := Rd.text e .fixed .eightBit (some 32)

/-- `Face`, file_3do.py:37-60: the first 19 numbers, the indices, the material. -/
structure Face where
  head : List Nat
  vertices : List Nat
  textures : List Nat
  material : Option Nat
  deriving DecidableEq, Repr

/-- The indices of textures, file_3do.py:56-58; an empty `Vector` is refused (/repo/hachoir/field/generic_field_set.py:185-191), which is told as an error; the face then takes the rest of the file (lines 205-213). -/
def textures (e : Endian) (has n : Nat) : Rd (List Nat) :=
  if has = 0 then Rd.pure [] else if n = 0 then Rd.fail .parser else words e n

/-- file_3do.py:59-60. -/
def material (e : Endian) (has : Nat) : Rd (Option Nat) :=
  if has = 0 then Rd.pure none else Rd.bind (Rd.int 4 e) fun m => Rd.pure (some m)

/-- `Face.createFields`, file_3do.py:39-60; without vertices `vertex_indices` is left out (line 53). -/
def face (e : Endian) : Rd Face :=
  Rd.bind (words e 19) fun h => Rd.bind (words e (h.getD 5 0)) fun vs => Rd.bind (textures e (h.getD 7 0) (h.getD 5 0)) fun ts =>
    Rd.bind (material e (h.getD 8 0)) fun m => Rd.pure ⟨h, vs, ts, m⟩

/-- `Mesh`, file_3do.py:66-103. -/
structure Mesh where
  name : Bytes
  head : List Nat
  vertices : List (List Nat)
  maps : List (List Nat)
  lights : List Nat
  unknown : List Nat
  faces : List Face
  normals : List (List Nat)
  tail : List Nat
  deriving DecidableEq, Repr

/-- `Mesh.createFields`, file_3do.py:71-103; what has no items is left out (lines 82, 85, 88, 93, 95). -/
def mesh (e : Endian) : Rd Mesh :=
  Rd.bind (text32 e) fun name => Rd.bind (words e 7) fun h => Rd.bind (items e 3 (h.getD 4 0)) fun vs => Rd.bind (items e 2 (h.getD 5 0)) fun ms =>
    Rd.bind (words e (h.getD 4 0)) fun ls => Rd.bind (words e (h.getD 4 0)) fun us => Rd.bind (Rd.times (face e) (h.getD 6 0)) fun fs =>
      Rd.bind (items e 3 (h.getD 4 0)) fun ns => Rd.bind (words e 9) fun t => Rd.pure ⟨name, h, vs, ms, ls, us, fs, ns, t⟩

/-- `Geoset`, file_3do.py:109-114, `Nodes`, file_3do.py:163-168, and the list of lines 216-218. -/
def counted {α : Type} (e : Endian) (r : Rd α) : Rd (List α) := Rd.bind (Rd.int 4 e) fun n => Rd.times r n

/-- `PaddingBytes.__init__`, /repo/hachoir/field/padding.py:66-72: the pattern has to be bytes (line 69), or there is none. -/
def padding (patternIsText : Bool) (n : Nat) : Rd Bytes := if patternIsText then Rd.fail .assertion else Rd.raw n

/-- `Node`, file_3do.py:120-157: `__init__` asks for `parent_offset`, so that the name and the padding with the pattern `"\xCC"`, a text, are made at once (lines 134-135). What comes after is left out, for the assertion ends it. -/
def node (e : Endian) : Rd (Bytes × Bytes) :=
  Rd.bind (text32 e) fun name => Rd.bind (padding true 32) fun pad => Rd.pure (name, pad)

/-- `Materials`, file_3do.py:174-184: the size is told. -/
def materials (e : Endian) : Rd (List Bytes) :=
  Rd.bind (Rd.int 4 e) fun n => Rd.within (n * 32) (Rd.times (text32 e) n)

/-- What comes after the second unknown bytes: everything told, or only bytes in one raw field. -/
inductive Ending where
  | told (nodes : List (Bytes × Bytes)) (numbers : List Nat) (rest : Bytes)
  | cut (raw : Bytes)
  deriving DecidableEq, Repr

/-- file_3do.py:220-226. -/
def lastFields (e : Endian) : Rd Ending :=
  Rd.bind (counted e (node e)) fun ns => Rd.bind (words e 4) fun t => Rd.bind Pifv.content fun r => Rd.pure (.told ns t r)

/-- An error in `nodes`, whose size is not known, goes on to the file, whose rest becomes one raw field (/repo/hachoir/field/generic_field_set.py:169-184, 267-319). Left out: when only the four numbers after the nodes are missing, those that can be read stay, and when the file ends with the count of nodes, the count stays. -/
def ending (e : Endian) : Rd Ending := fun s stop addr =>
  match lastFields e s stop addr with
  | .ok r => .ok r
  | .error _ => Rd.bind Pifv.content (fun r => Rd.pure (.cut r)) s stop addr

/-- What is read of a file. -/
structure Model where
  sign : Bytes
  materials : List Bytes
  name : Bytes
  unknown1 : Bytes
  geosets : List (List Mesh)
  unknown2 : Bytes
  ending : Ending
  deriving DecidableEq, Repr

/-- file_3do.py:209-210. -/
def endianOf (sign : Bytes) : Endian := if sign = [0x4D, 0x4F, 0x44, 0x4C] then .big else .little

/-- `File3do.createFields`, file_3do.py:206-226. Errors before the nodes are left as they are. -/
def model : Rd Model :=
  Rd.bind (Rd.text .little .fixed .eightBit (some 4)) fun sign => Rd.bind (materials (endianOf sign)) fun ms => Rd.bind (text32 (endianOf sign)) fun name =>
    Rd.bind (Rd.raw 4) fun u => Rd.bind (counted (endianOf sign) (counted (endianOf sign) (mesh (endianOf sign)))) fun gs => Rd.bind (Rd.raw 4) fun v =>
      Rd.bind (ending (endianOf sign)) fun t => Rd.pure ⟨sign, ms, name, u, gs, v, t⟩

end Hachoir.Formats.Model3do
