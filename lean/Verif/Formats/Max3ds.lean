import Verif.Formats.Reader

/-!
# 3D Studio files (`parser/misc/file_3ds.py`)

Names and descriptions of chunks are left out; floats are told by their bits (see C87 for their values).
-/

namespace Hachoir.Formats.Max3ds
open Hachoir Hachoir.Stream Hachoir.Field Hachoir.Formats

/-- A chunk, file_3ds.py:68-162: type and content. -/
inductive Chunk where
  | empty (type : Nat)
  | group (type : Nat) (chunks : List Chunk)
  | object (name : Bytes) (chunks : List Chunk)
  | polygons (polygons : List (List Nat)) (chunks : List Chunk)
  | name (type : Nat) (name : Bytes)
  | color (rgb : List Nat)
  | version (n : Nat)
  | vertices (vertices : List (List Nat))
  | maps (maps : List (List Nat))
  | raw (type : Nat) (data : Bytes)
  deriving Repr

/-- `sub_chunks`, file_3ds.py:115-118. -/
def subChunks : List Nat := [0x4D4D, 0x4100, 0x3D3D, 0xAFFF, 0xA200, 0xB002, 0xB006, 0xB007, 0xA010, 0xA030, 0xA020, 0xB000]

/-- `while parent.current_size < size`, file_3ds.py:18-19, 64-65, 156-157; `fuel` bounds the rounds. -/
def chunksOf (r : Rd Chunk) (fuel : Nat) : Rd (List Chunk) := Rd.whileNotEof r fuel

/-- `readObject`, file_3ds.py:15-19. -/
def object (r : Rd Chunk) (fuel : Nat) : Rd Chunk := do
  let name ← Rd.text .little .c .eightBit none
  let chunks ← chunksOf r fuel
  pure (.object name chunks)

/-- `readPolygonList`, file_3ds.py:34-39, 58-65. -/
def polygons (r : Rd Chunk) (fuel : Nat) : Rd Chunk := do
  let count ← Rd.int 2 .little
  let ps ← Rd.times (Rd.times (Rd.int 2 .little) 4) count
  let chunks ← chunksOf r fuel
  pure (.polygons ps chunks)

/-- `readVertexList`, file_3ds.py:52-55, misc/common.py:4-5. -/
def vertices : Rd Chunk := do
  let count ← Rd.int 2 .little
  let vs ← Rd.times (Rd.times (Rd.int 4 .little) 3) count
  pure (.vertices vs)

/-- `readMapList`, file_3ds.py:42-45, misc/common.py:11-12. -/
def maps : Rd Chunk := do
  let count ← Rd.int 2 .little
  let vs ← Rd.times (Rd.times (Rd.int 4 .little) 2) count
  pure (.maps vs)

/-- `readTextureFilename`, `readMaterialName`, file_3ds.py:22-23, 30-31. -/
def name (type : Nat) : Rd Chunk := do
  let b ← Rd.text .little .c .eightBit none
  pure (.name type b)

/-- `readColor`, file_3ds.py:48-49. -/
def color : Rd Chunk := do
  let rgb ← Rd.times (Rd.int 1 .little) 3
  pure (.color rgb)

/-- `readVersion`, file_3ds.py:26-27. -/
def version : Rd Chunk := do
  let n ← Rd.int 4 .little
  pure (.version n)

def group (r : Rd Chunk) (fuel type : Nat) : Rd Chunk := do
  let chunks ← chunksOf r fuel
  pure (.group type chunks)

def raw (type size : Nat) : Rd Chunk := do
  let b ← Rd.raw size
  pure (.raw type b)

/-- The content of a chunk, file_3ds.py:154-162 with `handlers`, lines 121-130. -/
def content (r : Rd Chunk) (fuel type size : Nat) : Rd Chunk :=
  if type ∈ subChunks then group r fuel type
  else if type = 0xA000 ∨ type = 0xA300 then name type
  else if type = 0x4000 then object r fuel
  else if type = 0x0011 then color
  else if type = 0x0002 then version
  else if type = 0x4110 then vertices
  else if type = 0x4120 then polygons r fuel
  else if type = 0x4140 then maps
  else raw type size

/-- `Chunk`, file_3ds.py:146-162: its size is that told.  Sizes below 6, less than type and size take, are taken as an error. -/
def chunk : Nat → Rd Chunk
  | 0 => Rd.fail .endless
  | fuel + 1 => do
    let type ← Rd.int 2 .little
    let size ← Rd.int 4 .little
    if size = 6 then pure (.empty type)
    else if size < 6 then Rd.fail .parser
    else Rd.within (size - 6) (content (chunk fuel) fuel type (size - 6))

/-- `createFields` of the file, file_3ds.py:183-185. -/
def file (fuel : Nat) : Rd (List Chunk) := Rd.whileNotEof (chunk fuel) fuel

/-- The value of the first version chunk. -/
def versionOf : List Chunk → Option Nat
  | [] => none
  | .version n :: _ => some n
  | .empty 2 :: _ => none
  | _ :: cs => versionOf cs

/-- `validate`, file_3ds.py:176-181: the file begins with the type of a main chunk, "MM"; `main/version/version` is 2 or 3. -/
def valid : List Chunk → Bool
  | .group 0x4D4D cs :: _ => versionOf cs == some 2 || versionOf cs == some 3
  | _ => false

end Hachoir.Formats.Max3ds
