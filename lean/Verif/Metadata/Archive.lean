import Verif.Metadata.Metadata
import Mathlib.Algebra.Order.Floor.Defs
import Mathlib.Data.Rat.Floor

/-!
# Metadata of archives

Model of /repo/hachoir/metadata/archive.py: the files told of ZIP, TAR and CAB archives.  The
values of the fields are given; what the parsers make of the bytes is modelled elsewhere.
-/

namespace Hachoir.Metadata.Archive
open Hachoir Hachoir.Metadata Hachoir.Core

/-- `maxNbFile`, archive.py:10-15, with the qualities of metadata_item.py:8-12.  (The product is
exact here; it is that of floats in the code.) -/
def maxNb (quality : Rat) : Option Nat :=
  if quality ≤ 0 then some 0 else if 1 ≤ quality then none else some (1 + (10 * quality).floor.toNat)

/-- `meta.get(key)`, metadata.py:66-85, without the exception: the first value. -/
def first (m : Metadata) (key : String) : Option Value :=
  match m.getItems key with
  | .ok (i :: _) => some i.value
  | _ => none

/-- `computeCompressionRate`, archive.py:18-28.  (The quotient is exact here.) -/
def comprRate (cfg : Config) (m : Metadata) : Except PyErr Metadata :=
  match first m "file_size", first m "compr_size" with
  | some (.num (.int size)), some (.num (.int compressed)) =>
    if compressed = 0 ∨ size = 0 then .ok m
    else m.set cfg "compr_rate" (.value (.num (.float (.fin ((size : Rat) / (compressed : Rat))))))
  | _, _ => .ok m

/-- `"File \"%s\"" % name` -/
def title (name : Text) : Text := txt "File \"" ++ name ++ txt "\""

/-- The fields of a file of a ZIP archive that are used: sizes are (compressed, uncompressed). -/
structure ZipEntry where
  name : Text
  lastMod : Value
  compression : Text
  descriptor : Option (Nat × Nat)
  sizes : Nat × Nat

/-- `if size: meta.compr_size = size`, archive.py:86-87 and 90-91. -/
def comprSize (cfg : Config) (m : Metadata) (n : Nat) : Except PyErr Metadata :=
  if n = 0 then .ok m else m.set cfg "compr_size" (.value (.num (.int n)))

/-- The title of the group, archive.py:93: `meta.get` raises `ValueError` without a name. -/
def withTitle (m : Metadata) : Option Value → Except PyErr (Metadata × Text)
  | some (.text t) => .ok (m, title t)
  | _ => .error .value

/-- `ZipMetadata.processFile`, archive.py:78-93, up to `addGroup`; an exception leaves the file out. -/
def zipEntry (cfg : Config) (env : Env) (e : ZipEntry) : Except PyErr (Metadata × Text) := do
  let m ← (Metadata.new env (txt "Metadata")).set cfg "filename" (.value (.text e.name))
  let m ← m.set cfg "creation_date" (.value e.lastMod)
  let m ← m.set cfg "compression" (.value (.text e.compression))
  let m ← m.set cfg "file_size" (.value (.num (.int (e.descriptor.getD e.sizes).2)))
  let m ← comprSize cfg m (e.descriptor.getD e.sizes).1
  let m ← comprRate cfg m
  withTitle m (first m "filename")

/-- Assignments until the first exception, which `fault_tolerant` (safe.py:4-11) hides. -/
def assign (cfg : Config) (m : Metadata) : List (Except PyErr (String × Arg)) → Metadata
  | [] => m
  | .error _ :: _ => m
  | .ok (k, a) :: r =>
    match m.set cfg k a with
    | .ok m' => assign cfg m' r
    | .error _ => m

/-- `title` of archive.py:108-111 and 165-168. -/
def titleOf (m : Metadata) : Text :=
  match m.getItems "filename" with
  | .ok (i :: _) => title i.text
  | _ => txt "File"

/-- The fields of a file of a TAR archive: numbers may be invalid (`getOctal` raises). -/
structure TarEntry where
  name : Text
  /-- `humanUnixAttributes(mode)` -/
  attributes : Except PyErr Text
  size : Except PyErr Nat
  /-- `getDatetime()` when `mtime` is not zero -/
  time : Except PyErr (Option Value)
  type : Text
  author : Except PyErr Text

/-- `meta.last_modification`, archive.py:119-123: `ValueError` is skipped. -/
def tarTime (e : TarEntry) : List (Except PyErr (String × Arg)) :=
  match e.time with
  | .ok (some v) => [.ok ("last_modification", .value v)]
  | .ok none => []
  | .error .value => []
  | .error x => [.error x]

/-- `TarMetadata.extractFile`, archive.py:114-127, and 106-111. -/
def tarEntry (cfg : Config) (env : Env) (e : TarEntry) : Metadata × Text :=
  let m := assign cfg (Metadata.new env (txt "Metadata")) ([.ok ("filename", .value (.text e.name)), e.attributes.map fun t => ("file_attr", .value (.text t)),
    e.size.map fun n => ("file_size", .value (.num (.int n)))] ++ tarTime e ++ [.ok ("file_type", .value (.text e.type)), e.author.map fun t => ("author", .value (.text t))])
  (m, titleOf m)

/-- The fields of a file of a CAB archive. -/
structure CabEntry where
  name : Text
  size : Nat
  time : Value
  /-- the bits of the field set -/
  attributes : List Nat

/-- `field["attributes"].value`: a field set has no value, basic_field_set.py:74-75. -/
def cabAttributes (_ : List Nat) : Value := .none

/-- archive.py:162-164 -/
def cabAttrStep (cfg : Config) (m : Metadata) (attributes : List Nat) : Except PyErr Metadata :=
  if cabAttributes attributes = .text (txt "(none)") then .ok m else m.set cfg "file_attr" (.value (cabAttributes attributes))

/-- `CabMetadata.useFile`, archive.py:156-169, up to `addGroup`. -/
def cabEntry (cfg : Config) (env : Env) (e : CabEntry) : Except PyErr (Metadata × Text) := do
  let m ← (Metadata.new env (txt "Metadata")).set cfg "filename" (.value (.text e.name))
  let m ← m.set cfg "file_size" (.value (.num (.int e.size)))
  let m ← m.set cfg "creation_date" (.value e.time)
  let m ← cabAttrStep cfg m e.attributes
  .ok (m, titleOf m)

/-- The loops over the files, archive.py:61-68, 99-112 and 140-147: the group of a file
has the name of its field, `file[index]`.  Files that raise an exception are left out.  (Names are
never repeated, so that `addGroup` does not raise.) -/
def addFiles {α : Type} (entry : α → Except PyErr (Metadata × Text)) (max : Option Nat) : Nat → List α → Multiple → Multiple
  | _, [], m => m
  | i, f :: r, m =>
    if max.any (fun n => n ≤ i) then m
    else
      match entry f with
      | .error _ => addFiles entry max (i + 1) r m
      | .ok (x, h) => addFiles entry max (i + 1) r (m.addGroup (txt "file[" ++ decimal i ++ txt "]") x (some h)).1

/-- An archive without common metadata. -/
def archive (env : Env) {α : Type} (entry : α → Except PyErr (Metadata × Text)) (quality : Rat) (files : List α) : Multiple :=
  addFiles entry (maxNb quality) 0 files ⟨Metadata.new env (txt "Common"), Dict.empty, []⟩

end Hachoir.Metadata.Archive
