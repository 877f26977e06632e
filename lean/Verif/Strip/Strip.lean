import Verif.Py

/-!
# Model of hachoir-strip, /repo/hachoir/strip.py

The editor is a tree of fields with their names, sizes in bits and values, as the editable
tree of /repo/hachoir/editor presents it (`Editor/Editor.lean` models that tree and how it is
written; C29 says that the fields that remain are written one behind the other with their
values).  Numbers are non-negative, strings are their bytes.  Names of fields in a set are
different, names have no "/".
-/

set_option linter.unusedVariables false

namespace Hachoir.Strip
open Hachoir

/-- Value of a field. -/
inductive Val where
  | int (n : Nat)
  | text (b : Bytes)
  deriving DecidableEq, Repr

/-- Editable fields and field sets. -/
inductive Node where
  | leaf (name : String) (bits : Nat) (val : Val)
  | set (name : String) (kids : List Node)
  deriving Repr

def Node.name : Node → String
  | .leaf n _ _ => n
  | .set n _ => n

mutual
/-- `field.size`: of a field, or the sum over the fields of a set
(/repo/hachoir/editor/fieldset.py:161-166). -/
def Node.bits : Node → Nat
  | .leaf _ b _ => b
  | .set _ kids => totalBits kids
/-- `sum(field.size for field in self)`. -/
def totalBits : List Node → Nat
  | [] => 0
  | k :: ks => k.bits + totalBits ks
end

/-- `editor[name]` for a plain name, /repo/hachoir/editor/fieldset.py:224-242. -/
def getKid (name : String) : List Node → Except PyErr Node
  | [] => .error .missingField
  | k :: ks => if k.name = name then .ok k else getKid name ks

/-- `field[name].value`: a field has no items, MissingField
(/repo/hachoir/editor/field.py:51-53); a field set has no value, EditorError
(fieldset.py:286-287), here ValueError. -/
def itemValue (name : String) : Node → Except PyErr Val
  | .leaf .. => .error .missingField
  | .set _ kids =>
    match getKid name kids with
    | .error e => .error e
    | .ok (.leaf _ _ v) => .ok v
    | .ok (.set ..) => .error .value

/-- `field.value -= n` for an unsigned integer field of 32 bits: the value must remain in
range (/repo/hachoir/editor/typed_field.py:245-254).  Other types: TypeError. -/
def subValue (n : Nat) : Node → Except PyErr Node
  | .leaf name bits (.int v) =>
    if n ≤ v then .ok (.leaf name bits (.int (v - n))) else .error .value
  | _ => .error .type

/-- `editor[name].value -= n`. -/
def subItem (name : String) (n : Nat) : List Node → Except PyErr (List Node)
  | [] => .error .missingField
  | k :: ks =>
    if k.name = name then
      match subValue n k with
      | .error e => .error e
      | .ok k' => .ok (k' :: ks)
    else
      match subItem name n ks with
      | .error e => .error e
      | .ok ks' => .ok (k :: ks')

/-- `text in "JUNK"`: a substring. -/
def inJunk (tag : Bytes) : Bool :=
  let junk : Bytes := [0x4a, 0x55, 0x4e, 0x4b]
  (List.range 5).any fun i => tag.isPrefixOf (junk.drop i)

/-- "LIST". -/
def listTag : Bytes := [0x4c, 0x49, 0x53, 0x54]

/-- What the loop of `stripSub` does with a field, /repo/hachoir/strip.py:130-147: remove it,
leave it, or go into it. -/
inductive Action where
  | remove | keep | enter
  deriving DecidableEq, Repr

/-- /repo/hachoir/strip.py:131-141.  `useless` is `self.level & STRIP_USELESS`. -/
def action (useless : Bool) (names : List String) (field : Node) : Except PyErr Action :=
  if field.name ∈ names then .ok .remove
  else
    match itemValue "tag" field with
    | .error .missingField => .ok .keep
    | .error e => .error e
    | .ok (.int _) => if useless then .error .type else .ok .keep
    | .ok (.text tag) =>
      if useless && inJunk tag then .ok .remove
      else if tag = listTag ∧ field.name ≠ "movie" then .ok .enter
      else .ok .keep

mutual
/-- What `stripSub` leaves of a field: nothing, or the edited field, and the bits that were
removed from it. -/
def stripNode (useless : Bool) (names : List String) : Node → Except PyErr (Option Node × Nat)
  | .leaf name bits v =>
    match action useless names (.leaf name bits v) with
    | .error e => .error e
    | .ok .remove => .ok (none, bits)
    | .ok _ => .ok (some (.leaf name bits v), 0)
  | .set name kids =>
    match action useless names (.set name kids) with
    | .error e => .error e
    | .ok .remove => .ok (none, totalBits kids)
    | .ok .keep => .ok (some (.set name kids), 0)
    | .ok .enter =>
      match stripSub useless names kids with
      | .error e => .error e
      | .ok (kids', size) =>
        if size ≠ 0 then
          match subItem "size" (size / 8) kids' with
          | .error e => .error e
          | .ok kids' => .ok (some (.set name kids'), size)
        else .ok (some (.set name kids'), 0)

/-- `RiffStripper.stripSub`, /repo/hachoir/strip.py:127-149: the fields that remain and the
bits that were removed.  The fields to remove are deleted after the loop (148); `not editor`
(57, 65) is false as long as a field is left to remove. -/
def stripSub (useless : Bool) (names : List String) : List Node → Except PyErr (List Node × Nat)
  | [] => .ok ([], 0)
  | k :: ks =>
    match stripNode useless names k with
    | .error e => .error e
    | .ok (k', n) =>
      match stripSub useless names ks with
      | .error e => .error e
      | .ok (ks', m) => .ok (k'.toList ++ ks', n + m)
end

/-- Levels, /repo/hachoir/strip.py:26-28. -/
structure Level where
  useless : Bool
  metadata : Bool
  index : Bool
  deriving DecidableEq, Repr

/-- Change the field with a name; MissingField if there is none. -/
def updateKid (name : String) (g : Node → Except PyErr Node) : List Node → Except PyErr (List Node)
  | [] => .error .missingField
  | k :: ks =>
    if k.name = name then
      match g k with
      | .error e => .error e
      | .ok k' => .ok (k' :: ks)
    else
      match updateKid name g ks with
      | .error e => .error e
      | .ok ks' => .ok (k :: ks')

/-- Change a field given by its path, /repo/hachoir/editor/fieldset.py:216-222. -/
def updatePath (f : Node → Node) : List String → Node → Except PyErr Node
  | [], node => .ok (f node)
  | _ :: _, .leaf .. => .error .missingField
  | name :: path, .set n kids =>
    match updateKid name (updatePath f path) kids with
    | .error e => .error e
    | .ok kids' => .ok (.set n kids')

/-- `field.value = False` of a bit. -/
def clearBit : Node → Node
  | .leaf n b _ => .leaf n b (.int 0)
  | k => k

/-- `if "/headers/avi_hdr/has_index" in self.editor: ….value = False`,
/repo/hachoir/strip.py:157-159. -/
def clearIndex (root : Node) : Node :=
  match updatePath clearBit ["headers", "avi_hdr", "has_index"] root with
  | .ok r => r
  | .error _ => root

/-- The names of `RiffStripper.strip`, /repo/hachoir/strip.py:152-160. -/
def riffNames (level : Level) : List String :=
  (if level.useless then ["nb_sample"] else []) ++ (if level.metadata then ["info"] else []) ++
    (if level.index then ["index"] else [])

/-- `RiffStripper.strip`, /repo/hachoir/strip.py:151-165: the file and the bits removed. -/
def riffStrip (level : Level) (root : Node) : Except PyErr (Node × Nat) :=
  match (if level.index then clearIndex root else root) with
  | .leaf .. => .error .type
  | .set name kids =>
    match stripSub level.useless (riffNames level) kids with
    | .error e => .error e
    | .ok (kids', size) =>
      if size ≠ 0 then
        match subItem "filesize" (size / 8) kids' with
        | .error e => .error e
        | .ok kids' => .ok (.set name kids', size)
      else .ok (.set name kids', 0)

/-- `text.startswith(prefix)`. -/
def startsWith (pre name : String) : Bool := pre.toList.isPrefixOf name.toList

/-- `PngStripper.checkField`, /repo/hachoir/strip.py:86-93. -/
def pngCheck (level : Level) (name : String) : Bool :=
  level.metadata && (startsWith "text[" name || name == "time")

/-- `JpegStripper.checkField`, /repo/hachoir/strip.py:98-103. -/
def jpegCheck (level : Level) (name : String) : Bool :=
  level.metadata && (startsWith "comment" name || ["photoshop", "exif", "adobe"].contains name)

/-- `MpegAudioStripper.checkField`, /repo/hachoir/strip.py:108-111. -/
def mpegCheck (level : Level) (name : String) : Bool :=
  level.metadata && ["id3v1", "id3v2"].contains name

/-- `CheckStripper.strip`, /repo/hachoir/strip.py:79-81, with `removeFields` (56-67): the
generator yields a field of the editor, it is deleted before the next one is asked for, and
deleting it does not disturb the iteration over the original fields
(/repo/hachoir/editor/fieldset.py:53-65). -/
def checkStrip (check : String → Bool) : List Node → List Node × Nat
  | [] => ([], 0)
  | k :: ks =>
    let (ks', n) := checkStrip check ks
    if check k.name then (ks', k.bits + n) else (k :: ks', n)

/-- `AuStripper.strip`, /repo/hachoir/strip.py:116-122. -/
def auStrip (level : Level) (kids : List Node) : Except PyErr (List Node × Nat) :=
  if level.metadata then
    match getKid "info" kids with
    | .error _ => .ok (kids, 0)
    | .ok info =>
      match subItem "data_ofs" (info.bits / 8) kids with
      | .error e => .error e
      | .ok kids' => .ok (kids'.filter (fun k => k.name ≠ "info"), info.bits)
  else .ok (kids, 0)

/-- A value is assigned to the string fields of tar headers: `EditableString._setValue` asserts
that it is of type bytes (/repo/hachoir/editor/typed_field.py:161-166). -/
inductive PyText where
  | str (s : String)
  | bytes (b : Bytes)
  deriving DecidableEq, Repr

/-- `EditableString._setValue`. -/
def setString : PyText → Except PyErr Bytes
  | .str _ => .error .assertion
  | .bytes b => .ok b

/-- `TarStripper.strip` and `stripFile`, /repo/hachoir/strip.py:174-195: the first assignment of
a file, `file["uid"].value = uid` with `uid = "0000000\0"` (189-190); `none` if all files are
stripped.  What follows the first assignment is not modelled: it is not reached. -/
def tarStrip (files : List Node) : Except PyErr Unit :=
  match files with
  | [] => .ok ()
  | _ :: _ =>
    match setString (.str "0000000\x00") with
    | .error e => .error e
    | .ok _ => .error .notImplemented

/-- `BasicStripper.__call__`, /repo/hachoir/strip.py:40-44, and `stripEditor` (217-220): the
file is written exactly if bits were removed. -/
def written (stripped : Nat) : Bool := stripped ≠ 0

end Hachoir.Strip
