import Verif.Metadata.Archive
import Verif.Formats.Summary
import Verif.Core.Timestamp

/-!
# Metadata of Office documents

Model of `OLE2_Metadata`, /repo/hachoir/metadata/misc.py:89-213, from the first section of the document summary, the flag of the Word document and
the first section of the summary.  `decode` gives the text of bytes in a charset (the codecs of Python; with no charset it is guessed).

Not modelled: the search of the fragments in the file and in its small blocks (lines 116-151).
-/

namespace Hachoir.Metadata.Ole2
open Hachoir Hachoir.Metadata Hachoir.Core Hachoir.Formats Hachoir.Formats.Summary

/-- `SUMMARY_ID_TO_ATTR` and `DOC_SUMMARY_ID_TO_ATTR`, misc.py:90-108. -/
def attrOf (doc : Bool) (id : Nat) : Option String :=
  if doc then
    if id = 3 then some "title" else if id = 14 then some "author" else none
  else
    if id = 2 then some "title" else if id = 3 then some "title" else if id = 4 then some "author" else if id = 6 then some "comment"
    else if id = 8 then some "author" else if id = 12 then some "creation_date" else if id = 13 then some "last_modification"
    else if id = 14 then some "nb_page" else if id = 18 then some "producer" else none

/-- `DOCUMENT_PROPERTY`, /repo/hachoir/parser/misc/msoffice_summary.py:56-80. -/
def documentNames : List (Nat × String) :=
  [(2, "Category"), (3, "PresentationFormat"), (4, "NumBytes"), (5, "NumLines"), (6, "NumParagraphs"), (7, "NumSlides"), (8, "NumNotes"),
    (9, "NumHiddenSlides"), (10, "NumMMClips"), (11, "Scale"), (12, "HeadingPairs"), (13, "DocumentParts"), (14, "Manager"), (15, "Company"),
    (16, "LinksDirty"), (17, "DocSumInfo_17"), (18, "DocSumInfo_18"), (19, "DocSumInfo_19"), (20, "DocSumInfo_20"), (21, "DocSumInfo_21"),
    (22, "DocSumInfo_22"), (23, "DocSumInfo_23")]

/-- `COMPONENT_PROPERTY`, msoffice_summary.py:82-101. -/
def componentNames : List (Nat × String) :=
  [(2, "Title"), (3, "Subject"), (4, "Author"), (5, "Keywords"), (6, "Comments"), (7, "Template"), (8, "LastSavedBy"), (9, "RevisionNumber"),
    (10, "TotalEditingTime"), (11, "LastPrinted"), (12, "CreateTime"), (13, "LastSavedTime"), (14, "NumPages"), (15, "NumWords"),
    (16, "NumCharacters"), (17, "Thumbnail"), (18, "AppName"), (19, "Security")]

/-- `COMMON_PROPERTY`, msoffice_summary.py:49-54. -/
def commonNames : List (Nat × String) := [(0, "Dictionary"), (1, "CodePage"), (0x80000000, "LOCALE_SYSTEM_DEFAULT"), (0x80000003, "CASE_SENSITIVE")]

/-- The display of the number of a property: its name, or the number (/repo/hachoir/field/enum.py:19-22). -/
def display (doc : Bool) (id : Nat) : Text :=
  match ((if doc then documentNames else componentNames) ++ commonNames).lookup id with
  | some s => txt s
  | none => decimal id

/-- The text of a value, if it is one. -/
def textOf (decode : Option String → Bytes → Text) : Summary.Value → Option Text
  | .text c b => some (decode c b)
  | .wide b => some (decode (some "UTF-16-LE") b)
  | _ => none

/-- A time: `None` if it cannot be told (/repo/hachoir/field/timestamp.py:24-42 and the `value` of fields). -/
def timeValue (n : Nat) : Metadata.Value :=
  match Hachoir.Time.timestampWin64 n with
  | .ok d => .datetime d none
  | .error _ => .none

/-- A span of time, timestamp.py:93-95. -/
def spanValue (n : Nat) : Metadata.Value :=
  match Hachoir.Time.durationWin64 n with
  | .ok us => .duration us
  | .error _ => .none

/-- The value given to an attribute; `True` and `False` are numbers of Python. -/
def valueOf (decode : Option String → Bytes → Text) : Summary.Value → Metadata.Value
  | .num n => .num (.int n)
  | .flag b => .num (.int (if b then 1 else 0))
  | .text c b => .text (decode c b)
  | .wide b => .text (decode (some "UTF-16-LE") b)
  | .time n => timeValue n
  | .span n => spanValue n

/-- `"%s" % value`. -/
def shown (env : Env) (decode : Option String → Bytes → Text) : Summary.Value → Text
  | .num n => decimal n
  | .flag b => txt (if b then "True" else "False")
  | .text c b => decode c b
  | .wide b => decode (some "UTF-16-LE") b
  | .time n => env.str (timeValue n)
  | .span n => env.str (spanValue n)

/-- `not field`: only times can be false (timestamp.py:20-21). -/
def isNull : Summary.Value → Bool
  | .time n => n == 0
  | .span n => n == 0
  | _ => false

/-- misc.py:177-182: texts are normalised, blank ones are ignored. -/
def normalized (cfg : Config) (decode : Option String → Bytes → Text) (v : Summary.Value) : Option (Option Text) :=
  match textOf decode v with
  | none => some none
  | some t => if normalizeString cfg t = [] then none else some (some (normalizeString cfg t))

/-- misc.py:184-213: key and value of a property. -/
def assigned (env : Env) (decode : Option String → Bytes → Text) (doc : Bool) (id : Nat) (v : Summary.Value) (t : Option Text) : Option (String × Arg) :=
  if id = 1 then none
  else
    match attrOf doc id with
    | some k => if k = "last_modification" ∧ isNull v then none else some (k, .value (t.elim (valueOf decode v) .text))
    | none =>
      if (display doc id = txt "TotalEditingTime" ∨ display doc id = txt "LastPrinted") ∧ isNull v then none
      else some ("comment", .value (.text (display doc id ++ txt ": " ++ t.getD (shown env decode v))))

/-- `useProperty`, misc.py:167-213, without the assignment.  Fields that are no property, and properties without value, are ignored (for some of
them `"value" not in field` raises, which is ignored too). -/
def told (cfg : Config) (env : Env) (decode : Option String → Bytes → Text) (doc : Bool) (s : Section) (p : Property) : Option (String × Arg) :=
  match lookup s p.addr with
  | .ok (some ⟨_, _, some (.value v)⟩) => (normalized cfg decode v).bind (assigned env decode doc p.id v)
  | _ => none

/-- `useSummary`, misc.py:153-161: an exception in one property does not stop the others. -/
def useSummary (cfg : Config) (env : Env) (decode : Option String → Bytes → Text) (doc : Bool) (m : Metadata) : Option Section → Metadata
  | none => m
  | some s => m.run cfg (s.props.filterMap (told cfg env decode doc s))

/-- `useWordDocument`, misc.py:163-165. -/
def useWord (cfg : Config) (m : Metadata) : Option Bool → Metadata
  | none => m
  | some b => m.run cfg [("comment", .value (.text (txt "Encrypted: " ++ txt (if b then "True" else "False"))))]

/-- `_extract`, misc.py:123-131. -/
def extract (cfg : Config) (env : Env) (decode : Option String → Bytes → Text) (doc : Option Section) (word : Option Bool) (summary : Option Section) : Metadata :=
  useSummary cfg env decode false (useWord cfg (useSummary cfg env decode true (Metadata.new env (txt "Metadata")) doc) word) summary

end Hachoir.Metadata.Ole2
