import Verif.Metadata.Archive
import Verif.Formats.Ttf
import Verif.Core.Timestamp

/-!
# Metadata of TrueType fonts

Model of `TTF_Metadata`, /repo/hachoir/metadata/misc.py:46-86.  `decode` gives the text of bytes in
a charset (the codecs of Python and `createValue` of `GenericString`).
-/

namespace Hachoir.Metadata.Ttf
open Hachoir Hachoir.Metadata Hachoir.Core Hachoir.Metadata.Archive Hachoir.Formats.Ttf

/-- `NAMEID_TO_ATTR`, misc.py:47-54. -/
def attrOf (name : Nat) : Option String :=
  if name = 0 then some "copyright"
  else if name = 3 then some "title"
  else if name = 5 then some "version"
  else if name = 8 then some "author"
  else if name = 11 then some "url"
  else if name = 14 then some "copyright"
  else none

/-- misc.py:83-85 -/
def shorten (attr : String) (t : Text) : Text :=
  if attr = "version" ∧ (txt "Version ").isPrefixOf t then t.drop 8 else t

/-- The value of a field of the table. -/
def slotText (decode : NameCharset → Bytes → Text) (table : Bytes) (x : Slot) : Option Text :=
  x.header.map fun g => decode (charsetOf g) ((table.drop x.place).take x.size)

/-- The body of the loop of misc.py:73-86. -/
def named (decode : NameCharset → Bytes → Text) (table : Bytes) (n : Names) (h : NameHeader) : Option (String × Arg) :=
  match (fieldAt n.slots (n.pool + h.offset)).bind (slotText decode table) with
  | none => none
  | some t => (attrOf h.name).map fun a => (a, .value (.text (shorten a t)))

/-- `extractNames`, misc.py:70-86: an exception ends it. -/
def extractNames (cfg : Config) (decode : NameCharset → Bytes → Text) (m : Metadata) (table : Bytes) (n : Names) : Metadata :=
  assign cfg m ((n.headers.filterMap (named decode table n)).map .ok)

/-- The display of the direction, ttf.py:43-49, 230: the field is unsigned. -/
def directionText (d : Nat) : Text :=
  if d = 0 then txt "Mixed directional" else if d = 1 then txt "Left to right" else if d = 2 then txt "Left to right + neutrals" else decimal d

/-- The value of `TimestampMac32`, a field of 32 bits (the text for greater numbers is not modelled). -/
def macValue (n : Nat) : Value :=
  match Hachoir.Time.timestampMac32 n with
  | .ok (.date d) => .datetime d none
  | _ => .none

/-- `extractHeader`, misc.py:62-68: an exception ends it. -/
def extractHeader (cfg : Config) (m : Metadata) (h : Head) : Metadata :=
  assign cfg m [.ok ("creation_date", .value (macValue h.created)), .ok ("last_modification", .value (macValue h.modified)),
    .ok ("comment", .value (.text (txt "Smallest readable size in pixels: " ++ decimal h.lowest ++ txt " pixels"))),
    .ok ("comment", .value (.text (txt "Font direction: " ++ directionText h.direction)))]

/-- misc.py:57-58 -/
def headerStep (cfg : Config) (m : Metadata) : Option Head → Metadata
  | none => m
  | some h => extractHeader cfg m h

/-- misc.py:59-60; the table of names with its bytes. -/
def namesStep (cfg : Config) (decode : NameCharset → Bytes → Text) (m : Metadata) : Option (Bytes × Names) → Metadata
  | none => m
  | some p => extractNames cfg decode m p.1 p.2

/-- `extract`, misc.py:56-60. -/
def extract (cfg : Config) (env : Env) (decode : NameCharset → Bytes → Text) (head : Option Head) (names : Option (Bytes × Names)) : Metadata :=
  namesStep cfg decode (headerStep cfg (Metadata.new env (txt "Metadata")) head) names

end Hachoir.Metadata.Ttf
