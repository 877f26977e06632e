import Verif.Metadata.Archive
import Verif.Formats.Bencode
import Verif.Core.Timestamp
import Verif.Core.Human

/-!
# Metadata of torrents

Model of `TorrentMetadata`, /repo/hachoir/metadata/misc.py:11-43, on the values that the parser shows (`Formats/Bencode`), with the names and values of
`DictionaryItem`, /repo/hachoir/parser/misc/torrent.py:108-140.

Not modelled: dictionaries two items of which have the same name, or with items named `start` and `end` (the parser raises there, since names of fields are unique).
-/

namespace Hachoir.Metadata.Torrent
open Hachoir Hachoir.Metadata Hachoir.Core Hachoir.Formats Hachoir.Human

/-- The name of an item, torrent.py:110-118: the key with underscores for spaces (of numbers, which never have a name that is looked for, nothing is told here). -/
def nameOf : Shown → Option Bytes
  | .str (some b) => some (b.map fun c => if c = 32 then 95 else c)
  | _ => none

/-- The value of an item, torrent.py:127-133: texts are ISO-8859-1; lists and dictionaries have no value. -/
def valueOf : Shown → Value
  | .int (some n) => .num (.int n)
  | .str (some b) => .text (b.map UInt8.toNat)
  | _ => .none

/-- `createTimestampValue`, torrent.py:139-140: an exception gives no value (/repo/hachoir/field/field.py:126-131). -/
def dateValue : Shown → Value
  | .int (some n) =>
    match Hachoir.Time.timestampUNIX n with
    | .ok d => .datetime d none
    | .error _ => .none
  | _ => .none

/-- `"%s" % field.display` of the size of pieces, torrent.py:120-125: a text raises in `humanFilesize`, which gives the empty text (field.py:142-153). -/
def pieceText : Shown → Text
  | .int (some n) => (humanFilesize n).map UInt8.toNat
  | .str (some _) => []
  | _ => txt "None"

/-- The items of a dictionary. -/
def itemsOf : BenPairs (Option Int) (Option Bytes) → List (Shown × Shown)
  | .nil => []
  | .cons k v l => (k, v) :: itemsOf l

/-- `processInfo`, misc.py:35-43. -/
def infoItem (p : Shown × Shown) : List (String × Arg) :=
  match nameOf p.1 with
  | none => []
  | some n =>
    if n = asc "length" then [("file_size", .value (valueOf p.2))]
    else if n = asc "name" then [("filename", .value (valueOf p.2))]
    else if n = asc "piece_length" then [("comment", .value (.text (txt "Piece length: " ++ pieceText p.2)))]
    else []

/-- misc.py:31-33: in texts, numbers and lists there are no fields of these names (but `length` of a text, whose value is no number and is refused). -/
def infoItems : Shown → List (String × Arg)
  | .dict l => (itemsOf l).flatMap infoItem
  | _ => []

/-- `processRoot`, misc.py:25-33. -/
def rootItem (p : Shown × Shown) : List (String × Arg) :=
  match nameOf p.1 with
  | none => []
  | some n =>
    if n = asc "announce" then [("url", .value (valueOf p.2))]
    else if n = asc "comment" then [("comment", .value (valueOf p.2))]
    else if n = asc "creation_date" then [("creation_date", .value (dateValue p.2))]
    else if n = asc "info" then infoItems p.2
    else []

/-- `extract`, misc.py:22-24: an exception in one item does not stop the others. -/
def extract (cfg : Config) (env : Env) : Shown → Metadata
  | .dict l => (Metadata.new env (txt "Metadata")).run cfg ((itemsOf l).flatMap rootItem)
  | _ => Metadata.new env (txt "Metadata")

end Hachoir.Metadata.Torrent
