import Verif.Metadata.Archive
import Verif.Core.Timestamp

/-!
# Metadata of Ogg files and Vorbis comments

Model of /repo/hachoir/metadata/audio.py:34-140.  The values of the fields are given; what the
parser makes of the bytes is modelled elsewhere.
-/

namespace Hachoir.Metadata.Ogg
open Hachoir Hachoir.Metadata Hachoir.Core Hachoir.Metadata.Archive

/-- `VORBIS_KEY_TO_ATTR`, audio.py:34-52. -/
def keyToAttr : List (String × String) := [("ARTIST", "artist"), ("ALBUM", "album"), ("TRACKNUMBER", "track_number"), ("TRACKTOTAL", "track_total"), ("ENCODER", "producer"), ("TITLE", "title"),
  ("LOCATION", "location"), ("DATE", "creation_date"), ("ORGANIZATION", "organization"), ("GENRE", "music_genre"), ("", "comment"), ("COMPOSER", "music_composer"), ("DESCRIPTION", "comment"),
  ("COMMENT", "comment"), ("WWW", "url"), ("WOAF", "url"), ("LICENSE", "copyright")]

/-- `item.value.split("=", 1)` when there is a `=`, audio.py:59-60. -/
def splitEq : Text → Option (Text × Text)
  | [] => none
  | c :: r => if c = 61 then some ([], r) else (splitEq r).map fun p => (c :: p.1, p.2)

/-- The attribute of a key, audio.py:61-63; `upper` is Python's `str.upper`. -/
def attrOf (upper : Text → Text) (key : Text) : Option String := (keyToAttr.find? fun p => txt p.1 == upper key).map Prod.snd

/-- A comment as an assignment, audio.py:59-66. -/
def comment (upper : Text → Text) (t : Text) : Option (String × Arg) :=
  match splitEq t with
  | none => none
  | some (k, v) => (attrOf upper k).map fun a => (a, .value (.text v))

/-- `getValue(comment, "vendor")`, safe.py:14-26: `None` without a vendor. -/
def vendorValue : Option Text → Value
  | none => .none
  | some t => .text t

/-- `readVorbisComment`, audio.py:55-66: the first exception ends it. -/
def readComments (cfg : Config) (upper : Text → Text) (m : Metadata) (vendor : Option Text) (items : List Text) : Metadata :=
  assign cfg m (.ok ("producer", .value (vendorValue vendor)) :: (items.filterMap (comment upper)).map .ok)

structure VorbisHeader where
  version : Nat
  channels : Nat
  rate : Nat
  nominal : Nat

/-- `vorbisHeader`, audio.py:134-140. -/
def vorbisHeader (cfg : Config) (env : Env) (h : VorbisHeader) : Except PyErr Metadata := do
  let m ← (Metadata.new env (txt "Metadata")).set cfg "compression" (.value (.text (txt "Vorbis")))
  let m ← m.set cfg "sample_rate" (.value (.num (.int h.rate)))
  let m ← m.set cfg "nb_channel" (.value (.num (.int h.channels)))
  let m ← m.set cfg "format_version" (.value (.text (txt "Vorbis version " ++ decimal h.version)))
  m.set cfg "bit_rate" (.value (.num (.int h.nominal)))

/-- What is used of the segments of a page: the first header, and the comments with the name of
the vendor.  (Pages with video headers are not modelled.) -/
structure PageInfo where
  vorbis : Option VorbisHeader
  comment : Option (Option Text × List Text)

structure State where
  file : Multiple
  /-- `granule_quotient` -/
  quotient : Option Nat

/-- `if not granule_quotient and meta.has("sample_rate")`, audio.py:81-82. -/
def quotientStep (q : Option Nat) (m : Metadata) : Option Nat :=
  match q, first m "sample_rate" with
  | none, some (.num (.int r)) => some r.toNat
  | q, _ => q

/-- The state after `addGroup`, audio.py:80. -/
def grouped (r : Multiple × Except PyErr Bool) (q : Option Nat) : Except PyErr State :=
  match r.2 with
  | .error e => .error e
  | .ok _ => .ok ⟨r.1, q⟩

/-- audio.py:77-82 -/
def headerStep (cfg : Config) (env : Env) (s : State) : Option VorbisHeader → Except PyErr State
  | none => .ok s
  | some h =>
    match vorbisHeader cfg env h with
    | .error e => .error e
    | .ok m => grouped (s.file.addGroup (txt "audio[]") m (some (txt "Audio"))) (quotientStep s.quotient m)

/-- audio.py:93-94 -/
def commentStep (cfg : Config) (upper : Text → Text) (s : State) : Option (Option Text × List Text) → State
  | none => s
  | some (v, items) => ⟨{ s.file with common := readComments cfg upper s.file.common v items }, s.quotient⟩

/-- The loop over the pages, audio.py:73-97: the pages 0 to 3; a page without segments is skipped
without looking at its number. -/
def pages (cfg : Config) (env : Env) (upper : Text → Text) : Nat → List (Option PageInfo) → State → Except PyErr State
  | _, [], s => .ok s
  | i, none :: r, s => pages cfg env upper (i + 1) r s
  | i, some p :: r, s =>
    match headerStep cfg env s p.vorbis with
    | .error e => .error e
    | .ok s => if 3 ≤ i then .ok (commentStep cfg upper s p.comment) else pages cfg env upper (i + 1) r (commentStep cfg upper s p.comment)

/-- `timedelta(seconds=float(granule) / quotient)`, audio.py:104-105, in microseconds.  (The
quotient is exact here.  Durations of more than 999999999 days raise `OverflowError`, which is
caught; here they are made, and refused by the filter of `duration`.) -/
def durationOf (granule quotient : Nat) : Int := (Hachoir.Time.roundHalfEven (granule * 1000000) quotient : Nat)

/-- audio.py:100-107; `granule` is the position told by the last page. -/
def durationStep (cfg : Config) (normal : Bool) (granule : Option Nat) (s : State) : Except PyErr Multiple :=
  match s.quotient, granule with
  | some q, some g =>
    if normal && q != 0 then
      match s.file.common.set cfg "duration" (.value (.duration (durationOf g q))) with
      | .error e => .error e
      | .ok m => .ok { s.file with common := m }
    else .ok s.file
  | _, _ => .ok s.file

/-- `OggMetadata.extract`, audio.py:71-107; `normal` tells that the quality is at least `QUALITY_NORMAL`. -/
def extract (cfg : Config) (env : Env) (upper : Text → Text) (normal : Bool) (ps : List (Option PageInfo)) (granule : Option Nat) : Except PyErr Multiple :=
  match pages cfg env upper 0 ps ⟨⟨Metadata.new env (txt "Common"), Dict.empty, []⟩, none⟩ with
  | .error e => .error e
  | .ok s => durationStep cfg normal granule s

end Hachoir.Metadata.Ogg
