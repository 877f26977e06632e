import Verif.Metadata.Data
import Verif.Core.Printable
import Verif.Core.Dict

/-!
# Metadata of a file

`hachoir/metadata/metadata.py`, `hachoir/metadata/register.py`, and the conversions of
`hachoir/metadata/setter.py`.

What is not modelled is a parameter (`Env`): the functions that write a value for people
(`humanDuration`, ...), Python's `str`, `parseDatetime` and the table of languages.
-/

namespace Hachoir.Metadata
open Hachoir Hachoir.Core

/-- Functions used but not modelled. -/
structure Env where
  handler : String → Value → Except PyErr Text
  str : Value → Text
  parseDatetime : Text → Conv
  knownLanguage : Text → Bool

/-- Text of a Python literal. -/
def txt (s : String) : Text := s.toList.map Char.toNat

/-- `makeUnicode(value)`, core/tools.py:330-354. -/
def plainText (env : Env) : Value → Text
  | .text t => Printable.makeUnicode (.text t)
  | .bytes b => Printable.makeUnicode (.bytes (b.map UInt8.toNat))
  | v => Printable.makeUnicode (.text (env.str v))

/-! ## Conversions -/

/-- White space skipped by `int()`, ASCII only. -/
def isSpace (c : Nat) : Bool := c == 32 || (9 ≤ c && c ≤ 13) || (28 ≤ c && c ≤ 31)

/-- The digits of `int()`: decimal digits, single underscores between them.  `after` tells that
the last character was a digit. -/
def digits (after : Bool) (value : Nat) : Text → Option Nat
  | [] => if after then some value else none
  | c :: r =>
    if 48 ≤ c && c ≤ 57 then digits true (10 * value + (c - 48)) r
    else if c == 95 && after && !r.isEmpty then digits false value r
    else none

/-- `int(text)` for ASCII texts, `none` for `ValueError`. -/
def pyInt (t : Text) : Option Int :=
  match Field.stripText isSpace t with
  | 43 :: r => (digits false 0 r).map fun n => (n : Int)
  | 45 :: r => (digits false 0 r).map fun n => -(n : Int)
  | r => (digits false 0 r).map fun n => (n : Int)

/-- `int(text)` as a conversion: `ValueError` is turned into `None`. -/
def convInt (t : Text) : Conv :=
  match pyInt t with
  | some i => .value (.num (.int i))
  | none => .nothing

/-- `int(x)` of a float, rounding to zero; `int()` of infinity or "not a number" raises
`OverflowError` or `ValueError`. -/
def intOfFlt : Flt → Conv
  | .fin q => .value (.num (.int (q.num.tdiv q.den)))
  | .nan => .nothing
  | _ => .raised

/-- `setTrackTotal`, setter.py:150-159. -/
def setTrackTotal : Value → Conv
  | .text t => convInt t
  | .bytes b => convInt (b.map UInt8.toNat)
  | .num (.int i) => .value (.num (.int i))
  | .num (.float f) => intOfFlt f
  | _ => .raised

/-- `number.split("/", 1)` when there is a slash. -/
def splitSlash : Text → Option (Text × Text)
  | [] => none
  | c :: r => if c = 47 then some ([], r) else (splitSlash r).map fun p => (c :: p.1, p.2)

/-- `setTrackNumber`, setter.py:162-172, without the assignment of `track_total` (see
`Metadata.set`).  Other types raise at `"/" in number`. -/
def setTrackNumber : Value → Conv
  | .num (.int i) => .value (.num (.int i))
  | .text t =>
    match splitSlash t with
    | some (number, _) => convInt number
    | none => convInt t
  | _ => .raised

/-- `setDatetime`, setter.py:132-137. -/
def setDatetime (env : Env) : Value → Conv
  | .text t => env.parseDatetime t
  | .date y m d => .value (.date y m d)
  | .datetime t z => .value (.datetime t z)
  | _ => .nothing

/-- `setLanguage`, setter.py:140-147 with `Language`, core/language.py:8-12; only texts can be
in the table. -/
def setLanguage (env : Env) : Value → Conv
  | .text t => if env.knownLanguage t then .value (.language t) else .raised
  | _ => .raised

/-! ## The keys -/

/-- `DURATION_FILTER`, register.py:31-33: a millisecond to 365 days. -/
def durationFilter : Filter := .duration 1000 31536000000000

/-- `registerAllItems`, register.py:36-186. -/
def registerAllItems (env : Env) : List Data := [
  { key := "title", priority := 100, description := "Title", type := some [.str], plainText := plainText env },
  { key := "artist", priority := 101, description := "Artist", type := some [.str], plainText := plainText env },
  { key := "author", priority := 102, description := "Author", type := some [.str], plainText := plainText env },
  { key := "music_composer", priority := 103, description := "Music composer", type := some [.str], plainText := plainText env },
  { key := "album", priority := 200, description := "Album", type := some [.str], plainText := plainText env },
  { key := "duration", priority := 201, description := "Duration", type := some [.timedelta], filter := some durationFilter, textHandler := some (env.handler "humanDuration"), plainText := plainText env },
  { key := "nb_page", priority := 202, description := "Nb page", filter := some (.number (some (.int 1)) (some (.int 20000))), plainText := plainText env },
  { key := "music_genre", priority := 203, description := "Music genre", type := some [.str], plainText := plainText env },
  { key := "language", priority := 204, description := "Language", type := some [.language], conversion := some (setLanguage env), plainText := plainText env },
  { key := "track_number", priority := 205, description := "Track number", type := some [.int], filter := some (.number (some (.int 1)) (some (.int 999))), conversion := some setTrackNumber, plainText := plainText env },
  { key := "track_total", priority := 206, description := "Track total", type := some [.int], filter := some (.number (some (.int 1)) (some (.int 999))), conversion := some setTrackTotal, plainText := plainText env },
  { key := "organization", priority := 210, description := "Organization", type := some [.str], plainText := plainText env },
  { key := "version", priority := 220, description := "Version", plainText := plainText env },
  { key := "width", priority := 301, description := "Image width", type := some [.int], filter := some (.number (some (.int 1)) (some (.int 20000))), textHandler := some (env.handler "humanPixelSize"), plainText := plainText env },
  { key := "height", priority := 302, description := "Image height", type := some [.int], filter := some (.number (some (.int 1)) (some (.int 20000))), textHandler := some (env.handler "humanPixelSize"), plainText := plainText env },
  { key := "nb_channel", priority := 303, description := "Channel", type := some [.int], filter := some (.number (some (.int 1)) (some (.int 8))), textHandler := some (env.handler "humanAudioChannel"), plainText := plainText env },
  { key := "sample_rate", priority := 304, description := "Sample rate", type := some [.int, .float], filter := some (.number (some (.int 1000)) (some (.int 192000))), textHandler := some (env.handler "humanFrequency"), plainText := plainText env },
  { key := "bits_per_sample", priority := 305, description := "Bits/sample", type := some [.int], filter := some (.number (some (.int 1)) (some (.int 64))), textHandler := some (env.handler "humanBitSize"), plainText := plainText env },
  { key := "image_orientation", priority := 306, description := "Image orientation", plainText := plainText env },
  { key := "nb_colors", priority := 307, description := "Number of colors", type := some [.int], filter := some (.number (some (.int 1)) (some (.int 16777216))), plainText := plainText env },
  { key := "bits_per_pixel", priority := 308, description := "Bits/pixel", type := some [.int], filter := some (.number (some (.int 1)) (some (.int 256))), plainText := plainText env },
  { key := "filename", priority := 309, description := "File name", type := some [.str], plainText := plainText env },
  { key := "file_size", priority := 310, description := "File size", type := some [.int], textHandler := some (env.handler "humanFilesize"), plainText := plainText env },
  { key := "pixel_format", priority := 311, description := "Pixel format", plainText := plainText env },
  { key := "compr_size", priority := 312, description := "Compressed file size", type := some [.int], textHandler := some (env.handler "humanFilesize"), plainText := plainText env },
  { key := "compr_rate", priority := 313, description := "Compression rate", type := some [.int, .float], filter := some (.number (some (.float (.fin (1152921504606847 / 1152921504606846976)))) (some (.float (.fin 1000)))), textHandler := some (env.handler "humanComprRate"), plainText := plainText env },
  { key := "width_dpi", priority := 320, description := "Image DPI width", type := some [.int], filter := some (.number (some (.int 1)) (some (.int 10000))), textHandler := some (env.handler "humanDPI"), plainText := plainText env },
  { key := "height_dpi", priority := 321, description := "Image DPI height", type := some [.int], filter := some (.number (some (.int 1)) (some (.int 10000))), textHandler := some (env.handler "humanDPI"), plainText := plainText env },
  { key := "file_attr", priority := 400, description := "File attributes", plainText := plainText env },
  { key := "file_type", priority := 401, description := "File type", plainText := plainText env },
  { key := "subtitle_author", priority := 402, description := "Subtitle author", type := some [.str], plainText := plainText env },
  { key := "creation_date", priority := 500, description := "Creation date", type := some [.datetime, .date], filter := some .datetime, textHandler := some (env.handler "humanDatetime"), conversion := some (setDatetime env), plainText := plainText env },
  { key := "last_modification", priority := 501, description := "Last modification", type := some [.datetime, .date], filter := some .datetime, textHandler := some (env.handler "humanDatetime"), conversion := some (setDatetime env), plainText := plainText env },
  { key := "latitude", priority := 510, description := "Latitude", type := some [.float], plainText := plainText env },
  { key := "longitude", priority := 511, description := "Longitude", type := some [.float], plainText := plainText env },
  { key := "altitude", priority := 512, description := "Altitude", type := some [.float], textHandler := some (env.handler "humanAltitude"), plainText := plainText env },
  { key := "location", priority := 530, description := "Location", type := some [.str], plainText := plainText env },
  { key := "city", priority := 531, description := "City", type := some [.str], plainText := plainText env },
  { key := "country", priority := 532, description := "Country", type := some [.str], plainText := plainText env },
  { key := "charset", priority := 540, description := "Charset", type := some [.str], plainText := plainText env },
  { key := "font_weight", priority := 550, description := "Font weight", plainText := plainText env },
  { key := "camera_aperture", priority := 520, description := "Camera aperture", plainText := plainText env },
  { key := "camera_focal", priority := 521, description := "Camera focal", plainText := plainText env },
  { key := "camera_exposure", priority := 522, description := "Camera exposure", plainText := plainText env },
  { key := "camera_brightness", priority := 530, description := "Camera brightness", plainText := plainText env },
  { key := "camera_model", priority := 531, description := "Camera model", type := some [.str], plainText := plainText env },
  { key := "camera_manufacturer", priority := 532, description := "Camera manufacturer", type := some [.str], plainText := plainText env },
  { key := "compression", priority := 600, description := "Compression", plainText := plainText env },
  { key := "copyright", priority := 601, description := "Copyright", type := some [.str], plainText := plainText env },
  { key := "url", priority := 602, description := "URL", type := some [.str], plainText := plainText env },
  { key := "frame_rate", priority := 603, description := "Frame rate", type := some [.int, .float], filter := some (.number (some (.int 1)) (some (.int 150))), textHandler := some (env.handler "humanFrameRate"), plainText := plainText env },
  { key := "bit_rate", priority := 604, description := "Bit rate", type := some [.int, .float], filter := some (.number (some (.int 1)) (some (.int 524288000))), textHandler := some (env.handler "humanBitRate"), plainText := plainText env },
  { key := "aspect_ratio", priority := 604, description := "Aspect ratio", type := some [.int, .float], plainText := plainText env },
  { key := "thumbnail_size", priority := 604, description := "Thumbnail size", type := some [.int, .float], textHandler := some (env.handler "humanFilesize"), plainText := plainText env },
  { key := "iso_speed_ratings", priority := 800, description := "ISO speed rating", plainText := plainText env },
  { key := "exif_version", priority := 801, description := "EXIF version", plainText := plainText env },
  { key := "date_time_original", priority := 802, description := "Date-time original", type := some [.datetime, .date], filter := some .datetime, textHandler := some (env.handler "humanDatetime"), conversion := some (setDatetime env), plainText := plainText env },
  { key := "date_time_digitized", priority := 803, description := "Date-time digitized", type := some [.datetime, .date], filter := some .datetime, textHandler := some (env.handler "humanDatetime"), conversion := some (setDatetime env), plainText := plainText env },
  { key := "compressed_bits_per_pixel", priority := 804, description := "Compressed bits per pixel", type := some [.int, .float], plainText := plainText env },
  { key := "shutter_speed_value", priority := 805, description := "Shutter speed", type := some [.int, .float], plainText := plainText env },
  { key := "aperture_value", priority := 806, description := "Aperture", plainText := plainText env },
  { key := "exposure_bias_value", priority := 807, description := "Exposure bias", plainText := plainText env },
  { key := "focal_length", priority := 808, description := "Focal length", plainText := plainText env },
  { key := "flashpix_version", priority := 809, description := "Flashpix version", plainText := plainText env },
  { key := "focal_plane_x_resolution", priority := 810, description := "Focal plane width", plainText := plainText env },
  { key := "focal_plane_y_resolution", priority := 811, description := "Focal plane height", type := some [.float], plainText := plainText env },
  { key := "focal_length_in_35mm_film", priority := 812, description := "Focal length in 35mm film", plainText := plainText env },
  { key := "os", priority := 900, description := "OS", type := some [.str], plainText := plainText env },
  { key := "producer", priority := 901, description := "Producer", type := some [.str], plainText := plainText env },
  { key := "comment", priority := 902, description := "Comment", type := some [.str], plainText := plainText env },
  { key := "format_version", priority := 950, description := "Format version", type := some [.str], plainText := plainText env },
  { key := "mime_type", priority := 951, description := "MIME type", type := some [.str], plainText := plainText env },
  { key := "endian", priority := 952, description := "Endianness", type := some [.str], plainText := plainText env } ]

/-! ## Metadata -/

/-- `Metadata`, metadata.py:13-33: the keys in order of registration.  The quality is not
modelled. -/
structure Metadata where
  header : Text
  data : List Data

/-- `Metadata(...)` -/
def Metadata.new (env : Env) (header : Text) : Metadata := ⟨header, registerAllItems env⟩

/-- Change one key. -/
def updateKey (key : String) (f : Data → Except PyErr Data) : List Data → Except PyErr (List Data)
  | [] => .error .key
  | d :: r =>
    if d.key = key then do
      let d' ← f d
      .ok (d' :: r)
    else do
      let r' ← updateKey key f r
      .ok (d :: r')

/-- `self.__data[key].add(value)` -/
def Metadata.addTo (cfg : Config) (m : Metadata) (key : String) (arg : Arg) : Except PyErr Metadata := do
  let l ← updateKey key (fun d => d.add cfg arg) m.data
  .ok { m with data := l }

/-- The assignment of `track_total` in `setTrackNumber`, setter.py:165-167. -/
def trackTotal (key : String) (arg : Arg) : Option Text :=
  if key = "track_number" then
    match arg with
    | .value (.text t) => (splitSlash t).map Prod.snd
    | .pair (.text t) _ => (splitSlash t).map Prod.snd
    | _ => none
  else none

/-- `__setattr__`, metadata.py:36-46.  An exception in the assignment of `track_total` would be
caught by `Data.add`; it cannot happen. -/
def Metadata.set (cfg : Config) (m : Metadata) (key : String) (arg : Arg) : Except PyErr Metadata :=
  match trackTotal key arg with
  | none => m.addTo cfg key arg
  | some t => do
    let m ← m.addTo cfg "track_total" (.value (.text t))
    m.addTo cfg key arg

/-- A history of assignments; an exception leaves the metadata as they were. -/
def Metadata.run (cfg : Config) (m : Metadata) : List (String × Arg) → Metadata
  | [] => m
  | (k, a) :: r =>
    match m.set cfg k a with
    | .ok m' => m'.run cfg r
    | .error _ => m.run cfg r

/-- `getItems`, metadata.py:51-55. -/
def Metadata.getItems (m : Metadata) (key : String) : Except PyErr (List Item) :=
  match m.data.find? (fun d => d.key = key) with
  | some d => .ok d.values
  | none => .error .value

/-! ## Export -/

/-- Insertion into a list in order of priority, behind the ones of the same priority. -/
def insertData (d : Data) : List Data → List Data
  | [] => [d]
  | e :: r => if d.priority < e.priority then d :: e :: r else e :: insertData d r

/-- `sorted(self, key=lambda data: data.priority)` (Python sorts are stable). -/
def sortData (l : List Data) : List Data := l.foldl (fun acc d => insertData d acc) []

/-- `MIN_PRIORITY`, `MAX_PRIORITY`, metadata_item.py:5-6. -/
def minPriority : Int := 100
def maxPriority : Int := 999

/-- The limit, metadata.py:154-158. -/
def limit : Option Int → Int
  | some p => min (max p minPriority) maxPriority
  | none => maxPriority

/-- The lines of a key, metadata.py:167-176. -/
def dataLines (env : Env) (human : Bool) (linePrefix : Text) (d : Data) : List Text :=
  let title := if human then txt d.description else txt d.key
  d.values.map fun item => linePrefix ++ title ++ txt ": " ++ (if human then item.text else plainText env item.value)

/-- The loop, metadata.py:162-176. -/
def exportLoop (env : Env) (priority : Int) (human : Bool) (linePrefix : Text) : List Data → List Text
  | [] => []
  | d :: r =>
    if priority < d.priority then []
    else if d.values.isEmpty then exportLoop env priority human linePrefix r
    else dataLines env human linePrefix d ++ exportLoop env priority human linePrefix r

/-- `if not title: title = self.header` -/
def titleOr (header : Text) : Option Text → Text
  | some (c :: r) => c :: r
  | _ => header

/-- `exportPlaintext`, metadata.py:134-180. -/
def Metadata.exportPlaintext (env : Env) (m : Metadata) (priority : Option Int) (human : Bool) (linePrefix : Text)
    (title : Option Text) : Option (List Text) :=
  let text := (titleOr m.header title ++ txt ":") ::
    exportLoop env (limit priority) human linePrefix (sortData m.data)
  if 1 < text.length then some text else none

/-- Assignment to a key of a Python `dict`, which keeps the place of a key that is there. -/
def dictSet {α : Type} (k : Text) (v : α) : List (Text × α) → List (Text × α)
  | [] => [(k, v)]
  | (k', v') :: r => if k' = k then (k', v) :: r else (k', v') :: dictSet k v r

/-- The loop of `exportDictionary`, metadata.py:202-218, into the inner dictionary.  The empty
dictionary put first (212) is replaced at once, as there is at least one value. -/
def dictLoop (env : Env) (priority : Int) (human : Bool) : List Data → List (Text × Text) → List (Text × Text)
  | [], acc => acc
  | d :: r, acc =>
    if priority < d.priority then acc
    else if d.values.isEmpty then dictLoop env priority human r acc
    else
      let field := if human then txt d.description else txt d.key
      let acc := d.values.foldl (fun acc item =>
        dictSet field (if human then item.text else plainText env item.value) acc) acc
      dictLoop env priority human r acc

/-- `exportDictionary`, metadata.py:182-219: one title and its dictionary. -/
def Metadata.exportDictionary (env : Env) (m : Metadata) (priority : Option Int) (human : Bool) (title : Option Text) :
    Text × List (Text × Text) :=
  (titleOr m.header title, dictLoop env (limit priority) human (sortData m.data) [])

/-- `__bool__`, metadata.py:221-222. -/
def Metadata.nonEmpty (m : Metadata) : Bool := m.data.any fun d => !d.values.isEmpty

/-! ## Groups -/

/-- `MultipleMetadata`, metadata.py:231-237. -/
structure Multiple where
  common : Metadata
  groups : Dict Text Metadata
  counters : List (Text × Nat)

/-- Decimal digits of a number. -/
def decimal (n : Nat) : Text := txt (toString n)

/-- `addGroup`, metadata.py:253-272. Returns the new state, also with an exception. -/
def Multiple.addGroup (m : Multiple) (key : Text) (meta_ : Metadata) (header : Option Text) :
    Multiple × Except PyErr Bool :=
  if !meta_.nonEmpty then (m, .ok false)
  else
    let (key, counters) :=
      if (txt "[]").isSuffixOf key then
        let base := key.take (key.length - 2)
        let n := ((m.counters.find? (fun p => p.1 = base)).map (fun p => p.2 + 1)).getD 1
        (base ++ txt "[" ++ decimal n ++ txt "]", dictSet base n m.counters)
      else (key, m.counters)
    let meta_ := match header with
      | some (c :: r) => { meta_ with header := c :: r }
      | _ => meta_
    match m.groups.append key meta_ with
    | .ok g => ({ m with groups := g, counters := counters }, .ok true)
    | .error e => ({ m with counters := counters }, .error e)

/-- `MultipleMetadata.exportPlaintext`, metadata.py:274-292. -/
def Multiple.exportPlaintext (env : Env) (m : Multiple) (priority : Option Int) (human : Bool) (linePrefix : Text) :
    Option (List Text) :=
  let text := (m.common.exportPlaintext env priority human linePrefix none).getD []
  let text := text ++ m.groups.items.flatMap fun (key, meta_) =>
    (meta_.exportPlaintext env priority human linePrefix (if human then none else some key)).getD []
  if text.length ≠ 0 then some text else none

/-- `MultipleMetadata.exportDictionary`, metadata.py:294-308; `text.update(value)` with one
title. -/
def Multiple.exportDictionary (env : Env) (m : Multiple) (priority : Option Int) (human : Bool) :
    List (Text × List (Text × Text)) :=
  m.groups.items.foldl (fun acc (key, meta_) =>
      let e := meta_.exportDictionary env priority human (if human then none else some key)
      dictSet e.1 e.2 acc)
    [m.common.exportDictionary env priority human none]

end Hachoir.Metadata
