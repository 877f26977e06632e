import Verif.Formats.Bmp
import Verif.Formats.Reader
import Mathlib.Data.Rat.Defs
import Mathlib.Algebra.Order.Ring.Rat

/-!
# What is told about JPEG images (`metadata/jpeg.py`) and the chunks it is taken from (`parser/image/jpeg.py`)

Numbers are exact where the code rounds floats.  Descriptions and comments are left out.
-/

namespace Hachoir.Formats.JpegMeta
open Hachoir Hachoir.Stream Hachoir.Field Hachoir.Formats

/-! ## Quality -/

/-- `JPEG_NATURAL_ORDER`, jpeg.py:86-94. -/
def order : List Nat := [
  0, 1, 8, 16, 9, 2, 3, 10,
  17, 24, 32, 25, 18, 11, 4, 5,
  12, 19, 26, 33, 40, 48, 41, 34,
  27, 20, 13, 6, 7, 14, 21, 28,
  35, 42, 49, 56, 57, 50, 43, 36,
  29, 22, 15, 23, 30, 37, 44, 51,
  58, 59, 52, 45, 38, 31, 39, 46,
  53, 60, 61, 54, 47, 55, 62, 63]

/-- `QuantizationTable`, jpeg.py:233-248: `coeffs` are the fields `coeff[…]` with their numbers. -/
structure Table where
  is16 : Nat
  index : Nat
  coeffs : List (Nat × Nat)
  deriving DecidableEq, Repr

def coefficients (is16 : Nat) : Rd (List Nat) := Rd.times (Rd.int (if is16 = 0 then 1 else 2) .big) 64

def table2 (is16 index : Nat) : Rd Table := do
  let vs ← coefficients is16
  pure ⟨is16, index, order.zip vs⟩

def tableOf : List Nat → Rd Table
  | [is16, index] => if 4 ≤ index then Rd.fail .parser else table2 is16 index
  | _ => Rd.fail .type

def table : Rd Table := do
  let bs ← Rd.bits .big [4, 4]
  tableOf bs

/-- `DefineQuantizationTable`, jpeg.py:254-258; `fuel` bounds the tables. -/
def tables (fuel : Nat) : Rd (List Table) := Rd.whileNotEof table fuel

/-- The field `coeff[i]`. -/
def coeff (t : Table) (i : Nat) : Except PyErr Nat :=
  match t.coeffs.lookup i with
  | some v => .ok v
  | none => .error .missingField

/-- `QUALITY_HASH_COLOR`, jpeg.py:34-45. -/
def hashColor : List Nat := [
  1020, 1015, 932, 848, 780, 735, 702, 679, 660, 645,
  632, 623, 613, 607, 600, 594, 589, 585, 581, 571,
  555, 542, 529, 514, 494, 474, 457, 439, 424, 410,
  397, 386, 373, 364, 351, 341, 334, 324, 317, 309,
  299, 294, 287, 279, 274, 267, 262, 257, 251, 247,
  243, 237, 232, 227, 222, 217, 213, 207, 202, 198,
  192, 188, 183, 177, 173, 168, 163, 157, 153, 148,
  143, 139, 132, 128, 125, 119, 115, 108, 104, 99,
  94, 90, 84, 79, 74, 70, 64, 59, 55, 49,
  45, 40, 34, 30, 25, 20, 15, 11, 6, 4,
  0]

/-- `QUALITY_SUM_COLOR`, jpeg.py:47-58. -/
def sumColor : List Nat := [
  32640, 32635, 32266, 31495, 30665, 29804, 29146, 28599, 28104, 27670,
  27225, 26725, 26210, 25716, 25240, 24789, 24373, 23946, 23572, 22846,
  21801, 20842, 19949, 19121, 18386, 17651, 16998, 16349, 15800, 15247,
  14783, 14321, 13859, 13535, 13081, 12702, 12423, 12056, 11779, 11513,
  11135, 10955, 10676, 10392, 10208, 9928, 9747, 9564, 9369, 9193,
  9017, 8822, 8639, 8458, 8270, 8084, 7896, 7710, 7527, 7347,
  7156, 6977, 6788, 6607, 6422, 6236, 6054, 5867, 5684, 5495,
  5305, 5128, 4945, 4751, 4638, 4442, 4248, 4065, 3888, 3698,
  3509, 3326, 3139, 2957, 2775, 2586, 2405, 2216, 2037, 1846,
  1666, 1483, 1297, 1109, 927, 735, 554, 375, 201, 128,
  0]

/-- `QUALITY_HASH_GRAY`, jpeg.py:60-71. -/
def hashGray : List Nat := [
  510, 505, 422, 380, 355, 338, 326, 318, 311, 305,
  300, 297, 293, 291, 288, 286, 284, 283, 281, 280,
  279, 278, 277, 273, 262, 251, 243, 233, 225, 218,
  211, 205, 198, 193, 186, 181, 177, 172, 168, 164,
  158, 156, 152, 148, 145, 142, 139, 136, 133, 131,
  129, 126, 123, 120, 118, 115, 113, 110, 107, 105,
  102, 100, 97, 94, 92, 89, 87, 83, 81, 79,
  76, 74, 70, 68, 66, 63, 61, 57, 55, 52,
  50, 48, 44, 42, 39, 37, 34, 31, 29, 26,
  24, 21, 18, 16, 13, 11, 8, 6, 3, 2,
  0]

/-- `QUALITY_SUM_GRAY`, jpeg.py:73-84. -/
def sumGray : List Nat := [
  16320, 16315, 15946, 15277, 14655, 14073, 13623, 13230, 12859, 12560,
  12240, 11861, 11456, 11081, 10714, 10360, 10027, 9679, 9368, 9056,
  8680, 8331, 7995, 7668, 7376, 7084, 6823, 6562, 6345, 6125,
  5939, 5756, 5571, 5421, 5240, 5086, 4976, 4829, 4719, 4616,
  4463, 4393, 4280, 4166, 4092, 3980, 3909, 3835, 3755, 3688,
  3621, 3541, 3467, 3396, 3323, 3247, 3170, 3096, 3021, 2952,
  2874, 2804, 2727, 2657, 2583, 2509, 2437, 2362, 2290, 2211,
  2136, 2068, 1996, 1915, 1858, 1773, 1692, 1620, 1552, 1477,
  1398, 1326, 1251, 1179, 1109, 1031, 961, 884, 814, 736,
  667, 592, 518, 441, 369, 292, 221, 151, 86, 64,
  0]

/-- The search of metadata/jpeg.py:160-166 from `index` on: the quality and if it is approximate. -/
def search (hash sum index : Nat) : List (Nat × Nat) → Option (Nat × Bool)
  | [] => none
  | (h, s) :: l =>
    if h ≤ hash ∨ s ≤ sum then some (index + 1, decide (h < hash ∨ s < sum))
    else search hash sum (index + 1) l

/-- The sum of all 64 coefficients, metadata/jpeg.py:137-141. -/
def sumOf (t : Table) : List Nat → Except PyErr Nat
  | [] => .ok 0
  | i :: is =>
    match coeff t i with
    | .error e => .error e
    | .ok v =>
      match sumOf t is with
      | .error e => .error e
      | .ok s => .ok (v + s)

def sumAll : List Table → Except PyErr Nat
  | [] => .ok 0
  | t :: ts =>
    match sumOf t (List.range 64) with
    | .error e => .error e
    | .ok v =>
      match sumAll ts with
      | .error e => .error e
      | .ok s => .ok (v + s)

/-- metadata/jpeg.py:144-158. -/
def hashOf : List Table → Except PyErr Nat
  | [] => .error .index
  | [t] => do
    let a ← coeff t 2
    let b ← coeff t 53
    .ok (a + b)
  | t :: u :: _ => do
    let a ← coeff t 2
    let b ← coeff t 53
    let c ← coeff u 0
    let d ← coeff u 63
    .ok (a + b + c + d)

/-- `computeQuality`, metadata/jpeg.py:123-166; an error leaves it out (fault_tolerant). -/
def quality (ts : List Table) : Option (Nat × Bool) :=
  match sumAll ts, hashOf ts with
  | .ok s, .ok h =>
    if 2 ≤ ts.length then search h s 0 ((hashColor.zip sumColor).take 100)
    else search h s 0 ((hashGray.zip sumGray).take 100)
  | _, _ => none

/-! ## Frame and APP0 -/

/-- `SOFComponent`, `StartOfFrame`, jpeg.py:156-175. -/
structure Frame where
  precision : Nat
  height : Nat
  width : Nat
  components : List (Nat × List Nat × Nat)
  deriving DecidableEq, Repr

def component : Rd (Nat × List Nat × Nat) := do
  let id ← Rd.int 1 .big
  let sample ← Rd.bits .big [4, 4]
  let quant ← Rd.int 1 .big
  pure (id, sample, quant)

def frame : Rd Frame := do
  let precision ← Rd.int 1 .big
  let height ← Rd.int 2 .big
  let width ← Rd.int 2 .big
  let n ← Rd.int 1 .big
  let components ← Rd.times component n
  pure ⟨precision, height, width, components⟩

/-- `JpegChunkApp0`, jpeg.py:97-123; the names of `x` and `y` depend on the unit. -/
structure App0 where
  major : Nat
  minor : Nat
  units : Nat
  x : Nat
  y : Nat
  thumbW : Nat
  thumbH : Nat
  thumb : Option (Bytes × Bytes)
  deriving DecidableEq, Repr

/-- jpeg.py:120-123. -/
def thumbOf (n : Nat) : Rd (Option (Bytes × Bytes)) := if n = 0 then pure none else do
  let palette ← Rd.raw 768
  let data ← Rd.raw n
  pure (some (palette, data))

def app02 : Rd App0 := do
  let major ← Rd.int 1 .big
  let minor ← Rd.int 1 .big
  let units ← Rd.int 1 .big
  let x ← Rd.int 2 .big
  let y ← Rd.int 2 .big
  let w ← Rd.int 1 .big
  let h ← Rd.int 1 .big
  let thumb ← thumbOf (w * h)
  pure ⟨major, minor, units, x, y, w, h, thumb⟩

def app0 : Rd App0 := do
  let jfif ← Rd.text .big .fixed .eightBit (some 5)
  if jfif ≠ [0x4A, 0x46, 0x49, 0x46, 0] then Rd.fail .parser else app02

structure ToldFrame where
  width : Option Nat
  height : Option Nat
  bits : Option Nat
  gray : Bool
  deriving DecidableEq, Repr

/-- `startOfFrame`, metadata/jpeg.py:106-120, with the filters of register.py. -/
def tellFrame (f : Frame) : ToldFrame :=
  ⟨Bmp.told 20000 f.width, Bmp.told 20000 f.height, Bmp.told 256 (8 * f.components.length), decide (f.components.length = 1)⟩

/-- `extractAPP0`, metadata/jpeg.py:169-174: dots per inch. -/
def tellDpi (a : App0) : Option (Option Nat × Option Nat) :=
  if a.units = 0 then none else some (Bmp.told 10000 a.x, Bmp.told 10000 a.y)

/-! ## GPS -/

/-- The value of a field of an entry; `none` for a number divided by 0 (exif.py:31-32, field.py:120-131). -/
inductive Val where
  | text (t : List Char)
  | num (q : Rat)
  | none
  deriving DecidableEq, Repr

/-- Tag and values of an entry of the GPS directory; no values if there is no field for them. -/
structure Entry where
  tag : Nat
  values : Option (List Val)
  deriving DecidableEq, Repr

/-- The variables of `readGPS`, metadata/jpeg.py:208-215. -/
structure Gps where
  latitudeRef : Option Int := none
  longitudeRef : Option Int := none
  latitude : Option (List Val) := none
  longitude : Option (List Val) := none
  altitudeRef : Int := 1
  altitude : Option Val := none
  timestamp : Option (List Char) := none
  datestamp : Option Val := none
  deriving DecidableEq, Repr

/-- `values[0]`. -/
def first : List Val → Except PyErr Val
  | [] => .error .index
  | v :: _ => .ok v

/-- `str(int(x))`, metadata/jpeg.py:243; texts are taken as errors. -/
def whole : Val → Except PyErr (List Char)
  | .num q => .ok (toString (q.num.tdiv q.den)).toList
  | .text _ => .error .value
  | .none => .error .type

def joined : List Val → Except PyErr (List (List Char))
  | [] => .ok []
  | v :: vs =>
    match whole v with
    | .error e => .error e
    | .ok t =>
      match joined vs with
      | .error e => .error e
      | .ok ts => .ok (t :: ts)

/-- The body of the loop, metadata/jpeg.py:216-243; the tags are those of exif.py:303-335. -/
def step (g : Gps) (e : Entry) : Except PyErr Gps :=
  match e.values with
  | none => .error .type
  | some vs =>
    if e.tag = 1 then (first vs).map fun v => { g with latitudeRef := some (if v = .text ['N'] then 1 else -1) }
    else if e.tag = 3 then (first vs).map fun v => { g with longitudeRef := some (if v = .text ['E'] then 1 else -1) }
    else if e.tag = 5 then (first vs).map fun v => { g with altitudeRef := if v = .num 1 then -1 else 1 }
    else if e.tag = 2 then .ok { g with latitude := some vs }
    else if e.tag = 4 then .ok { g with longitude := some vs }
    else if e.tag = 6 then (first vs).map fun v => { g with altitude := some v }
    else if e.tag = 0x1D then (first vs).map fun v => { g with datestamp := some v }
    else if e.tag = 7 then (joined vs).map fun ts => { g with timestamp := some (List.intercalate [':'] ts) }
    else .ok g

def steps (g : Gps) : List Entry → Except PyErr Gps
  | [] => .ok g
  | e :: es =>
    match step g e with
    | .error x => .error x
    | .ok g => steps g es

/-- `deg2float(*values)`, metadata/jpeg.py:14-15; texts are taken as errors. -/
def degrees : List Val → Except PyErr Rat
  | [.num d, .num m, .num s] => .ok (d + (m + s / 60) / 60)
  | _ => .error .type

/-- metadata/jpeg.py:244-253. -/
def angle (ref : Option Int) (values : Option (List Val)) : Except PyErr (Option Rat) :=
  match ref, values with
  | some r, some (v :: vs) => (degrees (v :: vs)).map fun q => some (if r < 0 then -q else q)
  | _, _ => .ok none

/-- metadata/jpeg.py:254-258. -/
def heightOf (ref : Int) : Option Val → Except PyErr (Option Rat)
  | some (.num q) => .ok (if q = 0 then none else some (if ref < 0 then -q else q))
  | some (.text _) => .error .type
  | _ => .ok none

/-- metadata/jpeg.py:259-262. -/
def dateOf (timestamp : Option (List Char)) : Option Val → Except PyErr (Option (List Char))
  | some (.text t) =>
    if t = [] then .ok none
    else
      match timestamp with
      | some s => .ok (some (if s = [] then t else t ++ ' ' :: s))
      | none => .ok (some t)
  | some (.num _) => .error .type
  | _ => .ok none

structure ToldGps where
  latitude : Option Rat := none
  longitude : Option Rat := none
  altitude : Option Rat := none
  date : Option (List Char) := none
  deriving DecidableEq, Repr

/-- `readGPS`, metadata/jpeg.py:206-262, for the GPS directory: an error ends it, what was told before is kept. -/
def readGps (es : List Entry) : ToldGps :=
  match steps {} es with
  | .error _ => {}
  | .ok g =>
    match angle g.latitudeRef g.latitude with
    | .error _ => {}
    | .ok lat =>
      match angle g.longitudeRef g.longitude with
      | .error _ => { latitude := lat }
      | .ok lon =>
        match heightOf g.altitudeRef g.altitude with
        | .error _ => { latitude := lat, longitude := lon }
        | .ok alt =>
          match dateOf g.timestamp g.datestamp with
          | .error _ => { latitude := lat, longitude := lon, altitude := alt }
          | .ok d => ⟨lat, lon, alt, d⟩

end Hachoir.Formats.JpegMeta
