import Verif.Formats.Asf

/-!
# Pictures of games of Blizzard (`parser/game/blp.py`)
-/

namespace Hachoir.Formats.Blp
open Hachoir Hachoir.Stream Hachoir.Field Hachoir.Formats

/-- A number of Python as `interp_avg` has it: an integer, or the quotient of the float division, told by its numerator and divisor. -/
inductive Num
  | int (n : Nat)
  | float (a n : Nat)
  deriving DecidableEq

/-- `interp_avg` on integers, blp.py:114-116. -/
def interp (low high n : Nat) : List Num := (List.range (n - 1)).map fun k => .float (low * (n - (k + 1)) + high * (k + 1)) n

/-- `interp_avg` on lists, blp.py:117-121: one list for every step. -/
def interpLists (low high : List Nat) (n : Nat) : List (List Num) :=
  (List.range (n - 1)).map fun k => (List.zip low high).map fun p => .float (p.1 * (n - (k + 1)) + p.2 * (k + 1)) n

/-- `data[i] << (8 - bits[i])`, blp.py:128: a float can not be shifted. -/
def shifted (x : Num) (bits : Nat) : Except PyErr Nat :=
  match x with
  | .int n => .ok (n * 2 ^ (8 - bits))
  | .float _ _ => .error .type

/-- `color_name`, blp.py:124-129: the three numbers of which the digits are made; an item that is missing is an IndexError. -/
def colorName (data : List Num) (bits : List Nat) : Except PyErr (List Nat) :=
  match data, bits with
  | x :: y :: z :: _, a :: b :: c :: _ =>
    match shifted x a with
    | .error e => .error e
    | .ok r =>
      match shifted y b with
      | .error e => .error e
      | .ok g =>
        match shifted z c with
        | .error e => .error e
        | .ok b => .ok [r, g, b]
  | _, _ => .error .index

/-- The comparison of lists of Python, `values[0] > values[1]`, blp.py:149. -/
def listGreater : List Nat → List Nat → Bool
  | [], _ => false
  | _ :: _, [] => true
  | a :: as, b :: bs => if a = b then listGreater as bs else decide (b < a)

/-- What is told of a pixel, blp.py:157-161. -/
inductive Pixel
  | transparent
  | color (rgb : List Nat)
  deriving DecidableEq

/-- The list `values`, blp.py:146-153; None is the transparent colour. -/
def palette (always : Bool) (c0 c1 : List Nat) : List (Option (List Num)) :=
  [some (c0.map .int), some (c1.map .int)] ++
    (if listGreater c0 c1 || always then (interpLists c0 c1 3).map some else (interpLists c0 c1 2).map some ++ [none])

/-- blp.py:155-161. -/
def pixel (values : List (Option (List Num))) (p : Nat) : Except PyErr Pixel :=
  match values[p]? with
  | none => .error .index
  | some none => .ok .transparent
  | some (some color) =>
    match colorName color [5, 6, 5] with
    | .error e => .error e
    | .ok rgb => .ok (.color rgb)

/-- The pixels of a block up to the first one that raises an exception; what is behind it becomes a raw field (blp.py:154-162 in a field set of told size). -/
def pixels (values : List (Option (List Num))) : List Nat → List Pixel
  | [] => []
  | p :: ps =>
    match pixel values p with
    | .error _ => []
    | .ok x => x :: pixels values ps

/-- `DXT1`, blp.py:132-162: both colours (red, green and blue) and what is told of the pixels. The bits of all pixels are read at once. -/
def dxt1 (always : Bool) : Rd (List Nat × List Nat × List Pixel) :=
  Rd.bind (Rd.bits .little [5, 6, 5]) fun c0 => Rd.bind (Rd.bits .little [5, 6, 5]) fun c1 => Rd.bind (Rd.bits .little (List.replicate 16 2)) fun ps =>
    Rd.pure (c0.reverse, c1.reverse, pixels (palette always c0.reverse c1.reverse) ps)

/-- `"%i" % alpha`, blp.py:198: the whole part; that of the float quotient is that of the quotient, since both numbers are below 2048. -/
def whole : Num → Nat
  | .int n => n
  | .float a n => a / n

/-- The list `values` of `DXT5Alpha`, blp.py:185-194. -/
def alphas (a0 a1 : Nat) : List Num :=
  [.int a0, .int a1] ++ (if a1 < a0 then interp a0 a1 7 else interp a0 a1 5 ++ [.int 0, .int 255])

/-- `DXT5Alpha`, blp.py:181-199: both values and what is told of the pixels. -/
def dxt5Alpha : Rd (Nat × Nat × List Nat) :=
  Rd.bind (Rd.int 1 .little) fun a0 => Rd.bind (Rd.int 1 .little) fun a1 => Rd.bind (Rd.bits .little (List.replicate 16 3)) fun ps =>
    Rd.pure (a0, a1, ps.map fun p => whole ((alphas a0 a1).getD p (.int 0)))

/-- A picture: compressed, or the rows of indexes and of alphas. -/
inductive Mip
  | jpeg (i : Nat) (data : Bytes)
  | rows (i : Nat) (indexes : List (List Nat)) (alphas : Option (List (List Nat)))
  | other (i : Nat)

/-- `GenericVector` of bytes, /repo/hachoir/field/vector.py:6-26. -/
def row (width : Nat) : Rd (List Nat) := if width = 0 then Rd.fail .parser else Rd.times (Rd.int 1 .little) width

/-- `Generic2DArray`, blp.py:28-40. -/
def grid (width height : Nat) : Rd (List (List Nat)) := Rd.times (row width) height

/-- blp.py:98-103. `halved` tells that width and height are floats (blp.py:104-105), for which `range` raises a TypeError (blp.py:39). -/
def mip (compression type width height : Nat) (halved : Bool) (i size : Nat) : Rd Mip :=
  if compression = 0 then Rd.bind (Rd.raw size) fun d => Rd.pure (.jpeg i d)
  else if compression = 1 then
    if halved then Rd.fail .type
    else Rd.bind (grid width height) fun l =>
      if type = 3 ∨ type = 4 then Rd.bind (grid width height) fun a => Rd.pure (.rows i l (some a)) else Rd.pure (.rows i l none)
  else Rd.pure (.other i)

/-- blp.py:92-105, over the number, place and size of pictures. -/
def mips (compression type width height : Nat) : Bool → List (Nat × Nat × Nat) → Rd (List Mip)
  | _, [] => Rd.pure []
  | halved, (i, offset, size) :: l =>
    if offset = 0 ∨ size = 0 then mips compression type width height halved l
    else Rd.bind (Rd.seek offset) fun _ => Rd.bind (mip compression type width height halved i size) fun m =>
      Rd.bind (mips compression type width height true l) fun r => Rd.pure (m :: r)

end Hachoir.Formats.Blp
