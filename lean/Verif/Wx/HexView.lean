import Verif.Wx.FileCache

/-!
# The window of bytes (`wx/hex_view/hex_view.py`)

Heights are whole numbers of pixels, as wx gives them; widths (which are fractions) are left out.
-/

namespace Hachoir.Wx
open Hachoir

/-- The layout: height of the window, height of a character, characters in a row (hex_view.py:8-76). -/
structure Layout where
  height : Nat
  char : Nat
  cols : Nat
  deriving DecidableEq, Repr

/-- `textrows`, hex_view.py:37-41. -/
def Layout.rows (l : Layout) : Nat := l.height / l.char + 2

/-- The height of everything, hex_view.py:291-294. -/
def Layout.total (l : Layout) (size : Nat) : Nat := max ((size + l.cols - 1) / l.cols * l.char) l.height

/-- `Scroll` of wx: up to where the last row is at the bottom of the window. -/
def scroll (l : Layout) (size y : Nat) : Nat := min y (l.total size - l.height)

/-- `scroll_to`, hex_view.py:216-251, of a file of this size, with the window at `cur`. -/
def scrollTo (l : Layout) (size cur start stop : Nat) : Nat :=
  let startrow := start / l.cols
  let endrow := (stop + l.cols - 1) / l.cols
  if (l.rows : Int) - 2 ≤ (endrow : Int) - startrow then scroll l size (startrow * l.char)
  else
    let s1 : Int := startrow * l.char
    let s2 : Int := ((endrow : Int) - ((l.rows : Int) - 2)) * l.char
    if s2 ≤ cur ∧ (cur : Int) ≤ s1 then cur
    else if s2 ≤ s1 ∧ s1 ≤ cur then scroll l size s1.toNat
    else scroll l size s2.toNat

/-- `get_scroll_addr`, hex_view.py:126-131. -/
def scrollAddr (l : Layout) (cur : Nat) : Nat × Nat := (cur / l.char * l.cols, cur % l.char)

/-- The rows and bytes under which `highlight_region` draws, hex_view.py:133-144. -/
def highlight (l : Layout) (cur start stop : Nat) : List (Nat × Nat × Nat) :=
  (List.range l.rows).filterMap fun row =>
    let rowstart := (scrollAddr l cur).1 + row * l.cols
    let rowend := rowstart + l.cols
    if rowend ≤ start ∨ stop ≤ rowstart then none else some (row, max start rowstart, min stop rowend)

/-- The rows `OnPaint` draws: the address, the bytes, and the height at which they are, hex_view.py:174-191. -/
def paint (l : Layout) (cur : Nat) (text : Bytes) : List (Nat × Bytes × Int) :=
  (List.range l.rows).map fun r => ((scrollAddr l cur).1 + r * l.cols, (text.drop (r * l.cols)).take l.cols, (r * l.char : Int) - (scrollAddr l cur).2)

/-- The text of `OnPaint`, hex_view.py:184-185. -/
def paintText (size : Nat) (l : Layout) (cur : Nat) (c : FileCache) : Except PyErr Bytes :=
  (get size (scrollAddr l cur).1 ((scrollAddr l cur).1 + l.cols * l.rows) c).1

/-- The bytes of a field, hex_view.py:305. -/
def fieldSpan (address size : Nat) : Nat × Nat := (address / 8, (address + size + 7) / 8)

end Hachoir.Wx
