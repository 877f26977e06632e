import Verif.Py
import Mathlib.Data.List.Sort

/-!
# Model of `getgaps` and `RootSeekableFieldSet._fixLastField`,
/repo/hachoir/field/seekable_field_set.py
-/

set_option linter.unusedVariables false

namespace Hachoir.Gaps
open Hachoir

/-- The loop of `getgaps`, /repo/hachoir/field/seekable_field_set.py:17-24, over
the sorted blocks `(s, l)`.  The generator is the list of everything it yields. -/
def gapsLoop (start end_ : Int) : List (Int × Int) → List (Int × Int)
  | [] => if start < end_ then [(start, end_ - start)] else []
  | (s, l) :: rest =>
    let out := if start < s then [(start, s - start)] else []
    let start := if start < s then s else start
    let start := if start < s + l then s + l else start
    out ++ gapsLoop start end_ rest

/-- `getgaps`, /repo/hachoir/field/seekable_field_set.py:7-24.  Python's `sorted`
is stable, as `insertionSort` is. -/
def getgaps (start length : Int) (blocks : List (Int × Int)) : List (Int × Int) :=
  gapsLoop start (start + length) (blocks.insertionSort (fun a b => a.1 ≤ b.1))

/-- The loop of `RootSeekableFieldSet._fixLastField` that deletes the last fields,
/repo/hachoir/field/seekable_field_set.py:58-60, with `_deleteField`
(/repo/hachoir/field/generic_field_set.py:257-262).  Fields are pairs (address in
the field set, size), last field first.  With no field left `values[-1]` is an
IndexError. -/
def deleteTooBig (size : Int) : List (Int × Int) → (current : Int) → Except PyErr (List (Int × Int) × Int)
  | fields, current =>
    if size < current then
      match fields with
      | [] => .error .index
      | f :: rest => deleteTooBig size rest (current - f.2)
    else .ok (fields, current)

/-- `max(a + b for a, b in blocks)`, ValueError if there are none. -/
def maxEnd : List (Int × Int) → Except PyErr Int
  | [] => .error .value
  | [b] => .ok (b.1 + b.2)
  | b :: rest =>
    match maxEnd rest with
    | .ok m => .ok (max (b.1 + b.2) m)
    | .error e => .error e

/-- `RootSeekableFieldSet._fixLastField`,
/repo/hachoir/field/seekable_field_set.py:46-81: the fields kept, the fields
added (`unparsed[i]`), and the new size.  `base` is the absolute address of the
field set; the absolute addresses used inside are made relative again by
`seekBit(start, relative=False)`.  Not modelled: names (the numbers of
`unparsed[]` come from `setUniqueFieldName`). -/
def fixLastField (base size current : Int) (fields : List (Int × Int)) :
    Except PyErr (List (Int × Int) × List (Int × Int) × Int) :=
  match deleteTooBig size fields.reverse current with
  | .error e => .error e
  | .ok (kept, _) =>
    let kept := kept.reverse
    let blocks := kept.map (fun f => (base + f.1, f.2))
    match maxEnd blocks with
    | .error e => .error e
    | .ok m =>
      let size := max size (m - base)
      .ok (kept, (getgaps base size blocks).map (fun g => (g.1 - base, g.2)), size)

end Hachoir.Gaps
