import Verif.Field.Path

/-!
# The list of fields in the window (`wx/field_view/field_view_imp.py`)

The rows of the fields of one field set, of which more are known to the list as they are looked at.
-/

namespace Hachoir.Wx
open Hachoir.FieldSet

/-- What the list knows: the fields the field set has when it is read to its end, if it has a parent, and the number of rows (`SetItemCount`). -/
structure ListView where
  total : Nat
  parent : Bool
  count : Nat
  deriving DecidableEq, Repr

/-- A row: `../`, a field, or an error. -/
inductive ListRow where
  | up
  | field (i : Nat)
  | missing
  deriving DecidableEq, Repr

/-- `parent_count`, field_view_imp.py:121-123. -/
def ListView.above (v : ListView) : Nat := if v.parent then 1 else 0

/-- The loop that counts, field_view_imp.py:81-85: `left` fields are to come. -/
def countFields : (left : Nat) → (count : Nat) → Nat
  | 0, count => count
  | left + 1, count => if 1000 < count + 1 then count + 1 else countFields left (count + 1)

/-- `fill_view`, field_view_imp.py:80-92. -/
def fillView (total : Nat) (parent : Bool) : ListView := ⟨total, parent, countFields total 0 + if parent then 1 else 0⟩

/-- The rows known after a look at the field `i`, field_view_imp.py:124-130. -/
def moreRows (v : ListView) (i : Nat) : ListView :=
  if i + 1000 < v.total then
    if v.count < i + 1000 + v.above then { v with count := i + 1000 + v.above } else v
  else { v with count := v.total + v.above }

/-- `OnGetItemTextImp`, field_view_imp.py:112-132, up to the text of the field. -/
def lookAt (v : ListView) (item : Nat) : ListView × ListRow :=
  if v.parent = true ∧ item = 0 then (v, .up)
  else (moreRows v (item - v.above), if item - v.above < v.total then .field (item - v.above) else .missing)

/-- `format_name`, format.py:22-27: the text in the column of names; it is the key of `on_item_selected`, field_view_imp.py:35-39. -/
def rowName : Fld → Name
  | .leaf n _ _ => n
  | .set n _ _ => n ++ ['/']

end Hachoir.Wx
