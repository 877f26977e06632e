/-!
# The tree of fields in the window (`wx/tree_view/tree_view.py`)

One node of the tree.  Names are never empty; a field that cannot be read ends the children, as in the code.
-/

namespace Hachoir.Wx

/-- A node: `FieldNodeData`, tree_view.py:7-13, with the items below it (`none` is "loading..." or "more..."), and what `seen` has. -/
structure TreeNode where
  /-- the fields of its field set, and if they are field sets -/
  children : List (String × Bool)
  items : List (Option String)
  seen : List String
  limit : Nat
  enumerated : Bool
  deriving DecidableEq, Repr

/-- `setup_new_node`, tree_view.py:38-40, with `MAXITEMS` of line 4. -/
def TreeNode.new (children : List (String × Bool)) : TreeNode := ⟨children, [none], [], 1000, false⟩

/-- `data.seen.add`, tree_view.py:75. -/
def addSeen (seen : List String) (c : String) : List String := if c ∈ seen then seen else seen ++ [c]

/-- The loop, tree_view.py:58-78, over the children that are left. -/
def treeWalk (target : Option String) (limit : Nat) : List (String × Bool) → List String → List (Option String) → List String × List (Option String) × Bool
  | [], seen, items => (seen, items, true)
  | (c, set) :: rest, seen, items =>
    let items := if set then items ++ [some c] else items
    let seen := addSeen seen c
    if (target = none ∨ target = some c) ∧ limit ≤ seen.length then (seen, items ++ [none], false) else treeWalk target limit rest seen items

/-- `if target in data.seen`, tree_view.py:47-48. -/
def sought (target : Option String) (seen : List String) : Option String :=
  match target with
  | none => none
  | some t => if t ∈ seen then none else some t

/-- `enumerate_node`, tree_view.py:42-78. -/
def enumerate (target : Option String) (extend : Nat) (d : TreeNode) : TreeNode :=
  if d.enumerated then d
  else
    let n := d.seen.length
    let limit := max n (d.limit + extend)
    if n = limit ∧ sought target d.seen = none then { d with limit := limit }
    else
      let r := treeWalk (sought target d.seen) limit (d.children.drop n) d.seen d.items.dropLast
      { d with limit := limit, seen := r.1, items := r.2.1, enumerated := r.2.2 }

end Hachoir.Wx
