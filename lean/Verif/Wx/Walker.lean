import Verif.Stream.Input

/-!
# Walking over the tree of the text viewer (`urwid.py`)

A node is told by the indexes of the nodes on the way to it from the root. `Node.sync` (urwid.py:105-108) makes the index of a node its place in the list of its parent.
-/

namespace Hachoir.Wx.Walker
open Hachoir

/-- `Node`, urwid.py:66-86, of which only the children matter here. -/
inductive Tree
  | node (childs : List Tree)

def Tree.childs : Tree → List Tree
  | .node l => l

/-- The node at the end of a way. -/
def sub : Tree → List Nat → Option Tree
  | t, [] => some t
  | t, i :: p =>
    match t.childs[i]? with
    | none => none
    | some c => sub c p

/-- `len(pos.childs)`. -/
def count (t : Tree) (p : List Nat) : Nat :=
  match sub t p with
  | none => 0
  | some c => c.childs.length

/-- The loop of `get_next`, urwid.py:333-338; the way is told from its end. -/
def climb (t : Tree) : List Nat → Option (List Nat)
  | [] => none
  | i :: up => if i + 1 < count t up.reverse then some (up.reverse ++ [i + 1]) else climb t up

/-- `get_next`, urwid.py:330-338. -/
def getNext (t : Tree) (p : List Nat) : Option (List Nat) := if 0 < count t p then some (p ++ [0]) else climb t p.reverse

/-- `while pos.childs: pos = pos.childs[-1]`, urwid.py:343-344; `fuel` bounds the number of rounds. -/
def deepest (t : Tree) : Nat → List Nat → Option (List Nat)
  | 0, _ => none
  | fuel + 1, p => if 0 < count t p then deepest t fuel (p ++ [count t p - 1]) else some p

/-- `get_prev`, urwid.py:340-347; the way is told from its end. An index of 0, like that of the root, which is None, is false. -/
def getPrevUp (t : Tree) (fuel : Nat) : List Nat → Option (List Nat)
  | [] => none
  | i :: up => if i = 0 then some up.reverse else deepest t fuel (up.reverse ++ [i - 1])

def getPrev (t : Tree) (fuel : Nat) (p : List Nat) : Option (List Nat) := getPrevUp t fuel p.reverse

end Hachoir.Wx.Walker
