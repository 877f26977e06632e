import Verif.Py

/-!
# Events of field sets

/repo/hachoir/core/event_handler.py and `connectEvent`, `raiseEvent` of
/repo/hachoir/field/basic_field_set.py:77-115.  Handlers are of any type `H`; what a handler does
when it is called is not modelled (it does not connect or raise).  A call is the handler with the
arguments of the event, of any type `A`.
-/

set_option linter.unusedVariables false

namespace Hachoir.Events
open Hachoir

/-- The names of events, basic_field_set.py:78-99, and any other text. -/
inductive Name where
  | valueChanged | resized | inserted | replaced | setValue
  | unknown (text : List Nat)
deriving Repr, DecidableEq

/-- `EventHandler.handlers`, event_handler.py:7: a dictionary of lists. -/
abbrev Handlers (H : Type) := List (Name × List H)

/-- `EventHandler.connect`, event_handler.py:9-16. -/
def connect {H : Type} (name : Name) (h : H) : Handlers H → Handlers H
  | [] => [(name, [h])]
  | (k, hs) :: rest => if k = name then (k, hs ++ [h]) :: rest else (k, hs) :: connect name h rest

/-- `EventHandler.raiseEvent`, event_handler.py:18-25: the calls made. -/
def raise {H A : Type} (name : Name) (args : A) : Handlers H → List (H × A)
  | [] => []
  | (k, hs) :: rest => if k = name then hs.map fun h => (h, args) else raise name args rest

/-- `_event_handler` of every field set of a tree and `_global_event_handler` of the root. -/
structure Tree (H : Type) where
  handlers : List (Nat × Handlers H)      -- field sets that have one
  shared : Option (Handlers H)

/-- `_event_handler` of the field set `fs`. -/
def localHandler {H : Type} (fs : Nat) : List (Nat × Handlers H) → Option (Handlers H)
  | [] => none
  | (i, e) :: rest => if i = fs then some e else localHandler fs rest

/-- Setting `_event_handler` of the field set `fs`. -/
def setLocal {H : Type} (fs : Nat) (e : Handlers H) : List (Nat × Handlers H) → List (Nat × Handlers H)
  | [] => [(fs, e)]
  | (i, e') :: rest => if i = fs then (i, e) :: rest else (i, e') :: setLocal fs e rest

/-- `BasicFieldSet.connectEvent`, basic_field_set.py:77-106. -/
def connectEvent {H : Type} (t : Tree H) (fs : Nat) (name : Name) (h : H) (isLocal : Bool) :
    Except PyErr (Tree H) :=
  match name with
  | .unknown _ => .error .assertion
  | _ =>
    if isLocal then .ok { t with handlers := setLocal fs (connect name h ((localHandler fs t.handlers).getD [])) t.handlers }
    else .ok { t with shared := some (connect name h (t.shared.getD [])) }

/-- `BasicFieldSet.raiseEvent`, basic_field_set.py:108-115. -/
def raiseEvent {H A : Type} (t : Tree H) (fs : Nat) (name : Name) (args : A) : List (H × A) :=
  (match localHandler fs t.handlers with
   | some e => raise name args e
   | none => []) ++
  (match t.shared with
   | some e => raise name args e
   | none => [])

/-- What a program does with the events of a tree. -/
inductive Op (H A : Type) where
  | connect (fs : Nat) (name : Name) (h : H) (isLocal : Bool)
  | raise (fs : Nat) (name : Name) (args : A)
deriving Repr, DecidableEq

/-- A program from the tree `t`: the calls of each operation; a refused connection (an
AssertionError) changes nothing. -/
def run {H A : Type} (t : Tree H) : List (Op H A) → List (List (H × A))
  | [] => []
  | .connect fs name h isLocal :: ops =>
    match connectEvent t fs name h isLocal with
    | .error _ => [] :: run t ops
    | .ok t => [] :: run t ops
  | .raise fs name args :: ops => raiseEvent t fs name args :: run t ops

end Hachoir.Events
