import Verif.Py

/-!
# Static field sets and vectors

/repo/hachoir/field/static_field_set.py and /repo/hachoir/field/vector.py.  The classes of a
program are numbered in the order of their definition; class attributes are looked up in the
class, then in its base class.  `cls._class is not cls.__name__` compares the names as values (the
names of classes are interned).  Simplifications: single inheritance; a field type that is no
static field set has a fixed size once its arguments are given, or none (`static_size is None`);
a vector is made with its default names.
-/

set_option linter.unusedVariables false

namespace Hachoir.Static
open Hachoir

/-- An item of `format`: a plain field type with its static size for the arguments, or a class
of static field sets. -/
inductive Item where
  | plain (size : Option Nat)
  | sub (cls : Nat)
deriving Repr, DecidableEq

/-- A subclass of `StaticFieldSet`: its name, its base class (`none`: `StaticFieldSet` itself) and
the attribute `format` of the class itself. -/
structure ClassDef where
  name : Nat
  base : Option Nat
  format : Option (List Item)
deriving Repr, DecidableEq

/-- The classes of a program. -/
abbrev Classes := Nat → ClassDef

/-- The class attributes `_class` and `static_size` (as a number) set by `__new__`. -/
structure State where
  names : Nat → Option Nat
  sizes : Nat → Option Nat

/-- Before the first instance: `_class` is `None` and `static_size` the class method. -/
def start : State := ⟨fun _ => none, fun _ => none⟩

/-- Lookup of a class attribute; `n` bounds the number of base classes. -/
def lookup (T : Classes) (attr : Nat → Option α) : Nat → Nat → Option α
  | 0, _ => none
  | n + 1, c =>
    match attr c with
    | some v => some v
    | none =>
      match (T c).base with
      | none => none
      | some b => lookup T attr n b

/-- `_computeItemSize` and the sum of `_computeStaticSize`, static_field_set.py:27-38, 47-49, where
`classSize` gives the size of a class of static field sets. -/
def itemsSize (classSize : Nat → Except PyErr Nat) : List Item → Except PyErr Nat
  | [] => .ok 0
  | .plain none :: _ => .error .parser
  | .plain (some size) :: items =>
    match itemsSize classSize items with
    | .error e => .error e
    | .ok rest => .ok (size + rest)
  | .sub c :: items =>
    match classSize c with
    | .error e => .error e
    | .ok size =>
      match itemsSize classSize items with
      | .error e => .error e
      | .ok rest => .ok (size + rest)

/-- The size of a part: `item_class.static_size` as a number, or what the class method returns,
static_field_set.py:33-41. -/
def partSize : Option Nat → Except PyErr Nat → Except PyErr Nat
  | some size, _ => .ok size
  | none, computed => computed

/-- `_computeStaticSize`, static_field_set.py:47-49; a class whose `static_size` is still the
class method computes it (static_field_set.py:33-37), without storing it.  `n` bounds the nesting
in the model. -/
def classSize (T : Classes) (st : State) : Nat → Nat → Except PyErr Nat
  | 0, _ => .error .endless
  | n + 1, c =>
    match lookup T (fun c => (T c).format) (c + 1) c with
    | none => .error .type
    | some items =>
      itemsSize (fun d => partSize (lookup T st.sizes (d + 1) d) (classSize T st n d)) items

/-- `f` with the value `v` at `c`. -/
def update (f : Nat → Option Nat) (c v : Nat) : Nat → Option Nat := fun d => if d = c then some v else f d

/-- The size of a new field set whose size is not given, basic_field_set.py:36-38: `none` is an
unknown size. -/
def initSize (T : Classes) (st : State) (c : Nat) : Except PyErr (Option Nat) :=
  match lookup T st.sizes (c + 1) c with
  | none => .error .assertion
  | some 0 => .ok none
  | some (n + 1) => .ok (some (n + 1))

/-- `StaticFieldSet.__new__`, static_field_set.py:19-24, then the size of the instance. -/
def newInstance (T : Classes) (st : State) (c : Nat) : State × Except PyErr (Option Nat) :=
  match lookup T (fun c => (T c).format) (c + 1) c with
  | none => (st, .error .assertion)
  | some _ =>
    if lookup T st.names (c + 1) c ≠ some (T c).name then
      let st := { st with names := update st.names c (T c).name }
      match classSize T st (c + 1) c with
      | .error e => (st, .error e)
      | .ok size =>
        let st := { st with sizes := update st.sizes c size }
        (st, initSize T st c)
    else (st, initSize T st c)

/-- `GenericVector.__init__`, vector.py:6-17, for items of a class of static field sets: the size
of the vector. -/
def vectorSize (T : Classes) (st : State) (c : Nat) (nb_items : Int) : Except PyErr Int :=
  match lookup T st.sizes (c + 1) c with
  | none => .error .assertion
  | some size =>
    if ¬ 0 < nb_items then .error .parser
    else .ok (nb_items * size)

/-- What a program does with the classes. -/
inductive Op where
  | inst (c : Nat)
  | vector (c : Nat) (nb_items : Int)
deriving Repr, DecidableEq

/-- The size of an instance or a vector, or the exception. -/
inductive Made where
  | inst (size : Except PyErr (Option Nat))
  | vector (size : Except PyErr Int)
deriving Repr, DecidableEq

/-- A program: it makes instances and vectors, in any order. -/
def run (T : Classes) (st : State) : List Op → List Made
  | [] => []
  | .inst c :: ops => .inst (newInstance T st c).2 :: run T (newInstance T st c).1 ops
  | .vector c nb_items :: ops => .vector (vectorSize T st c nb_items) :: run T st ops

end Hachoir.Static
