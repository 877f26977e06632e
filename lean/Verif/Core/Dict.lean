import Verif.Py

/-!
# Model of `Dict`, /repo/hachoir/core/dict.py

Python dictionaries are association lists in insertion order.
-/

set_option linter.unusedVariables false

namespace Hachoir.Core
open Hachoir

variable {κ β : Type} [DecidableEq κ]

/-- Python `d.get(k)` of a dictionary. -/
def aget (d : List (κ × Nat)) (k : κ) : Option Nat :=
  match d with
  | [] => none
  | (k', i) :: r => if k' = k then some i else aget r k

/-- Python `d[k] = i`: keep the place of an existing key, else append. -/
def aset (d : List (κ × Nat)) (k : κ) (i : Nat) : List (κ × Nat) :=
  match d with
  | [] => [(k, i)]
  | (k', j) :: r => if k' = k then (k', i) :: r else (k', j) :: aset r k i

/-- Python `del d[k]` of an existing key. -/
def adel (d : List (κ × Nat)) (k : κ) : List (κ × Nat) :=
  match d with
  | [] => []
  | (k', j) :: r => if k' = k then r else (k', j) :: adel r k

/-- `Dict`, /repo/hachoir/core/dict.py:14-28: key => index, index => key,
index => value. -/
structure Dict (κ β : Type) where
  index : List (κ × Nat)
  keys : List κ
  values : List β
  deriving DecidableEq, Repr

/-- `Dict()`. -/
def Dict.empty : Dict κ β := { index := [], keys := [], values := [] }

/-- `__getitem__`, lines 50-59. -/
def Dict.get (d : Dict κ β) (k : κ) : Except PyErr β :=
  match aget d.index k with
  | none => .error .key
  | some i =>
    match d.values[i]? with
    | none => .error .index
    | some v => .ok v

/-- `__setitem__`, lines 61-62. -/
def Dict.set (d : Dict κ β) (k : κ) (v : β) : Except PyErr (Dict κ β) :=
  match aget d.index k with
  | none => .error .key
  | some i => if i < d.values.length then .ok { d with values := d.values.set i v } else .error .index

/-- `append`, lines 64-72. -/
def Dict.append (d : Dict κ β) (k : κ) (v : β) : Except PyErr (Dict κ β) :=
  if (aget d.index k).isSome then .error .uniqKey
  else .ok { index := aset d.index k d.values.length, keys := d.keys ++ [k], values := d.values ++ [v] }

/-- `items`, lines 83-95. -/
def Dict.items (d : Dict κ β) : List (κ × β) := d.keys.zip d.values

/-- `replace`, lines 109-129. -/
def Dict.replace (d : Dict κ β) (old new : κ) (v : β) : Except PyErr (Dict κ β) :=
  match aget d.index old with
  | none => .error .key
  | some i =>
    if i < d.values.length then
      let d := { d with values := d.values.set i v }
      if old ≠ new then
        let index := aset (adel d.index old) new i
        if i < d.keys.length then .ok { d with index := index, keys := d.keys.set i new } else .error .index
      else .ok d
    else .error .index

/-- First loop of `__delitem__`, lines 148-151: delete the first key whose index
is `i`. -/
def adelIndex (d : List (κ × Nat)) (i : Nat) : List (κ × Nat) :=
  match d with
  | [] => []
  | (k, j) :: r => if j = i then r else (k, j) :: adelIndex r i

/-- `__delitem__`, lines 131-156. -/
def Dict.delete (d : Dict κ β) (i : Int) : Except PyErr (Dict κ β) :=
  let i := if i < 0 then i + d.values.length else i
  if 0 ≤ i ∧ i < d.values.length then
    let n := i.toNat
    .ok { values := d.values.eraseIdx n, keys := d.keys.eraseIdx n,
          index := (adelIndex d.index n).map (fun kj => if n < kj.2 then (kj.1, kj.2 - 1) else kj) }
  else .error .index

/-- Python `list.insert(n, x)` for `0 ≤ n ≤ len`. -/
def linsert {α : Type} (l : List α) (n : Nat) (x : α) : List α := l.take n ++ x :: l.drop n

/-- `insert`, lines 158-179. -/
def Dict.insert (d : Dict κ β) (i : Int) (k : κ) (v : β) : Except PyErr (Dict κ β) :=
  if (aget d.index k).isSome then .error .uniqKey
  else
    let i := if i < 0 then i + d.values.length else i
    if 0 ≤ i ∧ i ≤ d.values.length then
      let n := i.toNat
      .ok { index := aset (d.index.map (fun kj => if n ≤ kj.2 then (kj.1, kj.2 + 1) else kj)) k n,
            keys := linsert d.keys n k, values := linsert d.values n v }
    else .error .index

/-- Operations. -/
inductive DictOp (κ β : Type)
  | append (k : κ) (v : β)
  | set (k : κ) (v : β)
  | replace (old new : κ) (v : β)
  | delete (i : Int)
  | insert (i : Int) (k : κ) (v : β)
  deriving DecidableEq, Repr

/-- One operation; an exception leaves the dictionary as it was at the moment of
the raise, which in all of these methods is before the first change. -/
def Dict.step (d : Dict κ β) (op : DictOp κ β) : Dict κ β × Option PyErr :=
  let r := match op with
    | .append k v => d.append k v
    | .set k v => d.set k v
    | .replace old new v => d.replace old new v
    | .delete i => d.delete i
    | .insert i k v => d.insert i k v
  match r with
  | .ok d' => (d', none)
  | .error e => (d, some e)

/-- A history: final dictionary and the outcome of every operation. -/
def Dict.run : Dict κ β → List (DictOp κ β) → Dict κ β × List (Option PyErr)
  | d, [] => (d, [])
  | d, op :: ops =>
    let (d', o) := d.step op
    let (d'', os) := Dict.run d' ops
    (d'', o :: os)

end Hachoir.Core
