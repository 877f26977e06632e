import Verif.Stream.Input

/-!
# Models of `ConcatStream` and `FragmentedStream`, /repo/hachoir/stream/input.py:506-619

The underlying streams have a known size, so that their `read` has no side
effect.
-/

set_option linter.unusedVariables false

namespace Hachoir.Stream
open Hachoir

/-- `ConcatStream.read`, /repo/hachoir/stream/input.py:599-619, for two streams of
known size (`_size == self._size` then always holds).  A read of 0 bits beyond
the first stream returns `None` as shift, which no caller accepts; it is
modelled as a TypeError. -/
def concatRead (s0 : InputStream) (size0 : Nat) (s1 : InputStream) (address : Int) (size : Nat) : ReadResult :=
  let s : Int := size0 - address
  if s > 0 then
    let n0 := min size s.toNat
    match s0.read address n0 with
    | .error e => .error e
    | .ok (shift, data, w) =>
      if w then .error .assertion
      else if size - n0 = 0 then .ok (shift, data, false)
      else
        match s1.read 0 (size - n0) with
        | .error e => .error e
        | .ok (u, v, missing) =>
          if missing then .error .readStream
          else if u ≠ 0 then .error .assertion
          else .ok (shift, data ++ v, false)
  else if size = 0 then .error .type
  else
    match s1.read (-s) size with
    | .error e => .error e
    | .ok (u, v, missing) => if missing then .error .readStream else .ok (u, v, false)

/-- `ConcatStream.__init__`, /repo/hachoir/stream/input.py:583-591, for streams of
known size. -/
def concatStream (streams : List InputStream) : Except PyErr InputStream :=
  match streams with
  | [s0, s1] =>
    match s0.size, s1.size with
    | some z0, some z1 =>
      if z0 + z1 = 0 then .error .nullStream
      else .ok { read := concatRead s0 z0 s1, size := some (z0 + z1) }
    | none, _ => .error .notImplemented
    | _, none => .error .notImplemented     -- not modelled: second stream of unknown size
  | [] => .error .index
  | [_] => .error .index
  | _ => .error .notImplemented

/-- `FragmentedStream`, /repo/hachoir/stream/input.py:506-519.  `fragments` holds
`(a, fa, fs)`: address in this stream, address in the parent stream, size.
`next` is what following the attribute `next` of the fields will give: for each
following field the result of `getData()`, `none` if that is `None`. -/
structure FragState where
  fragments : List (Nat × Nat × Nat)
  next : List (Option (Nat × Nat))
  currentSize : Nat
  size : Option Nat
  deriving DecidableEq, Repr

/-- `InputStream._setSize`, /repo/hachoir/stream/input.py:156-167 (no client). -/
def FragState.setSize (s : FragState) : Except PyErr FragState :=
  let ok := match s.size with
    | none => true
    | some z => decide (s.currentSize ≤ z)
  if ok = false then .error .assertion
  else if s.size ≠ some s.currentSize then
    if s.currentSize = 0 then .error .nullStream
    else .ok { s with size := some s.currentSize }
  else .ok s

/-- `FragmentedStream.__init__`, /repo/hachoir/stream/input.py:508-519: `data` is
`field.getData()` (address and size). -/
def FragState.init (data : Nat × Nat) (next : List (Option (Nat × Nat))) : Except PyErr FragState :=
  let s : FragState := { fragments := [(0, data.1, data.2)], next := next, currentSize := 0, size := none }
  match next with
  | [] => FragState.setSize { s with currentSize := data.2 }
  | _ => .ok s

/-- The loop of `FragmentedStream._feed`, /repo/hachoir/stream/input.py:530-549;
`psize` is the size of the parent stream, whose `sizeGe(x)` is `x <= psize`
(lines 172-178). -/
def feedLoop (psize end_ : Nat) (size : Option Nat) :
    (fragments : List (Nat × Nat × Nat)) → (a fa fs : Nat) → (next : List (Option (Nat × Nat))) →
    Except PyErr (FragState × Bool)
  | fragments, a, fa, fs, next =>
    if fa + min fs (end_ - a) ≤ psize then
      let a' := a + fs
      if end_ ≤ a' then
        let s : FragState := { fragments := fragments, next := next, currentSize := end_, size := size }
        if a' = end_ ∧ next = [] then
          match s.setSize with
          | .error e => .error e
          | .ok s => .ok (s, false)
        else .ok (s, false)
      else
        match next with
        | some (fa', fs') :: rest => feedLoop psize end_ size (fragments ++ [(a', fa', fs')]) a' fa' fs' rest
        | none :: rest =>
          match ({ fragments := fragments, next := rest, currentSize := a', size := size } : FragState).setSize with
          | .error e => .error e
          | .ok s => .ok (s, true)
        | [] =>
          match ({ fragments := fragments, next := [], currentSize := a', size := size } : FragState).setSize with
          | .error e => .error e
          | .ok s => .ok (s, true)
    else
      let s : FragState := { fragments := fragments, next := next, currentSize := a + (psize - fa), size := size }
      match s.setSize with
      | .error e => .error e
      | .ok s => .ok (s, true)

/-- `FragmentedStream._feed`, /repo/hachoir/stream/input.py:524-550: new state and
the result (`True`: something is missing).  `fragments` is never empty. -/
def fragFeed (psize : Nat) (s : FragState) (end_ : Nat) : Except PyErr (FragState × Bool) :=
  if s.currentSize < end_ then
    if s.size = some s.currentSize then .error .readStream
    else
      match s.fragments.getLast? with
      | none => .error .index
      | some (a, fa, fs) => feedLoop psize end_ s.size s.fragments a fa fs s.next
  else .ok (s, false)

/-- The loop of `FragmentedStream.read`, /repo/hachoir/stream/input.py:563-577:
`fa`, `fs` are the rest of the current fragment, `size` what is still wanted,
`more` the following fragments. -/
def fragLoop (parent : InputStream) :
    (fa : Int) → (fs : Nat) → (size : Nat) → (s : Option Nat) → (d : Bytes) → (missing : Bool) →
    (more : List (Nat × Nat × Nat)) → ReadResult
  | fa, fs, size, s, d, missing, more =>
    let n := min fs size
    match parent.read fa n with
    | .error e => .error e
    | .ok (u, v, w) =>
      if w then .error .assertion
      else if s.isSome ∧ u ≠ 0 then .error .assertion
      else
        let s := s.getD u
        let size := size - n
        let d := d ++ v
        if size = 0 then .ok (s, d, missing)
        else
          match more with
          | [] => .error .index
          | (_, fa', fs') :: rest => fragLoop parent fa' fs' size (some s) d missing rest

/-- Second half of `FragmentedStream.read`, /repo/hachoir/stream/input.py:559-577:
find the fragment of `address` and read.  The rest of the first fragment is never
negative (it contains the address); the model cuts it at 0. -/
def fragFetch (parent : InputStream) (fragments : List (Nat × Nat × Nat)) (address size : Nat) (missing : Bool) :
    ReadResult :=
  match Tools.lowerBound fragments (fun x => decide (x.1 ≤ address)) with
  | .error e => .error e
  | .ok i =>
    match fragments[i - 1]? with
    | none => .error .index
    | some (a, fa, fs) =>
      fragLoop parent ((fa : Int) - ((a : Int) - address)) ((fs : Int) + ((a : Int) - address)).toNat
        size none [] missing (fragments.drop i)

/-- `FragmentedStream.read`, /repo/hachoir/stream/input.py:552-577, at a
non-negative address. -/
def fragRead (parent : InputStream) (psize : Nat) (st : FragState) (address size : Nat) :
    FragState × ReadResult :=
  if size = 0 then (st, .error .assertion)
  else
    match fragFeed psize st (address + size) with
    | .error e => (st, .error e)
    | .ok (st', missing) =>
      -- when something is missing, `_feed` has just set the size
      let size : Nat := if missing then st'.size.getD 0 - address else size
      if missing ∧ size = 0 then (st', .ok (0, [], true))
      else (st', fragFetch parent st'.fragments address size missing)

end Hachoir.Stream
