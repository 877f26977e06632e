import Verif.Py

/-!
# Model of `InputPipe`, /repo/hachoir/stream/input.py:282-389

The class attributes `buffer_size` (16) and `buffer_nb_min` (256) are parameters
`k` and `nbMin` of the model, so that the theorems hold for any block size and
the examples can use small blocks.

The source is a non-seekable file object.  `input.read(n)` is assumed to return
the next `min(n, remaining)` bytes (a buffered file); a raw pipe that returns
short reads before its end is outside the model.
-/

set_option linter.unusedVariables false

namespace Hachoir.Stream
open Hachoir

/-- An element `[data, next, prev]` of `self.buffers`,
/repo/hachoir/stream/input.py:293-299. -/
structure Buf where
  data : Bytes
  next : Nat
  prev : Nat
  deriving DecidableEq, Repr

/-- `InputPipe`, /repo/hachoir/stream/input.py:312-321.  `input` is what is left
of the source; `published` records the calls of the callback `set_size`, oldest
first. -/
structure Pipe where
  input : Bytes
  first : Nat
  address : Nat
  buffers : List (Option Buf)
  last : Option Nat
  size : Option Nat
  published : List Nat
  deriving DecidableEq, Repr

/-- `InputPipe.__init__`, /repo/hachoir/stream/input.py:317-321. -/
def Pipe.init (source : Bytes) : Pipe :=
  { input := source, first := 0, address := 0, buffers := [], last := none, size := none, published := [] }

/-- `self.buffers[i]` where a block is needed: IndexError outside the list,
TypeError for a discarded block (`None[1]`). -/
def bufAt (bufs : List (Option Buf)) (i : Nat) : Except PyErr Buf :=
  match bufs[i]? with
  | none => .error .index
  | some none => .error .type
  | some (some b) => .ok b

/-- `self.buffers[i][1] = v`. -/
def setNext (bufs : List (Option Buf)) (i v : Nat) : Except PyErr (List (Option Buf)) :=
  match bufAt bufs i with
  | .error e => .error e
  | .ok b => .ok (bufs.set i (some { b with next := v }))

/-- `self.buffers[i][2] = v`. -/
def setPrev (bufs : List (Option Buf)) (i v : Nat) : Except PyErr (List (Option Buf)) :=
  match bufAt bufs i with
  | .error e => .error e
  | .ok b => .ok (bufs.set i (some { b with prev := v }))

/-- `InputPipe._append`, /repo/hachoir/stream/input.py:325-333. -/
def pipeAppend (p : Pipe) (data : Bytes) : Except PyErr Pipe :=
  match p.last with
  | none => .ok { p with last := some 0, buffers := p.buffers ++ [some ⟨data, 0, 0⟩] }
  | some prev => do
    let last ← bufAt p.buffers prev
    let next := last.next
    let n := p.buffers.length
    let b1 ← setPrev p.buffers next n
    let b2 ← setNext b1 prev n
    .ok { p with last := some n, buffers := b2 ++ [some ⟨data, next, prev⟩] }

/-- `InputPipe._get`, /repo/hachoir/stream/input.py:335-353.  `self.last` is not
`None` once a block exists; indexing with `None` would be a TypeError. -/
def pipeGet (p : Pipe) (index : Nat) : Except PyErr (Pipe × Bytes) :=
  match p.buffers[index]? with
  | none => .ok (p, [])
  | some none => .error .inputStream
  | some (some buf) =>
    if p.last = some index then .ok (p, buf.data)
    else
      match p.last with
      | none => .error .type
      | some last => do
        let next := buf.next
        let prev := buf.prev
        let b1 ← setPrev p.buffers next prev
        let b2 ← setNext b1 prev next
        let first := (← bufAt b2 last).next
        let b3 ← setNext b2 index first
        let b4 ← setPrev b3 index last
        let b5 ← setPrev b4 first index
        let b6 ← setNext b5 last index
        .ok ({ p with buffers := b6, last := some index }, buf.data)

/-- `InputPipe._flush`, /repo/hachoir/stream/input.py:355-365. -/
def pipeFlush (nbMin : Nat) (p : Pipe) : Except PyErr Pipe :=
  if h : (p.first : Int) < (p.buffers.length : Int) - nbMin then
    match bufAt p.buffers p.first with
    | .error e => .error e
    | .ok buf =>
      if p.last ≠ some buf.prev then .ok p
      else
        match setNext p.buffers buf.prev buf.next with
        | .error e => .error e
        | .ok b1 =>
          match setPrev b1 buf.next buf.prev with
          | .error e => .error e
          | .ok b2 =>
            if hl : b2.length = p.buffers.length then
              pipeFlush nbMin { p with buffers := b2.set p.first none, first := p.first + 1 }
            else .error .runtime       -- unreachable: assignments keep the length
  else .ok p
termination_by p.buffers.length - p.first
decreasing_by simp; omega

/-- `InputPipe.seek`, /repo/hachoir/stream/input.py:367-369. -/
def pipeSeek (p : Pipe) (address : Int) : Except PyErr Pipe :=
  if 0 ≤ address then .ok { p with address := address.toNat } else .error .assertion

/-- Loop of `InputPipe.read` that loads blocks from the source,
/repo/hachoir/stream/input.py:373-382; `count` is the number of iterations. -/
def pipeLoad (k : Nat) (p : Pipe) : (count : Nat) → Except PyErr Pipe
  | 0 => .ok p
  | count + 1 =>
    let data := p.input.take (1 <<< k)
    let p := { p with input := p.input.drop (1 <<< k) }
    if data.length < 1 <<< k then
      let size := (p.buffers.length <<< k) + data.length
      let p := { p with size := some size, published := p.published ++ [size] }
      if data ≠ [] then pipeAppend p data else .ok p
    else
      match pipeAppend p data with
      | .error e => .error e
      | .ok p => pipeLoad k p count

/-- `b''.join(self._get(index) for index in range(index, index+count))`,
/repo/hachoir/stream/input.py:384-386.  The blocks already fetched when a
discarded block is met stay moved to the end of the access order: the state is
returned in all cases. -/
def pipeJoin (p : Pipe) (acc : Bytes) (index : Nat) : (count : Nat) → Pipe × Except PyErr Bytes
  | 0 => (p, .ok acc)
  | count + 1 =>
    match pipeGet p index with
    | .error e => (p, .error e)
    | .ok (p', d) => pipeJoin p' (acc ++ d) (index + 1) count

/-- `InputPipe.read`, /repo/hachoir/stream/input.py:371-389. -/
def pipeRead (k nbMin : Nat) (p : Pipe) (size : Nat) : Pipe × Except PyErr Bytes :=
  let end_ := p.address + size
  match pipeLoad k p ((end_ >>> k) + 1 - p.buffers.length) with
  | .error e => (p, .error e)
  | .ok p =>
    let block := p.address >>> k
    let offset := p.address % (1 <<< k)
    -- (end - 1 >> k) + 1, Python's shift rounds down: 0 for end = 0
    let stop := if end_ = 0 then 0 else ((end_ - 1) >>> k) + 1
    match pipeJoin p [] block (stop - block) with
    | (p, .error e) => (p, .error e)
    | (p, .ok joined) =>
      let data := (joined.drop offset).take size
      match pipeFlush nbMin p with
      | .error e => (p, .error e)
      | .ok p => ({ p with address := p.address + data.length }, .ok data)

/-- The operations of a client of the pipe. -/
inductive PipeOp
  | seek (address : Int)
  | read (size : Nat)
  deriving DecidableEq, Repr

/-- One client operation: new state and observed outcome (`seek` returns no
bytes). -/
def pipeStep (k nbMin : Nat) (p : Pipe) : PipeOp → Pipe × Except PyErr Bytes
  | .seek a =>
    match pipeSeek p a with
    | .ok p' => (p', .ok [])
    | .error e => (p, .error e)
  | .read n => pipeRead k nbMin p n

/-- A history of client operations: final state and all outcomes. -/
def pipeRun (k nbMin : Nat) : Pipe → List PipeOp → Pipe × List (Except PyErr Bytes)
  | p, [] => (p, [])
  | p, op :: ops =>
    let (p1, r) := pipeStep k nbMin p op
    let (p2, rs) := pipeRun k nbMin p1 ops
    (p2, r :: rs)

end Hachoir.Stream

namespace Hachoir.Stream
open Hachoir

/-- `InputIOStream` over a non-seekable input of unknown size,
/repo/hachoir/stream/input.py:394-412: the pipe and the attribute `_size`. -/
structure PipeStream where
  pipe : Pipe
  size : Option Nat
  deriving DecidableEq, Repr

/-- `InputIOStream.__init__`, /repo/hachoir/stream/input.py:394-399 (a `None`
size is not null, line 135). -/
def PipeStream.init (source : Bytes) : PipeStream := { pipe := Pipe.init source, size := none }

/-- The callback `InputStream._setSize` on an `InputIOStream`,
/repo/hachoir/stream/input.py:156-167 with `_current_size` of lines 417-423,
called when the pipe has just set its attribute `size` to `pipeSize`.  When
`pipeSize` is 0 no block exists and `8 * current_size` is 0 as well. -/
def setSizeCb (size : Option Nat) (pipeSize : Nat) : Except PyErr (Option Nat) :=
  let current : Nat := match size with
    | some s => if s ≠ 0 then s else 8 * pipeSize
    | none => 8 * pipeSize
  -- assert self._size is None or self._current_size <= self._size
  match size with
  | some s =>
    if ¬ current ≤ s then .error .assertion
    else if s ≠ current then
      (if current = 0 then .error .nullStream else .ok (some current))
    else .ok size
  | none => if current = 0 then .error .nullStream else .ok (some current)

/-- The callbacks made during one `InputPipe.read`. -/
def setSizeCbs (size : Option Nat) : List Nat → Except PyErr (Option Nat)
  | [] => .ok size
  | s :: rest =>
    match setSizeCb size s with
    | .error e => .error e
    | .ok size' => setSizeCbs size' rest

/-- `InputIOStream.read` over a pipe, /repo/hachoir/stream/input.py:425-438.
An exception of the callback leaves `InputPipe.read` before the blocks are
joined; this happens only for an empty source, where joining does nothing. -/
def pipeStreamRead (k nbMin : Nat) (s : PipeStream) (address : Int) (size : Nat) :
    PipeStream × Except PyErr (Nat × Bytes × Bool) :=
  if size = 0 then (s, .ok (0, [], false))
  else
    let shift := (address % 8).toNat
    let address := address / 8
    match pipeSeek s.pipe address with
    | .error e => (s, .error e)
    | .ok p =>
      let size := (size + shift + 7) >>> 3
      let (p', r) := pipeRead k nbMin p size
      match setSizeCbs s.size (p'.published.drop p.published.length) with
      | .error e => ({ s with pipe := p' }, .error e)
      | .ok size' =>
        let s' : PipeStream := { pipe := p', size := size' }
        match r with
        | .error e => (s', .error e)
        | .ok data =>
          let missing := decide (size ≠ data.length)
          if missing ∧ s.size = size' then (s', .error .readStream)
          else (s', .ok (shift, data, missing))

end Hachoir.Stream
