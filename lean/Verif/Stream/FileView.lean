import Verif.Stream.Input
import Verif.Stream.Pipe

/-!
# Model of `FileFromInputStream`, /repo/hachoir/stream/input.py:39-125

The file object is generic over the stream behind it: reads of a stream of
unknown size change the stream.
-/

set_option linter.unusedVariables false

namespace Hachoir.Stream
open Hachoir

/-- What `FileFromInputStream` uses of a stream with state `σ`: `read`, `_size`
and `_current_size` (bits). -/
structure SStream (σ : Type) where
  read : σ → Int → Nat → σ × ReadResult
  size : σ → Option Nat
  currentSize : σ → Nat

/-- A stream of known size as a stream without state. -/
def InputStream.toS (s : InputStream) : SStream Unit :=
  { read := fun _ a n => ((), s.read a n), size := fun _ => s.size, currentSize := fun _ => s.size.getD 0 }

/-- `InputIOStream` over a pipe; `_current_size` of
/repo/hachoir/stream/input.py:417-423. -/
def pipeS (k nbMin : Nat) : SStream PipeStream :=
  { read := fun s a n => pipeStreamRead k nbMin s a n
    size := fun s => s.size
    currentSize := fun s =>
      match s.size with
      | some z => if z ≠ 0 then z else 8 * (s.pipe.buffers.length <<< k)
      | none =>
        match s.pipe.size with
        | some z => if z ≠ 0 then 8 * z else 8 * (s.pipe.buffers.length <<< k)
        | none => 8 * (s.pipe.buffers.length <<< k) }

/-- `FileFromInputStream`, /repo/hachoir/stream/input.py:39-45.  Its attribute
`_size` always is the size of the stream in bytes: it is set on creation and by
the callback `_setSize` when the stream learns its size. -/
structure FileView (σ : Type) where
  stream : σ
  offset : Int
  fromEnd : Bool

/-- `FileFromInputStream.__init__` with `_setSize`, /repo/hachoir/stream/input.py:43-53. -/
def FileView.init {σ : Type} (S : SStream σ) (s : σ) : Except PyErr (FileView σ) :=
  match S.size s with
  | none => .ok { stream := s, offset := 0, fromEnd := false }
  | some z => if z % 8 ≠ 0 then .error .inputStream else .ok { stream := s, offset := 0, fromEnd := false }

/-- `_size` of the file object, in bytes. -/
def FileView.size {σ : Type} (S : SStream σ) (f : FileView σ) : Option Nat := (S.size f.stream).map (· / 8)

/-- The loop of `tell`, /repo/hachoir/stream/input.py:57-58: `_feed(n)` is
`read(n - 1, 1)` (line 181).  `fuel` bounds the iterations (RuntimeError when it
runs out). -/
def tellLoop {σ : Type} (S : SStream σ) : Nat → σ → σ × Except PyErr Unit
  | 0, s => (s, .error .runtime)
  | fuel + 1, s =>
    match S.size s with
    | some _ => (s, .ok ())
    | none =>
      match S.read s (((max (S.currentSize s <<< 1) (1 <<< 16) : Nat) : Int) - 1) 1 with
      | (s', .error e) => (s', .error e)
      | (s', .ok _) => tellLoop S fuel s'

/-- `FileFromInputStream.tell`, /repo/hachoir/stream/input.py:55-61. -/
def FileView.tell {σ : Type} (S : SStream σ) (fuel : Nat) (f : FileView σ) : FileView σ × Except PyErr Int :=
  if f.fromEnd then
    match tellLoop S fuel f.stream with
    | (s', .error e) => ({ f with stream := s' }, .error e)
    | (s', .ok _) =>
      let f' : FileView σ := { stream := s', offset := f.offset + ((S.size s').getD 0 / 8 : Nat), fromEnd := false }
      (f', .ok f'.offset)
  else (f, .ok f.offset)

/-- `FileFromInputStream.seek`, /repo/hachoir/stream/input.py:63-73. -/
def FileView.seek {σ : Type} (f : FileView σ) (pos : Int) (whence : Int) : Except PyErr (FileView σ) :=
  if whence = 0 then .ok { f with fromEnd := false, offset := pos }
  else if whence = 1 then .ok { f with offset := f.offset + pos }
  else if whence = 2 then .ok { f with fromEnd := true, offset := pos }
  else .error .value

/-- The inner function `read` of `FileFromInputStream.read`,
/repo/hachoir/stream/input.py:76-80. -/
def innerRead {σ : Type} (S : SStream σ) (s : σ) (address : Int) (size : Nat) : σ × Except PyErr Bytes :=
  match S.read s (8 * address) (8 * size) with
  | (s', .error e) => (s', .error e)
  | (s', .ok (shift, data, _)) => if shift ≠ 0 then (s', .error .inputStream) else (s', .ok data)

/-- The loop of the last branch (`read()` to the end, unknown size),
/repo/hachoir/stream/input.py:114-125; `block` is 1 << 16 in the code. -/
def readAllLoop {σ : Type} (S : SStream σ) (block : Nat) :
    (fuel : Nat) → σ → (offset : Int) → (size : Nat) → (data : Bytes) → σ × Int × Except PyErr Bytes
  | 0, s, offset, _, _ => (s, offset, .error .runtime)
  | fuel + 1, s, offset, size, data =>
    match innerRead S s offset size with
    | (s', .error e) => (s', offset, .error e)
    | (s', .ok d) =>
      let data := data ++ d
      let offset := offset + d.length
      match (S.size s').map (fun z : Nat => z / 8) with
      | some z =>
        if z ≠ 0 then
          let size := ((z : Int) - offset)
          if size = 0 then (s', offset, .ok data)
          else if size < 0 then (s', offset, .error .assertion)   -- `assert size > 0` in InputIOStream.read, line 428
          else readAllLoop S block fuel s' offset size.toNat data
        else readAllLoop S block fuel s' offset size data
      | none => readAllLoop S block fuel s' offset size data

/-- The loop of the branch `_from_end`, /repo/hachoir/stream/input.py:99-111. -/
def readTailLoop {σ : Type} (S : SStream σ) (maxSize size : Int) :
    (fuel : Nat) → σ → (offset : Int) → (bs : Nat) → (data : Bytes × Bytes) → σ × Int × Except PyErr Bytes
  | 0, s, offset, _, _ => (s, offset, .error .runtime)
  | fuel + 1, s, offset, bs, data =>
    match innerRead S s offset bs with
    | (s', .error e) => (s', offset, .error e)
    | (s', .ok d) =>
      let data := (data.2, d)
      let offset := offset + d.length
      match (S.size s').map (fun z : Nat => z / 8) with
      | some z =>
        if z ≠ 0 then
          let bs := ((z : Int) - offset)
          if bs = 0 then
            let data := data.1 ++ data.2
            let d : Int := data.length - maxSize
            (s', offset, .ok (pySlice data d (d + size)))
          else if bs < 0 then (s', offset, .error .assertion)
          else readTailLoop S maxSize size fuel s' offset bs.toNat data
        else readTailLoop S maxSize size fuel s' offset bs data
      | none => readTailLoop S maxSize size fuel s' offset bs data

/-- `FileFromInputStream.read`, /repo/hachoir/stream/input.py:75-125; `size =
none` is `read()`. -/
def FileView.read {σ : Type} (S : SStream σ) (fuel : Nat) (f : FileView σ) (size : Option Int) :
    FileView σ × Except PyErr Bytes :=
  let fsize := f.size S
  -- `self._size or size is not None and not self._from_end`
  if (fsize.isSome ∧ fsize ≠ some 0) ∨ (size.isSome ∧ f.fromEnd = false) then
    match f.tell S fuel with
    | (f, .error e) => (f, .error e)
    | (f, .ok pos) =>
      let size : Option Int :=
        match size, f.size S with
        | none, some z => some (z - pos)
        | none, none => none
        | some n, some z => if (z : Int) < pos + n then some (z - pos) else some n
        | some n, none => some n
      match size with
      | none => (f, .error .type)       -- `None - pos`, not reachable
      | some n =>
        if n ≤ 0 then (f, .ok [])
        else
          match innerRead S f.stream pos n.toNat with
          | (s', .error e) => ({ f with stream := s' }, .error e)
          | (s', .ok data) => ({ f with stream := s', offset := f.offset + data.length }, .ok data)
  else if f.fromEnd then
    let maxSize := - f.offset
    let size : Int := match size with
      | none => maxSize
      | some n => if maxSize < n then maxSize else n
    if size ≤ 0 then (f, .ok [])
    else
      let offset := max 0 (((S.currentSize f.stream / 8 : Nat) : Int) + f.offset)
      match readTailLoop S maxSize size fuel f.stream offset (max maxSize.toNat (1 <<< 16)) ([], []) with
      | (s', offset, r) => ({ stream := s', offset := offset, fromEnd := false }, r)
  else
    match readAllLoop S (1 <<< 16) fuel f.stream f.offset (1 <<< 16) [] with
    | (s', offset, r) => ({ f with stream := s', offset := offset }, r)

/-- Operations on a file object. -/
inductive FileOp
  | seek (pos : Int) (whence : Int)
  | tell
  | read (size : Option Int)
  deriving DecidableEq, Repr

/-- Observations: an integer, bytes, or an exception. -/
inductive FileOut
  | done
  | pos (p : Int)
  | data (d : Bytes)
  | err (e : PyErr)
  deriving DecidableEq, Repr

/-- One operation. -/
def FileView.step {σ : Type} (S : SStream σ) (fuel : Nat) (f : FileView σ) : FileOp → FileView σ × FileOut
  | .seek p w =>
    match f.seek p w with
    | .ok f' => (f', .done)
    | .error e => (f, .err e)
  | .tell =>
    match f.tell S fuel with
    | (f', .ok p) => (f', .pos p)
    | (f', .error e) => (f', .err e)
  | .read n =>
    match f.read S fuel n with
    | (f', .ok d) => (f', .data d)
    | (f', .error e) => (f', .err e)

/-- A history of operations: all observations. -/
def FileView.run {σ : Type} (S : SStream σ) (fuel : Nat) : FileView σ → List FileOp → List FileOut
  | _, [] => []
  | f, op :: ops => (f.step S fuel op).2 :: FileView.run S fuel (f.step S fuel op).1 ops

end Hachoir.Stream
