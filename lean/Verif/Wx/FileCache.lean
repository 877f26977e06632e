import Verif.Py

/-!
# The bytes shown in the window (`wx/hex_view/file_cache.py`)
-/

namespace Hachoir.Wx
open Hachoir

/-- A file, the place in it, and the chunks remembered by `lru_cache`, the last used first. -/
structure FileCache where
  file : Bytes
  pos : Nat
  cached : List (Nat × Bytes)
  deriving DecidableEq, Repr

/-- `get_chunk`, file_cache.py:18-24: at most 100 chunks are remembered. -/
def getChunk (size : Nat) (start : Nat) (c : FileCache) : Bytes × FileCache :=
  match c.cached.lookup start with
  | some b => (b, { c with cached := (start, b) :: c.cached.filter fun e => e.1 != start })
  | none =>
    let b := (c.file.drop start).take size
    (b, { c with cached := ((start, b) :: c.cached).take 100 })

/-- The loops of file_cache.py:31-32 and 42-43. -/
def getChunks (size : Nat) : List Nat → FileCache → List Bytes × FileCache
  | [], c => ([], c)
  | i :: is, c =>
    let (b, c) := getChunk size (i * size) c
    let (bs, c) := getChunks size is c
    (b :: bs, c)

/-- `hint`, file_cache.py:26-32. -/
def hint (size s e : Nat) (c : FileCache) : FileCache := (getChunks size (List.range' (s / size) ((e + size - 1) / size - s / size)) c).2

/-- `out[-1] = out[-1][:n]`, file_cache.py:45-46. -/
def cutLast (n : Nat) : List Bytes → Except PyErr (List Bytes)
  | [] => .error .index
  | [b] => .ok [b.take n]
  | b :: bs => match cutLast n bs with
    | .error e => .error e
    | .ok r => .ok (b :: r)

/-- `out[0] = out[0][n:]`, file_cache.py:47-48. -/
def cutFirst (n : Nat) : List Bytes → Except PyErr (List Bytes)
  | [] => .error .index
  | b :: bs => .ok (b.drop n :: bs)

/-- file_cache.py:45-49. -/
def cut (soff eoff : Nat) (out : List Bytes) : Except PyErr Bytes :=
  match if eoff = 0 then .ok out else cutLast eoff out with
  | .error e => .error e
  | .ok out =>
    match if soff = 0 then .ok out else cutFirst soff out with
    | .error e => .error e
    | .ok out => .ok out.flatten

/-- `get`, file_cache.py:34-49, for chunks of any size (`CHUNKSIZE` may be changed, file_cache.py:59). -/
def get (size s e : Nat) (c : FileCache) : Except PyErr Bytes × FileCache :=
  let (out, c) := getChunks size (List.range' (s / size) ((e + size - 1) / size - s / size)) c
  (cut (s % size) (e % size) out, c)

/-- What the window does. -/
inductive CacheOp where
  | hint (s e : Nat)
  | get (s e : Nat)

def cacheStep (size : Nat) (o : CacheOp) (c : FileCache) : FileCache :=
  match o with
  | .hint s e => hint size s e c
  | .get s e => (get size s e c).2

end Hachoir.Wx
