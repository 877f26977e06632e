/-!
# Calls of limited memory (`core/memory.py`)

On a system with `resource` and `/proc/self/statm`, where memory is counted in bytes.
-/

namespace Hachoir.Core.Memory

/-- A process: the bytes it has, the soft and the hard limit (`-1` is none), and if it may raise the hard limit. -/
structure Proc where
  size : Nat
  soft : Int
  hard : Int
  root : Bool
  deriving DecidableEq, Repr

/-- How a call ends. -/
inductive Outcome where
  | done
  | raised (e : String)
  | memory
  | overflow
  deriving DecidableEq, Repr

/-- What a function does: take memory, give it back, raise, two things after each other, or `limitedMemory` of another. -/
inductive Prog where
  | grow (n : Nat)
  | free (n : Nat)
  | raises (e : String)
  | seq (p q : Prog)
  | limited (limit : Nat) (p : Prog)

/-- What `setMemoryLimit` does: `False`, `True`, or an `OverflowError`. -/
inductive Set where
  | refused
  | accepted (s : Proc)
  | tooLarge
  deriving DecidableEq, Repr

/-- `getMemoryLimit`, memory.py:54-61. -/
def getMemoryLimit (page : Nat) (s : Proc) : Int := if 0 < s.soft then s.soft * page else s.soft

/-- `setMemoryLimit`, memory.py:63-70: the limit must fit in 64 bits; the hard limit is taken away, which only `root` may do. -/
def setMemoryLimit (m : Int) (s : Proc) : Set :=
  if 2 ^ 63 ≤ m then .tooLarge
  else if s.hard ≠ -1 ∧ s.root = false then .refused
  else .accepted { s with soft := m, hard := -1 }

/-- Memory is asked of the system. -/
def grow (n : Nat) (s : Proc) : Outcome × Proc × Nat :=
  if s.soft = -1 ∨ ((s.size + n : Nat) : Int) ≤ s.soft then (.done, { s with size := s.size + n }, s.size + n) else (.memory, s, s.size)

/-- The old limit is set again, memory.py:98-101. -/
def restore (old : Int) (r : Outcome × Proc × Nat) : Outcome × Proc × Nat :=
  match setMemoryLimit old r.2.1 with
  | .refused => r
  | .accepted s => (r.1, s, r.2.2)
  | .tooLarge => (.overflow, r.2)

/-- How it ends, the process then, and the most bytes it had; `limitedMemory` of memory.py:75-104. -/
def run (page : Nat) : Prog → Proc → Outcome × Proc × Nat
  | .grow n, s => grow n s
  | .free n, s => (.done, { s with size := s.size - n }, s.size)
  | .raises e, s => (.raised e, s, s.size)
  | .seq p q, s =>
    let r := run page p s
    if r.1 = .done then
      let t := run page q r.2.1
      (t.1, t.2.1, max r.2.2 t.2.2)
    else r
  | .limited limit p, s =>
    match setMemoryLimit (s.size + limit : Nat) s with
    | .refused => run page p s
    | .accepted s' => restore (getMemoryLimit page s) (run page p s')
    | .tooLarge => (.overflow, s, s.size)

end Hachoir.Core.Memory
