import Verif.Stream.Input
import Mathlib.Data.Rat.Floor

/-!
# Benchmarks (`core/benchmark.py`)

Times are exact numbers; the rounding of floats is not modelled.
-/

namespace Hachoir.Core.Benchmark
open Hachoir

/-- `BenchmarkStat`, benchmark.py:15-56: the values, and minimum, maximum and sum once there is a value. -/
structure Stat where
  values : List ℚ
  told : Option (ℚ × ℚ × ℚ)

/-- `BenchmarkStat.__init__`, benchmark.py:29-30. -/
def Stat.empty : Stat := ⟨[], none⟩

/-- `append`, benchmark.py:32-41; without attributes there is an AttributeError. -/
def Stat.append (s : Stat) (v : ℚ) : Stat :=
  match s.told with
  | some (lo, hi, sum) => ⟨s.values ++ [v], some (min lo v, max hi v, sum + v)⟩
  | none => ⟨s.values ++ [v], some (v, v, v)⟩

/-- The limits of `Benchmark.__init__`, benchmark.py:61-80. -/
structure Limits where
  maxTime : ℚ
  minCount : Int
  maxCount : Option Int
  progressTime : ℚ

/-- benchmark.py:75-78. -/
def limits (maxTime : ℚ) (minCount : Int) (maxCount : Option Int) (progressTime : ℚ) : Limits :=
  ⟨max maxTime 1, max minCount 1, maxCount, max progressTime (1 / 4)⟩

/-- `int` of a float: towards zero. -/
def trunc (q : ℚ) : Int := if 0 ≤ q then ⌊q⌋ else -⌊-q⌋

/-- benchmark.py:134-138: the number of calls; a maximum of 0 is none. -/
def wanted (l : Limits) (diff : ℚ) : Int :=
  let count := max ⌊l.maxTime / diff⌋ l.minCount
  match l.maxCount with
  | none => count
  | some m => if m = 0 then count else min count m

/-- `for index in range(part)`, benchmark.py:162-165: the times of the calls, from the call `k` on. -/
def batch (times : Nat → ℚ) : Nat → Nat → Stat → Stat
  | 0, _, s => s
  | n + 1, k, s => batch times n (k + 1) (s.append (times k))

/-- benchmark.py:156-161: the size of the next batch, of the calls that are missing. -/
def part (progress total : ℚ) (done : Nat) (missing : Int) : Int :=
  let average := total / done
  if progress < missing * average then max (trunc (progress / average)) 1 else missing

/-- The sum of the times of `n` calls from the call `k` on. -/
def spent (times : Nat → ℚ) : Nat → Nat → ℚ → ℚ
  | 0, _, t => t
  | n + 1, k, t => spent times n (k + 1) (t + times k)

/-- benchmark.py:149-167; `fuel` bounds the number of rounds. -/
def loop (times : Nat → ℚ) (progress : ℚ) (count : Int) : Nat → Nat → ℚ → Stat → Except PyErr Stat
  | 0, _, _, _ => .error .endless
  | fuel + 1, done, total, s =>
    if (done : Int) < count then
      let n := (part progress total done (count - done)).toNat
      loop times progress count fuel (done + n) (spent times n done total) (batch times n done s)
    else .ok s

/-- `validateStat`, benchmark.py:174-182; its exception is told as a runtime error. -/
def validateStat (s : Stat) : Except PyErr Stat :=
  match s.told with
  | none => .error .runtime
  | some (_, _, sum) => if sum = 0 then .error .runtime else .ok s

/-- `_run`, benchmark.py:112-172, and the test of `run`, benchmark.py:206-211, for a function whose calls take these times. -/
def run (l : Limits) (times : Nat → ℚ) (fuel : Nat) : Except PyErr Stat :=
  let s := Stat.empty.append (times 0)
  if times 0 = 0 then .error .zeroDivision
  else
    match (if wanted l (times 0) = 1 then .ok s else loop times l.progressTime (wanted l (times 0)) fuel 1 (times 0) s) with
    | .error e => .error e
    | .ok s => validateStat s

end Hachoir.Core.Benchmark
