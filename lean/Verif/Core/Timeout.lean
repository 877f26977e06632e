/-!
# Calls of limited time (`core/timeout.py`)
-/

namespace Hachoir.Core.Timeout

/-- What is done at the signal: `signalHandler` of Hachoir (timeout.py:17-21), nothing, or the end of the program. -/
inductive Handler where
  | hachoir
  | nothing
  | kill
  deriving DecidableEq, Repr

/-- The signals of a process: the handler of `SIGALRM` and the seconds up to the next, if one is to come. -/
structure Signals where
  handler : Handler
  alarm : Option Nat
  deriving DecidableEq, Repr

/-- How a call ends. -/
inductive Outcome where
  | done
  | raised (e : String)
  | timeout
  | killed
  deriving DecidableEq, Repr

/-- What a function does: work for so many seconds, raise, two things after each other, or `limitedTime` of another. -/
inductive Prog where
  | work (n : Nat)
  | raises (e : String)
  | seq (p q : Prog)
  | limited (second : Rat) (p : Prog)

/-- `fixTimeout`, timeout.py:31-38: of a number of seconds that may be a fraction. -/
def fixTimeout (second : Rat) : Nat := (max second.ceil 1).toNat

/-- Working, with a signal coming or not: if both end at the same time, the signal comes first. -/
def work (n : Nat) (s : Signals) : Outcome × Signals × Nat :=
  match s.alarm with
  | none => (.done, s, n)
  | some r =>
    if n < r then (.done, { s with alarm := some (r - n) }, n)
    else
      match s.handler with
      | .hachoir => (.timeout, { s with alarm := none }, r)
      | .nothing => (.done, { s with alarm := none }, n)
      | .kill => (.killed, { s with alarm := none }, r)

/-- How it ends, the signals then, and the seconds it took; `limitedTime` of timeout.py:46-54. -/
def run : Prog → Signals → Outcome × Signals × Nat
  | .work n, s => work n s
  | .raises e, s => (.raised e, s, 0)
  | .seq p q, s =>
    match run p s with
    | (.done, s', t) =>
      match run q s' with
      | (o, s'', u) => (o, s'', t + u)
    | (o, s', t) => (o, s', t)
  | .limited second p, s =>
    match run p ⟨.hachoir, some (fixTimeout second)⟩ with
    | (o, _, t) => (o, ⟨s.handler, none⟩, t)

end Hachoir.Core.Timeout
