/-!
# Python primitives shared by the models

Exceptions are values: a function that may raise returns `Except PyErr α`.
Messages and payloads of exceptions are not modelled, only their class.
-/

namespace Hachoir

/-- Python exception classes raised by the modelled code.  `readStream` and
`nullStream` are subclasses of `InputStreamError` in the source
(/repo/hachoir/stream/input.py:12-36). -/
inductive PyErr where
  | assertion        -- AssertionError
  | value            -- ValueError
  | type             -- TypeError
  | key              -- KeyError
  | index            -- IndexError
  | zeroDivision     -- ZeroDivisionError
  | notImplemented   -- NotImplementedError
  | attribute        -- AttributeError
  | overflow         -- OverflowError
  | runtime          -- RuntimeError (dictionary changed size during iteration, ...)
  | inputStream      -- hachoir InputStreamError
  | readStream       -- hachoir ReadStreamError
  | nullStream       -- hachoir NullStreamError
  | outputStream     -- hachoir OutputStreamError
  | uniqKey          -- hachoir UniqKeyError
  | missingField     -- hachoir MissingField
  | parser           -- hachoir ParserError
  | field            -- hachoir FieldError
  | stopIteration    -- StopIteration
  | unbound          -- UnboundLocalError
  | struct           -- struct.error
  | endless          -- not an exception: the step bound of a model was reached
  deriving DecidableEq, Repr

deriving instance DecidableEq for Except

/-- `bytes` objects. -/
abbrev Bytes := List UInt8

/-- The three endian constants, /repo/hachoir/core/endian.py:5-7. -/
inductive Endian where
  | big | little | middle
  deriving DecidableEq, Repr

/-- Clamp of a Python slice bound: negative indices count from the end, then
everything is clamped to `[0, len]` (CPython `PySlice_AdjustIndices`, step 1). -/
def sliceBound (len : Nat) (i : Int) : Nat :=
  if i < 0 then (i + len).toNat else min i.toNat len

/-- Python `seq[lo:hi]` for integer bounds, negative values included. -/
def pySlice {α : Type _} (l : List α) (lo hi : Int) : List α :=
  (l.drop (sliceBound l.length lo)).take (sliceBound l.length hi - sliceBound l.length lo)

theorem pySlice_nat {α : Type _} (l : List α) (a n : Nat) :
    pySlice l (a : Int) ((a : Int) + (n : Int)) = (l.drop a).take n := by
  unfold pySlice sliceBound
  have h1 : ¬ ((a : Int) < 0) := by omega
  have h2 : ¬ ((a : Int) + (n : Int) < 0) := by omega
  simp only [h1, h2, if_false]
  have e1 : ((a : Int)).toNat = a := by omega
  have e2 : ((a : Int) + (n : Int)).toNat = a + n := by omega
  rw [e1, e2]
  rcases Nat.lt_or_ge l.length a with h | h
  · have : min a l.length = l.length := by omega
    rw [this, List.drop_eq_nil_of_le (Nat.le_refl _), List.drop_eq_nil_of_le (by omega)]
    simp
  · have : min a l.length = a := by omega
    rw [this]
    rcases Nat.lt_or_ge l.length (a + n) with h' | h'
    · have : min (a + n) l.length = l.length := by omega
      rw [this, List.take_of_length_le (by simp), List.take_of_length_le (by simp; omega)]
    · have : min (a + n) l.length = a + n := by omega
      rw [this]; congr 1; omega

end Hachoir
