import Mathlib.Algebra.Order.Field.Rat

/-!
# Speed of a search (`subfile/data_rate.py`)

Numbers are exact (`Rat`) where the code has floating point numbers.
-/

namespace Hachoir.Subfile

/-- `DataRate`, data_rate.py:6-21. -/
structure DataRate where
  lastOffset : Rat
  lastTime : Rat
  rates : List Rat
  average : Option Rat
  size : Nat
  minSize : Nat

/-- `DataRate.__init__`, data_rate.py:13-21; `now` is the clock. -/
def DataRate.new (offset : Rat) (size minSize : Nat) (now : Rat) : DataRate := ⟨offset, now, [], none, size, minSize⟩

/-- `l[-n:]`: all of the list for `n = 0`, and for lists that are shorter. -/
def lastSlice {α : Type} (l : List α) (n : Nat) : List α := if n = 0 then l else l.drop (l.length - n)

/-- data_rate.py:38-39 -/
def averageOf (minSize : Nat) (rates : List Rat) (old : Option Rat) : Option Rat :=
  if minSize ≤ rates.length then some (rates.sum / rates.length) else old

/-- `update`, data_rate.py:23-39; the clock is read twice. -/
def DataRate.update (d : DataRate) (now now2 : Rat) (offset : Rat) : DataRate :=
  let difftime := now - d.lastTime
  if difftime < 1 then d
  else
    let rates := lastSlice (d.rates ++ [(offset - d.lastOffset) / difftime]) d.size
    { d with lastTime := now2, lastOffset := offset, rates := rates, average := averageOf d.minSize rates d.average }

/-- A call of `update`: the clock, read twice, and the offset. -/
structure Call where
  now : Rat
  now2 : Rat
  offset : Rat

def DataRate.run (d : DataRate) (calls : List Call) : DataRate := calls.foldl (fun d c => d.update c.now c.now2 c.offset) d

end Hachoir.Subfile
