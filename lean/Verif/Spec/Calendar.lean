/-!
# Specification: calendar

The Gregorian calendar as a rule for the next day, and the clock as a rule for the next
second.
-/

namespace Spec

/-- A day. -/
structure Day where
  year : Nat
  month : Nat
  day : Nat
  deriving DecidableEq, Repr

/-- Every fourth year, except centuries that are not divisible by 400. -/
def Leap (y : Nat) : Prop := y % 400 = 0 ∨ (y % 4 = 0 ∧ y % 100 ≠ 0)

instance (y : Nat) : Decidable (Leap y) := by unfold Leap; infer_instance

/-- Days of a month. -/
def monthLength (y m : Nat) : Nat :=
  if m = 2 then (if Leap y then 29 else 28)
  else if m = 4 ∨ m = 6 ∨ m = 9 ∨ m = 11 then 30
  else 31

/-- Days that exist. -/
def Day.Valid (d : Day) : Prop :=
  1 ≤ d.year ∧ 1 ≤ d.month ∧ d.month ≤ 12 ∧ 1 ≤ d.day ∧ d.day ≤ monthLength d.year d.month

instance (d : Day) : Decidable d.Valid := by unfold Day.Valid; infer_instance

/-- The day after a day. -/
def Day.next (d : Day) : Day :=
  if d.day < monthLength d.year d.month then ⟨d.year, d.month, d.day + 1⟩
  else if d.month < 12 then ⟨d.year, d.month + 1, 1⟩
  else ⟨d.year + 1, 1, 1⟩

/-- The day some days later. -/
def Day.later (d : Day) : Nat → Day
  | 0 => d
  | n + 1 => (d.later n).next

/-- A day and the time of the day. -/
structure Moment where
  day : Day
  hour : Nat
  minute : Nat
  second : Nat
  deriving DecidableEq, Repr

/-- One second later. -/
def Moment.next (t : Moment) : Moment :=
  if t.second < 59 then { t with second := t.second + 1 }
  else if t.minute < 59 then { t with minute := t.minute + 1, second := 0 }
  else if t.hour < 23 then { t with hour := t.hour + 1, minute := 0, second := 0 }
  else ⟨t.day.next, 0, 0, 0⟩

/-- Some seconds later. -/
def Moment.later (t : Moment) : Nat → Moment
  | 0 => t
  | n + 1 => (t.later n).next

/-- Midnight. -/
def midnight (d : Day) : Moment := ⟨d, 0, 0, 0⟩

end Spec
