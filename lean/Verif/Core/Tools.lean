import Verif.Py

/-!
# Model of /repo/hachoir/core/tools.py: arithmetic and searches
-/

set_option linter.unusedVariables false

namespace Hachoir.Tools

/-- `paddingSize`, /repo/hachoir/core/tools.py:41-57.  Python's `%` is
`Int.fmod`. -/
def paddingSize (value align : Int) : Except PyErr Int :=
  if align = 0 then .error .zeroDivision
  else if value.fmod align ≠ 0 then .ok (align - value.fmod align)
  else .ok 0

/-- `alignValue`, /repo/hachoir/core/tools.py:60-77. -/
def alignValue (value align : Int) : Except PyErr Int :=
  if align = 0 then .error .zeroDivision
  else if value.fmod align ≠ 0 then .ok (value + align - value.fmod align)
  else .ok value

/-- Loop of `binarySearch`, /repo/hachoir/core/tools.py:379-388.  `cmp` is
`cmp_func` (assumed not to raise). Indexing out of range would be
`IndexError`. -/
def binarySearchLoop {α : Type _} (seq : List α) (cmp : α → Int) (lower upper : Nat) :
    Except PyErr (Option Nat) :=
  if h : lower < upper then
    let index := (lower + upper) >>> 1
    match seq[index]? with
    | none => .error .index
    | some x =>
      if cmp x < 0 then binarySearchLoop seq cmp lower index
      else if 0 < cmp x then binarySearchLoop seq cmp (index + 1) upper
      else .ok (some index)
  else .ok none
termination_by upper - lower
decreasing_by
  all_goals
    have e : (lower + upper) >>> 1 = (lower + upper) / 2 := by rw [Nat.shiftRight_eq_div_pow]
    omega

/-- `binarySearch`, /repo/hachoir/core/tools.py:357-388. -/
def binarySearch {α : Type _} (seq : List α) (cmp : α → Int) : Except PyErr (Option Nat) :=
  binarySearchLoop seq cmp 0 seq.length

/-- Loop of `lowerBound`, /repo/hachoir/core/tools.py:394-403. -/
def lowerBoundLoop {α : Type _} (seq : List α) (test : α → Bool) (f seqlen : Nat) :
    Except PyErr Nat :=
  if h : 0 < seqlen then
    let hh := seqlen >>> 1
    let m := f + hh
    match seq[m]? with
    | none => .error .index
    | some x =>
      if test x then lowerBoundLoop seq test (m + 1) (seqlen - (hh + 1))
      else lowerBoundLoop seq test f hh
  else .ok f
termination_by seqlen
decreasing_by
  all_goals
    have e : seqlen >>> 1 = seqlen / 2 := by rw [Nat.shiftRight_eq_div_pow]
    omega

/-- `lowerBound`, /repo/hachoir/core/tools.py:391-403. -/
def lowerBound {α : Type _} (seq : List α) (test : α → Bool) : Except PyErr Nat :=
  lowerBoundLoop seq test 0 seq.length

end Hachoir.Tools
