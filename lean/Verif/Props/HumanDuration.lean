import Verif.Core.Human

/-!
# C61: the text of a duration

`humanDuration` writes at most three counts with their units.  The counts are not zero, the units
decrease, every count stays below the next larger unit, and what the text leaves out is smaller
than the smallest unit written (than one millisecond when fewer than three counts are written).
-/

set_option linter.unusedVariables false

namespace Hachoir.Props
open Hachoir Hachoir.Human Spec

/-- The units of a duration: name, length in microseconds, and how many make the next larger
unit (365 days make a year; there is no larger unit). -/
inductive TimeUnit | ms | sec | min | hours | days | years
  deriving DecidableEq, Repr

def TimeUnit.name : TimeUnit → String
  | .ms => "ms" | .sec => "sec" | .min => "min" | .hours => "hours" | .days => "days" | .years => "years"

def TimeUnit.length : TimeUnit → Int
  | .ms => 1000 | .sec => 1000 * 1000 | .min => 60 * 1000 * 1000 | .hours => 60 * 60 * 1000 * 1000
  | .days => 24 * 60 * 60 * 1000 * 1000 | .years => 365 * 24 * 60 * 60 * 1000 * 1000

def TimeUnit.limit : TimeUnit → Option Int
  | .ms => some 1000 | .sec => some 60 | .min => some 60 | .hours => some 24 | .days => some 365 | .years => none

/-- `3 hours`. -/
def countText (p : Int × TimeUnit) : List UInt8 := decimalInt p.1 ++ asc (" " ++ p.2.name)

/-- Microseconds written. -/
def written : List (Int × TimeUnit) → Int
  | [] => 0
  | p :: ps => p.1 * p.2.length + written ps

/-- The counts of a text are as they should be: no zero, none reaching the next larger unit, only
years can be negative, and the units decrease. -/
def GoodCounts : List (Int × TimeUnit) → Prop
  | [] => True
  | p :: ps => p.1 ≠ 0 ∧ (∀ l, p.2.limit = some l → 0 ≤ p.1 ∧ p.1 < l) ∧
      (∀ q ∈ ps, q.2.length < p.2.length) ∧ GoodCounts ps

/-- What may be missing: less than the last unit when there is no room for more. -/
def missing (ps : List (Int × TimeUnit)) : Int :=
  if ps.length = 3 then (match ps.getLast? with | some p => p.2.length | none => 0) else 1000

/-- Successive divisions. -/
def splitUnits (v : Int) : List TimeUnit → List (Int × TimeUnit)
  | [] => []
  | u :: us => (v / u.length, u) :: splitUnits (v % u.length) us

def nonzero (ps : List (Int × TimeUnit)) : List (Int × TimeUnit) := ps.filter fun p => p.1 ≠ 0

theorem TimeUnit.length_pos (u : TimeUnit) : 0 < u.length := by cases u <;> decide

theorem split_written : ∀ (us : List TimeUnit) (n : Nat) (v : Int),
    (us = [] → v < 1000) → (∀ u, us.getLast? = some u → u = .ms) → 0 ≤ v ∨ (us ≠ [] ∧ 0 < n) →
    written ((nonzero (splitUnits v us)).take n) ≤ v ∧
    (((nonzero (splitUnits v us)).take n).length < n →
      v < written ((nonzero (splitUnits v us)).take n) + 1000) ∧
    (∀ p, ((nonzero (splitUnits v us)).take n).length = n →
      ((nonzero (splitUnits v us)).take n).getLast? = some p →
      v < written ((nonzero (splitUnits v us)).take n) + p.2.length)
  | [], n, v, h1, h2, h3 => by
    have h1 := h1 rfl
    have h3 : 0 ≤ v := h3.elim id (fun h => absurd rfl h.1)
    simp [splitUnits, nonzero, written]
    omega
  | u :: us, n, v, h1, h2, h3 => by
    have hu := u.length_pos
    have hdm := Int.mul_ediv_add_emod v u.length
    have hm0 := Int.emod_nonneg v (by omega : u.length ≠ 0)
    have hm1 := Int.emod_lt_of_pos v hu
    have hnil : us = [] → v % u.length < 1000 := by
      intro h
      subst h
      have := h2 u rfl
      subst this
      exact hm1
    have hlast : ∀ w, us.getLast? = some w → w = .ms := by
      intro w hw
      apply h2 w
      rw [List.getLast?_cons, hw]
      rfl
    by_cases hq : v / u.length = 0
    · have hf : nonzero (splitUnits v (u :: us)) = nonzero (splitUnits (v % u.length) us) := by
        simp [splitUnits, nonzero, hq]
      have hv : v % u.length = v := by rw [hq] at hdm; omega
      rw [hf, hv]
      rw [hv] at hnil
      have hv0 : 0 ≤ v := by omega
      exact split_written us n v hnil hlast (Or.inl hv0)
    · have hf : nonzero (splitUnits v (u :: us))
          = (v / u.length, u) :: nonzero (splitUnits (v % u.length) us) := by
        simp [splitUnits, nonzero, hq]
      rw [hf]
      cases n with
      | zero =>
        have h3 : 0 ≤ v := h3.elim id (fun h => absurd h.2 (by omega))
        simp [written, h3]
      | succ n =>
        obtain ⟨i1, i2, i3⟩ := split_written us n (v % u.length) hnil hlast (Or.inl hm0)
        rw [List.take_succ_cons]
        obtain ⟨ps, hps⟩ : ∃ ps, (nonzero (splitUnits (v % u.length) us)).take n = ps := ⟨_, rfl⟩
        rw [hps] at i1 i2 i3 ⊢
        have hw : written ((v / u.length, u) :: ps) = u.length * (v / u.length) + written ps := by
          rw [Int.mul_comm]; rfl
        rw [hw]
        refine ⟨by omega, fun h => ?_, fun p h hp => ?_⟩
        · have := i2 (by simp only [List.length_cons] at h; omega)
          omega
        · have hl : ps.length = n := by simp only [List.length_cons] at h; omega
          cases hg : ps.getLast? with
          | none =>
            have hpn : ps = [] := List.getLast?_eq_none_iff.mp hg
            subst hpn
            rw [List.getLast?_cons, hg] at hp
            cases hp
            show v < u.length * (v / u.length) + 0 + u.length
            omega
          | some q =>
            rw [List.getLast?_cons, hg] at hp
            cases hp
            have := i3 q hl hg
            show v < u.length * (v / u.length) + written ps + q.2.length
            omega

/-- `GoodCounts` but for zeros. -/
def InRange : List (Int × TimeUnit) → Prop
  | [] => True
  | p :: ps => (∀ l, p.2.limit = some l → 0 ≤ p.1 ∧ p.1 < l) ∧
      (∀ q ∈ ps, q.2.length < p.2.length) ∧ InRange ps

theorem goodCounts_take : ∀ (ps : List (Int × TimeUnit)) (n : Nat), InRange ps →
    GoodCounts ((nonzero ps).take n)
  | [], n, _ => by simp [nonzero, GoodCounts]
  | p :: ps, n, ⟨h1, h2, h3⟩ => by
    by_cases hp : p.1 = 0
    · have : nonzero (p :: ps) = nonzero ps := by simp [nonzero, hp]
      rw [this]
      exact goodCounts_take ps n h3
    · have : nonzero (p :: ps) = p :: nonzero ps := by simp [nonzero, hp]
      rw [this]
      cases n with
      | zero => exact True.intro
      | succ n =>
        rw [List.take_succ_cons]
        refine ⟨hp, h1, fun q hq => h2 q ?_, goodCounts_take ps n h3⟩
        exact (List.mem_filter.mp (List.mem_of_mem_take hq)).1

def allUnits : List TimeUnit := [.years, .days, .hours, .min, .sec, .ms]

theorem mem_split : ∀ (us : List TimeUnit) (v : Int) (q : Int × TimeUnit),
    q ∈ splitUnits v us → q.2 ∈ us
  | [], _, _, h => by cases h
  | u :: us, v, q, h => by
    rcases List.mem_cons.mp h with h | h
    · subst h; exact List.mem_cons_self
    · exact List.mem_cons_of_mem _ (mem_split us _ q h)

theorem inRange_step (u : TimeUnit) (us : List TimeUnit) (v : Int)
    (h : ∀ l, u.limit = some l → 0 ≤ v ∧ v < l * u.length) (hu : ∀ w ∈ us, w.length < u.length)
    (ih : InRange (splitUnits (v % u.length) us)) : InRange (splitUnits v (u :: us)) := by
  refine ⟨fun l hl => ?_, fun q hq => hu _ (mem_split us _ q hq), ih⟩
  have hp := u.length_pos
  exact ⟨Int.ediv_nonneg (h l hl).1 (by omega), Int.ediv_lt_of_lt_mul hp (h l hl).2⟩

theorem inRange_all (v : Int) : InRange (splitUnits v allUnits) := by
  have bound : ∀ (w : Int) (u u' : TimeUnit) (l : Int), u.limit = some l → l * u.length = u'.length →
      ∀ l', u.limit = some l' → 0 ≤ w % u'.length ∧ w % u'.length < l' * u.length := by
    intro w u u' l hl hlu l' hl'
    have hp := u'.length_pos
    rw [hl] at hl'; cases hl'
    rw [hlu]
    exact ⟨Int.emod_nonneg _ (by omega), Int.emod_lt_of_pos _ hp⟩
  refine inRange_step _ _ _ (by intro l hl; cases hl) (by decide) ?_
  refine inRange_step _ _ _ (bound _ _ .years _ rfl (by decide)) (by decide) ?_
  refine inRange_step _ _ _ (bound _ _ .days _ rfl (by decide)) (by decide) ?_
  refine inRange_step _ _ _ (bound _ _ .hours _ rfl (by decide)) (by decide) ?_
  refine inRange_step _ _ _ (bound _ _ .min _ rfl (by decide)) (by decide) ?_
  refine inRange_step _ _ _ (bound _ _ .sec _ rfl (by decide)) (by decide) ?_
  exact True.intro

theorem split_all (v : Int) : splitUnits v allUnits =
    [((tdDays v).fdiv 365, .years), ((tdDays v).fmod 365, .days),
     (((tdSeconds v).fdiv 60).fdiv 60, .hours), (((tdSeconds v).fdiv 60).fmod 60, .min),
     ((tdSeconds v).fmod 60, .sec), ((tdMicroseconds v).fdiv 1000, .ms)] := by
  simp only [allUnits, splitUnits, TimeUnit.length, tdDays, tdSeconds, tdMicroseconds,
    Int.fdiv_eq_ediv_of_nonneg _ (by decide : (0:Int) ≤ 365), Int.fdiv_eq_ediv_of_nonneg _ (by decide : (0:Int) ≤ 60),
    Int.fdiv_eq_ediv_of_nonneg _ (by decide : (0:Int) ≤ 1000), Int.fdiv_eq_ediv_of_nonneg _ (by decide : (0:Int) ≤ 1000000),
    Int.fdiv_eq_ediv_of_nonneg _ (by decide : (0:Int) ≤ 86400000000),
    Int.fmod_eq_emod_of_nonneg _ (by decide : (0:Int) ≤ 365), Int.fmod_eq_emod_of_nonneg _ (by decide : (0:Int) ≤ 60),
    Int.fmod_eq_emod_of_nonneg _ (by decide : (0:Int) ≤ 1000000),
    Int.fmod_eq_emod_of_nonneg _ (by decide : (0:Int) ≤ 86400000000)]
  simp only [List.cons.injEq, Prod.mk.injEq, and_true]
  refine ⟨by omega, by omega, by omega, by omega, by omega, by omega⟩

theorem durationPart_eq (c : Int) (u : TimeUnit) :
    durationPart c u.name = ((nonzero [(c, u)]).map countText) := by
  unfold durationPart nonzero
  by_cases h : c = 0 <;> simp [h, countText]

theorem join_eq (ps : List (Int × TimeUnit)) (texts : List (List UInt8))
    (h : texts.reverse = (nonzero ps).map countText) :
    (if 3 < texts.length then joinSpace (texts.drop (texts.length - 3)).reverse
      else if texts = [] then asc "0 ms" else joinSpace texts.reverse)
    = if nonzero ps = [] then asc "0 ms" else joinSpace (((nonzero ps).take 3).map countText) := by
  have hl : texts.length = (nonzero ps).length := by
    rw [← List.length_reverse, h, List.length_map]
  by_cases h3 : 3 < texts.length
  · rw [if_pos h3, if_neg (by intro hn; rw [hn] at hl; rw [show ([] : List (Int × TimeUnit)).length = 0 from rfl] at hl; omega)]
    rw [← List.take_reverse, h, List.map_take]
  · rw [if_neg h3]
    by_cases hn : nonzero ps = []
    · rw [hn] at hl
      rw [if_pos hn, if_pos (List.length_eq_zero_iff.mp hl)]
    · rw [if_neg hn, if_neg (by
        intro ht; rw [ht] at hl
        exact hn (List.length_eq_zero_iff.mp hl.symm)), h, List.take_of_length_le (by omega)]

theorem humanTimedelta_eq (v : Int) : humanTimedelta v =
    if nonzero (splitUnits v allUnits) = [] then asc "0 ms"
    else joinSpace (((nonzero (splitUnits v allUnits)).take 3).map countText) := by
  unfold humanTimedelta
  simp only
  apply join_eq
  rw [split_all]
  have hms : (if 1000 ≤ tdMicroseconds v then [decimalInt ((tdMicroseconds v).fdiv 1000) ++ asc " ms"] else [])
      = durationPart ((tdMicroseconds v).fdiv 1000) TimeUnit.ms.name := by
    have hb : 0 ≤ tdMicroseconds v := by
      unfold tdMicroseconds
      rw [Int.fmod_eq_emod_of_nonneg _ (by decide)]
      exact Int.emod_nonneg _ (by decide)
    rw [Int.fdiv_eq_ediv_of_nonneg _ (by decide)]
    unfold durationPart
    by_cases h : 1000 ≤ tdMicroseconds v
    · rw [if_pos h, if_pos (by omega)]; rfl
    · rw [if_neg h, if_neg (by omega)]
  rw [hms]
  have hn : ∀ (p : Int × TimeUnit) (ps : List (Int × TimeUnit)),
      (nonzero (p :: ps)).map countText = (nonzero [p]).map countText ++ (nonzero ps).map countText := by
    intro p ps
    rw [← List.map_append]
    unfold nonzero
    rw [← List.filter_append]
    rfl
  have hr : ∀ p, ((nonzero [p]).map countText).reverse = (nonzero [p]).map countText := by
    intro p
    unfold nonzero
    by_cases h : p.1 = 0 <;> simp [h]
  rw [hn, hn _ (_ :: _), hn _ (_ :: _), hn _ (_ :: _), hn _ (_ :: _)]
  rw [show "sec" = TimeUnit.sec.name from rfl, show "min" = TimeUnit.min.name from rfl,
    show "hours" = TimeUnit.hours.name from rfl, show "days" = TimeUnit.days.name from rfl,
    show "years" = TimeUnit.years.name from rfl]
  simp only [durationPart_eq, List.reverse_append, hr, List.append_assoc]

/-- **C61.** Every duration (also a negative one: then the years are negative) is written as at
most three good counts that leave out less than the last unit written; a duration without any
count, shorter than one millisecond, is `0 ms`. -/
theorem C61_timedelta (us : Int) :
    ∃ ps : List (Int × TimeUnit), ps.length ≤ 3 ∧ GoodCounts ps ∧
      written ps ≤ us ∧ us < written ps + missing ps ∧
      humanTimedelta us = if ps = [] then asc "0 ms" else joinSpace (ps.map countText) := by
  refine ⟨(nonzero (splitUnits us allUnits)).take 3, List.length_take_le _ _,
    goodCounts_take _ _ (inRange_all us), ?_⟩
  obtain ⟨h1, h2, h3⟩ := split_written allUnits 3 us (by intro h; cases h)
    (by intro u hu; cases hu; rfl) (Or.inr ⟨by decide, by decide⟩)
  refine ⟨h1, ?_, ?_⟩
  · unfold missing
    split
    · rename_i hl
      cases hg : ((nonzero (splitUnits us allUnits)).take 3).getLast? with
      | none =>
        rw [List.getLast?_eq_none_iff.mp hg] at hl
        cases hl
      | some p => exact h3 p hl hg
    · rename_i hl
      have := List.length_take_le 3 (nonzero (splitUnits us allUnits))
      exact h2 (by omega)
  · rw [humanTimedelta_eq]
    by_cases h : nonzero (splitUnits us allUnits) = []
    · rw [if_pos h, h]; rfl
    · rw [if_neg h, if_neg]
      intro hn
      rcases List.take_eq_nil_iff.mp hn with h' | h'
      · cases h'
      · exact h h'

/-- **C61.** A duration given in milliseconds. -/
theorem C61_duration (ms : Int) (h0 : 0 ≤ ms) (h : ms < 1000000000 * 86400000) :
    ∃ ps : List (Int × TimeUnit), ps.length ≤ 3 ∧ GoodCounts ps ∧
      written ps ≤ ms * 1000 ∧ ms * 1000 < written ps + missing ps ∧
      humanDuration ms = .ok (if ps = [] then asc "0 ms" else joinSpace (ps.map countText)) := by
  obtain ⟨ps, h1, h2, h3, h4, h5⟩ := C61_timedelta (ms * 1000)
  refine ⟨ps, h1, h2, h3, h4, ?_⟩
  unfold humanDuration
  rw [if_neg, h5]
  unfold tdDays
  rw [Int.fdiv_eq_ediv_of_nonneg _ (by decide)]
  omega

/-- Longer durations are refused. -/
theorem C61_overflow (ms : Int) (h : 1000000000 * 86400000 ≤ ms) : humanDuration ms = .error .overflow := by
  unfold humanDuration
  rw [if_pos]
  unfold tdDays
  rw [Int.fdiv_eq_ediv_of_nonneg _ (by decide)]
  omega

/-- A duration shorter than a second is written exactly, in milliseconds. -/
theorem C61_short (ms : Nat) (h0 : 0 < ms) (h : ms < 1000) :
    humanDuration ms = .ok (decimal ms ++ asc " ms") := by
  have e : ∀ u : TimeUnit, u ≠ .ms → ((ms : Int) * 1000) / u.length = 0 ∧ ((ms : Int) * 1000) % u.length = (ms : Int) * 1000 := by
    intro u hu
    have : 1000000 ≤ u.length := by cases u <;> first | decide | exact absurd rfl hu
    exact ⟨Int.ediv_eq_zero_of_lt (by omega) (by omega), Int.emod_eq_of_lt (by omega) (by omega)⟩
  have hs : nonzero (splitUnits ((ms : Int) * 1000) allUnits) = [((ms : Int), .ms)] := by
    simp only [allUnits, splitUnits, (e .years (by decide)).1, (e .years (by decide)).2,
      (e .days (by decide)).1, (e .days (by decide)).2, (e .hours (by decide)).1, (e .hours (by decide)).2,
      (e .min (by decide)).1, (e .min (by decide)).2, (e .sec (by decide)).1, (e .sec (by decide)).2]
    have : (ms : Int) * 1000 / TimeUnit.ms.length = ms := by
      show (ms : Int) * 1000 / 1000 = ms
      omega
    rw [this]
    have h0' : (ms : Int) ≠ 0 := by omega
    simp [nonzero]
    omega
  unfold humanDuration
  rw [if_neg, humanTimedelta_eq, hs]
  · rfl
  · unfold tdDays
    rw [Int.fdiv_eq_ediv_of_nonneg _ (by decide)]
    omega

example : humanDuration 6402309 = .ok (asc "1 hours 46 min 42 sec") := by decide +kernel
example : humanDuration 4213 = .ok (asc "4 sec 213 ms") := by decide +kernel
example : humanDuration 0 = .ok (asc "0 ms") := by decide +kernel

/-- A day before zero is a year before plus 364 days. -/
theorem C61_negative : humanDuration (-86400000) = .ok (asc "-1 years 364 days") := by decide +kernel

end Hachoir.Props
