import Verif.Core.Benchmark
import Mathlib.Tactic.Linarith
import Mathlib.Tactic.FieldSimp
import Mathlib.Tactic.Positivity

/-!
# C193: benchmarks
-/

namespace Hachoir.Props
open Hachoir Hachoir.Core.Benchmark

/-- The times of the first calls. -/
def firstTimes (times : Nat → ℚ) (n : Nat) : List ℚ := (List.range n).map times

/-- What is told of times: the least and the greatest of them, and their sum. -/
def StatOf (values : List ℚ) (told : Option (ℚ × ℚ × ℚ)) : Prop :=
  match told with
  | none => values = []
  | some (lo, hi, sum) => (lo ∈ values ∧ ∀ v ∈ values, lo ≤ v) ∧ (hi ∈ values ∧ ∀ v ∈ values, v ≤ hi) ∧ sum = values.sum

theorem stat_append (s : Stat) (v : ℚ) (h : StatOf s.values s.told) : StatOf (s.append v).values (s.append v).told ∧ (s.append v).values = s.values ++ [v] ∧
    (s.append v).told ≠ none := by
  obtain ⟨values, told⟩ := s
  cases told with
  | none =>
    have h : values = [] := h
    subst h
    exact ⟨by simp [StatOf, Stat.append], rfl, by simp [Stat.append]⟩
  | some t =>
    obtain ⟨lo, hi, sum⟩ := t
    obtain ⟨⟨h1, h2⟩, ⟨h3, h4⟩, h5⟩ := h
    refine ⟨⟨⟨?_, ?_⟩, ⟨?_, ?_⟩, ?_⟩, rfl, by simp [Stat.append]⟩
    · simp only [Stat.append, List.mem_append, List.mem_singleton]
      rcases min_choice lo v with e | e <;> rw [e]
      · exact .inl h1
      · exact .inr rfl
    · simp only [Stat.append, List.mem_append, List.mem_singleton]
      rintro x (hx | rfl)
      · exact (min_le_left _ _).trans (h2 x hx)
      · exact min_le_right _ _
    · simp only [Stat.append, List.mem_append, List.mem_singleton]
      rcases max_choice hi v with e | e <;> rw [e]
      · exact .inl h3
      · exact .inr rfl
    · simp only [Stat.append, List.mem_append, List.mem_singleton]
      rintro x (hx | rfl)
      · exact (h4 x hx).trans (le_max_left _ _)
      · exact le_max_right _ _
    · simp only [Stat.append, h5, List.sum_append, List.sum_cons, List.sum_nil, add_zero]

/-- **C193** Statistics tell the least and the greatest of all values added, and their sum. -/
theorem C193_stat (values : List ℚ) : StatOf (values.foldl Stat.append Stat.empty).values (values.foldl Stat.append Stat.empty).told ∧
    (values.foldl Stat.append Stat.empty).values = values := by
  have : ∀ (l : List ℚ) (s : Stat), StatOf s.values s.told → StatOf (l.foldl Stat.append s).values (l.foldl Stat.append s).told ∧
      (l.foldl Stat.append s).values = s.values ++ l := by
    intro l
    induction l with
    | nil => exact fun s h => ⟨h, by simp⟩
    | cons v l ih =>
      intro s h
      obtain ⟨h1, h2, -⟩ := stat_append s v h
      obtain ⟨h3, h4⟩ := ih _ h1
      exact ⟨h3, by rw [List.foldl_cons, h4, h2, List.append_assoc]; rfl⟩
  exact this values Stat.empty rfl

/-- The state between rounds: the statistics are those of the first calls. -/
def AfterCalls (times : Nat → ℚ) (n : Nat) (total : ℚ) (s : Stat) : Prop :=
  StatOf s.values s.told ∧ s.told ≠ none ∧ s.values = firstTimes times n ∧ total = (firstTimes times n).sum

theorem first_succ (times : Nat → ℚ) (n : Nat) : firstTimes times (n + 1) = firstTimes times n ++ [times n] := by
  rw [firstTimes, List.range_succ, List.map_append]; rfl

theorem after_batch (times : Nat → ℚ) : ∀ (n k : Nat) (t : ℚ) (s : Stat), AfterCalls times k t s → AfterCalls times (k + n) (spent times n k t) (batch times n k s)
  | 0, _, _, _, h => h
  | n + 1, k, t, s, ⟨h1, h2, h3, h4⟩ => by
    obtain ⟨a1, a2, a3⟩ := stat_append s (times k) h1
    have := after_batch times n (k + 1) (t + times k) (s.append (times k))
      ⟨a1, a3, by rw [a2, h3, first_succ], by rw [first_succ, List.sum_append, h4]; simp⟩
    rw [show k + (n + 1) = k + 1 + n by omega]
    exact this

/-- Every batch has a call, and not more than are missing. -/
theorem part_range (progress total : ℚ) (done : Nat) (missing : Int) (hp : 0 < progress) (hm : 1 ≤ missing) :
    1 ≤ part progress total done missing ∧ part progress total done missing ≤ missing := by
  rw [part]
  by_cases h : progress < missing * (total / done)
  · simp only [if_pos h]
    have hm' : (0 : ℚ) < missing := by exact_mod_cast (by omega : (0 : Int) < missing)
    have ha : 0 < total / done := by
      by_contra hn
      have : (missing : ℚ) * (total / done) ≤ 0 := mul_nonpos_of_nonneg_of_nonpos hm'.le (not_lt.1 hn)
      linarith
    have hq : progress / (total / done) < missing := by rwa [div_lt_iff₀ ha]
    have h0 : 0 ≤ progress / (total / done) := (div_pos hp ha).le
    refine ⟨le_max_right _ _, max_le ?_ hm⟩
    rw [trunc, if_pos h0]
    exact Int.floor_le_iff.2 (by linarith)
  · simp only [if_neg h]
    exact ⟨hm, le_refl _⟩

theorem loop_calls (times : Nat → ℚ) (progress : ℚ) (count : Int) (hp : 0 < progress) : ∀ (fuel done : Nat) (total : ℚ) (s : Stat),
    (count - done).toNat < fuel → AfterCalls times done total s → ∃ s' t', loop times progress count fuel done total s = .ok s' ∧
      AfterCalls times (max (done : Int) count).toNat t' s'
  | 0, _, _, _, hf, _ => absurd hf (by omega)
  | fuel + 1, done, total, s, hf, h => by
    rw [loop]
    by_cases hc : (done : Int) < count
    · rw [if_pos hc]
      obtain ⟨h1, h2⟩ := part_range progress total done (count - done) hp (by omega)
      generalize hn : (part progress total done (count - done)).toNat = n
      have hb := after_batch times n done total s h
      obtain ⟨s', t', e, a⟩ := loop_calls times progress count hp fuel (done + n) _ _ (by omega) hb
      refine ⟨s', t', e, ?_⟩
      rwa [show (max ((done + n : Nat) : Int) count).toNat = (max (done : Int) count).toNat by omega] at a
    · rw [if_neg hc]
      refine ⟨s, total, rfl, ?_⟩
      rwa [show (max (done : Int) count).toNat = done by omega]

/-- The number of calls of a benchmark whose first call takes the time `diff`: as many as fit into the maximum time, but not less than the minimum, not more than the maximum
number (0 is no maximum), and at least the first. -/
def benchCalls (l : Limits) (diff : ℚ) : Nat :=
  let fitting := max ⌊l.maxTime / diff⌋ l.minCount
  (max 1 (if l.maxCount.getD 0 = 0 then fitting else min fitting (l.maxCount.getD 0))).toNat

theorem calls_wanted (l : Limits) (diff : ℚ) : (max 1 (wanted l diff)).toNat = benchCalls l diff := by
  rw [wanted, benchCalls]
  cases l.maxCount with
  | none => simp
  | some m => simp

/-- **C193** A benchmark ends, whatever the times of the calls: the function is called exactly as many times as the first call says, and the statistics are those of all
calls. It is refused if the times add up to zero. -/
theorem C193_run (l : Limits) (times : Nat → ℚ) (fuel : Nat) (hp : 0 < l.progressTime) (h0 : times 0 ≠ 0) (hf : benchCalls l (times 0) < fuel) :
    if (firstTimes times (benchCalls l (times 0))).sum = 0 then run l times fuel = .error .runtime
    else ∃ s, run l times fuel = .ok s ∧ s.values = firstTimes times (benchCalls l (times 0)) ∧ StatOf s.values s.told := by
  have a0 : AfterCalls times 1 (times 0) (Stat.empty.append (times 0)) := by
    refine ⟨?_, by simp [Stat.append, Stat.empty], by simp [Stat.append, Stat.empty, firstTimes], by simp [firstTimes]⟩
    exact (stat_append Stat.empty (times 0) rfl).1
  have key : ∃ s t, (if wanted l (times 0) = 1 then Except.ok (Stat.empty.append (times 0))
      else loop times l.progressTime (wanted l (times 0)) fuel 1 (times 0) (Stat.empty.append (times 0))) = .ok s ∧ AfterCalls times (benchCalls l (times 0)) t s := by
    have hw := calls_wanted l (times 0)
    by_cases h1 : wanted l (times 0) = 1
    · rw [if_pos h1]
      refine ⟨_, times 0, rfl, ?_⟩
      rw [← hw, h1]
      exact a0
    · rw [if_neg h1]
      obtain ⟨s, t, e, a⟩ := loop_calls times l.progressTime (wanted l (times 0)) hp fuel 1 (times 0) _ (by omega) a0
      refine ⟨s, t, e, ?_⟩
      rw [← hw]
      exact a
  obtain ⟨s, t, e, h1, h2, h3, h4⟩ := key
  have hr : run l times fuel = validateStat s := by
    rw [run]
    simp only [if_neg h0, e]
  rw [hr, validateStat]
  cases ht : s.told with
  | none => exact absurd ht h2
  | some x =>
    obtain ⟨lo, hi, sum⟩ := x
    have hsum : sum = (firstTimes times (benchCalls l (times 0))).sum := by
      rw [ht] at h1
      rw [← h3]
      exact h1.2.2
    simp only [hsum]
    by_cases hz : (firstTimes times (benchCalls l (times 0))).sum = 0
    · rw [if_pos hz, if_pos hz]
    · rw [if_neg hz, if_neg hz]
      exact ⟨s, rfl, h3, ht ▸ h1⟩

/-- **C193** A first call that takes no time, as with a clock of low resolution, raises a ZeroDivisionError instead of the error for empty times. -/
theorem C193_zero (l : Limits) (times : Nat → ℚ) (fuel : Nat) (h : times 0 = 0) : run l times fuel = .error .zeroDivision := by
  rw [run]
  simp only [if_pos h]

/-- **C193** The limits made by the constructor have a time between messages, as the other theorems need, and at least one call. -/
theorem C193_limits (maxTime : ℚ) (minCount : Int) (maxCount : Option Int) (progressTime : ℚ) :
    0 < (limits maxTime minCount maxCount progressTime).progressTime ∧ 1 ≤ (limits maxTime minCount maxCount progressTime).maxTime ∧
      1 ≤ (limits maxTime minCount maxCount progressTime).minCount :=
  ⟨lt_of_lt_of_le (by norm_num) (le_max_right _ _), le_max_right _ _, le_max_right _ _⟩

/-- Half a second for the first call and then a quarter: ten calls. -/
example : ∃ s, run (limits 5 5 none 1) (fun k => if k = 0 then 1 / 2 else 1 / 4) 20 = .ok s ∧ s.values.length = 10 := by
  have hc : benchCalls (limits 5 5 none 1) (1 / 2) = 10 := by
    simp only [benchCalls, limits]
    norm_num
    rfl
  have h := C193_run (limits 5 5 none 1) (fun k => if k = 0 then 1 / 2 else 1 / 4) 20 (C193_limits 5 5 none 1).1 (by norm_num) (by
    show benchCalls (limits 5 5 none 1) (if 0 = 0 then 1 / 2 else 1 / 4) < 20
    rw [if_pos rfl, hc]; omega)
  simp only [if_true, hc] at h
  rw [if_neg (by simp [firstTimes, List.range_succ]; norm_num)] at h
  obtain ⟨s, h1, h2, -⟩ := h
  exact ⟨s, h1, by rw [h2]; simp [firstTimes]⟩

end Hachoir.Props
