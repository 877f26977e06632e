import Verif.Core.Timeout

/-!
# C181: calls of limited time
-/

namespace Hachoir.Props
open Hachoir.Core.Timeout

/-! ### Specification -/

/-- How a function without limits ends by itself, and after how many seconds. -/
def ownEnd : Prog → Option (Outcome × Nat)
  | .work n => some (.done, n)
  | .raises e => some (.raised e, 0)
  | .seq p q =>
    match ownEnd p with
    | some (.done, t) => (ownEnd q).map fun x => (x.1, t + x.2)
    | x => match ownEnd q with
      | none => none
      | some _ => x
  | .limited _ _ => none

/-- The least number of whole seconds that is at least 1 and not below what is asked for. -/
def IsLimit (second : Rat) (n : Nat) : Prop := 1 ≤ n ∧ second ≤ (n : Rat) ∧ ∀ m : Nat, 1 ≤ m → second ≤ (m : Rat) → n ≤ m

/-! ### Proofs -/

theorem run_seq (p q : Prog) (s : Signals) : run (.seq p q) s =
    if (run p s).1 = .done then ((run q (run p s).2.1).1, (run q (run p s).2.1).2.1, (run p s).2.2 + (run q (run p s).2.1).2.2) else run p s := by
  rw [run]
  rcases run p s with ⟨o, s', t⟩
  cases o <;> simp

/-- **C181**: whatever a function does, with any calls of limited time in it and however it ends, the handler of signals is the one it was before. -/
theorem C181_handler : ∀ (p : Prog) (s : Signals), (run p s).2.1.handler = s.handler
  | .work n, s => by
    rw [run, work]
    cases s.alarm with
    | none => rfl
    | some r =>
      simp only
      split
      · rfl
      · cases s.handler <;> rfl
  | .raises e, s => rfl
  | .seq p q, s => by
    rw [run_seq]
    split
    · rw [C181_handler q, C181_handler p]
    · exact C181_handler p s
  | .limited second p, s => rfl

/-- A function without limits, with a signal coming after `r` seconds. -/
theorem run_alarm : ∀ (p : Prog) (o : Outcome) (t r : Nat), ownEnd p = some (o, t) → 0 < r → o ≠ .timeout ∧ o ≠ .killed ∧
    run p ⟨.hachoir, some r⟩ = if t < r then (o, ⟨.hachoir, some (r - t)⟩, t) else (.timeout, ⟨.hachoir, none⟩, r)
  | .work n, o, t, r, h, _ => by
    simp only [ownEnd, Option.some.injEq, Prod.mk.injEq] at h
    obtain ⟨rfl, rfl⟩ := h
    exact ⟨by simp, by simp, rfl⟩
  | .raises e, o, t, r, h, hr => by
    simp only [ownEnd, Option.some.injEq, Prod.mk.injEq] at h
    obtain ⟨rfl, rfl⟩ := h
    refine ⟨by simp, by simp, ?_⟩
    rw [if_pos hr]
    rfl
  | .seq p q, o, t, r, h, hr => by
    rw [ownEnd] at h
    cases hp : ownEnd p with
    | none =>
      rw [hp] at h
      simp only at h
      cases hq : ownEnd q with
      | none => simp [hq] at h
      | some x => simp [hq] at h
    | some x =>
      obtain ⟨o1, t1⟩ := x
      obtain ⟨a1, a2, a3⟩ := run_alarm p o1 t1 r hp hr
      rw [run_seq, a3]
      rw [hp] at h
      by_cases h1 : o1 = .done
      · subst h1
        simp only at h
        cases hq : ownEnd q with
        | none => simp [hq] at h
        | some y =>
          obtain ⟨o2, t2⟩ := y
          simp only [hq, Option.map_some, Option.some.injEq, Prod.mk.injEq] at h
          obtain ⟨rfl, rfl⟩ := h
          by_cases hl : t1 < r
          · obtain ⟨b1, b2, b3⟩ := run_alarm q o2 t2 (r - t1) hq (by omega)
            refine ⟨b1, b2, ?_⟩
            simp only [if_pos hl, if_true, b3]
            by_cases hm : t2 < r - t1
            · rw [if_pos hm, if_pos (by omega)]
              simp only [Nat.sub_sub]
            · rw [if_neg hm, if_neg (by omega)]
              simp only [Prod.mk.injEq, true_and]
              omega
          · obtain ⟨b1, b2, _⟩ := run_alarm q o2 t2 1 hq (by omega)
            refine ⟨b1, b2, ?_⟩
            rw [if_neg hl, if_neg (by simp), if_neg (by omega)]
      · have : o1 = o ∧ t1 = t := by
          cases o1 with
          | done => exact absurd rfl h1
          | timeout => exact absurd rfl a1
          | killed => exact absurd rfl a2
          | raised e =>
            simp only at h
            cases hq : ownEnd q with
            | none => simp [hq] at h
            | some y => simpa [hq] using h
        obtain ⟨rfl, rfl⟩ := this
        refine ⟨a1, a2, ?_⟩
        by_cases hl : t1 < r
        · rw [if_pos hl, if_neg h1]
        · rw [if_neg hl, if_neg (by simp)]
  | .limited _ _, _, _, _, h, _ => by simp [ownEnd] at h

theorem fix_pos (second : Rat) : 0 < fixTimeout second := by
  unfold fixTimeout
  omega

/-- **C181**: a function without limits of its own is ended by `Timeout` exactly if it takes as long as the limit, and otherwise ends as it would by itself, at the same time; in no case it takes longer. -/
theorem C181_limited (second : Rat) (p : Prog) (o : Outcome) (t : Nat) (h : ownEnd p = some (o, t)) (s : Signals) :
    run (.limited second p) s = if t < fixTimeout second then (o, ⟨s.handler, none⟩, t) else (.timeout, ⟨s.handler, none⟩, fixTimeout second) := by
  rw [run, (run_alarm p o t _ h (fix_pos second)).2.2]
  by_cases hl : t < fixTimeout second
  · simp [hl]
  · simp [hl]

/-- **C181**: the limit is what is asked for, rounded up to whole seconds, and at least one. -/
theorem C181_rounded (second : Rat) : IsLimit second (fixTimeout second) := by
  have e : ((fixTimeout second : Nat) : Int) = max second.ceil 1 := by
    unfold fixTimeout
    omega
  refine ⟨fix_pos second, ?_, fun m h1 h2 => ?_⟩
  · have h := Rat.le_ceil (x := second)
    have h' : ((second.ceil : Int) : Rat) ≤ ((fixTimeout second : Int) : Rat) := by
      rw [Rat.intCast_le_intCast, e]
      omega
    exact Rat.le_trans h h'
  · have : second.ceil ≤ (m : Int) := Rat.ceil_le_iff.mpr h2
    omega

/-- **C181** (disagreement): a call of limited time within another takes the limit from it: what follows may take any time. -/
theorem C181_nested (second inner : Rat) (n : Nat) (s : Signals) : run (.limited second (.seq (.limited inner (.work 0)) (.work n))) s = (.done, ⟨s.handler, none⟩, n) := by
  have h := C181_limited inner (.work 0) .done 0 rfl ⟨.hachoir, some (fixTimeout second)⟩
  rw [if_pos (fix_pos inner)] at h
  rw [run, run_seq, h, if_pos rfl]
  simp [run, work]

/-- **C181** (disagreement): an alarm the program waits for never comes after a call of limited time. -/
theorem C181_lost (second : Rat) (p : Prog) (s : Signals) : (run (.limited second p) s).2.1.alarm = none := rfl

/-! ### Example -/

example (s : Signals) : (run (.limited (5 / 2) (.seq (.work 2) (.work 7))) s).1 = .timeout ∧ (run (.limited (5 / 2) (.seq (.work 2) (.work 7))) s).2.2 = 3 := by
  rw [C181_limited (5 / 2) (.seq (.work 2) (.work 7)) .done 9 rfl s, show fixTimeout (5 / 2) = 3 by decide +kernel]
  simp

end Hachoir.Props
