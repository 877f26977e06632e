import Mathlib.Tactic.Ring

/-! Decimal text of numbers, written independently of the code. -/

namespace Spec

/-- The decimal digits of `n` as ASCII codes. -/
def decimal (n : Nat) : List UInt8 :=
  if h : n < 10 then [UInt8.ofNat (48 + n)] else decimal (n / 10) ++ [UInt8.ofNat (48 + n % 10)]
termination_by n

/-- Decimal text with a sign for negative numbers. -/
def decimalInt (n : Int) : List UInt8 :=
  if n < 0 then 45 :: decimal n.natAbs else decimal n.natAbs

theorem decimal_digits (n : Nat) : ∀ c ∈ decimal n, 48 ≤ c.toNat ∧ c.toNat ≤ 57 := by
  induction n using Nat.strongRecOn with
  | _ n ih =>
    rw [decimal]
    have key : ∀ d, d < 10 → 48 ≤ (UInt8.ofNat (48 + d)).toNat ∧ (UInt8.ofNat (48 + d)).toNat ≤ 57 := by
      intro d hd
      rw [UInt8.toNat_ofNat']
      omega
    by_cases h : n < 10
    · rw [dif_pos h]
      intro c hc
      rw [List.mem_singleton] at hc
      subst hc
      exact key n h
    · rw [dif_neg h]
      intro c hc
      rcases List.mem_append.1 hc with hc | hc
      · exact ih (n / 10) (by omega) c hc
      · rw [List.mem_singleton] at hc
        subst hc
        exact key _ (by omega)

theorem decimal_ne_nil (n : Nat) : decimal n ≠ [] := by
  rw [decimal]
  split <;> simp

theorem decimal_length_le (k n : Nat) (h : n < 10 ^ (k + 1)) : (decimal n).length ≤ k + 1 := by
  induction k generalizing n with
  | zero => rw [decimal, dif_pos (by simpa using h)]; simp
  | succ k ih =>
    rw [decimal]
    split
    · simp
    · have : n / 10 < 10 ^ (k + 1) := by
        rw [Nat.div_lt_iff_lt_mul (by omega)]
        rw [Nat.pow_succ] at h
        exact h
      have := ih (n / 10) this
      simp only [List.length_append, List.length_cons, List.length_nil]
      omega

end Spec
