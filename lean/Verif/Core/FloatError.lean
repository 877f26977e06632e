import Verif.Core.FloatLemmas
import Verif.Core.Human
import Mathlib.Algebra.Order.Field.Rat
import Mathlib.Algebra.Order.Field.Basic
import Mathlib.Tactic.Linarith
import Mathlib.Tactic.FieldSimp
import Mathlib.Tactic.Positivity
import Mathlib.Tactic.NormNum
import Mathlib.Tactic.Ring

/-!
# The error of float divisions
-/

namespace Hachoir.Time

/-- The number a float stands for. -/
def Dyadic.val (x : Time.Dyadic) : ℚ := x.num / 2 ^ x.exp

theorem roundHalfEven_rat (n d : Nat) (hd : 0 < d) :
    (n : ℚ) / d - 1 / 2 ≤ roundHalfEven n d ∧ (roundHalfEven n d : ℚ) ≤ n / d + 1 / 2 := by
  obtain ⟨h1, h2⟩ := roundHalfEven_bound n d hd
  have hd' : (0 : ℚ) < d := by exact_mod_cast hd
  have h1' : (2 : ℚ) * (d * roundHalfEven n d) ≤ 2 * n + d := by exact_mod_cast h1
  have h2' : (2 : ℚ) * n ≤ 2 * (d * roundHalfEven n d) + d := by exact_mod_cast h2
  constructor
  · rw [sub_le_iff_le_add, div_le_iff₀ hd']
    linarith
  · rw [← sub_le_iff_le_add, le_div_iff₀ hd']
    linarith

theorem pow_le_quotient (n d : Nat) (hd : 0 < d) (h : d ≤ n * 2 ^ 64) :
    d * 2 ^ Nat.log2 (n * 2 ^ 64 / d) ≤ n * 2 ^ 64 := by
  have hq : 0 < n * 2 ^ 64 / d := Nat.div_pos h hd
  have := (log2_bounds _ hq).1
  calc d * 2 ^ Nat.log2 (n * 2 ^ 64 / d) ≤ d * (n * 2 ^ 64 / d) := Nat.mul_le_mul_left _ this
    _ ≤ n * 2 ^ 64 := Nat.mul_div_le _ _

/-- A correctly rounded quotient has a relative error of at most `2 ^ -53`. -/
theorem trueDiv_close (n d : Nat) (hn : 0 < n) (hd : 0 < d) (h : d ≤ n * 2 ^ 64) :
    (n : ℚ) / d * (1 - 1 / 2 ^ 53) ≤ (trueDiv n d).val ∧
    (trueDiv n d).val ≤ (n : ℚ) / d * (1 + 1 / 2 ^ 53) := by
  have hp := pow_le_quotient n d hd h
  unfold trueDiv
  rw [if_neg (by omega)]
  simp only
  obtain ⟨L, hL⟩ : ∃ L, Nat.log2 (n * 2 ^ 64 / d) = L := ⟨_, rfl⟩
  rw [hL] at hp ⊢
  have hd' : (0 : ℚ) < d := by exact_mod_cast hd
  have hp' : (d : ℚ) * 2 ^ L ≤ n * 2 ^ 64 := by exact_mod_cast hp
  split
  · rename_i hk
    obtain ⟨e, he⟩ : ∃ e, 64 + 53 - (L + 1) = e := ⟨_, rfl⟩
    have hLe : L + e = 116 := by omega
    rw [he]
    obtain ⟨h1, h2⟩ := roundHalfEven_rat (n * 2 ^ e) d hd
    unfold Dyadic.val
    simp only
    have he' : (0 : ℚ) < 2 ^ e := by positivity
    push_cast at h1 h2
    have key : (2 : ℚ) ^ 52 ≤ n / d * 2 ^ e := by
      have e1 : (2 : ℚ) ^ L * 2 ^ e = 2 ^ 116 := by rw [← pow_add, hLe]
      have : (d : ℚ) * 2 ^ L * 2 ^ e ≤ n * 2 ^ 64 * 2 ^ e := by gcongr
      rw [mul_assoc, e1] at this
      rw [div_mul_eq_mul_div, le_div_iff₀ hd']
      nlinarith
    have e3 : (n : ℚ) * 2 ^ e / d = n / d * 2 ^ e := by ring
    rw [e3] at h1 h2
    constructor
    · rw [le_div_iff₀ he']
      nlinarith
    · rw [div_le_iff₀ he']
      nlinarith
  · rename_i hk
    obtain ⟨s, hs⟩ : ∃ s, L + 1 - (64 + 53) = s := ⟨_, rfl⟩
    have hLs : L = s + 116 := by omega
    rw [hs]
    obtain ⟨h1, h2⟩ := roundHalfEven_rat n (d * 2 ^ s) (by positivity)
    unfold Dyadic.val
    simp only
    have hs' : (0 : ℚ) < 2 ^ s := by positivity
    push_cast at h1 h2 ⊢
    rw [pow_zero, div_one]
    have key : (2 : ℚ) ^ 52 * 2 ^ s ≤ n / d := by
      rw [hLs, pow_add] at hp'
      rw [le_div_iff₀ hd']
      have e1 : (d : ℚ) * (2 ^ s * 2 ^ 116) = 2 ^ 52 * 2 ^ s * d * 2 ^ 64 := by
        rw [show (2 : ℚ) ^ 116 = 2 ^ 52 * 2 ^ 64 by rw [← pow_add]]
        ring
      rw [e1] at hp'
      exact le_of_mul_le_mul_right hp' (by positivity)
    have e3 : (n : ℚ) / (d * 2 ^ s) = n / d / 2 ^ s := by rw [div_div]
    rw [e3] at h1 h2
    have e4 : (n : ℚ) / d / 2 ^ s * 2 ^ s = n / d := by field_simp
    constructor
    · have := mul_le_mul_of_nonneg_right h1 hs'.le
      rw [sub_mul, e4] at this
      nlinarith
    · have := mul_le_mul_of_nonneg_right h2 hs'.le
      rw [add_mul, e4] at this
      nlinarith

/-- The exact quotient when it has 53 bits. -/
theorem trueDiv_exact (n j : Nat) (hn : 0 < n) (hn' : n < 2 ^ 53) (h : 2 ^ j ≤ n * 2 ^ 64) :
    (trueDiv n (2 ^ j)).val = n / 2 ^ j ∧ (trueDiv n (2 ^ j)).num < 2 ^ 53 := by
  have hp := pow_le_quotient n (2 ^ j) (by positivity) h
  unfold trueDiv
  rw [if_neg (by omega)]
  simp only
  obtain ⟨L, hL⟩ : ∃ L, Nat.log2 (n * 2 ^ 64 / 2 ^ j) = L := ⟨_, rfl⟩
  have hup : n * 2 ^ 64 / 2 ^ j < 2 ^ (L + 1) := by rw [← hL]; exact Nat.lt_log2_self
  rw [hL] at hp ⊢
  have hjL : j + L < 117 := by
    have : 2 ^ (j + L) < 2 ^ 117 := by
      rw [pow_add]
      calc 2 ^ j * 2 ^ L ≤ n * 2 ^ 64 := hp
        _ < 2 ^ 53 * 2 ^ 64 := by exact Nat.mul_lt_mul_of_pos_right hn' (by positivity)
        _ = 2 ^ 117 := by rw [← pow_add]
    exact (Nat.pow_lt_pow_iff_right (by decide)).mp this
  rw [if_pos (by omega)]
  obtain ⟨e, he⟩ : ∃ e, 64 + 53 - (L + 1) = e := ⟨_, rfl⟩
  rw [he]
  obtain ⟨i, hi⟩ : ∃ i, e = j + i := ⟨e - j, by omega⟩
  have hr : roundHalfEven (n * 2 ^ e) (2 ^ j) = n * 2 ^ i := by
    have := roundHalfEven_of (2 ^ j) (n * 2 ^ i) 0 (by positivity)
    rw [if_pos (by simp)] at this
    rw [← this, hi, pow_add]
    congr 1
    ring
  rw [hr]
  constructor
  · unfold Dyadic.val
    simp only
    push_cast
    rw [hi, pow_add]
    field_simp
  · simp only
    have h1 : n * 2 ^ 64 < 2 ^ (L + 1) * 2 ^ j := (Nat.div_lt_iff_lt_mul (by positivity)).mp hup
    have h2 : n * 2 ^ i * 2 ^ (64 + j) < 2 ^ 53 * 2 ^ (64 + j) := by
      calc n * 2 ^ i * 2 ^ (64 + j) = n * 2 ^ 64 * 2 ^ e := by rw [hi]; ring
        _ < 2 ^ (L + 1) * 2 ^ j * 2 ^ e := Nat.mul_lt_mul_of_pos_right h1 (by positivity)
        _ = 2 ^ 53 * 2 ^ (64 + j) := by
          rw [← pow_add, ← pow_add, ← pow_add]
          congr 1
          omega
    exact Nat.lt_of_mul_lt_mul_right h2

end Hachoir.Time
