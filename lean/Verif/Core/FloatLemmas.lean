import Verif.Core.Timestamp

/-!
# Lemmas about the rounding of `value / 10`
-/

namespace Hachoir.Time

theorem roundHalfEven_bound (n d : Nat) (hd : 0 < d) :
    2 * (d * roundHalfEven n d) ≤ 2 * n + d ∧ 2 * n ≤ 2 * (d * roundHalfEven n d) + d := by
  have hdm := Nat.div_add_mod n d
  have hlt := Nat.mod_lt n hd
  unfold roundHalfEven
  simp only
  repeat' split
  all_goals (try rw [Nat.mul_add]); (obtain ⟨x, hx⟩ : ∃ x, d * (n / d) = x := ⟨_, rfl⟩); (rw [hx] at hdm ⊢); omega

theorem roundHalfEven_ge (n d : Nat) : n / d ≤ roundHalfEven n d := by
  unfold roundHalfEven
  simp only
  repeat' split
  all_goals omega

theorem roundHalfEven_of (d q r : Nat) (h : r < d) : roundHalfEven (q * d + r) d
    = if 2 * r < d then q else if 2 * r > d then q + 1 else if q % 2 = 0 then q else q + 1 := by
  unfold roundHalfEven
  have h1 : (q * d + r) / d = q := by
    rw [Nat.mul_comm, Nat.mul_add_div (by omega), Nat.div_eq_of_lt h, Nat.add_zero]
  have h2 : (q * d + r) % d = r := by
    rw [Nat.mul_comm, Nat.mul_add_mod, Nat.mod_eq_of_lt h]
  simp only [h1, h2]

/-- Rounding to eighths or finer first does not change the rounding of tenths. -/
theorem round_twice (n P : Nat) (hP : 8 ≤ P) (he : P % 2 = 0) :
    roundHalfEven (roundHalfEven (n * P) 10) P = roundHalfEven n 10 := by
  obtain ⟨q, hq⟩ : ∃ q, n / 10 = q := ⟨_, rfl⟩
  obtain ⟨r, hr⟩ : ∃ r, n % 10 = r := ⟨_, rfl⟩
  have hn : n = q * 10 + r := by omega
  have hr10 : r < 10 := by omega
  obtain ⟨Q, hQ⟩ : ∃ Q, q * P = Q := ⟨_, rfl⟩
  have hnP : n * P = Q * 10 + r * P := by
    rw [hn, Nat.add_mul, ← hQ, Nat.mul_right_comm]
  have hQ2 : Q % 2 = 0 := by
    rw [← hQ, Nat.mul_mod, he]; simp
  have key : ∃ w, roundHalfEven (n * P) 10 = Q + w ∧ w < P ∧ (r < 5 → 2 * w < P) ∧ (r = 5 → 2 * w = P) ∧
      (5 < r → P < 2 * w) := by
    rw [hnP]
    have hr' : r = 0 ∨ r = 1 ∨ r = 2 ∨ r = 3 ∨ r = 4 ∨ r = 5 ∨ r = 6 ∨ r = 7 ∨ r = 8 ∨ r = 9 := by omega
    refine ⟨roundHalfEven (Q * 10 + r * P) 10 - Q, ?_, ?_⟩
    · have := roundHalfEven_ge (Q * 10 + r * P) 10
      omega
    · have hb := roundHalfEven_bound (Q * 10 + r * P) 10 (by omega)
      have hg := roundHalfEven_ge (Q * 10 + r * P) 10
      obtain ⟨x, hx⟩ : ∃ x, roundHalfEven (Q * 10 + r * P) 10 = x := ⟨_, rfl⟩
      rw [hx] at hb hg ⊢
      rcases hr' with h | h | h | h | h | h | h | h | h | h
      all_goals subst h
      all_goals try omega
  obtain ⟨w, e1, e2, e3, e4, e5⟩ := key
  rw [e1, ← hQ, roundHalfEven_of P q w e2, hn, roundHalfEven_of 10 q r hr10]
  by_cases h1 : r < 5
  · have := e3 h1
    rw [if_pos this, if_pos (by omega)]
  · by_cases h2 : r = 5
    · have := e4 h2
      rw [if_neg (by omega), if_neg (by omega), if_neg (show ¬ 2 * r < 10 by omega), if_neg (show ¬ 2 * r > 10 by omega)]
    · have := e5 (by omega)
      rw [if_neg (by omega), if_pos (by omega), if_neg (show ¬ 2 * r < 10 by omega), if_pos (show 2 * r > 10 by omega)]

theorem log2_bounds (n : Nat) (h : 0 < n) : 2 ^ Nat.log2 n ≤ n ∧ n < 2 ^ (Nat.log2 n + 1) :=
  ⟨Nat.log2_self_le (by omega), Nat.lt_log2_self⟩

theorem tenth_pos {n : Nat} (h : n ≠ 0) : 0 < n * 2 ^ 64 / 10 := by
  apply Nat.div_pos
  · have : 1 * 2 ^ 64 ≤ n * 2 ^ 64 := Nat.mul_le_mul_right _ (by omega)
    omega
  · omega

/-- Below `2 ^ 50` microseconds the result is the exact tenth, rounded. -/
theorem tenth_exact (n : Nat) (h : n < 10 * 2 ^ 50) : (trueDiv n 10).round = roundHalfEven n 10 := by
  unfold trueDiv
  by_cases h0 : n = 0
  · subst h0; decide
  · rw [if_neg h0]
    simp only
    obtain ⟨k, hk⟩ : ∃ k, Nat.log2 (n * 2 ^ 64 / 10) + 1 = k := ⟨_, rfl⟩
    have hle := (log2_bounds (n * 2 ^ 64 / 10) (tenth_pos h0)).1
    have hk114 : k ≤ 114 := by
      have h1 : n * 2 ^ 64 / 10 < 2 ^ 114 := by
        have : n * 2 ^ 64 < 10 * 2 ^ 50 * 2 ^ 64 := Nat.mul_lt_mul_of_pos_right h (by omega)
        omega
      have h2 : 2 ^ Nat.log2 (n * 2 ^ 64 / 10) < 2 ^ 114 := Nat.lt_of_le_of_lt hle h1
      have := (Nat.pow_lt_pow_iff_right (a := 2) (by omega)).1 h2
      omega
    rw [hk, if_pos (by omega)]
    unfold Dyadic.round
    simp only
    obtain ⟨j, hj⟩ : ∃ j, 64 + 53 - k = j + 3 := ⟨114 - k, by omega⟩
    rw [hj]
    apply round_twice
    · have : 2 ^ 3 ≤ 2 ^ (j + 3) := Nat.pow_le_pow_right (by omega) (by omega)
      omega
    · rw [Nat.pow_succ]; omega

/-- The error of the result: at most 16 microseconds below `2 ^ 58`, from there on the
result is not smaller. -/
theorem tenth_error (n : Nat) : (10 * (trueDiv n 10).round ≤ n + 160 ∧ n ≤ 10 * (trueDiv n 10).round + 160) ∨
    (10 * 2 ^ 58 ≤ n ∧ 2 ^ 58 ≤ (trueDiv n 10).round) := by
  unfold trueDiv
  by_cases h0 : n = 0
  · subst h0; left; decide
  · rw [if_neg h0]
    simp only
    obtain ⟨hlo, hhi⟩ := log2_bounds (n * 2 ^ 64 / 10) (tenth_pos h0)
    obtain ⟨l, hl⟩ : ∃ l, Nat.log2 (n * 2 ^ 64 / 10) = l := ⟨_, rfl⟩
    rw [hl] at hlo hhi ⊢
    by_cases hk : l + 1 ≤ 64 + 53
    · rw [if_pos hk]
      left
      unfold Dyadic.round
      simp only
      obtain ⟨P, hP⟩ : ∃ P, 2 ^ (64 + 53 - (l + 1)) = P := ⟨_, rfl⟩
      have hP1 : 1 ≤ P := by rw [← hP]; exact Nat.one_le_two_pow
      rw [hP]
      have b1 := roundHalfEven_bound (n * P) 10 (by omega)
      obtain ⟨m, hm⟩ : ∃ m, roundHalfEven (n * P) 10 = m := ⟨_, rfl⟩
      rw [hm] at b1 ⊢
      have b2 := roundHalfEven_bound m P (by omega)
      obtain ⟨u, hu⟩ : ∃ u, roundHalfEven m P = u := ⟨_, rfl⟩
      rw [hu] at b2 ⊢
      -- multiplied by P
      constructor
      · apply Nat.le_of_mul_le_mul_right _ (show 0 < P by omega)
        rw [Nat.add_mul, Nat.mul_assoc, Nat.mul_comm u P]
        omega
      · apply Nat.le_of_mul_le_mul_right _ (show 0 < P by omega)
        rw [Nat.add_mul, Nat.mul_assoc, Nat.mul_comm u P]
        omega
    · rw [if_neg hk]
      unfold Dyadic.round
      simp only [Nat.pow_zero]
      have r1 : ∀ x, roundHalfEven x 1 = x := by
        intro x
        have := roundHalfEven_bound x 1 (by omega)
        omega
      rw [r1]
      obtain ⟨e, he⟩ : ∃ e, l + 1 - (64 + 53) = e := ⟨_, rfl⟩
      rw [he]
      obtain ⟨P, hP⟩ : ∃ P, 2 ^ e = P := ⟨_, rfl⟩
      have hP1 : 1 ≤ P := by rw [← hP]; exact Nat.one_le_two_pow
      rw [hP]
      have b1 := roundHalfEven_bound n (10 * P) (by omega)
      have g1 := roundHalfEven_ge n (10 * P)
      obtain ⟨m, hm⟩ : ∃ m, roundHalfEven n (10 * P) = m := ⟨_, rfl⟩
      rw [hm] at b1 g1 ⊢
      rw [Nat.mul_assoc, Nat.mul_comm P m] at b1
      by_cases he5 : e ≤ 5
      · left
        have : P ≤ 2 ^ 5 := by rw [← hP]; exact Nat.pow_le_pow_right (by omega) he5
        omega
      · right
        have hl2 : 2 ^ l = 2 ^ 64 * (2 ^ 52 * P) := by
          rw [← hP, ← Nat.pow_add, ← Nat.pow_add]
          congr 1
          omega
        have hn : 10 * (2 ^ 52 * P) ≤ n := by
          rw [hl2] at hlo
          have h1 : 2 ^ 64 * (2 ^ 52 * P) * 10 ≤ n * 2 ^ 64 := by
            have := Nat.mul_le_of_le_div 10 _ _ hlo
            omega
          apply Nat.le_of_mul_le_mul_right _ (show 0 < 2 ^ 64 by omega)
          omega
        have hP6 : 2 ^ 6 ≤ P := by rw [← hP]; exact Nat.pow_le_pow_right (by omega) (by omega)
        have hm52 : 2 ^ 52 ≤ m := by
          refine Nat.le_trans ?_ g1
          rw [Nat.le_div_iff_mul_le (by omega)]
          omega
        refine ⟨by omega, ?_⟩
        calc 2 ^ 58 = 2 ^ 52 * 2 ^ 6 := by rw [← Nat.pow_add]
          _ ≤ m * P := Nat.mul_le_mul hm52 hP6

end Hachoir.Time
