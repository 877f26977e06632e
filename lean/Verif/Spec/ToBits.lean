import Verif.Spec.Bits

/-!
# Specification vocabulary: the binary digits of a number
-/

namespace Spec

/-- The `n` low binary digits of `v`, most significant first. -/
def toBitsMSB : Nat → Nat → List Bool
  | 0, _ => []
  | n + 1, v => decide (v / 2 ^ n % 2 = 1) :: toBitsMSB n v

/-- The `n` low binary digits of `v`, least significant first. -/
def toBitsLSB : Nat → Nat → List Bool
  | 0, _ => []
  | n + 1, v => decide (v % 2 = 1) :: toBitsLSB n (v / 2)

theorem length_toBitsMSB (n v : Nat) : (toBitsMSB n v).length = n := by
  induction n with
  | zero => rfl
  | succ n ih => simp [toBitsMSB, ih]

theorem length_toBitsLSB (n v : Nat) : (toBitsLSB n v).length = n := by
  induction n generalizing v with
  | zero => rfl
  | succ n ih => simp [toBitsLSB, ih]

theorem ofBitsMSB_toBitsMSB (n v : Nat) : ofBitsMSB (toBitsMSB n v) = v % 2 ^ n := by
  induction n with
  | zero => simp [toBitsMSB, ofBitsMSB, Nat.mod_one]
  | succ n ih =>
    simp only [toBitsMSB, ofBitsMSB, ih, length_toBitsMSB]
    rw [Nat.pow_succ, Nat.mod_mul]
    by_cases h : v / 2 ^ n % 2 = 1
    · simp [h]; omega
    · have h0 : v / 2 ^ n % 2 = 0 := by omega
      simp [h0]

theorem ofBitsLSB_toBitsLSB (n v : Nat) : ofBitsLSB (toBitsLSB n v) = v % 2 ^ n := by
  induction n generalizing v with
  | zero => simp [toBitsLSB, ofBitsLSB, Nat.mod_one]
  | succ n ih =>
    simp only [toBitsLSB, ofBitsLSB, ih]
    rw [Nat.pow_succ, Nat.mul_comm (2 ^ n) 2, Nat.mod_mul]
    by_cases h : v % 2 = 1
    · simp [h]
    · have h0 : v % 2 = 0 := by omega
      simp [h0]

theorem ofBitsMSB_inj (a b : List Bool) (hl : a.length = b.length) (h : ofBitsMSB a = ofBitsMSB b) :
    a = b := by
  induction a generalizing b with
  | nil => cases b <;> simp_all
  | cons x xs ih =>
    cases b with
    | nil => simp at hl
    | cons y ys =>
      simp only [List.length_cons, Nat.add_right_cancel_iff] at hl
      simp only [ofBitsMSB] at h
      have h1 := ofBitsMSB_lt xs
      have h2 := ofBitsMSB_lt ys
      rw [hl] at h h1
      have hxy : x = y := by
        cases x <;> cases y <;> simp at h ⊢ <;> omega
      subst hxy
      rw [ih ys hl (by omega)]

theorem ofBitsLSB_inj (a b : List Bool) (hl : a.length = b.length) (h : ofBitsLSB a = ofBitsLSB b) :
    a = b := by
  have := ofBitsMSB_inj a.reverse b.reverse (by simpa using hl)
    (by rw [ofBitsMSB_reverse, ofBitsMSB_reverse, h])
  simpa using congrArg List.reverse this

end Spec
