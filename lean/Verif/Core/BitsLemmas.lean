import Verif.Core.Bits
import Verif.Spec.Bits
import Mathlib.Tactic.Ring
import Mathlib.Tactic.NormNum

/-! Helper lemmas about the model of core/bits.py. -/

namespace Hachoir.Bits
open Spec

theorem intFromBytesLittle_eq (d : Bytes) : intFromBytesLittle d = ofBytesLE d := by
  induction d with
  | nil => rfl
  | cons b bs ih => simp only [intFromBytesLittle, List.foldr_cons, ofBytesLE] at *; rw [ih]

theorem foldl_big (d : Bytes) (v : Nat) :
    d.foldl (fun v b => v * 256 + b.toNat) v = v * 256 ^ d.length + ofBytesBE d := by
  induction d generalizing v with
  | nil => simp [ofBytesBE]
  | cons b bs ih => simp only [List.foldl_cons, ih, ofBytesBE, List.length_cons]; ring

theorem intFromBytesBig_eq (d : Bytes) : intFromBytesBig d = ofBytesBE d := by
  simp [intFromBytesBig, foldl_big]

theorem ofBytesLE_long2rawLoop (n : Nat) : ofBytesLE (long2rawLoop n) = n := by
  induction n using Nat.strongRecOn with
  | ind n ih =>
    rw [long2rawLoop]
    split
    · rw [ofBytesLE, ih _ (by rw [Nat.shiftRight_eq_div_pow]; omega), Nat.shiftRight_eq_div_pow]
      simp [UInt8.toNat_ofNat']
      omega
    · simp [ofBytesLE]; omega

theorem ofBytesLE_zeros (k : Nat) : ofBytesLE (List.replicate k 0) = 0 := by
  induction k with
  | zero => rfl
  | succ k ih => simp [List.replicate_succ, ofBytesLE, ih]

theorem long2rawLoop_length (n k : Nat) : (long2rawLoop n).length ≤ k ↔ n < 256 ^ k := by
  induction n using Nat.strongRecOn generalizing k with
  | ind n ih =>
    rw [long2rawLoop]
    split
    · cases k with
      | zero => simp; omega
      | succ k =>
        rw [List.length_cons, Nat.add_le_add_iff_right,
          ih _ (by rw [Nat.shiftRight_eq_div_pow]; omega), Nat.shiftRight_eq_div_pow, Nat.pow_succ 256,
          Nat.div_lt_iff_lt_mul (by decide)]
    · rename_i h
      have : n = 0 := by omega
      subst this
      simp

/-- Little endian byte strings of the same length are determined by their value. -/
theorem ofBytesLE_inj (a b : Bytes) (hl : a.length = b.length) (h : ofBytesLE a = ofBytesLE b) : a = b := by
  induction a generalizing b with
  | nil => cases b with
    | nil => rfl
    | cons _ _ => simp at hl
  | cons x xs ih => cases b with
    | nil => simp at hl
    | cons y ys =>
      simp only [ofBytesLE] at h
      have hx := x.toNat_lt
      have hy := y.toNat_lt
      have e1 : x.toNat = y.toNat := by omega
      have e2 : ofBytesLE xs = ofBytesLE ys := by omega
      rw [UInt8.toNat_inj.mp e1, ih ys (by simpa using hl) e2]

theorem ofBytesBE_inj (a b : Bytes) (hl : a.length = b.length) (h : ofBytesBE a = ofBytesBE b) : a = b := by
  rw [← ofBytesLE_reverse, ← ofBytesLE_reverse] at h
  have := ofBytesLE_inj _ _ (by simpa using hl) h
  simpa using this

/-- Closed form of `long2raw` (no error): little endian text. -/
theorem long2raw_ok (n : Nat) (e : Endian) (he : e ≠ .middle) (size : Option Nat) :
    long2raw (n : Int) e size =
      .ok (let t := long2rawLoop n ++ List.replicate (size.getD 0 - (long2rawLoop n).length) 0
           if e = .big then t.reverse else t) := by
  unfold long2raw
  have h0 : (0 : Int) ≤ n := by omega
  simp only [he, h0, or_true, not_true_eq_false, if_false, Int.toNat_natCast]
  cases size <;> simp

theorem str2long_long2raw (n : Nat) (e : Endian) (he : e ≠ .middle) (size : Option Nat) (raw : Bytes)
    (h : long2raw (n : Int) e size = .ok raw) : str2long raw e = .ok n := by
  rw [long2raw_ok n e he size] at h
  simp only [Except.ok.injEq] at h
  subst h
  have key : ofBytesLE (long2rawLoop n ++ List.replicate (size.getD 0 - (long2rawLoop n).length) 0) = n := by
    rw [ofBytesLE_append, ofBytesLE_zeros, ofBytesLE_long2rawLoop]; omega
  cases e with
  | middle => exact absurd rfl he
  | little => simp [str2long, intFromBytesLittle_eq, key]
  | big =>
    simp only [str2long, intFromBytesBig_eq, if_true, ofBytesBE_reverse, key]

theorem long2raw_length (n : Nat) (e : Endian) (size : Nat) (raw : Bytes)
    (h : long2raw (n : Int) e (some size) = .ok raw) :
    (n < 256 ^ size → raw.length = size) ∧ (256 ^ size ≤ n → size < raw.length) := by
  have he : e ≠ .middle := by
    rintro rfl; simp [long2raw] at h
  rw [long2raw_ok n e he] at h
  simp only [Except.ok.injEq, Option.getD_some] at h
  have hl : raw.length = (long2rawLoop n).length + (size - (long2rawLoop n).length) := by
    rw [← h]; split <;> simp [Nat.add_comm]
  have := long2rawLoop_length n size
  constructor
  · intro h1; have := this.mpr h1; omega
  · intro h1; have : ¬ (long2rawLoop n).length ≤ size := fun h2 => by
      have := this.mp h2; omega
    omega

/-! swaps -/

theorem and_mask (v k : Nat) : v &&& (255 * 2 ^ k) = (v / 2 ^ k % 256) * 2 ^ k := by
  apply Nat.eq_of_testBit_eq
  intro i
  rw [Nat.testBit_and, Nat.testBit_mul_two_pow, Nat.testBit_mul_two_pow,
    show (256 : Nat) = 2 ^ 8 from rfl, Nat.testBit_mod_two_pow, Nat.testBit_div_two_pow,
    show (255 : Nat) = 2 ^ 8 - 1 from rfl, Nat.testBit_two_pow_sub_one]
  by_cases h : k ≤ i
  · simp only [h, decide_true, Bool.true_and, Nat.sub_add_cancel h]
    exact Bool.and_comm _ _
  · simp [h]

theorem or_add (a b i : Nat) (h : b < 2 ^ i) : a * 2 ^ i ||| b = a * 2 ^ i + b := by
  rw [← Nat.shiftLeft_eq, Nat.shiftLeft_add_eq_or_of_lt h]

theorem swap16_eq (v : Nat) (h : v < 2 ^ 16) : swap16 v = v % 256 * 256 + v / 256 := by
  unfold swap16
  rw [show (0xFF : Nat) = 2 ^ 8 - 1 from rfl, Nat.and_two_pow_sub_one_eq_mod, Nat.shiftLeft_eq,
    Nat.shiftRight_eq_div_pow, or_add _ _ _ (by omega)]
  norm_num

theorem swap32_eq (v : Nat) (h : v < 2 ^ 32) :
    swap32 v = v % 256 * 16777216 + v / 256 % 256 * 65536 + v / 65536 % 256 * 256 + v / 16777216 := by
  unfold swap32
  have m0 := and_mask v 0
  have m1 := and_mask v 8
  have m2 := and_mask v 16
  have m3 := and_mask v 24
  simp only [Nat.pow_zero, Nat.mul_one, Nat.div_one, Nat.reduceMul, Nat.reducePow] at m0 m1 m2 m3
  rw [m0, m1, m2, m3]
  simp only [Nat.shiftLeft_eq, Nat.shiftRight_eq_div_pow, Nat.or_assoc]
  have e2 : v / 65536 % 256 * 65536 / 2 ^ 8 = v / 65536 % 256 * 2 ^ 8 := by
    rw [show 65536 = 2 ^ 8 * 2 ^ 8 from rfl, ← Nat.mul_assoc, Nat.mul_div_cancel _ (by decide)]
  have e3 : v / 16777216 % 256 * 16777216 / 2 ^ 24 = v / 16777216 := by
    rw [show (16777216 : Nat) = 2 ^ 24 from rfl, Nat.mul_div_cancel _ (by decide)]
    exact Nat.mod_eq_of_lt (by rw [Nat.div_lt_iff_lt_mul (by decide)]; exact h)
  have e1 : v / 256 % 256 * 256 * 2 ^ 8 = v / 256 % 256 * 2 ^ 16 := by
    rw [Nat.mul_assoc]; rfl
  have b3 : v / 16777216 < 256 := by
    rw [Nat.div_lt_iff_lt_mul (by decide)]; exact h
  have b2 : v / 65536 % 256 < 256 := Nat.mod_lt _ (by decide)
  have b1 : v / 256 % 256 < 256 := Nat.mod_lt _ (by decide)
  generalize hx3 : v / 16777216 = x3 at *
  generalize hx2 : v / 65536 % 256 = x2 at *
  generalize hx1 : v / 256 % 256 = x1 at *
  rw [e1, e2, e3, or_add _ _ 8 (by omega), or_add _ _ 16 (by omega), or_add _ _ 24 (by omega)]
  simp only [Nat.reducePow, Nat.add_assoc]

theorem swap32_digits (a b c d : Nat) (ha : a < 256) (hb : b < 256) (hc : c < 256) (hd : d < 256) :
    swap32 (a * 16777216 + b * 65536 + c * 256 + d) = d * 16777216 + c * 65536 + b * 256 + a := by
  have h0 : (a * 16777216 + b * 65536 + c * 256 + d) % 256 = d := by omega
  have h1 : (a * 16777216 + b * 65536 + c * 256 + d) / 256 % 256 = c := by omega
  have h2 : (a * 16777216 + b * 65536 + c * 256 + d) / 65536 % 256 = b := by omega
  have h3 : (a * 16777216 + b * 65536 + c * 256 + d) / 16777216 = a := by omega
  rw [swap32_eq _ (by omega), h0, h1, h2, h3]

theorem digits32 (v : Nat) (h : v < 2 ^ 32) : ∃ a b c d, a < 256 ∧ b < 256 ∧ c < 256 ∧ d < 256 ∧
    v = a * 16777216 + b * 65536 + c * 256 + d :=
  ⟨v / 16777216, v / 65536 % 256, v / 256 % 256, v % 256, by omega, by omega, by omega, by omega, by omega⟩

theorem length_interleave {α} (a b : List α) : (interleave a b).length = 2 * min a.length b.length := by
  induction a generalizing b with
  | nil => cases b <;> simp [interleave]
  | cons x xs ih => cases b with
    | nil => simp [interleave]
    | cons y ys => simp [interleave, ih]; omega

/-- `countBits` loops. -/
theorem countBitsUp_spec (c b v : Nat) (hb : 0 < b) (count bits value : Nat)
    (h : countBitsUp c b v hb = (count, bits, value)) :
    ∃ k, count = c + k ∧ value = v / 2 ^ k ∧ value < 2 ^ bits ∧ 0 < bits ∧
      (k ≠ 0 → value ≠ 0) ∧ (v < 2 ∨ b ≠ 1 → (2 ≤ value → 2 ≤ bits)) ∧ (2 ≤ value → 2 ≤ bits ∨ v < 2 ^ b) := by
  fun_induction countBitsUp c b v hb with
  | case1 c b v hb hle ih =>
    obtain ⟨k, h1, h2, h3, h4, h5, h6, h7⟩ := ih h
    refine ⟨b + k, by omega, ?_, h3, h4, ?_, ?_, ?_⟩
    · rw [h2, Nat.shiftRight_eq_div_pow, Nat.div_div_eq_div_mul, Nat.pow_add]
    · intro _
      by_cases hk : k = 0
      · subst hk
        rw [h2, Nat.shiftRight_eq_div_pow]
        simp only [Nat.pow_zero, Nat.div_one]
        rw [Nat.shiftLeft_eq, Nat.one_mul] at hle
        have := Nat.div_pos hle (Nat.two_pow_pos b)
        omega
      · exact h5 hk
    · intro _ h8
      exact h6 (Or.inr (by rw [Nat.shiftLeft_eq]; omega)) h8
    · intro h8
      exact Or.inl (h6 (Or.inr (by rw [Nat.shiftLeft_eq]; omega)) h8)
  | case2 c b v hb hle =>
    simp only [Prod.mk.injEq] at h
    obtain ⟨rfl, rfl, rfl⟩ := h
    rw [Nat.shiftLeft_eq, Nat.one_mul] at hle
    refine ⟨0, by simp, by simp, by omega, hb, by simp, ?_, ?_⟩
    · intro h1 h2
      rcases h1 with h1 | h1 <;> omega
    · intro _; right; omega

theorem countBitsInner_spec (c b v : Nat) (hb : 0 < b) (hv : v ≠ 0) :
    ∃ k, countBitsInner c b v = some (c + k, v / 2 ^ k) ∧ v / 2 ^ k < 2 ^ b ∧ v / 2 ^ k ≠ 0 := by
  fun_induction countBitsInner c b v with
  | case1 c v hle => omega
  | case2 c v hle hb0 ih =>
    rw [Nat.shiftLeft_eq, Nat.one_mul] at hle
    have hne : v >>> b ≠ 0 := by
      rw [Nat.shiftRight_eq_div_pow]
      have := Nat.div_pos hle (Nat.two_pow_pos b)
      omega
    obtain ⟨k, h1, h2, h3⟩ := ih hne
    rw [Nat.shiftRight_eq_div_pow, Nat.div_div_eq_div_mul, ← Nat.pow_add] at h2 h3
    refine ⟨b + k, ?_, h2, h3⟩
    rw [h1, Nat.shiftRight_eq_div_pow, Nat.div_div_eq_div_mul, ← Nat.pow_add, Nat.add_assoc]
  | case3 c v hle =>
    rw [Nat.shiftLeft_eq, Nat.one_mul] at hle
    exact ⟨0, by simp, by simp; omega, by simpa using hv⟩

theorem countBitsDown_spec (c b v : Nat) (hv : v < 2 ^ b) (hv0 : v ≠ 0) :
    ∃ k, countBitsDown c b v = some (c + k) ∧ v / 2 ^ k = 1 := by
  induction b using Nat.strongRecOn generalizing c v with
  | ind b ih =>
    rw [countBitsDown]
    by_cases h2 : 2 ≤ v
    · have hb0 : b ≠ 0 := by rintro rfl; simp at hv; omega
      have hb1 : b ≠ 1 := by rintro rfl; simp at hv; omega
      simp only [h2, if_true, hb0, dif_neg, not_false_eq_true, hb1, ne_eq]
      have hb' : 0 < b >>> 1 := by rw [Nat.shiftRight_eq_div_pow]; omega
      obtain ⟨k, h3, h4, h5⟩ := countBitsInner_spec c (b >>> 1) v hb' hv0
      obtain ⟨j, h6, h7⟩ := ih (b >>> 1) (by rw [Nat.shiftRight_eq_div_pow]; omega) (c + k) (v / 2 ^ k) h4 h5
      refine ⟨k + j, ?_, ?_⟩
      · rw [h3]; simp only [h6, Nat.add_assoc]
      · rw [Nat.pow_add, ← Nat.div_div_eq_div_mul, h7]
    · simp only [h2, if_false]
      exact ⟨0, rfl, by simp; omega⟩

theorem countBits_spec (n : Nat) (hn : n ≠ 0) : ∃ k, countBits n = some (k + 1) ∧ n / 2 ^ k = 1 := by
  unfold countBits
  rcases h : countBitsUp 1 1 n (by omega) with ⟨count, bits, value⟩
  obtain ⟨k, h1, h2, h3, h4, h5, -, -⟩ := countBitsUp_spec 1 1 n (by omega) count bits value h
  have hv0 : value ≠ 0 := by
    by_cases hk : k = 0
    · subst hk; simpa [h2] using hn
    · exact h5 hk
  obtain ⟨j, h6, h7⟩ := countBitsDown_spec count bits value h3 hv0
  refine ⟨k + j, ?_, ?_⟩
  · rw [h6, h1]; congr 1; omega
  · rw [Nat.pow_add, ← Nat.div_div_eq_div_mul, ← h2, h7]

/-! binary text -/

theorem bin2longLoop_eq (bits : List Bool) (v : Nat) :
    bin2longLoop v (bits.map Bool.toNat) = v * 2 ^ bits.length + ofBitsMSB bits := by
  induction bits generalizing v with
  | nil => simp [bin2longLoop, ofBitsMSB]
  | cons b bs ih => simp only [List.map_cons, bin2longLoop, ih, ofBitsMSB, List.length_cons]; ring

end Hachoir.Bits
