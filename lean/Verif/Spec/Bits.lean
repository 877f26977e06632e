import Mathlib.Tactic.Ring

/-!
# Specification of bit strings and numbers

Independent of the models: only lists of booleans and arithmetic.
-/

namespace Spec

/-- Number spelled by a list of bits, most significant bit first. -/
def ofBitsMSB : List Bool → Nat
  | [] => 0
  | b :: bs => b.toNat * 2 ^ bs.length + ofBitsMSB bs

/-- Number spelled by a list of bits, least significant bit first. -/
def ofBitsLSB : List Bool → Nat
  | [] => 0
  | b :: bs => b.toNat + 2 * ofBitsLSB bs

/-- The eight bits of a byte, most significant first. -/
def byteMSB (b : UInt8) : List Bool :=
  [b.toNat.testBit 7, b.toNat.testBit 6, b.toNat.testBit 5, b.toNat.testBit 4,
   b.toNat.testBit 3, b.toNat.testBit 2, b.toNat.testBit 1, b.toNat.testBit 0]

/-- The eight bits of a byte, least significant first. -/
def byteLSB (b : UInt8) : List Bool :=
  [b.toNat.testBit 0, b.toNat.testBit 1, b.toNat.testBit 2, b.toNat.testBit 3,
   b.toNat.testBit 4, b.toNat.testBit 5, b.toNat.testBit 6, b.toNat.testBit 7]

/-- All the bits of a byte string, most significant bit of each byte first. -/
def bitsMSB (data : List UInt8) : List Bool := data.flatMap byteMSB

/-- All the bits of a byte string, least significant bit of each byte first. -/
def bitsLSB (data : List UInt8) : List Bool := data.flatMap byteLSB

/-- Number spelled by a byte string, most significant byte first. -/
def ofBytesBE : List UInt8 → Nat
  | [] => 0
  | b :: bs => b.toNat * 256 ^ bs.length + ofBytesBE bs

/-- Number spelled by a byte string, least significant byte first. -/
def ofBytesLE : List UInt8 → Nat
  | [] => 0
  | b :: bs => b.toNat + 256 * ofBytesLE bs

/-- Two's complement value of the `n`-bit pattern `v`. -/
def twosComplement (n v : Nat) : Int :=
  if v < 2 ^ (n - 1) then (v : Int) else (v : Int) - 2 ^ n

/-! ### Lemmas about the specification -/

theorem ofBitsMSB_lt (l : List Bool) : ofBitsMSB l < 2 ^ l.length := by
  induction l with
  | nil => simp [ofBitsMSB]
  | cons b bs ih =>
    simp only [ofBitsMSB, List.length_cons, Nat.pow_succ]
    cases b <;> simp <;> omega

theorem ofBitsLSB_lt (l : List Bool) : ofBitsLSB l < 2 ^ l.length := by
  induction l with
  | nil => simp [ofBitsLSB]
  | cons b bs ih =>
    simp only [ofBitsLSB, List.length_cons, Nat.pow_succ]
    cases b <;> simp <;> omega

theorem ofBitsMSB_append (xs ys : List Bool) :
    ofBitsMSB (xs ++ ys) = ofBitsMSB xs * 2 ^ ys.length + ofBitsMSB ys := by
  induction xs with
  | nil => simp [ofBitsMSB]
  | cons b bs ih =>
    simp only [List.cons_append, ofBitsMSB, ih, List.length_append, Nat.pow_add, Nat.add_mul,
      Nat.mul_assoc, Nat.add_assoc]

theorem ofBitsLSB_append (xs ys : List Bool) :
    ofBitsLSB (xs ++ ys) = ofBitsLSB xs + 2 ^ xs.length * ofBitsLSB ys := by
  induction xs with
  | nil => simp [ofBitsLSB]
  | cons b bs ih =>
    simp only [List.cons_append, ofBitsLSB, ih, List.length_cons]
    ring

theorem ofBitsLSB_reverse (l : List Bool) : ofBitsLSB l.reverse = ofBitsMSB l := by
  induction l with
  | nil => rfl
  | cons b bs ih =>
    rw [List.reverse_cons, ofBitsLSB_append, ih]
    simp only [ofBitsLSB, ofBitsMSB, List.length_reverse]
    ring

theorem ofBitsMSB_reverse (l : List Bool) : ofBitsMSB l.reverse = ofBitsLSB l := by
  rw [← ofBitsLSB_reverse, List.reverse_reverse]

theorem length_bitsMSB (d : List UInt8) : (bitsMSB d).length = 8 * d.length := by
  induction d with
  | nil => rfl
  | cons b bs ih => simp only [bitsMSB, List.flatMap_cons, List.length_append] at *; rw [ih]; simp [byteMSB]; omega

theorem length_bitsLSB (d : List UInt8) : (bitsLSB d).length = 8 * d.length := by
  induction d with
  | nil => rfl
  | cons b bs ih => simp only [bitsLSB, List.flatMap_cons, List.length_append] at *; rw [ih]; simp [byteLSB]; omega

theorem ofBitsMSB_byteMSB (b : UInt8) : ofBitsMSB (byteMSB b) = b.toNat := by
  have h : ∀ n : Fin 256, ofBitsMSB (byteMSB (UInt8.ofNat n.val)) = (UInt8.ofNat n.val).toNat := by
    decide +kernel
  have := h ⟨b.toNat, b.toNat_lt⟩
  simpa using this

theorem ofBitsLSB_byteLSB (b : UInt8) : ofBitsLSB (byteLSB b) = b.toNat := by
  have h : ∀ n : Fin 256, ofBitsLSB (byteLSB (UInt8.ofNat n.val)) = (UInt8.ofNat n.val).toNat := by
    decide +kernel
  have := h ⟨b.toNat, b.toNat_lt⟩
  simpa using this

theorem pow256 (n : Nat) : 256 ^ n = 2 ^ (8 * n) := by
  rw [Nat.pow_mul]

theorem ofBytesBE_eq (d : List UInt8) : ofBytesBE d = ofBitsMSB (bitsMSB d) := by
  induction d with
  | nil => rfl
  | cons b bs ih =>
    have : bitsMSB (b :: bs) = byteMSB b ++ bitsMSB bs := rfl
    rw [this, ofBitsMSB_append, ofBitsMSB_byteMSB, ← ih, length_bitsMSB, ofBytesBE, pow256]

theorem ofBytesLE_eq (d : List UInt8) : ofBytesLE d = ofBitsLSB (bitsLSB d) := by
  induction d with
  | nil => rfl
  | cons b bs ih =>
    have : bitsLSB (b :: bs) = byteLSB b ++ bitsLSB bs := rfl
    have h8 : (byteLSB b).length = 8 := rfl
    rw [this, ofBitsLSB_append, ofBitsLSB_byteLSB, ← ih, ofBytesLE, h8,
      show (2 : Nat) ^ 8 = 256 from rfl]

theorem ofBytesBE_lt (d : List UInt8) : ofBytesBE d < 256 ^ d.length := by
  rw [ofBytesBE_eq, pow256, ← length_bitsMSB]; exact ofBitsMSB_lt _

theorem ofBytesLE_lt (d : List UInt8) : ofBytesLE d < 256 ^ d.length := by
  rw [ofBytesLE_eq, pow256, ← length_bitsLSB]; exact ofBitsLSB_lt _

theorem ofBytesLE_append (xs ys : List UInt8) :
    ofBytesLE (xs ++ ys) = ofBytesLE xs + 256 ^ xs.length * ofBytesLE ys := by
  induction xs with
  | nil => simp [ofBytesLE]
  | cons b bs ih =>
    simp only [List.cons_append, ofBytesLE, ih, List.length_cons]
    ring

theorem ofBytesBE_append (xs ys : List UInt8) :
    ofBytesBE (xs ++ ys) = ofBytesBE xs * 256 ^ ys.length + ofBytesBE ys := by
  induction xs with
  | nil => simp [ofBytesBE]
  | cons b bs ih =>
    simp only [List.cons_append, ofBytesBE, ih, List.length_append, Nat.pow_add, Nat.add_mul,
      Nat.mul_assoc, Nat.add_assoc]

theorem ofBytesLE_reverse (d : List UInt8) : ofBytesLE d.reverse = ofBytesBE d := by
  induction d with
  | nil => rfl
  | cons b bs ih =>
    rw [List.reverse_cons, ofBytesLE_append, ih]
    simp only [ofBytesLE, ofBytesBE, List.length_reverse]
    ring

theorem ofBytesBE_reverse (d : List UInt8) : ofBytesBE d.reverse = ofBytesLE d := by
  rw [← ofBytesLE_reverse, List.reverse_reverse]

/-- Middle bits of a number spelled MSB first: shift right then mask. -/
theorem ofBitsMSB_slice (l : List Bool) (s n : Nat) (h : s + n ≤ l.length) :
    ofBitsMSB ((l.drop s).take n) = ofBitsMSB l / 2 ^ (l.length - s - n) % 2 ^ n := by
  have h1 : l = l.take s ++ ((l.drop s).take n ++ (l.drop s).drop n) := by
    rw [List.take_append_drop, List.take_append_drop]
  have hl3 : ((l.drop s).drop n).length = l.length - s - n := by simp; omega
  have hl2 : ((l.drop s).take n).length = n := by simp; omega
  generalize l.take s = a at h1
  generalize (l.drop s).take n = b at *
  generalize (l.drop s).drop n = c at *
  have lt3 := ofBitsMSB_lt c
  have lt2 := ofBitsMSB_lt b
  have e : ofBitsMSB l = (ofBitsMSB a * 2 ^ n + ofBitsMSB b) * 2 ^ (l.length - s - n) + ofBitsMSB c := by
    conv => lhs; rw [h1]
    rw [ofBitsMSB_append, ofBitsMSB_append, List.length_append, hl2, hl3, Nat.pow_add,
      Nat.add_mul, Nat.mul_assoc, Nat.add_assoc]
  rw [hl3] at lt3
  rw [hl2] at lt2
  rw [e, Nat.mul_comm, Nat.mul_add_div (Nat.two_pow_pos _), Nat.div_eq_of_lt lt3, Nat.add_zero,
    Nat.mul_comm, Nat.mul_add_mod, Nat.mod_eq_of_lt lt2]

/-- Middle bits of a number spelled LSB first: shift right then mask. -/
theorem ofBitsLSB_slice (l : List Bool) (s n : Nat) (h : s + n ≤ l.length) :
    ofBitsLSB ((l.drop s).take n) = ofBitsLSB l / 2 ^ s % 2 ^ n := by
  have h1 : l = l.take s ++ ((l.drop s).take n ++ (l.drop s).drop n) := by
    rw [List.take_append_drop, List.take_append_drop]
  have hl1 : (l.take s).length = s := by simp; omega
  have hl2 : ((l.drop s).take n).length = n := by simp; omega
  generalize l.take s = a at *
  generalize (l.drop s).take n = b at *
  generalize (l.drop s).drop n = c at *
  have lt1 := ofBitsLSB_lt a
  have lt2 := ofBitsLSB_lt b
  have e : ofBitsLSB l = 2 ^ s * (2 ^ n * ofBitsLSB c + ofBitsLSB b) + ofBitsLSB a := by
    conv => lhs; rw [h1]
    rw [ofBitsLSB_append, ofBitsLSB_append, hl1, hl2, Nat.mul_add, Nat.mul_add]; omega
  rw [hl1] at lt1
  rw [hl2] at lt2
  rw [e, Nat.mul_add_div (Nat.two_pow_pos _), Nat.div_eq_of_lt lt1, Nat.add_zero,
    Nat.mul_add_mod, Nat.mod_eq_of_lt lt2]

end Spec
