import Verif.Field.Float
import Verif.Core.FloatError
import Verif.Props.PrefixInt

/-!
# C87: floating point fields
-/

set_option linter.unusedVariables false

namespace Hachoir.Props
open Hachoir Hachoir.Stream Hachoir.Floats Hachoir.Time Spec

/-! ### Numbers of IEEE 754 -/

/-- Sign, exponent and fraction of a number of `1 + w + t` bits (IEEE 754, 3.4). -/
def ieeeSign (w t n : Nat) : Bool := n / 2 ^ (w + t) % 2 == 1
def ieeeExponent (w t n : Nat) : Nat := n / 2 ^ t % 2 ^ w
def ieeeFraction (t n : Nat) : Nat := n % 2 ^ t

def signed (negative : Bool) (q : ℚ) : ℚ := if negative then -q else q

/-- The value of a normal number of IEEE 754. -/
def ieeeNormal (w t n : Nat) : ℚ :=
  signed (ieeeSign w t n) ((1 + (ieeeFraction t n : ℚ) / 2 ^ t) * (2 : ℚ) ^ ((ieeeExponent w t n : ℤ) - (2 ^ (w - 1) - 1 : Nat)))

/-- The extended format of 80 bits: the integer bit is stored (bit 63). -/
def extendedOne (n : Nat) : Nat := n / 2 ^ 63 % 2
def extendedValue (n : Nat) : ℚ :=
  signed (ieeeSign 15 64 n)
    (((extendedOne n : ℚ) + (ieeeFraction 63 n : ℚ) / 2 ^ 63) * (2 : ℚ) ^ ((ieeeExponent 15 64 n : ℤ) - 16383))

/-- What a Python float stands for. -/
def floatValue : PyFloat → Option ℚ
  | .finite negative num exp => some (signed negative (num * (2 : ℚ) ^ exp))
  | .infinite _ => none

/-! ### Reading -/

/-- Bits of some bytes in big endian. -/
theorem readBits_mid (data : Bytes) (s : InputStream) (hs : stringInputStream data = .ok s)
    (k a b : Nat) (bs : Bytes) (hp : bs <+: data.drop k) (hab : a + b ≤ 8 * bs.length) (h0 : 0 < bs.length)
    (ad : Int) (had : ad = ((8 * k + a : Nat) : Int)) :
    readBits s ad b .big = .ok (ofBytesBE bs / 2 ^ (8 * bs.length - a - b) % 2 ^ b) := by
  subst had
  obtain ⟨ht, hm⟩ := take_of_prefix hp
  rw [List.length_drop] at hm
  obtain ⟨m, hlm⟩ : ∃ m, bs.length = m := ⟨_, rfl⟩
  have hsl := ofBitsMSB_slice (bitsMSB bs) a b (by rw [length_bitsMSB]; omega)
  rw [length_bitsMSB] at hsl
  rw [_root_.Props.C01_readBits_big data s hs (8 * k + a) b (by omega), ofBytesBE_eq, ← hsl, ← ht, bitsMSB_take, bitsMSB_drop]
  congr 2
  rw [List.drop_take, List.drop_drop, List.take_take, Nat.min_eq_left (by omega)]

theorem parts_big (data : Bytes) (s : InputStream) (hs : stringInputStream data = .ok s) (k w t : Nat) (bs : Bytes)
    (hp : bs <+: data.drop k) (hl : 8 * bs.length = 1 + w + t) (ht : t < 64) :
    floatParts s .big (8 * k : Nat) t w = .ok ⟨ieeeSign w t (ofBytesBE bs),
      (ieeeExponent w t (ofBytesBE bs) : ℤ) - (2 ^ (w - 1) - 1 : Nat), none, mantissaValue t (ieeeFraction t (ofBytesBE bs))⟩ := by
  have r1 := readBits_mid data s hs k 0 1 bs hp (by omega) (by omega) (8 * k : Nat) (by omega)
  have r2 := readBits_mid data s hs k 1 w bs hp (by omega) (by omega) (((8 * k : Nat) : Int) + 1) (by omega)
  have r3 := readBits_mid data s hs k (1 + w) t bs hp (by omega) (by omega) (((8 * k : Nat) : Int) + 1 + w) (by omega)
  rw [show 8 * bs.length - 0 - 1 = w + t by omega] at r1
  rw [show 8 * bs.length - 1 - w = t by omega] at r2
  rw [show 8 * bs.length - (1 + w) - t = 0 by omega, Nat.pow_zero, Nat.div_one] at r3
  unfold floatParts
  simp only [r1, r2, r3]
  rw [if_neg (by omega)]
  rfl

theorem parts80_big (data : Bytes) (s : InputStream) (hs : stringInputStream data = .ok s) (k : Nat) (bs : Bytes)
    (hp : bs <+: data.drop k) (hl : bs.length = 10) :
    floatParts s .big (8 * k : Nat) 64 15 = .ok ⟨ieeeSign 15 64 (ofBytesBE bs),
      (ieeeExponent 15 64 (ofBytesBE bs) : ℤ) - 16383, some (extendedOne (ofBytesBE bs) == 1),
      mantissaValue 63 (ieeeFraction 63 (ofBytesBE bs))⟩ := by
  have r1 := readBits_mid data s hs k 0 1 bs hp (by omega) (by omega) (8 * k : Nat) (by omega)
  have r2 := readBits_mid data s hs k 1 15 bs hp (by omega) (by omega) (((8 * k : Nat) : Int) + 1) (by omega)
  have r3 := readBits_mid data s hs k 16 1 bs hp (by omega) (by omega) (((8 * k : Nat) : Int) + 1 + 15) (by omega)
  have r4 := readBits_mid data s hs k 17 63 bs hp (by omega) (by omega) (((8 * k : Nat) : Int) + 1 + 15 + 1) (by omega)
  rw [hl] at r1 r2 r3 r4
  rw [show 8 * 10 - 17 - 63 = 0 by omega, Nat.pow_zero, Nat.div_one] at r4
  unfold floatParts
  simp only [r1, r2]
  rw [if_pos (by omega)]
  have c15 : ((15 : Nat) : Int) = 15 := rfl
  simp only [c15, r3, r4, show 64 - 1 = 63 from rfl]
  rfl

/-! ### Rounding -/

theorem floatOfNat_exact (w j : Nat) (hw : w < 2 ^ 53) : floatOfNat (w * 2 ^ j) = w * 2 ^ j := by
  unfold floatOfNat
  split
  · rfl
  · rename_i h
    have hw0 : w ≠ 0 := by rintro rfl; simp at h
    have hlog : Nat.log2 (w * 2 ^ j) - 52 ≤ j := by
      have h1 := (log2_bounds (w * 2 ^ j) (by positivity)).1
      have h2 : w * 2 ^ j < 2 ^ (53 + j) := by
        rw [Nat.pow_add]; exact Nat.mul_lt_mul_of_pos_right hw (by positivity)
      have h3 := (Nat.pow_lt_pow_iff_right (by omega : 1 < 2)).1 (Nat.lt_of_le_of_lt h1 h2)
      omega
    obtain ⟨i, hi⟩ : ∃ i, Nat.log2 (w * 2 ^ j) - 52 = i := ⟨_, rfl⟩
    rw [hi] at hlog ⊢
    have he : w * 2 ^ j = w * 2 ^ (j - i) * 2 ^ i := by
      rw [Nat.mul_assoc, ← Nat.pow_add]; congr 2; omega
    rw [he]
    have := roundHalfEven_of (2 ^ i) (w * 2 ^ (j - i)) 0 (by positivity)
    rw [Nat.add_zero] at this
    rw [this, if_pos (by simp)]

theorem floatOfNat_near (v : Nat) (hv : v < 2 ^ 63) : floatOfNat v ≤ v + 2 ^ 9 ∧ v ≤ floatOfNat v + 2 ^ 9 := by
  unfold floatOfNat
  split
  · omega
  · rename_i h
    have h1 := (log2_bounds v (by omega)).1
    have h3 := (Nat.pow_lt_pow_iff_right (by omega : 1 < 2)).1 (Nat.lt_of_le_of_lt h1 hv)
    obtain ⟨i, hi⟩ : ∃ i, Nat.log2 v - 52 = i := ⟨_, rfl⟩
    rw [hi]
    have hi10 : i ≤ 10 := by omega
    have hd : 2 ^ i ≤ 2 ^ 10 := Nat.pow_le_pow_right (by omega) hi10
    obtain ⟨b1, b2⟩ := roundHalfEven_bound v (2 ^ i) (by positivity)
    rw [Nat.mul_comm (2 ^ i)] at b1 b2
    obtain ⟨X, hX⟩ : ∃ X, roundHalfEven v (2 ^ i) * 2 ^ i = X := ⟨_, rfl⟩
    obtain ⟨D, hD⟩ : ∃ D, 2 ^ i = D := ⟨_, rfl⟩
    rw [hX, hD] at b1 b2
    rw [hD] at hd
    rw [hX]
    omega

theorem mantissa80_exact (w : Nat) (hw : w < 2 ^ 52) : mantissaValue 63 (w * 2 ^ 11) = ⟨2 ^ 52 + w, 52⟩ := by
  unfold mantissaValue
  rw [if_neg (by omega), floatOfNat_exact w 11 (by omega)]
  have := roundHalfEven_of (2 ^ 11) w 0 (by positivity)
  rw [Nat.add_zero] at this
  rw [show 63 - 52 = 11 from rfl, this, if_pos (by simp)]

theorem mantissa80_near (v : Nat) (hv : v < 2 ^ 63) :
    (mantissaValue 63 v).num * 2 ^ 11 ≤ 2 ^ 63 + v + (2 ^ 10 + 2 ^ 9) ∧
    2 ^ 63 + v ≤ (mantissaValue 63 v).num * 2 ^ 11 + (2 ^ 10 + 2 ^ 9) := by
  unfold mantissaValue
  rw [if_neg (by omega)]
  simp only [show 63 - 52 = 11 from rfl]
  obtain ⟨h1, h2⟩ := floatOfNat_near v hv
  obtain ⟨b1, b2⟩ := roundHalfEven_bound (floatOfNat v) (2 ^ 11) (by positivity)
  omega

theorem fraction_lt (t n : Nat) : ieeeFraction t n < 2 ^ t := Nat.mod_lt _ (by positivity)

theorem scale_eq (e : ℤ) : (2 : ℚ) ^ (e - 52) = (2 : ℚ) ^ e / 2 ^ 52 := by
  rw [zpow_sub₀ (by norm_num)]
  norm_cast

/-! ### Theorems -/

/-- C87: the parts of a 32 or 64 bit number in big endian (and of any size with at most 52 bits of
fraction) are those of the number, and make up its value when it is normal. -/
theorem C87_parts (data : Bytes) (s : InputStream) (hs : stringInputStream data = .ok s) (k w t : Nat) (bs : Bytes)
    (hp : bs <+: data.drop k) (hl : 8 * bs.length = 1 + w + t) (ht : t ≤ 52) :
    ∃ p, floatParts s .big (8 * k : Nat) t w = .ok p ∧ p.negative = ieeeSign w t (ofBytesBE bs) ∧
      p.exponent = (ieeeExponent w t (ofBytesBE bs) : ℤ) - (2 ^ (w - 1) - 1 : Nat) ∧
      p.mantissa.val = 1 + (ieeeFraction t (ofBytesBE bs) : ℚ) / 2 ^ t ∧
      signed p.negative (p.mantissa.val * (2 : ℚ) ^ p.exponent) = ieeeNormal w t (ofBytesBE bs) := by
  have hv : (mantissaValue t (ieeeFraction t (ofBytesBE bs))).val = 1 + (ieeeFraction t (ofBytesBE bs) : ℚ) / 2 ^ t := by
    unfold mantissaValue
    rw [if_pos ht]
    unfold Time.Dyadic.val
    push_cast
    rw [add_div, div_self (by positivity)]
  refine ⟨_, parts_big data s hs k w t bs hp hl (by omega), rfl, rfl, hv, ?_⟩
  simp only [hv]
  rfl

/-- -2.5 in 32 bits. -/
example : ∃ s p, stringInputStream [0xc0, 0x20, 0, 0] = .ok s ∧ floatParts s .big (8 * 0 : Nat) 23 8 = .ok p ∧
    p.negative = true ∧ p.exponent = 1 ∧ p.mantissa.val = 5 / 4 := by
  obtain ⟨s, hs⟩ : ∃ s, stringInputStream [0xc0, 0x20, 0, 0] = .ok s := ⟨_, rfl⟩
  obtain ⟨p, h1, h2, h3, h4, _⟩ := C87_parts [0xc0, 0x20, 0, 0] s hs 0 8 23 [0xc0, 0x20, 0, 0] ⟨[], rfl⟩ rfl (by omega)
  have hN : ofBytesBE [0xc0, 0x20, 0, 0] = 0xc0200000 := rfl
  rw [hN] at h2 h3 h4
  refine ⟨s, p, hs, h1, by rw [h2]; decide, by rw [h3]; decide, ?_⟩
  rw [h4]
  norm_num [ieeeFraction]

/-- C87: an 80 bit number in big endian whose fraction fits into 52 bits is read exactly, if it is
in the range of Python's floats. -/
theorem C87_float80_exact (data : Bytes) (s : InputStream) (hs : stringInputStream data = .ok s) (k : Nat) (bs : Bytes)
    (hp : bs <+: data.drop k) (hl : bs.length = 10) (h1 : extendedOne (ofBytesBE bs) = 1)
    (he : 16383 - 1022 ≤ ieeeExponent 15 64 (ofBytesBE bs)) (he' : ieeeExponent 15 64 (ofBytesBE bs) ≤ 16383 + 1023)
    (hf : ieeeFraction 63 (ofBytesBE bs) % 2 ^ 11 = 0) :
    ∃ f, float80 s .big (8 * k : Nat) = .ok f ∧ floatValue f = some (extendedValue (ofBytesBE bs)) := by
  obtain ⟨n, hn⟩ : ∃ n, ofBytesBE bs = n := ⟨_, rfl⟩
  have hparts := parts80_big data s hs k bs hp hl
  rw [hn] at hparts h1 he he' hf ⊢
  obtain ⟨w, hw⟩ : ∃ w, ieeeFraction 63 n = w * 2 ^ 11 := ⟨ieeeFraction 63 n / 2 ^ 11, by omega⟩
  have hlt := fraction_lt 63 n
  have hw52 : w < 2 ^ 52 := by omega
  unfold float80
  simp only [hparts, hw, mantissa80_exact w hw52]
  unfold scaled
  rw [if_neg (by omega), if_pos (by omega), if_neg (by omega)]
  refine ⟨_, rfl, ?_⟩
  simp only [floatValue, extendedValue, h1, hw]
  rw [scale_eq]
  congr 2
  push_cast
  generalize (2 : ℚ) ^ ((ieeeExponent 15 64 n : ℤ) - 16383) = P
  field_simp
  ring

/-- C87: every 80 bit number in big endian that is normal and in the range of Python's floats is
read with a relative error of at most three quarters of `2 ^ -52`. -/
theorem C87_float80_near (data : Bytes) (s : InputStream) (hs : stringInputStream data = .ok s) (k : Nat) (bs : Bytes)
    (hp : bs <+: data.drop k) (hl : bs.length = 10) (h1 : extendedOne (ofBytesBE bs) = 1)
    (he : 16383 - 1022 ≤ ieeeExponent 15 64 (ofBytesBE bs)) (he' : ieeeExponent 15 64 (ofBytesBE bs) < 16383 + 1023) :
    ∃ f v, float80 s .big (8 * k : Nat) = .ok f ∧ floatValue f = some v ∧
      |v - extendedValue (ofBytesBE bs)| ≤ |extendedValue (ofBytesBE bs)| * (3 / 2 ^ 54) := by
  obtain ⟨n, hn⟩ : ∃ n, ofBytesBE bs = n := ⟨_, rfl⟩
  have hparts := parts80_big data s hs k bs hp hl
  rw [hn] at hparts h1 he he' ⊢
  obtain ⟨b1, b2⟩ := mantissa80_near _ (fraction_lt 63 n)
  obtain ⟨F, hF⟩ : ∃ F, ieeeFraction 63 n = F := ⟨_, rfl⟩
  rw [hF] at hparts b1 b2
  obtain ⟨M, hM⟩ : ∃ M, (mantissaValue 63 F).num = M := ⟨_, rfl⟩
  rw [hM] at b1 b2
  unfold float80
  simp only [hparts, hM]
  unfold scaled
  rw [if_neg (by omega), if_pos (by omega), if_neg (by omega)]
  refine ⟨_, _, rfl, rfl, ?_⟩
  unfold extendedValue
  rw [h1, hF, scale_eq]
  have hP : (0 : ℚ) < (2 : ℚ) ^ ((ieeeExponent 15 64 n : ℤ) - 16383) := zpow_pos (by norm_num) _
  generalize (2 : ℚ) ^ ((ieeeExponent 15 64 n : ℤ) - 16383) = P at hP ⊢
  have b1' : (M : ℚ) * 2 ^ 11 ≤ 2 ^ 63 + F + (2 ^ 10 + 2 ^ 9) := by exact_mod_cast b1
  have b2' : (2 : ℚ) ^ 63 + F ≤ M * 2 ^ 11 + (2 ^ 10 + 2 ^ 9) := by exact_mod_cast b2
  have hF0 : (0 : ℚ) ≤ F := by positivity
  have key : |(M : ℚ) * (P / 2 ^ 52) - (((1 : Nat) : ℚ) + F / 2 ^ 63) * P| ≤ (((1 : Nat) : ℚ) + F / 2 ^ 63) * P * (3 / 2 ^ 54) := by
    have e1 : (M : ℚ) * (P / 2 ^ 52) - (((1 : Nat) : ℚ) + F / 2 ^ 63) * P = (M * 2 ^ 11 - (2 ^ 63 + F)) * (P / 2 ^ 63) := by
      push_cast; field_simp
    have e2 : (((1 : Nat) : ℚ) + F / 2 ^ 63) * P * (3 / 2 ^ 54) = ((2 ^ 63 + F) * (3 / 2 ^ 54)) * (P / 2 ^ 63) := by
      push_cast; field_simp
    rw [e1, e2, abs_mul, abs_of_pos (show (0 : ℚ) < P / 2 ^ 63 by positivity)]
    apply mul_le_mul_of_nonneg_right _ (by positivity)
    rw [abs_le]
    constructor <;> nlinarith
  have hpos : (0 : ℚ) ≤ (((1 : Nat) : ℚ) + F / 2 ^ 63) * P := by positivity
  unfold signed
  split
  · rw [neg_sub_neg, abs_sub_comm, abs_neg, abs_of_nonneg hpos]; exact key
  · rw [abs_of_nonneg hpos]; exact key

/-- The bytes of a positive integer in the extended format. -/
def extendedOf (n : Nat) : Nat := (16383 + Nat.log2 n) * 2 ^ 64 + n * 2 ^ (63 - Nat.log2 n)

/-- C87: a positive integer below `2 ^ 53` stored as an 80 bit number (a sample rate of an AIFF
file) is read as itself. -/
theorem C87_integers (data : Bytes) (s : InputStream) (hs : stringInputStream data = .ok s) (k n : Nat) (bs : Bytes)
    (hp : bs <+: data.drop k) (hl : bs.length = 10) (h0 : 0 < n) (hn : n < 2 ^ 53) (hb : ofBytesBE bs = extendedOf n) :
    ∃ f, float80 s .big (8 * k : Nat) = .ok f ∧ floatValue f = some (n : ℚ) := by
  obtain ⟨l1, l2⟩ := log2_bounds n h0
  obtain ⟨L, hL⟩ : ∃ L, Nat.log2 n = L := ⟨_, rfl⟩
  rw [hL] at l1 l2
  have hL52 : L ≤ 52 := by
    have := (Nat.pow_lt_pow_iff_right (by omega : 1 < 2)).1 (Nat.lt_of_le_of_lt l1 hn)
    omega
  -- the integer bit and the fraction
  have hbig : n * 2 ^ (63 - L) < 2 ^ 64 := by
    calc n * 2 ^ (63 - L) < 2 ^ (L + 1) * 2 ^ (63 - L) := Nat.mul_lt_mul_of_pos_right l2 (by positivity)
      _ = 2 ^ 64 := by rw [← Nat.pow_add]; congr 1; omega
  have hlow : 2 ^ 63 ≤ n * 2 ^ (63 - L) := by
    calc 2 ^ 63 = 2 ^ L * 2 ^ (63 - L) := by rw [← Nat.pow_add]; congr 1; omega
      _ ≤ n * 2 ^ (63 - L) := Nat.mul_le_mul_right _ l1
  obtain ⟨c, hc⟩ : ∃ c, n * 2 ^ (63 - L) = c * 2 ^ 11 := ⟨n * 2 ^ (52 - L), by
    rw [Nat.mul_assoc, ← Nat.pow_add]; congr 2; omega⟩
  obtain ⟨Y, hY⟩ : ∃ Y, n * 2 ^ (63 - L) = Y := ⟨_, rfl⟩
  rw [hY] at hbig hlow hc
  have hX : extendedOf n = (16383 + L) * 2 ^ 64 + Y := by unfold extendedOf; rw [hL, hY]
  have hone : extendedOne (ofBytesBE bs) = 1 := by
    rw [hb, hX]; unfold extendedOne; omega
  have hexp : ieeeExponent 15 64 (ofBytesBE bs) = 16383 + L := by
    rw [hb, hX]; unfold ieeeExponent; omega
  have hfrac : ieeeFraction 63 (ofBytesBE bs) = Y - 2 ^ 63 := by
    rw [hb, hX]; unfold ieeeFraction; omega
  have hsign : ieeeSign 15 64 (ofBytesBE bs) = false := by
    rw [hb, hX]; unfold ieeeSign
    have : ((16383 + L) * 2 ^ 64 + Y) / 2 ^ (15 + 64) = 0 := by omega
    rw [this]; rfl
  obtain ⟨f, hf1, hf2⟩ := C87_float80_exact data s hs k bs hp hl hone (by omega) (by omega) (by omega)
  refine ⟨f, hf1, ?_⟩
  rw [hf2]
  unfold extendedValue
  rw [hsign, hone, hexp, hfrac]
  simp only [signed, Bool.false_eq_true, if_false, Option.some.injEq]
  rw [show (((16383 + L : Nat) : ℤ) - 16383) = (L : ℤ) by omega, zpow_natCast]
  have hYq : ((Y - 2 ^ 63 : Nat) : ℚ) = (n : ℚ) * 2 ^ (63 - L) - 2 ^ 63 := by
    rw [Nat.cast_sub hlow, ← hY]; push_cast; ring
  rw [hYq]
  have hpow : (2 : ℚ) ^ 63 = 2 ^ (63 - L) * 2 ^ L := by rw [← pow_add]; congr 1; omega
  have hd : (2 : ℚ) ^ (63 - L) ≠ 0 := by positivity
  have hd2 : (2 : ℚ) ^ L ≠ 0 := by positivity
  rw [hpow]
  push_cast
  field_simp
  ring

/-- 44100 Hz. -/
example : ∃ s f, stringInputStream [0x40, 0x0e, 0xac, 0x44, 0, 0, 0, 0, 0, 0] = .ok s ∧
    float80 s .big (8 * 0 : Nat) = .ok f ∧ floatValue f = some 44100 := by
  obtain ⟨s, hs⟩ : ∃ s, stringInputStream [0x40, 0x0e, 0xac, 0x44, 0, 0, 0, 0, 0, 0] = .ok s := ⟨_, rfl⟩
  obtain ⟨f, h1, h2⟩ := C87_integers [0x40, 0x0e, 0xac, 0x44, 0, 0, 0, 0, 0, 0] s hs 0 44100
    [0x40, 0x0e, 0xac, 0x44, 0, 0, 0, 0, 0, 0] ⟨[], rfl⟩ rfl (by omega) (by omega) (by decide +kernel)
  exact ⟨s, f, hs, h1, by rw [h2]; norm_num⟩

/-- C87: numbers out of the range of Python's floats, infinities and NaN have no value. -/
theorem C87_float80_big (data : Bytes) (s : InputStream) (hs : stringInputStream data = .ok s) (k : Nat) (bs : Bytes)
    (hp : bs <+: data.drop k) (hl : bs.length = 10) (he : 16383 + 1024 ≤ ieeeExponent 15 64 (ofBytesBE bs)) :
    float80 s .big (8 * k : Nat) = .error .value := by
  unfold float80
  simp only [parts80_big data s hs k bs hp hl]
  unfold scaled
  rw [if_pos (by omega)]

/-- C87: zero, and numbers too small for Python's floats, are zero. -/
theorem C87_float80_small (data : Bytes) (s : InputStream) (hs : stringInputStream data = .ok s) (k : Nat) (bs : Bytes)
    (hp : bs <+: data.drop k) (hl : bs.length = 10) (he : ieeeExponent 15 64 (ofBytesBE bs) < 16383 - 1074) :
    ∃ f, float80 s .big (8 * k : Nat) = .ok f ∧ floatValue f = some 0 := by
  unfold float80
  simp only [parts80_big data s hs k bs hp hl]
  unfold scaled
  rw [if_neg (by omega), if_neg (by omega), if_neg (by omega)]
  exact ⟨_, rfl, by simp [floatValue, signed]⟩

/-- C87 (disagreement): in little endian the parts are taken from the wrong end: the 80 bit number
1.0 is read as 0.0, and the 32 bit number -2.0 has a positive sign and another exponent. -/
theorem C87_little :
    (∃ s f, stringInputStream [0, 0, 0, 0, 0, 0, 0, 0x80, 0xff, 0x3f] = .ok s ∧
      extendedValue (ofBytesLE [0, 0, 0, 0, 0, 0, 0, 0x80, 0xff, 0x3f]) = 1 ∧
      float80 s .little (0 : Nat) = .ok f ∧ floatValue f = some 0) ∧
    (∃ s p, stringInputStream [0, 0, 0, 0xc0] = .ok s ∧ ieeeNormal 8 23 (ofBytesLE [0, 0, 0, 0xc0]) = -2 ∧
      floatParts s .little (0 : Nat) 23 8 = .ok p ∧ p.negative = false ∧ p.exponent = -127) := by
  constructor
  · refine ⟨_, .finite false 0 0, rfl, ?_, by decide +kernel, by simp [floatValue, signed]⟩
    rw [show ofBytesLE [0, 0, 0, 0, 0, 0, 0, 0x80, 0xff, 0x3f] = 0x3fff8000000000000000 by decide +kernel]
    norm_num [extendedValue, ieeeSign, ieeeExponent, ieeeFraction, extendedOne, signed]
  · refine ⟨_, ⟨false, -127, none, mantissaValue 23 0x600000⟩, rfl, ?_, by decide +kernel, rfl, rfl⟩
    rw [show ofBytesLE [0, 0, 0, 0xc0] = 0xc0000000 by decide +kernel]
    norm_num [ieeeNormal, ieeeSign, ieeeExponent, ieeeFraction, signed]

/-- C87 (disagreement): the stored integer bit is not regarded. -/
theorem C87_unnormal : ∃ s f, stringInputStream [0x3f, 0xff, 0, 0, 0, 0, 0, 0, 0, 0] = .ok s ∧
    extendedValue (ofBytesBE [0x3f, 0xff, 0, 0, 0, 0, 0, 0, 0, 0]) = 0 ∧
    float80 s .big (0 : Nat) = .ok f ∧ floatValue f = some 1 := by
  refine ⟨_, .finite false (2 ^ 52) (-52), rfl, ?_, by decide +kernel, ?_⟩
  · rw [show ofBytesBE [0x3f, 0xff, 0, 0, 0, 0, 0, 0, 0, 0] = 0x3fff0000000000000000 by decide +kernel]
    norm_num [extendedValue, ieeeSign, ieeeExponent, ieeeFraction, extendedOne, signed]
  · norm_num [floatValue, signed]

end Hachoir.Props
