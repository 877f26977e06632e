import Verif.Stream.Output
import Verif.Stream.InputLemmas
import Verif.Spec.ToBits

namespace Hachoir.Stream
open Hachoir Spec

theorem emit_ok (out : Bytes) (b : Nat) (h : b < 256) : emit out b = .ok (out ++ [UInt8.ofNat b]) := by
  simp [emit, h]

theorem toNat_ofNat (b : Nat) (h : b < 256) : (UInt8.ofNat b).toNat = b := by
  simp; omega

/-- Numeric view of the big endian output. -/
theorem writeBytesLoop_big (out : Bytes) (count value : Nat) (hv : value < 2 ^ count) :
    ∃ out' c v, writeBytesLoop .big out count value = .ok (out', c, v) ∧ c < 8 ∧ v < 2 ^ c ∧
      ofBytesBE out' * 2 ^ c + v = ofBytesBE out * 2 ^ count + value ∧
      8 * out'.length + c = 8 * out.length + count := by
  induction count using Nat.strongRecOn generalizing out value with
  | ind count ih =>
    rw [writeBytesLoop]
    by_cases h : 8 ≤ count
    · simp only [h, dif_pos, if_true]
      have hp : 2 ^ count = 2 ^ (count - 8) * 256 := by
        rw [show (256 : Nat) = 2 ^ 8 from rfl, ← Nat.pow_add]; congr 1; omega
      have hpos := Nat.two_pow_pos (count - 8)
      have hb : value >>> (count - 8) < 256 := by
        rw [Nat.shiftRight_eq_div_pow, Nat.div_lt_iff_lt_mul hpos, Nat.mul_comm, ← hp]; exact hv
      rw [emit_ok _ _ hb, mask_mod]
      simp only
      obtain ⟨o, c, v, e1, e2, e3, e4, e5⟩ := ih (count - 8) (by omega)
        (out ++ [UInt8.ofNat (value >>> (count - 8))]) (value % 2 ^ (count - 8)) (Nat.mod_lt _ hpos)
      refine ⟨o, c, v, e1, e2, e3, ?_, ?_⟩
      · rw [e4, ofBytesBE_append, hp]
        simp only [ofBytesBE, toNat_ofNat _ hb, List.length_cons, List.length_nil]
        have hd := Nat.div_add_mod value (2 ^ (count - 8))
        rw [Nat.shiftRight_eq_div_pow]
        generalize value / 2 ^ (count - 8) = q at *
        generalize 2 ^ (count - 8) = P at *
        generalize value % P = r at *
        subst hd
        ring
      · simp at e5; omega
    · simp only [h, dif_neg, not_false_eq_true]
      exact ⟨out, count, value, rfl, by omega, hv, rfl, rfl⟩

theorem writeBytesLoop_little (out : Bytes) (count value : Nat) (hv : value < 2 ^ count) :
    ∃ out' c v, writeBytesLoop .little out count value = .ok (out', c, v) ∧ c < 8 ∧ v < 2 ^ c ∧
      ofBytesLE out' + v * 256 ^ out'.length = ofBytesLE out + value * 256 ^ out.length ∧
      8 * out'.length + c = 8 * out.length + count := by
  induction count using Nat.strongRecOn generalizing out value with
  | ind count ih =>
    rw [writeBytesLoop]
    by_cases h : 8 ≤ count
    · simp only [h, dif_pos, if_false, reduceCtorEq]
      have hp : 2 ^ count = 2 ^ (count - 8) * 256 := by
        rw [show (256 : Nat) = 2 ^ 8 from rfl, ← Nat.pow_add]; congr 1; omega
      have hm : value &&& 0xFF = value % 256 := Nat.and_two_pow_sub_one_eq_mod value 8
      have hb : value &&& 0xFF < 256 := by rw [hm]; exact Nat.mod_lt _ (by omega)
      have hs : value >>> 8 = value / 256 := Nat.shiftRight_eq_div_pow value 8
      rw [emit_ok _ _ hb, hs]
      simp only
      obtain ⟨o, c, v, e1, e2, e3, e4, e5⟩ := ih (count - 8) (by omega)
        (out ++ [UInt8.ofNat (value &&& 0xFF)]) (value / 256)
        (by rw [Nat.div_lt_iff_lt_mul (by omega), ← hp]; exact hv)
      refine ⟨o, c, v, e1, e2, e3, ?_, ?_⟩
      · rw [e4, ofBytesLE_append]
        simp only [ofBytesLE, toNat_ofNat _ hb, List.length_append, List.length_cons, List.length_nil]
        rw [hm, Nat.pow_succ 256]
        have hd := Nat.div_add_mod value 256
        generalize value / 256 = q at *
        generalize value % 256 = r at *
        subst hd
        ring
      · simp at e5; omega
    · simp only [h, dif_neg, not_false_eq_true]
      exact ⟨out, count, value, rfl, by omega, hv, rfl, rfl⟩

/-- Consistent big endian state: the pending bits are at the top of the byte. -/
def InvBE (s : OutputStream) : Prop :=
  s.bitPos < 8 ∧ ∃ v, v < 2 ^ s.bitPos ∧ s.byte = v * 2 ^ (8 - s.bitPos)

/-- Consistent little endian state: the pending bits are at the bottom. -/
def InvLE (s : OutputStream) : Prop := s.bitPos < 8 ∧ s.byte < 2 ^ s.bitPos

/-- The bits written so far, big endian. -/
def bitsBE (s : OutputStream) : List Bool :=
  bitsMSB s.out ++ (byteMSB (UInt8.ofNat s.byte)).take s.bitPos

/-- The bits written so far, little endian. -/
def bitsLE (s : OutputStream) : List Bool :=
  bitsLSB s.out ++ (byteLSB (UInt8.ofNat s.byte)).take s.bitPos

theorem length_bitsBE (s : OutputStream) (h : s.bitPos < 8) :
    (bitsBE s).length = 8 * s.out.length + s.bitPos := by
  simp [bitsBE, length_bitsMSB, byteMSB]; omega

theorem length_bitsLE (s : OutputStream) (h : s.bitPos < 8) :
    (bitsLE s).length = 8 * s.out.length + s.bitPos := by
  simp [bitsLE, length_bitsLSB, byteLSB]; omega

theorem ofBitsMSB_bitsBE (s : OutputStream) (v : Nat) (hp : s.bitPos < 8) (hv : v < 2 ^ s.bitPos)
    (hb : s.byte = v * 2 ^ (8 - s.bitPos)) :
    ofBitsMSB (bitsBE s) = ofBytesBE s.out * 2 ^ s.bitPos + v := by
  have hlt : s.byte < 256 := by
    have : (2 : Nat) ^ 8 = 2 ^ s.bitPos * 2 ^ (8 - s.bitPos) := by rw [← Nat.pow_add]; congr 1; omega
    rw [hb, show (256 : Nat) = 2 ^ 8 from rfl, this]
    exact (Nat.mul_lt_mul_right (Nat.two_pow_pos _)).mpr hv
  rw [bitsBE, ofBitsMSB_append, ← ofBytesBE_eq]
  have hs := ofBitsMSB_slice (byteMSB (UInt8.ofNat s.byte)) 0 s.bitPos (by simp [byteMSB]; omega)
  rw [List.drop_zero, ofBitsMSB_byteMSB, toNat_ofNat _ hlt] at hs
  rw [hs]
  have hl : ((byteMSB (UInt8.ofNat s.byte)).take s.bitPos).length = s.bitPos := by
    simp [byteMSB]; omega
  rw [hl]
  congr 1
  rw [show (byteMSB (UInt8.ofNat s.byte)).length = 8 from rfl, Nat.sub_zero, hb,
    Nat.mul_div_cancel _ (Nat.two_pow_pos _), Nat.mod_eq_of_lt hv]

theorem ofBitsLSB_bitsLE (s : OutputStream) (h : InvLE s) :
    ofBitsLSB (bitsLE s) = ofBytesLE s.out + s.byte * 256 ^ s.out.length := by
  obtain ⟨hp, hv⟩ := h
  have hlt : s.byte < 256 := by
    have : (2 : Nat) ^ s.bitPos ≤ 2 ^ 8 := Nat.pow_le_pow_right (by omega) (by omega)
    omega
  rw [bitsLE, ofBitsLSB_append, ← ofBytesLE_eq]
  have hs := ofBitsLSB_slice (byteLSB (UInt8.ofNat s.byte)) 0 s.bitPos (by simp [byteLSB]; omega)
  rw [List.drop_zero, ofBitsLSB_byteLSB, toNat_ofNat _ hlt] at hs
  rw [hs, length_bitsLSB, ← pow256, Nat.mul_comm]
  congr 2
  rw [Nat.pow_zero, Nat.div_one, Nat.mod_eq_of_lt hv]

/-- What the tail of `writeBits` does, big endian. -/
theorem writeBitsTail_big (out : Bytes) (count value : Nat) (hv : value < 2 ^ count) :
    ∃ s', writeBitsTail .big out count value = .ok s' ∧ InvBE s' ∧
      bitsBE s' = bitsMSB out ++ toBitsMSB count value := by
  obtain ⟨o, c, v, e1, e2, e3, e4, e5⟩ := writeBytesLoop_big out count value hv
  have key : ∀ s' : OutputStream, s'.out = o → s'.bitPos = c → s'.byte = v * 2 ^ (8 - c) →
      InvBE s' ∧ bitsBE s' = bitsMSB out ++ toBitsMSB count value := by
    intro s' h1 h2 h3
    refine ⟨⟨by omega, v, by rw [h2]; exact e3, by rw [h2]; exact h3⟩, ?_⟩
    apply ofBitsMSB_inj
    · rw [length_bitsBE s' (by omega), List.length_append, length_bitsMSB, length_toBitsMSB, h1, h2]
      exact e5
    · rw [ofBitsMSB_bitsBE s' v (by omega) (by rw [h2]; exact e3) (by rw [h2]; exact h3),
        ofBitsMSB_append, ofBitsMSB_toBitsMSB, length_toBitsMSB, Nat.mod_eq_of_lt hv, ← ofBytesBE_eq,
        h1, h2]
      exact e4
  unfold writeBitsTail
  rw [e1]
  simp only [e2, e3, not_true_eq_false, if_false, if_true]
  by_cases hc : 0 < c
  · simp only [hc, if_true]
    exact ⟨_, rfl, key _ rfl rfl (by simp [Nat.shiftLeft_eq])⟩
  · have hc0 : c = 0 := by omega
    subst hc0
    have hv0 : v = 0 := by simpa using e3
    subst hv0
    simp only [hc, if_false, ne_eq, not_true_eq_false]
    exact ⟨_, rfl, key _ rfl rfl (by simp)⟩

theorem writeBitsTail_little (out : Bytes) (count value : Nat) (hv : value < 2 ^ count) :
    ∃ s', writeBitsTail .little out count value = .ok s' ∧ InvLE s' ∧
      bitsLE s' = bitsLSB out ++ toBitsLSB count value := by
  obtain ⟨o, c, v, e1, e2, e3, e4, e5⟩ := writeBytesLoop_little out count value hv
  have key : ∀ s' : OutputStream, s'.out = o → s'.bitPos = c → s'.byte = v →
      InvLE s' ∧ bitsLE s' = bitsLSB out ++ toBitsLSB count value := by
    intro s' h1 h2 h3
    have hinv : InvLE s' := ⟨by omega, by rw [h2, h3]; exact e3⟩
    refine ⟨hinv, ?_⟩
    apply ofBitsLSB_inj
    · rw [length_bitsLE s' (by omega), List.length_append, length_bitsLSB, length_toBitsLSB, h1, h2]
      exact e5
    · rw [ofBitsLSB_bitsLE s' hinv, ofBitsLSB_append, ofBitsLSB_toBitsLSB, length_bitsLSB,
        Nat.mod_eq_of_lt hv, ← ofBytesLE_eq, ← pow256, h1, h3, e4, Nat.mul_comm]
  unfold writeBitsTail
  rw [e1]
  simp only [e2, e3, not_true_eq_false, if_false]
  by_cases hc : 0 < c
  · simp only [hc, if_true]
    exact ⟨_, rfl, key _ rfl rfl (by simp)⟩
  · have hc0 : c = 0 := by omega
    subst hc0
    have hv0 : v = 0 := by simpa using e3
    subst hv0
    simp only [hc, if_false, ne_eq, not_true_eq_false]
    exact ⟨_, rfl, key _ rfl rfl rfl⟩

theorem or_high_low (v w i : Nat) (h : w < 2 ^ i) : v * 2 ^ i ||| w = v * 2 ^ i + w := by
  rw [Nat.mul_comm, Nat.two_pow_add_eq_or_of_lt h]

theorem bitsMSB_snoc (out : Bytes) (b : UInt8) : bitsMSB (out ++ [b]) = bitsMSB out ++ byteMSB b := by
  rw [bitsMSB_append]; simp [bitsMSB]

theorem bitsLSB_snoc (out : Bytes) (b : UInt8) : bitsLSB (out ++ [b]) = bitsLSB out ++ byteLSB b := by
  rw [bitsLSB_append]; simp [bitsLSB]

/-- `writeBits` in big endian appends the binary digits of the value. -/
theorem writeBits_big (s : OutputStream) (hs : InvBE s) (count value : Nat) (hv : value < 2 ^ count) :
    ∃ s', writeBits s count value .big = .ok s' ∧ InvBE s' ∧
      bitsBE s' = bitsBE s ++ toBitsMSB count value := by
  obtain ⟨hp, v, hvv, hb⟩ := hs
  have hrange : (0 : Int) ≤ (value : Int) ∧ (value : Int) < ((2 ^ count : Nat) : Int) := by omega
  unfold writeBits
  simp only [reduceCtorEq, if_false, hrange, and_self, not_true_eq_false, Int.toNat_natCast, if_true]
  by_cases h0 : s.bitPos = 0
  · simp only [h0, ne_eq, not_true_eq_false, if_false]
    obtain ⟨s', e1, e2, e3⟩ := writeBitsTail_big s.out count value hv
    exact ⟨s', e1, e2, by rw [e3, bitsBE, h0]; simp⟩
  · simp only [ne_eq, h0, not_false_eq_true, if_true]
    by_cases hn : 8 - s.bitPos ≤ count
    · simp only [hn, if_true]
      -- the byte is completed
      obtain ⟨c, hc⟩ : ∃ c, count = c + (8 - s.bitPos) := ⟨count - (8 - s.bitPos), by omega⟩
      have hc' : count - (8 - s.bitPos) = c := by omega
      rw [hc', Nat.shiftRight_eq_div_pow, mask_mod]
      have hposc := Nat.two_pow_pos c
      have hq : value / 2 ^ c < 2 ^ (8 - s.bitPos) := by
        rw [Nat.div_lt_iff_lt_mul hposc, ← Nat.pow_add, Nat.add_comm, ← hc]; exact hv
      have hbyte : s.byte ||| value / 2 ^ c = v * 2 ^ (8 - s.bitPos) + value / 2 ^ c := by
        rw [hb, or_high_low _ _ _ hq]
      have h256 : (2 : Nat) ^ 8 = 2 ^ s.bitPos * 2 ^ (8 - s.bitPos) := by
        rw [← Nat.pow_add]; congr 1; omega
      have hlt : v * 2 ^ (8 - s.bitPos) + value / 2 ^ c < 256 := by
        have h1 : (v + 1) * 2 ^ (8 - s.bitPos) ≤ 2 ^ s.bitPos * 2 ^ (8 - s.bitPos) :=
          Nat.mul_le_mul_right _ hvv
        rw [Nat.add_mul, Nat.one_mul, ← h256] at h1
        omega
      rw [hbyte, emit_ok _ _ hlt]
      simp only
      obtain ⟨s', e1, e2, e3⟩ := writeBitsTail_big
        (s.out ++ [UInt8.ofNat (v * 2 ^ (8 - s.bitPos) + value / 2 ^ c)]) c (value % 2 ^ c)
        (Nat.mod_lt _ hposc)
      refine ⟨s', e1, e2, ?_⟩
      rw [e3]
      apply ofBitsMSB_inj
      · rw [List.length_append, List.length_append, length_bitsBE s hp, length_toBitsMSB,
          length_toBitsMSB, length_bitsMSB]
        simp; omega
      · rw [ofBitsMSB_append, ofBitsMSB_append, ofBitsMSB_toBitsMSB, ofBitsMSB_toBitsMSB,
          length_toBitsMSB, length_toBitsMSB, Nat.mod_mod, Nat.mod_eq_of_lt hv,
          ofBitsMSB_bitsBE s v hp hvv hb, bitsMSB_snoc, ofBitsMSB_append, ofBitsMSB_byteMSB,
          toNat_ofNat _ hlt, ← ofBytesBE_eq, show (byteMSB _).length = 8 from rfl, hc, Nat.pow_add,
          h256]
        have hd := Nat.div_add_mod value (2 ^ c)
        generalize value / 2 ^ c = q at *
        generalize value % 2 ^ c = r at *
        generalize 2 ^ c = P at *
        rw [← hd]
        ring
    · simp only [hn, if_false]
      have hw : value * 2 ^ (8 - s.bitPos - count) < 2 ^ (8 - s.bitPos) := by
        have : (2 : Nat) ^ (8 - s.bitPos) = 2 ^ count * 2 ^ (8 - s.bitPos - count) := by
          rw [← Nat.pow_add]; congr 1; omega
        rw [this]
        exact (Nat.mul_lt_mul_right (Nat.two_pow_pos _)).mpr hv
      have hpow : (2 : Nat) ^ (8 - s.bitPos) = 2 ^ count * 2 ^ (8 - s.bitPos - count) := by
        rw [← Nat.pow_add]; congr 1; omega
      have hbyte : s.byte ||| value <<< (8 - s.bitPos - count) =
          (v * 2 ^ count + value) * 2 ^ (8 - (s.bitPos + count)) := by
        rw [Nat.shiftLeft_eq, hb, or_high_low _ _ _ hw, hpow,
          show 8 - (s.bitPos + count) = 8 - s.bitPos - count by omega]
        ring
      have hvlt : v * 2 ^ count + value < 2 ^ (s.bitPos + count) := by
        have h1 : (v + 1) * 2 ^ count ≤ 2 ^ s.bitPos * 2 ^ count := Nat.mul_le_mul_right _ hvv
        rw [Nat.add_mul, Nat.one_mul, ← Nat.pow_add] at h1
        omega
      refine ⟨_, rfl, ⟨by simp only; omega, v * 2 ^ count + value, hvlt, hbyte⟩, ?_⟩
      apply ofBitsMSB_inj
      · rw [List.length_append, length_bitsBE s hp, length_toBitsMSB, length_bitsBE _ (by simp only; omega)]
        simp only; omega
      · rw [ofBitsMSB_bitsBE _ (v * 2 ^ count + value) (by simp only; omega) hvlt hbyte,
          ofBitsMSB_append, ofBitsMSB_toBitsMSB, length_toBitsMSB, Nat.mod_eq_of_lt hv,
          ofBitsMSB_bitsBE s v hp hvv hb]
        simp only [Nat.pow_add]
        ring

/-- `writeBits` in little endian appends the binary digits of the value, least
significant first. -/
theorem writeBits_little (s : OutputStream) (hs : InvLE s) (count value : Nat) (hv : value < 2 ^ count) :
    ∃ s', writeBits s count value .little = .ok s' ∧ InvLE s' ∧
      bitsLE s' = bitsLE s ++ toBitsLSB count value := by
  have hinv := hs
  obtain ⟨hp, hvv⟩ := hs
  have hrange : (0 : Int) ≤ (value : Int) ∧ (value : Int) < ((2 ^ count : Nat) : Int) := by omega
  unfold writeBits
  simp only [reduceCtorEq, if_false, hrange, and_self, not_true_eq_false, Int.toNat_natCast]
  by_cases h0 : s.bitPos = 0
  · simp only [h0, ne_eq, not_true_eq_false, if_false]
    obtain ⟨s', e1, e2, e3⟩ := writeBitsTail_little s.out count value hv
    exact ⟨s', e1, e2, by rw [e3, bitsLE, h0]; simp⟩
  · simp only [ne_eq, h0, not_false_eq_true, if_true]
    by_cases hn : 8 - s.bitPos ≤ count
    · simp only [hn, if_true]
      have hor : ∀ w, s.byte ||| w <<< s.bitPos = w * 2 ^ s.bitPos + s.byte := by
        intro w
        rw [Nat.shiftLeft_eq, Nat.or_comm, or_high_low _ _ _ hvv]
      rw [mask_mod, hor]
      have h256 : (2 : Nat) ^ 8 = 2 ^ (8 - s.bitPos) * 2 ^ s.bitPos := by
        rw [← Nat.pow_add]; congr 1; omega
      have hr : value % 2 ^ (8 - s.bitPos) < 2 ^ (8 - s.bitPos) := Nat.mod_lt _ (Nat.two_pow_pos _)
      have hlt : value % 2 ^ (8 - s.bitPos) * 2 ^ s.bitPos + s.byte < 256 := by
        have h1 : (value % 2 ^ (8 - s.bitPos) + 1) * 2 ^ s.bitPos ≤ 2 ^ (8 - s.bitPos) * 2 ^ s.bitPos :=
          Nat.mul_le_mul_right _ hr
        rw [Nat.add_mul, Nat.one_mul, ← h256] at h1
        omega
      rw [emit_ok _ _ hlt]
      simp only
      have hcnt : value >>> (8 - s.bitPos) < 2 ^ (count - (8 - s.bitPos)) := by
        rw [Nat.shiftRight_eq_div_pow, Nat.div_lt_iff_lt_mul (Nat.two_pow_pos _), ← Nat.pow_add]
        rw [show count - (8 - s.bitPos) + (8 - s.bitPos) = count by omega]; exact hv
      obtain ⟨s', e1, e2, e3⟩ := writeBitsTail_little
        (s.out ++ [UInt8.ofNat (value % 2 ^ (8 - s.bitPos) * 2 ^ s.bitPos + s.byte)])
        (count - (8 - s.bitPos)) (value >>> (8 - s.bitPos)) hcnt
      refine ⟨s', e1, e2, ?_⟩
      rw [e3]
      apply ofBitsLSB_inj
      · rw [List.length_append, List.length_append, length_bitsLE s hp, length_toBitsLSB,
          length_toBitsLSB, length_bitsLSB]
        simp; omega
      · rw [ofBitsLSB_append, ofBitsLSB_append, ofBitsLSB_toBitsLSB, ofBitsLSB_toBitsLSB,
          Nat.mod_eq_of_lt hv, Nat.mod_eq_of_lt hcnt, length_bitsLE s hp,
          ofBitsLSB_bitsLE s hinv, bitsLSB_snoc, ofBitsLSB_append, ofBitsLSB_byteLSB,
          toNat_ofNat _ hlt, ← ofBytesLE_eq, Nat.shiftRight_eq_div_pow, Nat.pow_add, ← pow256,
          List.length_append, length_bitsLSB, show (byteLSB _).length = 8 from rfl, Nat.pow_add, ← pow256,
          h256]
        have hd := Nat.div_add_mod value (2 ^ (8 - s.bitPos))
        generalize value / 2 ^ (8 - s.bitPos) = q at *
        generalize value % 2 ^ (8 - s.bitPos) = r at *
        generalize 2 ^ (8 - s.bitPos) = P at *
        rw [← hd]
        ring
    · simp only [hn, if_false]
      have hbyte : s.byte ||| value <<< s.bitPos = value * 2 ^ s.bitPos + s.byte := by
        rw [Nat.shiftLeft_eq, Nat.or_comm, or_high_low _ _ _ hvv]
      have hlt : value * 2 ^ s.bitPos + s.byte < 2 ^ (s.bitPos + count) := by
        have h1 : (value + 1) * 2 ^ s.bitPos ≤ 2 ^ count * 2 ^ s.bitPos := Nat.mul_le_mul_right _ hv
        rw [Nat.add_mul, Nat.one_mul, ← Nat.pow_add, Nat.add_comm count] at h1
        omega
      rw [hbyte]
      have hinv' : InvLE { s with byte := value * 2 ^ s.bitPos + s.byte, bitPos := s.bitPos + count } :=
        ⟨by simp only; omega, hlt⟩
      refine ⟨_, rfl, hinv', ?_⟩
      apply ofBitsLSB_inj
      · rw [List.length_append, length_bitsLE s hp, length_toBitsLSB, length_bitsLE _ hinv'.1]
        simp only; omega
      · rw [ofBitsLSB_bitsLE _ hinv', ofBitsLSB_append, ofBitsLSB_toBitsLSB, length_bitsLE s hp,
          Nat.mod_eq_of_lt hv, ofBitsLSB_bitsLE s hinv, Nat.pow_add, ← pow256]
        ring

end Hachoir.Stream
