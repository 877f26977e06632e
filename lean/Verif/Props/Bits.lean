import Verif.Core.BitsLemmas

/-!
# Properties C12, C13, C14: conversions of core/bits.py
-/

namespace Props
open Hachoir Hachoir.Bits Spec

/-! ## C12: integers and raw bytes -/

/-- C12: `str2long` is the positional value of the bytes. -/
theorem C12_str2long_big (d : Bytes) : str2long d .big = .ok (ofBytesBE d) := by
  simp [str2long, intFromBytesBig_eq]

theorem C12_str2long_little (d : Bytes) : str2long d .little = .ok (ofBytesLE d) := by
  simp [str2long, intFromBytesLittle_eq]

/-- C12: `long2raw` never fails on natural numbers (big or little endian) and
`str2long` gives the number back, with or without a size, even when the number
does not fit the size. -/
theorem C12_str2long_long2raw (n : Nat) (e : Endian) (he : e ≠ .middle) (size : Option Nat) :
    ∃ raw, long2raw (n : Int) e size = .ok raw ∧ str2long raw e = .ok n :=
  ⟨_, long2raw_ok n e he size, str2long_long2raw n e he size _ (long2raw_ok n e he size)⟩

example : long2raw 0x1219 .big (some 4) = .ok [0, 0, 0x12, 0x19] := by
  simp [long2raw, long2rawLoop]

/-- C12: the result has exactly `size` bytes when the number fits, and more
(no truncation) when it does not. -/
theorem C12_long2raw_length (n size : Nat) (e : Endian) (raw : Bytes)
    (h : long2raw (n : Int) e (some size) = .ok raw) :
    (n < 256 ^ size → raw.length = size) ∧ (256 ^ size ≤ n → size < raw.length) :=
  long2raw_length n e size raw h

/-- C12: without a size (or with size 0) no leading (big endian) zero byte is
produced: the result is the shortest byte string for the number. -/
theorem C12_long2raw_minimal (n : Nat) (e : Endian) (raw : Bytes)
    (h : long2raw (n : Int) e none = .ok raw) (k : Nat) : raw.length ≤ k ↔ n < 256 ^ k := by
  have he : e ≠ .middle := by rintro rfl; simp [long2raw] at h
  rw [long2raw_ok n e he] at h
  simp only [Except.ok.injEq, Option.getD_none, Nat.zero_sub, List.replicate_zero,
    List.append_nil] at h
  have : raw.length = (long2rawLoop n).length := by rw [← h]; split <;> simp
  rw [this]; exact long2rawLoop_length n k

/-- C12: raw bytes survive the other round trip at their own length. -/
theorem C12_long2raw_str2long (d : Bytes) (e : Endian) (he : e ≠ .middle) :
    ∃ v, str2long d e = .ok v ∧ long2raw (v : Int) e (some d.length) = .ok d := by
  cases e with
  | middle => exact absurd rfl he
  | big =>
    refine ⟨_, C12_str2long_big d, ?_⟩
    obtain ⟨raw, h1, h2⟩ := C12_str2long_long2raw (ofBytesBE d) .big (by simp) (some d.length)
    rw [h1]
    rw [C12_str2long_big] at h2
    have hl := (C12_long2raw_length _ _ _ _ h1).1 (ofBytesBE_lt d)
    rw [ofBytesBE_inj raw d hl (by simpa using h2)]
  | little =>
    refine ⟨_, C12_str2long_little d, ?_⟩
    obtain ⟨raw, h1, h2⟩ := C12_str2long_long2raw (ofBytesLE d) .little (by simp) (some d.length)
    rw [h1]
    rw [C12_str2long_little] at h2
    have hl := (C12_long2raw_length _ _ _ _ h1).1 (ofBytesLE_lt d)
    rw [ofBytesLE_inj raw d hl (by simpa using h2)]

/-- C12: negative numbers and middle endian are refused. -/
theorem C12_long2raw_errors (n : Int) (e : Endian) (size : Option Nat) :
    long2raw n e size = .error .assertion ↔ n < 0 ∨ e = .middle := by
  unfold long2raw
  by_cases h0 : (0 : Int) ≤ n
  · by_cases h1 : e = .middle
    · simp [h0, h1]
    · simp [h0, h1]
  · have : ¬ (0 : Int) < n := by omega
    simp only [h0, this, and_false, or_self, not_false_eq_true, if_true, true_iff]
    left; omega

/-! ## C13: byte swaps -/

/-- C13: `swap16` reverses the two bytes of a 16-bit value. -/
theorem C13_swap16 (a b : UInt8) : swap16 (ofBytesBE [a, b]) = ofBytesLE [a, b] := by
  have ha := a.toNat_lt
  have hb := b.toNat_lt
  rw [swap16_eq] <;> simp only [ofBytesBE, ofBytesLE, List.length_cons, List.length_nil] <;> omega

/-- C13: `swap16` is its own inverse on 16-bit values. -/
theorem C13_swap16_involution (v : Nat) (h : v < 2 ^ 16) : swap16 (swap16 v) = v := by
  rw [swap16_eq v h, swap16_eq _ (by omega)]; omega

/-- C13: `swap32` reverses the four bytes of a 32-bit value. -/
theorem C13_swap32 (a b c d : UInt8) :
    swap32 (ofBytesBE [a, b, c, d]) = ofBytesLE [a, b, c, d] := by
  have ha := a.toNat_lt
  have hb := b.toNat_lt
  have hc := c.toNat_lt
  have hd := d.toNat_lt
  have h := swap32_digits _ _ _ _ ha hb hc hd
  have e1 : ofBytesBE [a, b, c, d] = a.toNat * 16777216 + b.toNat * 65536 + c.toNat * 256 + d.toNat := by
    simp only [ofBytesBE, List.length_cons, List.length_nil]; omega
  rw [e1, h]
  simp only [ofBytesLE]; omega

/-- C13: `swap32` is its own inverse on 32-bit values. -/
theorem C13_swap32_involution (v : Nat) (h : v < 2 ^ 32) : swap32 (swap32 v) = v := by
  obtain ⟨a, b, c, d, ha, hb, hc, hd, rfl⟩ := digits32 v h
  rw [swap32_digits _ _ _ _ ha hb hc hd, swap32_digits _ _ _ _ hd hc hb ha]

example : swap32 0x12345678 = 0x78563412 := by decide

/-- C13: `strswapmid` exchanges each pair of bytes (spec: position `i` of the
result is position `i+1` of the data when `i` is even, `i-1` when odd). -/
theorem C13_strswapmid (d : Bytes) (h : d.length % 2 = 0) :
    ∃ r, strswapmid d = .ok r ∧ r.length = d.length ∧
      ∀ i, i < d.length → r[i]? = if i % 2 = 0 then d[i + 1]? else d[i - 1]? := by
  refine ⟨interleave (odds d) (evens d), by simp [strswapmid, arrswapmid, h], ?_⟩
  fun_induction evens d with
  | case1 => simp [interleave, odds]
  | case2 x => simp at h
  | case3 x y rest ih =>
    have h' : rest.length % 2 = 0 := by simp at h; omega
    obtain ⟨ih1, ih2⟩ := ih h'
    simp only [odds, interleave, List.length_cons]
    refine ⟨by rw [ih1], ?_⟩
    intro i hi
    match i with
    | 0 => simp
    | 1 => simp
    | i + 2 =>
      have := ih2 i (by omega)
      simp only [List.getElem?_cons_succ, this, Nat.add_mod_right]
      split
      · simp
      · have : i ≠ 0 := by rintro rfl; simp at *
        obtain ⟨j, rfl⟩ : ∃ j, i = j + 1 := ⟨i - 1, by omega⟩
        simp

/-- C13: `strswapmid` is its own inverse on data of even length. -/
theorem C13_strswapmid_involution (d r : Bytes) (h : strswapmid d = .ok r) : strswapmid r = .ok d := by
  have hd : d.length % 2 = 0 := by
    unfold strswapmid arrswapmid at h
    split at h
    · assumption
    · cases h
  obtain ⟨r', h1, h2, h3⟩ := C13_strswapmid d hd
  rw [h] at h1
  cases h1
  obtain ⟨s, h4, h5, h6⟩ := C13_strswapmid r (by rw [h2]; exact hd)
  rw [h4]
  congr 1
  apply List.ext_getElem?
  intro i
  by_cases hi : i < d.length
  · rw [h6 i (by omega)]
    split
    · rw [h3 (i + 1) (by omega)]
      have : (i + 1) % 2 ≠ 0 := by omega
      simp [this]
    · rw [h3 (i - 1) (by omega)]
      have : (i - 1) % 2 = 0 := by omega
      have h1 : i - 1 + 1 = i := by omega
      simp [this, h1]
  · rw [List.getElem?_eq_none (by omega), List.getElem?_eq_none (by omega)]

example : strswapmid [0x62, 0x61, 0x64, 0x63] = .ok [0x61, 0x62, 0x63, 0x64] := by
  simp [strswapmid, arrswapmid, interleave, evens, odds]

/-- C13: data of odd length is refused. -/
theorem C13_strswapmid_odd (d : Bytes) (h : d.length % 2 = 1) :
    strswapmid d = .error .assertion := by
  have : ¬ d.length % 2 = 0 := by omega
  simp [strswapmid, arrswapmid, this]

/-- C13: the middle endian value is the big endian value of the swapped data,
stated on pairs: for every even-length data. -/
theorem C13_str2long_middle (d : Bytes) (h : d.length % 2 = 0) :
    ∃ r, str2long d .middle = .ok (ofBytesBE r) ∧ r.length = d.length ∧
      ∀ i, i < d.length → r[i]? = if i % 2 = 0 then d[i + 1]? else d[i - 1]? := by
  obtain ⟨r, h1, h2, h3⟩ := C13_strswapmid d h
  exact ⟨r, by simp [str2long, h1, intFromBytesBig_eq], h2, h3⟩

/-! ## C14: bit counting, binary text -/

/-- C14: `countBits` terminates and returns the least `k ≥ 1` such that the
number is below `2^k`. -/
theorem C14_countBits (n : Nat) :
    ∃ k, countBits n = some k ∧ 1 ≤ k ∧ n < 2 ^ k ∧ ∀ j, 1 ≤ j → n < 2 ^ j → k ≤ j := by
  by_cases h0 : n = 0
  · subst h0
    exact ⟨1, by simp [countBits, countBitsUp, countBitsDown], by omega, by omega, fun j hj _ => hj⟩
  · obtain ⟨k, h1, h2⟩ := countBits_spec n h0
    refine ⟨k + 1, h1, by omega, ?_, ?_⟩
    · have := Nat.lt_mul_div_succ n (Nat.two_pow_pos k)
      rw [h2] at this
      rw [Nat.pow_succ]; omega
    · intro j _ hlt
      rcases Nat.lt_or_ge k j with h | h
      · omega
      · exfalso
        have h3 : 2 ^ j ≤ 2 ^ k := Nat.pow_le_pow_right (by omega) h
        have : n / 2 ^ k = 0 := Nat.div_eq_of_lt (by omega)
        omega

/-- Digits of a binary text, other characters dropped. -/
def textDigits (text : List Char) : List Bool :=
  text.filterMap fun c => if c = '0' then some false else if c = '1' then some true else none

theorem digits_eq (text : List Char) :
    ((text.filter (fun c => c == '0' || c == '1')).map (fun c => c.toNat - '0'.toNat)) =
      (textDigits text).map Bool.toNat := by
  induction text with
  | nil => rfl
  | cons c cs ih =>
    by_cases h0 : c = '0'
    · subst h0; simp [textDigits] at *; exact ih
    · by_cases h1 : c = '1'
      · subst h1; simp [textDigits] at *; exact ih
      · simp [textDigits, h0, h1] at *; exact ih

/-- C14: `bin2long` is the value of the digits, most significant digit first
for BIG_ENDIAN, least significant digit first for LITTLE_ENDIAN; a text without
any digit is refused. -/
theorem C14_bin2long (text : List Char) :
    (textDigits text ≠ [] →
      bin2long text .big = .ok (ofBitsMSB (textDigits text)) ∧
      bin2long text .little = .ok (ofBitsLSB (textDigits text))) ∧
    (textDigits text = [] →
      bin2long text .big = .error .assertion ∧ bin2long text .little = .error .assertion) := by
  have hb : bin2long text .big =
      if 0 < (textDigits text).length then .ok (ofBitsMSB (textDigits text)) else .error .assertion := by
    simp only [bin2long, digits_eq]
    simp [bin2longLoop_eq]
  have hl : bin2long text .little =
      if 0 < (textDigits text).length then .ok (ofBitsLSB (textDigits text)) else .error .assertion := by
    simp only [bin2long, digits_eq]
    simp [← List.map_reverse, bin2longLoop_eq, ofBitsMSB_reverse]
  constructor
  · intro h
    have : 0 < (textDigits text).length := List.length_pos_iff.mpr h
    simp [hb, hl, this]
  · intro h; simp [hb, hl, h]

theorem textDigits_append (a b : List Char) : textDigits (a ++ b) = textDigits a ++ textDigits b := by
  simp [textDigits]

theorem textDigits_reverse (a : List Char) : textDigits a.reverse = (textDigits a).reverse := by
  simp [textDigits, List.filterMap_reverse]

theorem textDigits_group8 (first : Bool) (text : List Char) :
    textDigits (group8 false first text) = textDigits text := by
  fun_induction group8 false first text with
  | case1 first text h ih =>
    simp only [Bool.false_eq_true, if_false]
    rw [textDigits_append, textDigits_append, ih]
    have : textDigits (if first then [] else [' ']) = [] := by cases first <;> simp [textDigits]
    rw [this, List.nil_append, ← textDigits_append, List.take_append_drop]
  | case2 first text h =>
    simp only [ne_eq, Decidable.not_not, List.length_eq_zero_iff] at h
    simp [h]

theorem long2binLoop_digits (size n : Nat) :
    (textDigits (long2binLoop size n)).length = size ∧
    ofBitsLSB (textDigits (long2binLoop size n)) = n % 2 ^ size := by
  induction size generalizing n with
  | zero => simp [long2binLoop, textDigits, ofBitsLSB, Nat.mod_one]
  | succ s ih =>
    obtain ⟨h1, h2⟩ := ih (n >>> 1)
    have hcons : ∀ c : Char, ∀ l, textDigits (c :: l) = textDigits [c] ++ textDigits l := by
      intro c l; rw [← textDigits_append]; rfl
    rw [long2binLoop, hcons]
    have hm : n % 2 ^ (s + 1) = n % 2 + 2 * (n / 2 % 2 ^ s) := by
      rw [Nat.pow_succ, Nat.mul_comm (2 ^ s) 2, Nat.mod_mul]
    rw [Nat.shiftRight_eq_div_pow, Nat.pow_one] at *
    rcases Nat.mod_two_eq_zero_or_one n with h | h
    · have : ¬ (n &&& 1 = 1) := by rw [Nat.and_one_is_mod]; omega
      simp only [this, if_false]
      constructor
      · simp [textDigits] at *; exact h1
      · rw [ofBitsLSB_append, h2, hm, h]; simp [textDigits, ofBitsLSB]
    · have : n &&& 1 = 1 := by rw [Nat.and_one_is_mod]; omega
      simp only [this, if_true]
      constructor
      · simp [textDigits] at *; exact h1
      · rw [ofBitsLSB_append, h2, hm, h]; simp [textDigits, ofBitsLSB]

/-- C14 (what holds): the binary text of a number read back with the *other*
endian constant is the number modulo `2^size`: `long2bin(.., BIG_ENDIAN)` emits
the least significant digit first while `bin2long(.., BIG_ENDIAN)` expects the
most significant digit first. -/
theorem C14_bin2long_long2bin_partial (size n : Nat) (hs : 0 < size) :
    (∃ t, long2bin size n .big = .ok t ∧ bin2long t .little = .ok (n % 2 ^ size)) ∧
    (∃ t, long2bin size n .little = .ok t ∧ bin2long t .big = .ok (n % 2 ^ size)) := by
  obtain ⟨h1, h2⟩ := long2binLoop_digits size n
  constructor
  · refine ⟨_, by simp [long2bin]; rfl, ?_⟩
    have hd := textDigits_group8 true (long2binLoop size n)
    rw [((C14_bin2long _).1 (by rw [hd]; intro h; rw [h] at h1; simp at h1; omega)).2, hd, h2]
  · refine ⟨_, by simp [long2bin]; rfl, ?_⟩
    have hd := textDigits_group8 true (long2binLoop size n).reverse
    rw [textDigits_reverse] at hd
    rw [((C14_bin2long _).1 (by
      rw [hd]; intro h; rw [List.reverse_eq_nil_iff] at h; rw [h] at h1; simp at h1; omega)).1, hd,
      ofBitsMSB_reverse, h2]

/-- C14 (disagreement): the round trip with the same endian constant fails,
for instance for 1 on two bits. -/
theorem C14_long2bin_same_endian_fails :
    ¬ ∀ size n, 0 < size → n < 2 ^ size → ∀ t, long2bin size n .big = .ok t → bin2long t .big = .ok n := by
  intro h
  have := h 2 1 (by omega) (by omega) ['1', '0'] (by simp [long2bin, long2binLoop, group8])
  simp [bin2long, bin2longLoop] at this

/-- C14: `byte2bin` spells the eight bits of a byte, most significant first in
classic mode and least significant first otherwise. -/
theorem C14_byte2bin (b : UInt8) :
    byte2bin b.toNat true = (byteMSB b).map (fun x => if x then '1' else '0') ∧
    byte2bin b.toNat false = (byteLSB b).map (fun x => if x then '1' else '0') := by
  have h : ∀ n : Fin 256,
      byte2bin (UInt8.ofNat n.val).toNat true = (byteMSB (UInt8.ofNat n.val)).map (fun x => if x then '1' else '0') ∧
      byte2bin (UInt8.ofNat n.val).toNat false = (byteLSB (UInt8.ofNat n.val)).map (fun x => if x then '1' else '0') := by
    decide +kernel
  have := h ⟨b.toNat, b.toNat_lt⟩
  simpa using this

end Props
