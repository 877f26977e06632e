import Verif.Stream.SearchLemmas

/-!
# Properties C01-C06: reading from streams of known size
-/

namespace Props
open Hachoir Hachoir.Stream Spec

theorem stringInputStream_ok (data : Bytes) (s : InputStream) (h : stringInputStream data = .ok s) :
    s.read = stringRead data ∧ s.size = some (8 * data.length) ∧ 0 < data.length := by
  unfold stringInputStream at h
  split at h
  · cases h
  · cases h; exact ⟨rfl, rfl, by omega⟩

/-! ## C01 -/

/-- C01: inside the data, `readBits` returns the number spelled by the addressed
bits, most significant bit first in BIG_ENDIAN. -/
theorem C01_readBits_big (data : Bytes) (s : InputStream) (hs : stringInputStream data = .ok s)
    (a n : Nat) (h : a + n ≤ 8 * data.length) :
    readBits s a n .big = .ok (ofBitsMSB (((bitsMSB data).drop a).take n)) :=
  readBits_string_big s data (stringInputStream_ok data s hs).1 a n h

/-- C01: least significant bit first in LITTLE_ENDIAN. -/
theorem C01_readBits_little (data : Bytes) (s : InputStream) (hs : stringInputStream data = .ok s)
    (a n : Nat) (h : a + n ≤ 8 * data.length) :
    readBits s a n .little = .ok (ofBitsLSB (((bitsLSB data).drop a).take n)) :=
  readBits_string_little s data (stringInputStream_ok data s hs).1 a n h

/-- C01: MIDDLE_ENDIAN reads the bits of the data with each pair of bytes
swapped, most significant bit first, as long as the 16-bit words that contain
the bits exist. -/
theorem C01_readBits_middle (data : Bytes) (s : InputStream) (hs : stringInputStream data = .ok s)
    (a n : Nat) (h : (a + n + 15) / 16 * 16 ≤ 8 * data.length) :
    readBits s a n .middle = .ok (ofBitsMSB (((bitsMSB (swapPairs data)).drop a).take n)) :=
  readBits_string_middle s data (stringInputStream_ok data s hs).1 a n h

/-- C01: reads that leave the data raise `ReadStreamError` (BIG and LITTLE
endian). -/
theorem C01_readBits_past_end (data : Bytes) (s : InputStream) (hs : stringInputStream data = .ok s)
    (a n : Nat) (hn : 0 < n) (h : 8 * data.length < a + n) (e : Endian) (he : e ≠ .middle) :
    readBits s a n e = .error .readStream := by
  apply readBits_err_of_read s a n e he
  rw [(stringInputStream_ok data s hs).1]
  exact stringRead_err data a n h (Or.inl hn)

/-- C01, both directions: for a non-empty read at a non-negative address,
success is equivalent to the bits being inside the data. -/
theorem C01_readBits_iff (data : Bytes) (s : InputStream) (hs : stringInputStream data = .ok s)
    (a n : Nat) (hn : 0 < n) (e : Endian) (he : e ≠ .middle) :
    (∃ v, readBits s a n e = .ok v) ↔ a + n ≤ 8 * data.length := by
  constructor
  · rintro ⟨v, hv⟩
    rcases Nat.lt_or_ge (8 * data.length) (a + n) with h | h
    · rw [C01_readBits_past_end data s hs a n hn h e he] at hv; cases hv
    · exact h
  · intro h
    cases e with
    | middle => exact absurd rfl he
    | big => exact ⟨_, C01_readBits_big data s hs a n h⟩
    | little => exact ⟨_, C01_readBits_little data s hs a n h⟩

/-- C01: a file stream gives the same result as an in-memory stream of the same
contents. -/
theorem C01_file_stream (data : Bytes) (s f : InputStream) (hs : stringInputStream data = .ok s)
    (hf : ioInputStream data = .ok f) (a n : Nat) (hn : 0 < n) (e : Endian) (he : e ≠ .middle) :
    readBits f a n e = readBits s a n e := by
  have h1 : f.read = ioRead data := by
    unfold ioInputStream at hf; split at hf
    · cases hf
    · cases hf; rfl
  have h2 := (stringInputStream_ok data s hs).1
  have h3 : f.read a n = s.read a n := by rw [h1, h2]; exact ioRead_nat data a n hn
  unfold readBits
  cases e with
  | middle => exact absurd rfl he
  | big => simp only [h3]
  | little => simp only [h3]

example : ∃ s, stringInputStream [0x12, 0x34, 0x56] = .ok s ∧
    readBits s (4 : Nat) 12 .big = .ok 0x234 ∧ readBits s (4 : Nat) 12 .little = .ok 0x341 := by
  refine ⟨_, rfl, ?_, ?_⟩ <;> decide

/-- C01 (disagreement): the in-memory stream does not refuse negative
addresses: Python's negative slice bounds make `readBits(-16, 8)` on a two-byte
stream return the first byte. -/
theorem C01_negative_address_accepted :
    ∃ s, stringInputStream [1, 2] = .ok s ∧ readBits s (-16) 8 .big = .ok 1 := by
  refine ⟨_, rfl, ?_⟩; decide

/-! ## C02 -/

/-- C02: `readInteger` gives the two's complement value of the bits. -/
theorem C02_readInteger_signed (data : Bytes) (s : InputStream) (hs : stringInputStream data = .ok s)
    (a n : Nat) (hn : 0 < n) (h : a + n ≤ 8 * data.length) :
    readInteger s a true n .big =
      .ok (twosComplement n (ofBitsMSB (((bitsMSB data).drop a).take n))) ∧
    readInteger s a true n .little =
      .ok (twosComplement n (ofBitsLSB (((bitsLSB data).drop a).take n))) := by
  have aux : ∀ v : Nat, (if 1 <<< (n - 1) ≤ v then (Except.ok ((v : Int) - (1 <<< n : Nat)) : Except PyErr Int)
      else .ok v) = .ok (twosComplement n v) := by
    intro v
    unfold twosComplement
    rw [Nat.shiftLeft_eq, Nat.shiftLeft_eq, Nat.one_mul, Nat.one_mul]
    by_cases hv : v < 2 ^ (n - 1)
    · rw [if_neg (by omega), if_pos hv]
    · rw [if_pos (by omega), if_neg hv]
      congr 1
  constructor
  · unfold readInteger
    rw [C01_readBits_big data s hs a n h]
    simp only [if_true]
    rw [if_neg (by omega)]
    exact aux _
  · unfold readInteger
    rw [C01_readBits_little data s hs a n h]
    simp only [if_true]
    rw [if_neg (by omega)]
    exact aux _

/-- C02: unsigned reads return the plain value, on any stream. -/
theorem C02_readInteger_unsigned (s : InputStream) (a : Int) (n : Nat) (e : Endian) :
    readInteger s a false n e = (readBits s a n e).map (fun v => (v : Int)) := by
  unfold readInteger
  cases readBits s a n e <;> simp [Except.map]

/-- Every value returned by `readBits` on any stream fits its width. -/
theorem readBits_lt (s : InputStream) (a : Int) (n : Nat) (e : Endian) (v : Nat)
    (h : readBits s a n e = .ok v) : v < 2 ^ n := by
  unfold readBits at h
  simp only at h
  split at h
  · cases h
  · split at h
    · cases h
    · split at h
      · cases h
      · split at h
        · cases h
          rw [mask_mod]; exact Nat.mod_lt _ (Nat.two_pow_pos n)
        · split at h
          · cases h
          · cases h
            rw [mask_mod]; exact Nat.mod_lt _ (Nat.two_pow_pos n)

/-- C02: on any stream and endian, a signed read is in `[-2^(n-1), 2^(n-1))`
and congruent to the unsigned read modulo `2^n`. -/
theorem C02_readInteger_range (s : InputStream) (a : Int) (n : Nat) (e : Endian) (v : Int)
    (h : readInteger s a true n e = .ok v) :
    ∃ u : Nat, readBits s a n e = .ok u ∧ -(2 ^ (n - 1) : Nat) ≤ v ∧ v < (2 ^ (n - 1) : Nat) ∧
      (v = u ∨ v = u - (2 ^ n : Nat)) := by
  unfold readInteger at h
  cases hr : readBits s a n e with
  | error err => simp [hr] at h
  | ok u =>
    have hu := readBits_lt s a n e u hr
    simp only [hr, if_true] at h
    split at h
    · cases h
    · rename_i hn
      obtain ⟨m, rfl⟩ : ∃ m, n = m + 1 := ⟨n - 1, by omega⟩
      simp only [Nat.add_sub_cancel, Nat.shiftLeft_eq, Nat.one_mul] at *
      have h2 : 2 ^ (m + 1) = 2 ^ m + 2 ^ m := by rw [Nat.pow_succ]; omega
      have hpos := Nat.two_pow_pos m
      split at h
      · simp only [Except.ok.injEq] at h
        refine ⟨u, rfl, ?_, ?_, Or.inr h.symm⟩ <;> omega
      · simp only [Except.ok.injEq] at h
        refine ⟨u, rfl, ?_, ?_, Or.inl h.symm⟩ <;> omega

/-- C02: a signed read of zero bits is a ValueError (negative shift count). -/
theorem C02_readInteger_zero (s : InputStream) (a : Int) (e : Endian) (v : Nat)
    (h : readBits s a 0 e = .ok v) : readInteger s a true 0 e = .error .value := by
  simp [readInteger, h]

example : ∃ s, stringInputStream [0x80, 0xFF] = .ok s ∧
    readInteger s (0 : Nat) true 8 .big = .ok (-128) ∧ readInteger s (8 : Nat) true 8 .little = .ok (-1) := by
  refine ⟨_, rfl, ?_, ?_⟩ <;> decide

/-! ## C03 -/

/-- C03: adjacent big endian reads compose. -/
theorem C03_readBits_split_big (data : Bytes) (s : InputStream) (hs : stringInputStream data = .ok s)
    (a m n : Nat) (h : a + m + n ≤ 8 * data.length) :
    ∃ x y, readBits s a m .big = .ok x ∧ readBits s ((a + m : Nat) : Int) n .big = .ok y ∧
      readBits s a (m + n) .big = .ok (x * 2 ^ n + y) := by
  refine ⟨_, _, C01_readBits_big data s hs a m (by omega),
    C01_readBits_big data s hs (a + m) n (by omega), ?_⟩
  rw [C01_readBits_big data s hs a (m + n) (by omega), List.take_add, ofBitsMSB_append,
    List.drop_drop]
  congr 4
  simp [length_bitsMSB]; omega

/-- C03: adjacent little endian reads compose. -/
theorem C03_readBits_split_little (data : Bytes) (s : InputStream) (hs : stringInputStream data = .ok s)
    (a m n : Nat) (h : a + m + n ≤ 8 * data.length) :
    ∃ x y, readBits s a m .little = .ok x ∧ readBits s ((a + m : Nat) : Int) n .little = .ok y ∧
      readBits s a (m + n) .little = .ok (x + y * 2 ^ m) := by
  refine ⟨_, _, C01_readBits_little data s hs a m (by omega),
    C01_readBits_little data s hs (a + m) n (by omega), ?_⟩
  rw [C01_readBits_little data s hs a (m + n) (by omega), List.take_add, ofBitsLSB_append,
    List.drop_drop, Nat.mul_comm]
  congr 4
  simp [length_bitsLSB]; omega

/-! ## C04 -/

/-- C04: `readBytes` at a byte address returns exactly the addressed bytes or
raises `ReadStreamError`. -/
theorem C04_readBytes (data : Bytes) (s : InputStream) (hs : stringInputStream data = .ok s)
    (p n : Nat) :
    readBytes s ((8 * p : Nat) : Int) n =
      if p + n ≤ data.length ∨ n = 0 then .ok ((data.drop p).take n) else .error .readStream := by
  have hr := (stringInputStream_ok data s hs).1
  by_cases h : p + n ≤ data.length
  · rw [if_pos (Or.inl h)]
    exact readBytes_string s data hr p n h
  · by_cases hn : n = 0
    · subst hn
      rw [if_pos (Or.inr rfl)]
      unfold readBytes
      rw [hr, stringRead_nat]
      simp
    · rw [if_neg (by omega)]
      unfold readBytes
      rw [hr, stringRead_err data (8 * p) (8 * n) (by omega) (Or.inl (by omega))]

/-- C04: an address that is not a multiple of 8 is refused, whatever the data. -/
theorem C04_readBytes_unaligned (data : Bytes) (s : InputStream) (hs : stringInputStream data = .ok s)
    (a n : Nat) (h : a % 8 ≠ 0) :
    readBytes s (a : Int) n = .error .inputStream ∨ readBytes s (a : Int) n = .error .readStream := by
  have hr := (stringInputStream_ok data s hs).1
  unfold readBytes
  rw [hr, stringRead_nat]
  by_cases hl : (List.take ((8 * n + a % 8 + 7) / 8) (List.drop (a / 8) data)).length =
      (8 * n + a % 8 + 7) / 8
  · left; simp only [if_pos hl, ne_eq, h, not_false_eq_true, if_true]
  · right; simp only [if_neg hl]

example : ∃ s, stringInputStream [1, 2, 3, 4] = .ok s ∧
    readBytes s ((8 * 1 : Nat) : Int) 2 = .ok [2, 3] ∧
    readBytes s ((8 * 3 : Nat) : Int) 2 = .error .readStream := by
  refine ⟨_, rfl, ?_, ?_⟩ <;> decide

/-! ## C05 -/

/-- C05: `searchBytes` on a stream of known size finds the first occurrence of a
non-empty needle that lies inside the window, and returns None exactly when
there is none.  `E` is the first byte after the window: the end address clipped
to the stream and rounded down to a byte. -/
theorem C05_searchBytes (data needle : Bytes) (s : InputStream) (hs : stringInputStream data = .ok s)
    (hne : needle ≠ []) (k0 : Nat) (endA : Option Nat) (E : Nat)
    (hE : E = (match endA with | none => 8 * data.length | some e => min e (8 * data.length)) / 8)
    (hk0 : k0 ≤ data.length) :
    ∃ r, searchBytes s needle ((8 * k0 : Nat) : Int) (endA.map Int.ofNat) = .ok r ∧
      match r with
      | some a => ∃ k : Nat, a = 8 * k ∧ k0 ≤ k ∧ k + needle.length ≤ E ∧ needle <+: data.drop k ∧
          ∀ j, k0 ≤ j → j < k → ¬ needle <+: data.drop j
      | none => ∀ k, k0 ≤ k → k + needle.length ≤ E → ¬ needle <+: data.drop k := by
  obtain ⟨hr, hsz, hpos⟩ := stringInputStream_ok data s hs
  have h8 : ¬ (((8 * k0 : Nat) : Int) % 8 ≠ 0) := by omega
  have main : ∀ x : Int, x / 8 = (E : Int) → ∃ r,
      searchLoop s needle x (max (3 * needle.length) 4096) (by omega) ((8 * k0 : Nat) : Int) [] = .ok r ∧
      FirstIn data needle k0 E r := by
    intro x hx
    apply searchLoop_spec s data needle hr hne k0 E x hx _ _ (by omega) k0 k0 (Nat.le_refl _)
      (Nat.le_refl _) (by omega) [] (by simp)
    · intro k hk1 hk2
      have : 0 < needle.length := List.length_pos_iff.mpr hne
      omega
    · exact Or.inl ⟨rfl, rfl⟩
    · left; omega
    · subst hE; split <;> omega
  unfold searchBytes
  simp only [h8, if_false, hsz]
  cases endA with
  | none =>
    obtain ⟨r, h1, h2⟩ := main ((8 * data.length : Nat) : Int) (by simp at hE; omega)
    refine ⟨r, h1, ?_⟩
    cases r <;> exact h2
  | some e =>
    obtain ⟨r, h1, h2⟩ := main (if ((8 * data.length : Nat) : Int) < (e : Int) then ((8 * data.length : Nat) : Int) else (e : Int))
      (by simp only at hE; split <;> omega)
    refine ⟨r, h1, ?_⟩
    cases r <;> exact h2

/-- Any number of zeroes followed by `7, 8, 9`: the search finds the only
occurrence, also when it straddles the internal chunks (`z = 4095`). -/
example (z : Nat) (s : InputStream) (hs : stringInputStream (List.replicate z 0 ++ [7, 8, 9]) = .ok s) :
    searchBytes s [7, 8] ((8 * 0 : Nat) : Int) none = .ok (some (8 * z)) := by
  obtain ⟨r, h, hr⟩ := C05_searchBytes _ [7, 8] s hs (by simp) 0 none _ rfl (by omega)
  rw [Option.map_none] at h
  rw [h]
  cases r with
  | none => exact absurd (by simp) (hr z (by omega) (by simp))
  | some a =>
    obtain ⟨k, rfl, -, h2, h3, h4⟩ := hr
    rcases Nat.lt_trichotomy k z with hlt | rfl | hgt
    · exfalso
      rw [List.drop_append_of_le_length (by simp; omega)] at h3
      obtain ⟨m, hm⟩ : ∃ m, z - k = m + 1 := ⟨z - k - 1, by omega⟩
      simp [hm, List.replicate_succ] at h3
    · rfl
    · exact absurd (by simp) (h4 z (by omega) hgt)

/-- C05: an empty needle is found at the start address exactly when at least one
whole byte is left in the window. -/
theorem C05_searchBytes_empty (data : Bytes) (s : InputStream) (hs : stringInputStream data = .ok s)
    (k0 : Nat) :
    searchBytes s [] ((8 * k0 : Nat) : Int) none =
      .ok (if k0 < data.length then some ((8 * k0 : Nat) : Int) else none) := by
  obtain ⟨hr, hsz, hpos⟩ := stringInputStream_ok data s hs
  have h8 : ¬ (((8 * k0 : Nat) : Int) % 8 ≠ 0) := by omega
  unfold searchBytes
  simp only [h8, if_false, hsz]
  rw [searchLoop]
  have htodo : (((8 * data.length : Nat) : Int) - ((8 * k0 : Nat) : Int)) / 8 =
      (data.length : Int) - k0 := by omega
  simp only [htodo]
  by_cases h : k0 < data.length
  · have h0 : ¬ ((data.length : Int) - k0 ≤ 0) := by omega
    simp only [h0, dif_neg, not_false_eq_true, h, if_true]
    obtain ⟨z, hz⟩ : ∃ x, (if (data.length : Int) - (k0 : Int) < ((max (3 * ([] : Bytes).length) 4096 : Nat) : Int)
      then ((data.length : Int) - (k0 : Int)).toNat else max (3 * ([] : Bytes).length) 4096) = x := ⟨_, rfl⟩
    simp only [hz]
    have hzle : k0 + z ≤ data.length := by rw [← hz]; split <;> omega
    rw [readBytes_string s data hr k0 z hzle]
    have hf : ∀ l : Bytes, bytesFind [] l = some 0 := by
      intro l; cases l <;> simp [bytesFind]
    have hnil : pySlice ([] : Bytes) ((([] : Bytes).length : Int) - (([] : Bytes).length : Int) + 1)
        (([] : Bytes).length : Int) = [] := by simp [pySlice]
    simp only [hf, hnil, List.nil_append]
    congr 2
    simp only [List.length_take, List.length_drop]
    omega
  · have h0 : (data.length : Int) - k0 ≤ 0 := by omega
    simp [h0, h]

/-- C05: searching from an address that is not byte aligned is refused. -/
theorem C05_searchBytes_unaligned (s : InputStream) (needle : Bytes) (a : Int) (e : Option Int)
    (h : a % 8 ≠ 0) : searchBytes s needle a e = .error .inputStream := by
  simp [searchBytes, h]

/-- C05: `searchBytesLength` is the distance to the first occurrence, plus the
needle when asked. -/
theorem C05_searchBytesLength (s : InputStream) (needle : Bytes) (a : Int) (e : Option Int) (d : Int)
    (h : searchBytes s needle a e = .ok (some (a + 8 * d))) :
    searchBytesLength s needle false a e = .ok (some d) ∧
    searchBytesLength s needle true a e = .ok (some (d + needle.length)) := by
  simp [searchBytesLength, h]

/-! ## C06 -/

/-- C06 (inside the window): reads of a sub-stream are reads of the parent at
the shifted address. -/
theorem C06_subStream_inside_partial (data : Bytes) (p s : InputStream)
    (hp : stringInputStream data = .ok p) (offset size : Nat) (hs : subStream p offset (some size) = .ok s)
    (hfit : offset + size ≤ 8 * data.length) (a n : Nat) (h : a + n ≤ size) :
    readBits s a n .big = .ok (ofBitsMSB (((((bitsMSB data).drop offset).take size).drop a).take n)) ∧
    readBits s a n .little = .ok (ofBitsLSB (((((bitsLSB data).drop offset).take size).drop a).take n)) := by
  have hread : ∀ (x : Int) (y : Nat), s.read x y = p.read (offset + x) y := by
    intro x y
    unfold subStream at hs
    simp only at hs
    split at hs
    · cases hs
    · cases hs; rfl
  have hbits : ∀ e, e ≠ .middle → readBits s a n e = readBits p ((offset + a : Nat) : Int) n e := by
    intro e he
    unfold readBits
    cases e with
    | middle => exact absurd rfl he
    | big => simp [hread]
    | little => simp [hread]
  constructor
  · rw [hbits .big (by simp), C01_readBits_big data p hp _ _ (by omega)]
    rw [List.drop_take, List.drop_drop, List.take_take, Nat.min_eq_left (by omega)]
  · rw [hbits .little (by simp), C01_readBits_little data p hp _ _ (by omega)]
    rw [List.drop_take, List.drop_drop, List.take_take, Nat.min_eq_left (by omega)]

example : ∃ p s, stringInputStream [1, 2, 3, 4] = .ok p ∧ subStream p 8 (some 16) = .ok s ∧
    readBits s (8 : Nat) 8 .big = .ok 3 := by
  refine ⟨_, _, rfl, rfl, ?_⟩; decide

/-- C06 (disagreement): a read that leaves the window is *not* refused; it
returns the bytes of the parent that follow the window. -/
theorem C06_subStream_leaks :
    ¬ ∀ (data : Bytes) (p s : InputStream) (offset size a n : Nat),
      stringInputStream data = .ok p → subStream p offset (some size) = .ok s →
      offset + size ≤ 8 * data.length → size < a + n → 0 < n →
      ∃ e, readBits s a n .big = .error e := by
  intro h
  obtain ⟨e, he⟩ := h [1, 2, 3, 4] _ _ 8 8 8 8 rfl rfl (by decide) (by decide) (by decide)
  have h3 := he.symm.trans (show _ = Except.ok 3 from by decide)
  cases h3

/-- C06: nested sub-streams add up their offsets. -/
theorem C06_subStream_nested (p s t : InputStream) (o1 o2 : Nat) (z1 z2 : Option Nat)
    (h1 : subStream p o1 z1 = .ok s) (h2 : subStream s o2 z2 = .ok t) (a : Int) (n : Nat) :
    t.read a n = p.read ((o1 + o2 : Nat) + a) n := by
  have e1 : ∀ (x : Int) (y : Nat), s.read x y = p.read (o1 + x) y := by
    intro x y
    unfold subStream at h1
    simp only at h1
    split at h1
    · cases h1
    · split at h1
      · cases h1
      · cases h1; rfl
  have e2 : ∀ (x : Int) (y : Nat), t.read x y = s.read (o2 + x) y := by
    intro x y
    unfold subStream at h2
    simp only at h2
    split at h2
    · cases h2
    · split at h2
      · cases h2
      · cases h2; rfl
  rw [e2, e1]
  congr 1
  omega

/-- C06: the declared size of a sub-stream is positive; an offset at or past the
end of the parent is refused. -/
theorem C06_subStream_offset_outside (p : InputStream) (sz offset : Nat) (hp : p.size = some sz)
    (h : sz ≤ offset) : subStream p offset none = .error .value := by
  unfold subStream
  simp only [hp]
  rw [if_pos (by omega)]

/-- C06 (disagreement): a MIDDLE_ENDIAN read in a window that does not start on
a byte boundary fails with AssertionError although the window has enough bits:
the shift of the window is not accounted for. -/
theorem C06_middle_unaligned_window_fails :
    ∃ p s, stringInputStream [0x12, 0x34, 0x56, 0x78] = .ok p ∧ subStream p 4 (some 16) = .ok s ∧
      readBits s (0 : Nat) 16 .middle = .error .assertion := by
  refine ⟨_, _, rfl, rfl, ?_⟩
  decide

end Props
