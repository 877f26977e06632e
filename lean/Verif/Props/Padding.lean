import Verif.Field.Padding
import Verif.Props.InputStream

/-!
# C65: padding is called null only when it is

A padding field compares its content with a pattern, and `NullBytes`/`NullBits` show `<null>` when
the content is zero.
-/

set_option linter.unusedVariables false

namespace Hachoir.Props
open Hachoir Hachoir.Stream Hachoir.Field Spec

/-- The pattern written `k` times. -/
def times (pattern : Bytes) : Nat → Bytes
  | 0 => []
  | k + 1 => pattern ++ times pattern k

theorem patternLoop_spec (pattern : Bytes) (hp : pattern ≠ []) (content : Bytes) :
    ∃ b, patternLoop pattern content = .ok b ∧ (b = true ↔ ∃ k, content = times pattern k) := by
  obtain ⟨n, hn⟩ : ∃ n, content.length = n := ⟨_, rfl⟩
  induction n using Nat.strongRecOn generalizing content with
  | _ n ih =>
    rw [patternLoop]
    split
    · rename_i h
      exact ⟨true, rfl, ⟨fun _ => ⟨0, h⟩, fun _ => rfl⟩⟩
    · rename_i h
      split
      · rename_i ht
        refine ⟨false, rfl, ⟨fun h' => (by cases h'), ?_⟩⟩
        rintro ⟨k, hk⟩
        cases k with
        | zero => exact absurd hk h
        | succ k =>
          exfalso
          apply ht
          rw [hk, times]
          simp
      · rename_i ht
        have ht : content.take pattern.length = pattern := Decidable.not_not.mp ht
        have h1 : 0 < content.length := List.length_pos_iff.mpr h
        have h2 : 0 < pattern.length := List.length_pos_iff.mpr hp
        obtain ⟨b, b1, b2⟩ := ih (content.drop pattern.length).length (by rw [List.length_drop]; omega) _ rfl
        refine ⟨b, b1, b2.trans ⟨?_, ?_⟩⟩
        · rintro ⟨k, hk⟩
          refine ⟨k + 1, ?_⟩
          rw [times, ← hk, ← ht]
          conv => lhs; rw [← List.take_append_drop pattern.length content]
          rw [ht]
        · rintro ⟨k, hk⟩
          cases k with
          | zero => exact absurd hk h
          | succ k =>
            refine ⟨k, ?_⟩
            rw [hk, times]
            simp

/-- **C65.** The check of padding bytes: the content, or its first 4096 bytes, is the pattern
repeated. -/
theorem C65_padding_bytes (data : Bytes) (s : InputStream) (hs : stringInputStream data = .ok s)
    (p n : Nat) (hin : p + n ≤ data.length) (pattern : Bytes) (hp : pattern ≠ []) :
    ∃ b, checkBytes true s ((8 * p : Nat) : Int) n (some pattern) = .ok b ∧
      (b = true ↔ ∃ k, (data.drop p).take (min n 4096) = times pattern k) := by
  obtain ⟨b, b1, b2⟩ := patternLoop_spec pattern hp ((data.drop p).take (min n 4096))
  refine ⟨b, ?_, b2⟩
  rw [← b1]
  unfold checkBytes
  rw [if_neg (by decide)]
  simp only
  split
  · rename_i h
    rw [_root_.Props.C04_readBytes data s hs, if_pos (Or.inl (by omega)), Nat.min_eq_right (by omega)]
  · rename_i h
    rw [_root_.Props.C04_readBytes data s hs, if_pos (Or.inl hin), Nat.min_eq_left (by omega)]

theorem times_zero (k : Nat) : times [0] k = List.replicate k 0 := by
  induction k with
  | zero => rfl
  | succ k ih => rw [times, ih, List.replicate_succ]; rfl

theorem all_zero (l : Bytes) : (∃ k, l = times [0] k) ↔ ∀ c ∈ l, c = 0 := by
  constructor
  · rintro ⟨k, rfl⟩ c hc
    rw [times_zero] at hc
    exact List.eq_of_mem_replicate hc
  · intro h
    exact ⟨l.length, by rw [times_zero]; exact List.eq_replicate_iff.mpr ⟨rfl, h⟩⟩

/-- **C65.** Null bytes of at most 4096 bytes are shown as `<null>` exactly if all are zero.  What
is missing for longer fields: see `C65_null_bytes_long`. -/
theorem C65_null_bytes_partial (data : Bytes) (s : InputStream) (hs : stringInputStream data = .ok s)
    (p n : Nat) (hin : p + n ≤ data.length) (hn : n ≤ 4096) :
    ∃ b, nullBytes true s ((8 * p : Nat) : Int) n = .ok b ∧
      (b = true ↔ ∀ c ∈ (data.drop p).take n, c = 0) := by
  obtain ⟨b, b1, b2⟩ := C65_padding_bytes data s hs p n hin [0] (by simp)
  refine ⟨b, b1, ?_⟩
  rw [b2, all_zero, Nat.min_eq_left hn]

/-- **C65** (disagreement): behind the first 4096 bytes nothing is looked at, so a longer field
is shown as `<null>` whatever the rest holds. -/
theorem C65_null_bytes_long (data : Bytes) (s : InputStream) (hs : stringInputStream data = .ok s)
    (p n : Nat) (hin : p + n ≤ data.length) (hn : 4096 < n)
    (hz : ∀ c ∈ (data.drop p).take 4096, c = 0) :
    nullBytes true s ((8 * p : Nat) : Int) n = .ok true := by
  obtain ⟨b, b1, b2⟩ := C65_padding_bytes data s hs p n hin [0] (by simp)
  unfold nullBytes
  rw [b1, b2.mpr ((all_zero _).mpr (by rw [Nat.min_eq_right (by omega)]; exact hz))]

/-- For example any text behind 4096 zeros. -/
theorem C65_null_but_not_zero (rest : Bytes) (hr : ∃ c ∈ rest, c ≠ 0) :
    ∃ data s, stringInputStream data = .ok s ∧ (∃ c ∈ data, c ≠ 0) ∧
      nullBytes true s ((8 * 0 : Nat) : Int) data.length = .ok true := by
  obtain ⟨z, hz⟩ : ∃ z : Bytes, z = List.replicate 4096 0 := ⟨_, rfl⟩
  have hl : z.length = 4096 := by rw [hz, List.length_replicate]
  obtain ⟨c, hc, hc0⟩ := hr
  have hr : 0 < rest.length := List.length_pos_of_mem hc
  have hlen : (z ++ rest).length = 4096 + rest.length := by rw [List.length_append, hl]
  have hs : stringInputStream (z ++ rest)
      = .ok { read := stringRead (z ++ rest), size := some (8 * (z ++ rest).length) } := by
    unfold stringInputStream
    rw [if_neg (by omega)]
  refine ⟨z ++ rest, _, hs, ⟨c, List.mem_append_right _ hc, hc0⟩, ?_⟩
  apply C65_null_bytes_long _ _ hs 0 _ (by omega) (by omega)
  intro x hx
  rw [List.drop_zero, List.take_append_of_le_length (by omega), List.take_of_length_le (by omega), hz] at hx
  exact List.eq_of_mem_replicate hx

/-- **C65** (disagreement): a pattern whose length does not divide 4096 is never recognised in a
long field. -/
theorem C65_pattern_cut (data : Bytes) (s : InputStream) (hs : stringInputStream data = .ok s)
    (p n : Nat) (hin : p + n ≤ data.length) (hn : 4096 < n) (pattern : Bytes) (hp : pattern ≠ [])
    (hd : ¬ pattern.length ∣ 4096) :
    checkBytes true s ((8 * p : Nat) : Int) n (some pattern) = .ok false := by
  obtain ⟨b, b1, b2⟩ := C65_padding_bytes data s hs p n hin pattern hp
  cases b with
  | false => exact b1
  | true =>
    exfalso
    obtain ⟨k, hk⟩ := b2.mp rfl
    have hl : ∀ k, (times pattern k).length = pattern.length * k := by
      intro k
      induction k with
      | zero => rfl
      | succ k ih => rw [times, List.length_append, ih, Nat.mul_succ, Nat.add_comm]
    have := congrArg List.length hk
    rw [hl, List.length_take, List.length_drop] at this
    exact hd ⟨k, by omega⟩

/-- **C65** (disagreement): an empty pattern makes the check run for ever. -/
theorem C65_empty_pattern (data : Bytes) (s : InputStream) (hs : stringInputStream data = .ok s)
    (p n : Nat) (hin : p + n ≤ data.length) (hn : 0 < n) :
    checkBytes true s ((8 * p : Nat) : Int) n (some []) = .error .endless := by
  have hloop : ∀ c : Bytes, c ≠ [] → patternLoop [] c = .error .endless := by
    intro c hc
    rw [patternLoop, dif_neg hc, if_neg (by simp), dif_pos rfl]
  have hne : ∀ m, 0 < m → p + m ≤ data.length → (data.drop p).take m ≠ [] := by
    intro m hm h e
    have := congrArg List.length e
    rw [List.length_take, List.length_drop] at this
    simp only [List.length_nil] at this
    omega
  unfold checkBytes
  rw [if_neg (by decide)]
  simp only
  split
  · rename_i h
    rw [_root_.Props.C04_readBytes data s hs, if_pos (Or.inl (by omega))]
    exact hloop _ (hne 4096 (by decide) (by omega))
  · rw [_root_.Props.C04_readBytes data s hs, if_pos (Or.inl hin)]
    exact hloop _ (hne n hn hin)

theorem ofBitsMSB_zero : ∀ l : List Bool, ofBitsMSB l = 0 ↔ ∀ b ∈ l, b = false
  | [] => by simp [ofBitsMSB]
  | b :: l => by
    rw [ofBitsMSB]
    have ih := ofBitsMSB_zero l
    have hp : 0 < 2 ^ l.length := Nat.two_pow_pos _
    cases b with
    | false => simp [ih]
    | true => simp

theorem ofBitsLSB_zero : ∀ l : List Bool, ofBitsLSB l = 0 ↔ ∀ b ∈ l, b = false
  | [] => by simp [ofBitsLSB]
  | b :: l => by
    rw [ofBitsLSB]
    have ih := ofBitsLSB_zero l
    cases b with
    | false => simp [ih]
    | true => simp

/-- **C65.** Null bits: the first 128 bits of the field, or all of them, are zero. -/
theorem C65_null_bits (data : Bytes) (s : InputStream) (hs : stringInputStream data = .ok s)
    (a n : Nat) (hin : a + n ≤ 8 * data.length) :
    ∃ b l, nullBits true s (a : Int) n .big = .ok b ∧ nullBits true s (a : Int) n .little = .ok l ∧
      (b = true ↔ ∀ x ∈ ((bitsMSB data).drop a).take (min n 128), x = false) ∧
      (l = true ↔ ∀ x ∈ ((bitsLSB data).drop a).take (min n 128), x = false) := by
  refine ⟨ofBitsMSB (((bitsMSB data).drop a).take (min n 128)) == 0,
    ofBitsLSB (((bitsLSB data).drop a).take (min n 128)) == 0, ?_, ?_, ?_, ?_⟩
  · unfold nullBits checkBits
    rw [if_neg (by decide), if_neg (by simp)]
    split
    · rename_i h
      rw [_root_.Props.C01_readBits_big data s hs a 128 (by omega), Nat.min_eq_right (by omega)]
    · rename_i h
      rw [_root_.Props.C01_readBits_big data s hs a n hin, Nat.min_eq_left (by omega)]
  · unfold nullBits checkBits
    rw [if_neg (by decide), if_neg (by simp)]
    split
    · rename_i h
      rw [_root_.Props.C01_readBits_little data s hs a 128 (by omega), Nat.min_eq_right (by omega)]
    · rename_i h
      rw [_root_.Props.C01_readBits_little data s hs a n hin, Nat.min_eq_left (by omega)]
  · rw [beq_iff_eq, ofBitsMSB_zero]
  · rw [beq_iff_eq, ofBitsLSB_zero]

/-- **C65** (disagreement): only the pattern zero is ever checked for bits. -/
theorem C65_bits_other_pattern (config : Bool) (s : InputStream) (addr : Int) (n : Nat) (e : Endian)
    (v : Int) (hv : v ≠ 0) : checkBits config s addr n e (some v) = .ok false := by
  unfold checkBits
  split
  · rfl
  · rw [if_pos (by simpa using hv)]

/-- Two patterns, the second one cut. -/
example : ∃ s, stringInputStream [1, 2, 1, 2, 1] = .ok s ∧
    checkBytes true s ((8 * 0 : Nat) : Int) 4 (some [1, 2]) = .ok true ∧
    checkBytes true s ((8 * 0 : Nat) : Int) 5 (some [1, 2]) = .ok false ∧
    nullBits true s ((0 : Nat) : Int) 7 .big = .ok true ∧ nullBits true s ((0 : Nat) : Int) 7 .little = .ok false :=
  ⟨_, rfl, by decide +kernel, by decide +kernel, by decide +kernel, by decide +kernel⟩

end Hachoir.Props
