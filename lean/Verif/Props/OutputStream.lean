import Verif.Stream.OutputLemmas
import Verif.Core.BitsLemmas
import Verif.Stream.SearchLemmas
import Verif.Props.InputStream

/-!
# Properties C09-C11 and C46: writing to streams
-/

namespace Props
open Hachoir Hachoir.Stream Spec

/-- A client that writes a sequence of (width, value) pairs. -/
def writeAll (s : OutputStream) (e : Endian) : List (Nat × Nat) → Except PyErr OutputStream
  | [] => .ok s
  | (w, v) :: rest =>
    match writeBits s w v e with
    | .error err => .error err
    | .ok s' => writeAll s' e rest

/-- Sum of the widths. -/
def widths (ws : List (Nat × Nat)) : Nat := (ws.map Prod.fst).sum

theorem writeAll_big (ws : List (Nat × Nat)) (hfit : ∀ p ∈ ws, p.2 < 2 ^ p.1) (s : OutputStream) (hs : InvBE s) :
    ∃ s', writeAll s .big ws = .ok s' ∧ InvBE s' ∧
      bitsBE s' = bitsBE s ++ ws.flatMap (fun p => toBitsMSB p.1 p.2) := by
  induction ws generalizing s with
  | nil => exact ⟨s, rfl, hs, by simp⟩
  | cons p ws ih =>
    obtain ⟨w, v⟩ := p
    obtain ⟨s1, e1, e2, e3⟩ := writeBits_big s hs w v (hfit (w, v) (by simp))
    obtain ⟨s2, f1, f2, f3⟩ := ih (fun p hp => hfit p (by simp [hp])) s1 e2
    refine ⟨s2, by simp [writeAll, e1, f1], f2, ?_⟩
    rw [f3, e3]; simp

theorem writeAll_little (ws : List (Nat × Nat)) (hfit : ∀ p ∈ ws, p.2 < 2 ^ p.1) (s : OutputStream) (hs : InvLE s) :
    ∃ s', writeAll s .little ws = .ok s' ∧ InvLE s' ∧
      bitsLE s' = bitsLE s ++ ws.flatMap (fun p => toBitsLSB p.1 p.2) := by
  induction ws generalizing s with
  | nil => exact ⟨s, rfl, hs, by simp⟩
  | cons p ws ih =>
    obtain ⟨w, v⟩ := p
    obtain ⟨s1, e1, e2, e3⟩ := writeBits_little s hs w v (hfit (w, v) (by simp))
    obtain ⟨s2, f1, f2, f3⟩ := ih (fun p hp => hfit p (by simp [hp])) s1 e2
    refine ⟨s2, by simp [writeAll, e1, f1], f2, ?_⟩
    rw [f3, e3]; simp

theorem length_flatMap_toBitsMSB (ws : List (Nat × Nat)) :
    (ws.flatMap (fun p => toBitsMSB p.1 p.2)).length = widths ws := by
  induction ws with
  | nil => rfl
  | cons p ws ih => simp [widths, length_toBitsMSB] at *

theorem length_flatMap_toBitsLSB (ws : List (Nat × Nat)) :
    (ws.flatMap (fun p => toBitsLSB p.1 p.2)).length = widths ws := by
  induction ws with
  | nil => rfl
  | cons p ws ih => simp [widths, length_toBitsLSB] at *

theorem init_invBE : InvBE OutputStream.init := ⟨by decide, 0, by decide, by decide⟩
theorem init_invLE : InvLE OutputStream.init := ⟨by decide, by decide⟩

/-! ## C09 -/

/-- C09, big endian: values written one after the other, up to a whole number of
bytes, are read back at the cumulative bit offsets. -/
theorem C09_writeBits_readBits_big (ws : List (Nat × Nat)) (hfit : ∀ p ∈ ws, p.2 < 2 ^ p.1)
    (hpad : widths ws % 8 = 0) :
    ∃ s', writeAll OutputStream.init .big ws = .ok s' ∧ s'.bitPos = 0 ∧ 8 * s'.out.length = widths ws ∧
      ∀ st, stringInputStream s'.out = .ok st → ∀ pre w v post, ws = pre ++ (w, v) :: post →
        readBits st (widths pre : Nat) w .big = .ok v := by
  obtain ⟨s', e1, e2, e3⟩ := writeAll_big ws hfit _ init_invBE
  have hlen := congrArg List.length e3
  rw [List.length_append, length_flatMap_toBitsMSB, length_bitsBE s' e2.1] at hlen
  simp only [bitsBE, OutputStream.init, bitsMSB, List.flatMap_nil, List.take_zero, List.append_nil,
    List.length_nil, Nat.zero_add, List.nil_append] at hlen e3
  have h0 : s'.bitPos = 0 := by have := e2.1; omega
  rw [h0, List.take_zero, List.append_nil] at e3
  refine ⟨s', e1, h0, by omega, ?_⟩
  intro st hst pre w v post hws
  have hw : widths ws = widths pre + (w + widths post) := by simp [hws, widths]
  rw [C01_readBits_big s'.out st hst _ _ (by omega)]
  have hb : bitsMSB s'.out = ws.flatMap (fun p => toBitsMSB p.1 p.2) := e3
  rw [hb, hws, List.flatMap_append, List.flatMap_cons,
    List.drop_append_of_le_length (by rw [length_flatMap_toBitsMSB])]
  rw [List.drop_of_length_le (by rw [length_flatMap_toBitsMSB]), List.nil_append,
    List.take_append_of_le_length (by rw [length_toBitsMSB]),
    List.take_of_length_le (by rw [length_toBitsMSB]), ofBitsMSB_toBitsMSB,
    Nat.mod_eq_of_lt (hfit (w, v) (by simp [hws]))]

/-- C09, little endian. -/
theorem C09_writeBits_readBits_little (ws : List (Nat × Nat)) (hfit : ∀ p ∈ ws, p.2 < 2 ^ p.1)
    (hpad : widths ws % 8 = 0) :
    ∃ s', writeAll OutputStream.init .little ws = .ok s' ∧ s'.bitPos = 0 ∧ 8 * s'.out.length = widths ws ∧
      ∀ st, stringInputStream s'.out = .ok st → ∀ pre w v post, ws = pre ++ (w, v) :: post →
        readBits st (widths pre : Nat) w .little = .ok v := by
  obtain ⟨s', e1, e2, e3⟩ := writeAll_little ws hfit _ init_invLE
  have hlen := congrArg List.length e3
  rw [List.length_append, length_flatMap_toBitsLSB, length_bitsLE s' e2.1] at hlen
  simp only [bitsLE, OutputStream.init, bitsLSB, List.flatMap_nil, List.take_zero, List.append_nil,
    List.length_nil, Nat.zero_add, List.nil_append] at hlen e3
  have h0 : s'.bitPos = 0 := by have := e2.1; omega
  rw [h0, List.take_zero, List.append_nil] at e3
  refine ⟨s', e1, h0, by omega, ?_⟩
  intro st hst pre w v post hws
  have hw : widths ws = widths pre + (w + widths post) := by simp [hws, widths]
  rw [C01_readBits_little s'.out st hst _ _ (by omega)]
  have hb : bitsLSB s'.out = ws.flatMap (fun p => toBitsLSB p.1 p.2) := e3
  rw [hb, hws, List.flatMap_append, List.flatMap_cons,
    List.drop_append_of_le_length (by rw [length_flatMap_toBitsLSB])]
  rw [List.drop_of_length_le (by rw [length_flatMap_toBitsLSB]), List.nil_append,
    List.take_append_of_le_length (by rw [length_toBitsLSB]),
    List.take_of_length_le (by rw [length_toBitsLSB]), ofBitsLSB_toBitsLSB,
    Nat.mod_eq_of_lt (hfit (w, v) (by simp [hws]))]

example : (∀ p ∈ [(3, 5), (12, 0xABC), (1, 1)], p.2 < 2 ^ p.1) ∧ widths [(3, 5), (12, 0xABC), (1, 1)] % 8 = 0 := by
  decide

/-- C09: without padding, only the whole bytes reach the file: nothing flushes
the last `widths ws % 8` bits. -/
theorem C09_unpadded_bits_pending (ws : List (Nat × Nat)) (hfit : ∀ p ∈ ws, p.2 < 2 ^ p.1) (e : Endian)
    (he : e ≠ .middle) :
    ∃ s', writeAll OutputStream.init e ws = .ok s' ∧ s'.out.length = widths ws / 8 ∧
      s'.bitPos = widths ws % 8 := by
  cases e with
  | middle => exact absurd rfl he
  | big =>
    obtain ⟨s', e1, e2, e3⟩ := writeAll_big ws hfit _ init_invBE
    have hlen := congrArg List.length e3
    rw [List.length_append, length_flatMap_toBitsMSB, length_bitsBE s' e2.1] at hlen
    simp only [bitsBE, OutputStream.init, bitsMSB, List.flatMap_nil, List.take_zero, List.append_nil,
      List.length_nil, Nat.zero_add] at hlen
    have := e2.1
    exact ⟨s', e1, by omega, by omega⟩
  | little =>
    obtain ⟨s', e1, e2, e3⟩ := writeAll_little ws hfit _ init_invLE
    have hlen := congrArg List.length e3
    rw [List.length_append, length_flatMap_toBitsLSB, length_bitsLE s' e2.1] at hlen
    simp only [bitsLE, OutputStream.init, bitsLSB, List.flatMap_nil, List.take_zero, List.append_nil,
      List.length_nil, Nat.zero_add] at hlen
    have := e2.1
    exact ⟨s', e1, by omega, by omega⟩

/-- C09: a value that does not fit its width, or is negative, is refused. -/
theorem C09_writeBits_range (s : OutputStream) (w : Nat) (v : Int) (e : Endian)
    (h : v < 0 ∨ (2 ^ w : Nat) ≤ v) : writeBits s w v e = .error .assertion := by
  unfold writeBits
  split
  · rfl
  · rw [if_pos (by omega)]

/-! ## C10 -/

/-- A client that writes flags with `writeBit`. -/
def writeFlags (s : OutputStream) (e : Endian) : List Bool → Except PyErr OutputStream
  | [] => .ok s
  | b :: rest =>
    match writeBit s b e with
    | .error err => .error err
    | .ok s' => writeFlags s' e rest

/-- C10 is false of the code: in big endian the first and the eighth flag are
stored in the same bit, so two different flag sequences give the same file; the
same holds in little endian. -/
theorem C10_flags_collide :
    (∃ a b : List Bool, a ≠ b ∧ a.length = 8 ∧ b.length = 8 ∧
      writeFlags OutputStream.init .big a = writeFlags OutputStream.init .big b) ∧
    (∃ a b : List Bool, a ≠ b ∧ a.length = 8 ∧ b.length = 8 ∧
      writeFlags OutputStream.init .little a = writeFlags OutputStream.init .little b) := by
  refine ⟨⟨[true, false, false, false, false, false, false, false],
    [false, false, false, false, false, false, false, true], by decide, rfl, rfl, by decide⟩,
    ⟨[true, false, false, false, false, false, false, false],
    [false, false, false, false, false, false, false, true], by decide, rfl, rfl, by decide⟩⟩

/-- C10 is false of the code: `writeBit` and one-bit `writeBits` produce
different files. -/
theorem C10_writeBit_ne_writeBits :
    ¬ ∀ (e : Endian) (flags : List Bool), e ≠ .middle →
      writeFlags OutputStream.init e flags =
        writeAll OutputStream.init e (flags.map (fun b => (1, b.toNat))) := by
  intro h
  have := h .big [true] (by decide)
  revert this; decide +kernel

/-- C10, what holds: eight `writeBit` calls emit exactly one byte.  In big
endian flag `i` is bit `i` (least significant bit first) for `1 ≤ i ≤ 6`, bit 0
is the disjunction of the flags 0 and 7, and bit 7 is always 0. -/
theorem C10_eight_flags_partial (f : Fin 8 → Bool) :
    ∃ b : UInt8,
      writeFlags OutputStream.init .big ((List.finRange 8).map f) =
        .ok { out := [b], bitPos := 0, byte := 0 } ∧
      (∀ i : Fin 8, 1 ≤ i.val → i.val ≤ 6 → b.toNat.testBit i.val = f i) ∧
      b.toNat.testBit 0 = (f 0 || f 7) ∧ b.toNat.testBit 7 = false := by
  have h : ∀ b0 b1 b2 b3 b4 b5 b6 b7 : Bool, ∃ b : UInt8,
      writeFlags OutputStream.init .big [b0, b1, b2, b3, b4, b5, b6, b7] =
        .ok { out := [b], bitPos := 0, byte := 0 } ∧
      b.toNat.testBit 1 = b1 ∧ b.toNat.testBit 2 = b2 ∧ b.toNat.testBit 3 = b3 ∧
      b.toNat.testBit 4 = b4 ∧ b.toNat.testBit 5 = b5 ∧ b.toNat.testBit 6 = b6 ∧
      b.toNat.testBit 0 = (b0 || b7) ∧ b.toNat.testBit 7 = false := by
    intro b0 b1 b2 b3 b4 b5 b6 b7
    refine ⟨UInt8.ofNat ((b0 || b7).toNat + 2 * b1.toNat + 4 * b2.toNat + 8 * b3.toNat + 16 * b4.toNat
      + 32 * b5.toNat + 64 * b6.toNat), ?_⟩
    revert b0 b1 b2 b3 b4 b5 b6 b7
    decide
  obtain ⟨b, h0, h1, h2, h3, h4, h5, h6, h7, h8⟩ := h (f 0) (f 1) (f 2) (f 3) (f 4) (f 5) (f 6) (f 7)
  refine ⟨b, h0, ?_, h7, h8⟩
  intro i hi1 hi6
  obtain ⟨i, hi⟩ := i
  simp only at hi1 hi6
  match i, hi with
  | 1, _ => exact h1
  | 2, _ => exact h2
  | 3, _ => exact h3
  | 4, _ => exact h4
  | 5, _ => exact h5
  | 6, _ => exact h6

/-! ## C11 -/

/-- The bytes of a non-negative number written with `writeInteger` read back
with `readBits`. -/
theorem raw_readBits (n size : Nat) (e : Endian) (he : e ≠ .middle) (h : n < 256 ^ size)
    (raw : Bytes) (hraw : Bits.long2raw n e (some size) = .ok raw) (st : InputStream)
    (hst : stringInputStream raw = .ok st) :
    readBits st (0 : Nat) (8 * size) e = .ok n := by
  have hlen := (Bits.long2raw_length n e size raw hraw).1 h
  have hv := Bits.str2long_long2raw n e he (some size) raw hraw
  cases e with
  | middle => exact absurd rfl he
  | big =>
    rw [C01_readBits_big raw st hst 0 (8 * size) (by omega), List.drop_zero,
      List.take_of_length_le (by rw [length_bitsMSB]; omega), ← ofBytesBE_eq]
    simpa only [Bits.str2long, Bits.intFromBytesBig_eq] using hv
  | little =>
    rw [C01_readBits_little raw st hst 0 (8 * size) (by omega), List.drop_zero,
      List.take_of_length_le (by rw [length_bitsLSB]; omega), ← ofBytesLE_eq]
    simpa only [Bits.str2long, Bits.intFromBytesLittle_eq] using hv

/-- C11, unsigned: exactly `size` bytes are written and they read back as the
value. -/
theorem C11_writeInteger_unsigned (n size : Nat) (e : Endian) (he : e ≠ .middle)
    (h : n < 256 ^ size) (o : OutputStream) (ho : o.bitPos = 0) :
    ∃ raw, raw.length = size ∧
      writeInteger o n false size e = .ok { o with out := o.out ++ raw } ∧
      ∀ st, stringInputStream raw = .ok st → readInteger st (0 : Nat) false (8 * size) e = .ok n := by
  obtain ⟨raw, hraw⟩ : ∃ raw, Bits.long2raw n e (some size) = .ok raw :=
    ⟨_, Bits.long2raw_ok n e he (some size)⟩
  refine ⟨raw, (Bits.long2raw_length n e size raw hraw).1 h, ?_, ?_⟩
  · simp [writeInteger, hraw, writeBytes, ho]
  · intro st hst
    rw [C02_readInteger_unsigned, raw_readBits n size e he h raw hraw st hst]
    rfl

example : (0x1234 : Nat) < 256 ^ 4 ∧ OutputStream.init.bitPos = 0 := by decide

/-- C11, signed (disagreement): the code stores `value + 2^(8*size-1)` (offset
binary), so reading the bytes back as a signed integer gives the value shifted
by half the range. -/
theorem C11_writeInteger_signed_partial (v : Int) (size : Nat) (e : Endian) (he : e ≠ .middle)
    (hs : 0 < size) (hlo : -(2 ^ (8 * size - 1) : Nat) ≤ v) (hhi : v < (2 ^ (8 * size - 1) : Nat))
    (o : OutputStream) (ho : o.bitPos = 0) :
    ∃ raw, raw.length = size ∧
      writeInteger o v true size e = .ok { o with out := o.out ++ raw } ∧
      ∀ st, stringInputStream raw = .ok st →
        readInteger st (0 : Nat) true (8 * size) e =
          .ok (if v < 0 then v + (2 ^ (8 * size - 1) : Nat) else v - (2 ^ (8 * size - 1) : Nat)) := by
  obtain ⟨n, hn⟩ : ∃ n : Nat, v + (2 ^ (8 * size - 1) : Nat) = n :=
    ⟨(v + (2 ^ (8 * size - 1) : Nat)).toNat, by omega⟩
  have h2 : 2 ^ (8 * size) = 2 ^ (8 * size - 1) + 2 ^ (8 * size - 1) := by
    rw [← Nat.two_mul, ← Nat.pow_succ']; congr 1; omega
  have hlt : n < 256 ^ size := by rw [pow256]; omega
  obtain ⟨raw, hraw⟩ : ∃ raw, Bits.long2raw n e (some size) = .ok raw :=
    ⟨_, Bits.long2raw_ok n e he (some size)⟩
  refine ⟨raw, (Bits.long2raw_length n e size raw hraw).1 hlt, ?_, ?_⟩
  · have h0 : size ≠ 0 := by omega
    have hsh : v + ((1 <<< (size * 8 - 1) : Nat) : Int) = n := by
      rw [Nat.shiftLeft_eq, Nat.one_mul, Nat.mul_comm size 8]; exact hn
    simp only [writeInteger, h0, and_false, if_false, if_true, hsh, hraw, writeBytes, ho, ne_eq,
      not_true_eq_false]
  · intro st hst
    unfold readInteger
    rw [raw_readBits n size e he hlt raw hraw st hst]
    simp only [if_true]
    rw [if_neg (by omega), Nat.shiftLeft_eq, Nat.one_mul, Nat.shiftLeft_eq, Nat.one_mul]
    by_cases hv : v < 0
    · rw [if_neg (by omega), if_pos hv, hn]
    · rw [if_pos (by omega), if_neg hv]
      congr 1; omega

/-- C11, signed, is false of the code for *every* value: what is read back is
never what was written. -/
theorem C11_signed_never_round_trips (v : Int) (size : Nat) (e : Endian) (he : e ≠ .middle)
    (hs : 0 < size) (hlo : -(2 ^ (8 * size - 1) : Nat) ≤ v) (hhi : v < (2 ^ (8 * size - 1) : Nat))
    (o o' : OutputStream) (ho : o.bitPos = 0) (hw : writeInteger o v true size e = .ok o')
    (st : InputStream) (hst : stringInputStream (o'.out.drop o.out.length) = .ok st) :
    readInteger st (0 : Nat) true (8 * size) e ≠ .ok v := by
  obtain ⟨raw, h1, h2, h3⟩ := C11_writeInteger_signed_partial v size e he hs hlo hhi o ho
  rw [h2] at hw
  cases hw
  simp only [List.drop_left] at hst
  rw [h3 st hst]
  intro hcontra
  simp only [Except.ok.injEq] at hcontra
  have := Nat.two_pow_pos (8 * size - 1)
  split at hcontra <;> omega

example : writeInteger OutputStream.init (-1) true 1 .big = .ok { out := [0x7F], bitPos := 0, byte := 0 } := by
  decide +kernel

/-- C11: writing an integer while bits are pending is refused. -/
theorem C11_writeInteger_unaligned (o : OutputStream) (ho : o.bitPos ≠ 0) (n size : Nat) (e : Endian)
    (he : e ≠ .middle) : writeInteger o n false size e = .error .notImplemented := by
  simp [writeInteger, Bits.long2raw_ok n e he (some size), writeBytes, ho]

/-! ## C46 -/

theorem copyLoop_spec (data : Bytes) (s : InputStream) (hs : stringInputStream data = .ok s)
    (n : Nat) (o : OutputStream) (ho : o.bitPos = 0) (p bs : Nat) (hb : 0 < bs)
    (h : p + n ≤ data.length) :
    copyLoop o s ((8 * p : Nat) : Int) n bs hb = .ok { o with out := o.out ++ (data.drop p).take n } := by
  induction n using Nat.strongRecOn generalizing o p bs with
  | ind n ih =>
    rw [copyLoop]
    by_cases hn : 0 < n
    · simp only [hn, dif_pos]
      obtain ⟨k, hk⟩ : ∃ k, (if n < bs then n else bs) = k := ⟨_, rfl⟩
      have hk1 : 0 < k ∧ k ≤ n := by subst hk; split <;> omega
      simp only [hk]
      rw [C04_readBytes data s hs p k, if_pos (by omega)]
      simp only [writeBytes, ho, ne_eq, not_true_eq_false, if_false]
      have e1 : ((8 * p : Nat) : Int) + (k : Int) * 8 = ((8 * (p + k) : Nat) : Int) := by omega
      simp only [e1]
      rw [ih (n - k) (by omega) _ (by simp [ho]) (p + k) k hk1.1 (by omega)]
      simp only [Except.ok.injEq, OutputStream.mk.injEq, and_self, and_true, List.append_assoc, ho]
      congr 1
      rw [← List.drop_drop, ← List.take_add]
      congr 1; omega
    · have : n = 0 := by omega
      subst this
      simp

/-- C46: copying bytes from a stream appends exactly the addressed bytes,
whatever the number of internal chunks. -/
theorem C46_copyBytesFrom (data : Bytes) (s : InputStream) (hs : stringInputStream data = .ok s)
    (o : OutputStream) (ho : o.bitPos = 0) (p n : Nat) (h : p + n ≤ data.length) :
    copyBytesFrom o s ((8 * p : Nat) : Int) n = .ok { o with out := o.out ++ (data.drop p).take n } := by
  unfold copyBytesFrom
  rw [if_neg (by omega)]
  exact copyLoop_spec data s hs n o ho p 4096 (by omega) h

example : ∃ s, stringInputStream [1, 2, 3, 4] = .ok s ∧ OutputStream.init.bitPos = 0 ∧ 1 + 2 ≤ [1, 2, 3, 4].length :=
  ⟨_, rfl, rfl, by decide⟩

/-- C46: a bit copy that is not byte aligned appends exactly the addressed bits
(big endian), for at most `max_bit_length` bits. -/
theorem C46_copyBitsFrom_big (data : Bytes) (s : InputStream) (hs : stringInputStream data = .ok s)
    (o : OutputStream) (ho : InvBE o) (a n : Nat) (hn : n ≤ maxBitLength) (h : a + n ≤ 8 * data.length) :
    ∃ o', copyBitsFrom o s a n .big = .ok o' ∧ InvBE o' ∧
      bitsBE o' = bitsBE o ++ ((bitsMSB data).drop a).take n := by
  have hslice : ((bitsMSB data).drop a |>.take n).length = n := by
    simp [length_bitsMSB]; omega
  have hlt := ofBitsMSB_lt (((bitsMSB data).drop a).take n)
  rw [hslice] at hlt
  unfold copyBitsFrom
  by_cases hal : n % 8 = 0 ∧ (a : Int) % 8 = 0 ∧ o.bitPos % 8 = 0
  · rw [if_pos hal]
    have hbp : o.bitPos = 0 := by have := ho.1; omega
    obtain ⟨p, rfl⟩ : ∃ p, a = 8 * p := ⟨a / 8, by omega⟩
    obtain ⟨m, rfl⟩ : ∃ m, n = 8 * m := ⟨n / 8, by omega⟩
    rw [show 8 * m / 8 = m by omega, C46_copyBytesFrom data s hs o hbp p m (by omega)]
    refine ⟨_, rfl, ho, ?_⟩
    simp only [bitsBE, hbp, List.take_zero, List.append_nil, bitsMSB_append, bitsMSB_take, bitsMSB_drop]
  · rw [if_neg hal, if_neg (by omega), C01_readBits_big data s hs a n h]
    obtain ⟨o', e1, e2, e3⟩ := writeBits_big o ho n _ hlt
    refine ⟨o', e1, e2, ?_⟩
    rw [e3]
    congr 1
    apply ofBitsMSB_inj
    · rw [length_toBitsMSB, hslice]
    · rw [ofBitsMSB_toBitsMSB, Nat.mod_eq_of_lt hlt]

/-- C46, little endian. -/
theorem C46_copyBitsFrom_little (data : Bytes) (s : InputStream) (hs : stringInputStream data = .ok s)
    (o : OutputStream) (ho : InvLE o) (a n : Nat) (hn : n ≤ maxBitLength) (h : a + n ≤ 8 * data.length) :
    ∃ o', copyBitsFrom o s a n .little = .ok o' ∧ InvLE o' ∧
      bitsLE o' = bitsLE o ++ ((bitsLSB data).drop a).take n := by
  have hslice : ((bitsLSB data).drop a |>.take n).length = n := by
    simp [length_bitsLSB]; omega
  have hlt := ofBitsLSB_lt (((bitsLSB data).drop a).take n)
  rw [hslice] at hlt
  unfold copyBitsFrom
  by_cases hal : n % 8 = 0 ∧ (a : Int) % 8 = 0 ∧ o.bitPos % 8 = 0
  · rw [if_pos hal]
    have hbp : o.bitPos = 0 := by have := ho.1; omega
    obtain ⟨p, rfl⟩ : ∃ p, a = 8 * p := ⟨a / 8, by omega⟩
    obtain ⟨m, rfl⟩ : ∃ m, n = 8 * m := ⟨n / 8, by omega⟩
    rw [show 8 * m / 8 = m by omega, C46_copyBytesFrom data s hs o hbp p m (by omega)]
    refine ⟨_, rfl, ho, ?_⟩
    simp only [bitsLE, hbp, List.take_zero, List.append_nil, bitsLSB_append, bitsLSB_take, bitsLSB_drop]
  · rw [if_neg hal, if_neg (by omega), C01_readBits_little data s hs a n h]
    obtain ⟨o', e1, e2, e3⟩ := writeBits_little o ho n _ hlt
    refine ⟨o', e1, e2, ?_⟩
    rw [e3]
    congr 1
    apply ofBitsLSB_inj
    · rw [length_toBitsLSB, hslice]
    · rw [ofBitsLSB_toBitsLSB, Nat.mod_eq_of_lt hlt]

/-- C46 (disagreement): the bit copy refuses more than `max_bit_length` (256)
bits when something is not byte aligned. -/
theorem C46_copyBitsFrom_limit (s : InputStream) (o : OutputStream) (a : Int) (n : Nat) (e : Endian)
    (hn : maxBitLength < n) (h : n % 8 ≠ 0 ∨ a % 8 ≠ 0 ∨ o.bitPos % 8 ≠ 0) :
    copyBitsFrom o s a n e = .error .assertion := by
  unfold copyBitsFrom
  rw [if_neg (by omega), if_pos (by omega)]

end Props
