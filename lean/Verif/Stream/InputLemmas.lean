import Verif.Stream.Input
import Verif.Core.BitsLemmas

/-! Helper lemmas about the model of stream/input.py. -/

namespace Hachoir.Stream
open Hachoir Spec

theorem bitsMSB_append (a b : Bytes) : bitsMSB (a ++ b) = bitsMSB a ++ bitsMSB b := by
  simp [bitsMSB]

theorem bitsLSB_append (a b : Bytes) : bitsLSB (a ++ b) = bitsLSB a ++ bitsLSB b := by
  simp [bitsLSB]

theorem bitsMSB_cons (b : UInt8) (d : Bytes) : bitsMSB (b :: d) = byteMSB b ++ bitsMSB d := rfl

theorem bitsMSB_drop (d : Bytes) (k : Nat) : bitsMSB (d.drop k) = (bitsMSB d).drop (8 * k) := by
  induction k generalizing d with
  | zero => simp
  | succ k ih =>
    cases d with
    | nil => simp [bitsMSB]
    | cons b d =>
      have h8 : (byteMSB b).length = 8 := rfl
      rw [List.drop_succ_cons, ih, bitsMSB_cons, Nat.mul_succ, List.drop_append,
        List.drop_eq_nil_of_le (by omega : (byteMSB b).length ≤ 8 * k + 8), h8, List.nil_append, Nat.add_sub_cancel]

theorem bitsMSB_take (d : Bytes) (k : Nat) : bitsMSB (d.take k) = (bitsMSB d).take (8 * k) := by
  induction k generalizing d with
  | zero => simp [bitsMSB]
  | succ k ih =>
    cases d with
    | nil => simp [bitsMSB]
    | cons b d =>
      have h8 : (byteMSB b).length = 8 := rfl
      rw [List.take_succ_cons, bitsMSB_cons, ih, bitsMSB_cons, Nat.mul_succ, List.take_append,
        List.take_of_length_le (by omega : (byteMSB b).length ≤ 8 * k + 8), h8, Nat.add_sub_cancel]

theorem bitsLSB_cons (b : UInt8) (d : Bytes) : bitsLSB (b :: d) = byteLSB b ++ bitsLSB d := rfl

theorem bitsLSB_drop (d : Bytes) (k : Nat) : bitsLSB (d.drop k) = (bitsLSB d).drop (8 * k) := by
  induction k generalizing d with
  | zero => simp
  | succ k ih =>
    cases d with
    | nil => simp [bitsLSB]
    | cons b d =>
      have h8 : (byteLSB b).length = 8 := rfl
      rw [List.drop_succ_cons, ih, bitsLSB_cons, Nat.mul_succ, List.drop_append,
        List.drop_eq_nil_of_le (by omega : (byteLSB b).length ≤ 8 * k + 8), h8, List.nil_append, Nat.add_sub_cancel]

theorem bitsLSB_take (d : Bytes) (k : Nat) : bitsLSB (d.take k) = (bitsLSB d).take (8 * k) := by
  induction k generalizing d with
  | zero => simp [bitsLSB]
  | succ k ih =>
    cases d with
    | nil => simp [bitsLSB]
    | cons b d =>
      have h8 : (byteLSB b).length = 8 := rfl
      rw [List.take_succ_cons, bitsLSB_cons, ih, bitsLSB_cons, Nat.mul_succ, List.take_append,
        List.take_of_length_le (by omega : (byteLSB b).length ≤ 8 * k + 8), h8, Nat.add_sub_cancel]

/-- Taking a bit window inside a byte window. -/
theorem window {α : Type _} (l : List α) (a k sh m n : Nat) (ha : a = 8 * k + sh) (hm : sh + n ≤ 8 * m) :
    (((l.drop (8 * k)).take (8 * m)).drop sh).take n = (l.drop a).take n := by
  subst ha
  rw [List.drop_take, List.take_take, List.drop_drop, Nat.min_eq_left (by omega)]

theorem stringRead_nat (data : Bytes) (a n : Nat) :
    stringRead data (a : Int) n =
      if ((data.drop (a / 8)).take ((n + a % 8 + 7) / 8)).length = (n + a % 8 + 7) / 8 then
        .ok (a % 8, (data.drop (a / 8)).take ((n + a % 8 + 7) / 8), false)
      else .error .readStream := by
  unfold stringRead
  have h1 : ((a : Int) % 8).toNat = a % 8 := by omega
  have h2 : (a : Int) / 8 = ((a / 8 : Nat) : Int) := by omega
  have h3 : ∀ x : Nat, x >>> 3 = x / 8 := fun x => by rw [Nat.shiftRight_eq_div_pow]
  simp only [h1, h2, h3, pySlice_nat, ne_eq, ite_not]

theorem stringRead_ok (data : Bytes) (a n : Nat) (h : a + n ≤ 8 * data.length) :
    stringRead data (a : Int) n =
      .ok (a % 8, (data.drop (a / 8)).take ((n + a % 8 + 7) / 8), false) := by
  rw [stringRead_nat, if_pos]
  simp; omega

theorem stringRead_err (data : Bytes) (a n : Nat) (h : 8 * data.length < a + n)
    (hn : 0 < n ∨ a % 8 ≠ 0) : stringRead data (a : Int) n = .error .readStream := by
  rw [stringRead_nat, if_neg]
  simp; omega

theorem ioRead_nat (data : Bytes) (a n : Nat) (hn : 0 < n) :
    ioRead data (a : Int) n = stringRead data (a : Int) n := by
  rw [stringRead_nat]
  unfold ioRead
  have h1 : ((a : Int) % 8).toNat = a % 8 := by omega
  have h2 : ((a : Int) / 8).toNat = a / 8 := by omega
  have h2' : ¬ ((a : Int) / 8 < 0) := by omega
  have h3 : ∀ x : Nat, x >>> 3 = x / 8 := fun x => by rw [Nat.shiftRight_eq_div_pow]
  have h4 : n ≠ 0 := by omega
  simp only [h1, h2, h2', h3, h4, if_false]
  split
  · rename_i h; rw [if_neg (fun h' => h h'.symm)]
  · rename_i h; rw [if_pos (by simpa using (Decidable.not_not.mp h).symm)]

theorem mask_mod (v n : Nat) : v &&& ((1 <<< n) - 1) = v % 2 ^ n := by
  rw [Nat.shiftLeft_eq, Nat.one_mul, Nat.and_two_pow_sub_one_eq_mod]

/-- The arithmetic of `readBits` on the bytes returned by `read`, big endian. -/
theorem readBits_big_of_read (s : InputStream) (a : Int) (n sh : Nat) (d : Bytes)
    (h : s.read a n = .ok (sh, d, false)) (hl : sh + n ≤ 8 * d.length) :
    readBits s a n .big = .ok (ofBitsMSB (((bitsMSB d).drop sh).take n)) := by
  unfold readBits
  simp only [h, Bool.false_eq_true, if_false, Bits.str2long, Bits.intFromBytesBig_eq, mask_mod]
  have : ¬ (d.length * 8 < sh + n) := by omega
  simp only [this, if_false]
  rw [ofBitsMSB_slice _ _ _ (by rw [length_bitsMSB]; exact hl), ofBytesBE_eq, length_bitsMSB,
    Nat.shiftRight_eq_div_pow, Nat.mul_comm]

theorem readBits_little_of_read (s : InputStream) (a : Int) (n sh : Nat) (d : Bytes)
    (h : s.read a n = .ok (sh, d, false)) (hl : sh + n ≤ 8 * d.length) :
    readBits s a n .little = .ok (ofBitsLSB (((bitsLSB d).drop sh).take n)) := by
  unfold readBits
  simp only [h, Bool.false_eq_true, if_false, Bits.str2long, Bits.intFromBytesLittle_eq, mask_mod]
  rw [ofBitsLSB_slice _ _ _ (by rw [length_bitsLSB]; exact hl), ofBytesLE_eq,
    Nat.shiftRight_eq_div_pow]

theorem readBits_err_of_read (s : InputStream) (a : Int) (n : Nat) (e : Endian) (he : e ≠ .middle)
    (err : PyErr) (h : s.read a n = .error err) : readBits s a n e = .error err := by
  unfold readBits
  cases e with
  | middle => exact absurd rfl he
  | big => simp [h]
  | little => simp [h]

/-- Main lemma: `readBits` over in-memory data. -/
theorem readBits_string_big (s : InputStream) (data : Bytes) (hs : s.read = stringRead data)
    (a n : Nat) (h : a + n ≤ 8 * data.length) :
    readBits s (a : Int) n .big = .ok (ofBitsMSB (((bitsMSB data).drop a).take n)) := by
  rw [readBits_big_of_read s a n (a % 8) ((data.drop (a / 8)).take ((n + a % 8 + 7) / 8))
    (by rw [hs]; exact stringRead_ok data a n h) (by simp; omega)]
  rw [bitsMSB_take, bitsMSB_drop, window _ a _ _ _ _ (by omega) (by omega)]

theorem readBits_string_little (s : InputStream) (data : Bytes) (hs : s.read = stringRead data)
    (a n : Nat) (h : a + n ≤ 8 * data.length) :
    readBits s (a : Int) n .little = .ok (ofBitsLSB (((bitsLSB data).drop a).take n)) := by
  rw [readBits_little_of_read s a n (a % 8) ((data.drop (a / 8)).take ((n + a % 8 + 7) / 8))
    (by rw [hs]; exact stringRead_ok data a n h) (by simp; omega)]
  rw [bitsLSB_take, bitsLSB_drop, window _ a _ _ _ _ (by omega) (by omega)]

theorem alignValue16 (v : Nat) : Tools.alignValue (v : Int) 16 = .ok (((v + 15) / 16 * 16 : Nat) : Int) := by
  have hf : (v : Int).fmod 16 = ((v % 16 : Nat) : Int) := by
    rw [Int.fmod_eq_emod_of_nonneg _ (by omega)]; omega
  unfold Tools.alignValue
  simp only [hf]
  split
  · omega
  · split <;> congr 1 <;> omega

/-- Pair swap used by the middle endian order (specification). -/
def swapPairs : Bytes → Bytes
  | a :: b :: rest => b :: a :: swapPairs rest
  | l => l

theorem strswapmid_eq (d : Bytes) (h : d.length % 2 = 0) : Bits.strswapmid d = .ok (swapPairs d) := by
  have : Bits.strswapmid d = .ok (Bits.interleave (Bits.odds d) (Bits.evens d)) := by
    simp [Bits.strswapmid, Bits.arrswapmid, h]
  rw [this]
  congr 1
  clear this
  fun_induction swapPairs d with
  | case1 a b rest ih => 
    have : rest.length % 2 = 0 := by simp at h; omega
    simp [Bits.odds, Bits.evens, Bits.interleave, ih this]
  | case2 l hl =>
    match l with
    | [] => rfl
    | [x] => simp at h
    | a :: b :: rest => exact absurd rfl (hl a b rest)

theorem length_swapPairs (d : Bytes) : (swapPairs d).length = d.length := by
  fun_induction swapPairs d with
  | case1 a b rest ih => simp [ih]
  | case2 => rfl

theorem swapPairs_drop (d : Bytes) (k : Nat) : swapPairs (d.drop (2 * k)) = (swapPairs d).drop (2 * k) := by
  induction k generalizing d with
  | zero => simp
  | succ k ih =>
    match d with
    | [] => simp [swapPairs]
    | [x] =>
      have : 2 * (k + 1) = (2 * k + 1) + 1 := by omega
      rw [this]; simp [swapPairs]
    | a :: b :: rest =>
      have : 2 * (k + 1) = (2 * k) + 1 + 1 := by omega
      rw [this]; simp only [swapPairs, List.drop_succ_cons]; exact ih rest

theorem swapPairs_take (d : Bytes) (k : Nat) (h : 2 * k ≤ d.length) :
    swapPairs (d.take (2 * k)) = (swapPairs d).take (2 * k) := by
  induction k generalizing d with
  | zero => simp [swapPairs]
  | succ k ih =>
    match d with
    | [] => simp [swapPairs]
    | [x] => simp at h; omega
    | a :: b :: rest =>
      have : 2 * (k + 1) = (2 * k) + 1 + 1 := by omega
      rw [this]; simp only [swapPairs, List.take_succ_cons]
      rw [ih rest (by simp at h; omega)]

theorem readBits_string_middle (s : InputStream) (data : Bytes) (hs : s.read = stringRead data)
    (a n : Nat) (h : (a + n + 15) / 16 * 16 ≤ 8 * data.length) :
    readBits s (a : Int) n .middle = .ok (ofBitsMSB (((bitsMSB (swapPairs data)).drop a).take n)) := by
  unfold readBits
  have h1 : ((a : Int) % 16).toNat = a % 16 := by omega
  have h2 : (a : Int) / 16 * 16 = ((16 * (a / 16) : Nat) : Int) := by omega
  simp only [h1, alignValue16, h2, Int.toNat_natCast]
  generalize hw : (a % 16 + n + 15) / 16 * 16 = w
  have hwl : 16 * (a / 16) + w ≤ 8 * data.length := by omega
  rw [hs, stringRead_ok data _ _ hwl]
  have h3 : 16 * (a / 16) % 8 = 0 := by omega
  have h4 : 16 * (a / 16) / 8 = 2 * (a / 16) := by omega
  have h5 : (w + 0 + 7) / 8 = 2 * (w / 16) := by omega
  simp only [h3, h4, h5, Bool.false_eq_true, if_false]
  generalize hd : (data.drop (2 * (a / 16))).take (2 * (w / 16)) = d
  have hdl : d.length = 2 * (w / 16) := by rw [← hd]; simp; omega
  have hdeven : d.length % 2 = 0 := by omega
  simp only [Bits.str2long, strswapmid_eq d hdeven, Bits.intFromBytesBig_eq, mask_mod]
  have h6 : ¬ (d.length * 8 < a % 16 + n) := by omega
  simp only [h6, if_false]
  have hsl := length_swapPairs d
  have key : ofBytesBE (swapPairs d) >>> (d.length * 8 - a % 16 - n) % 2 ^ n =
      ofBitsMSB (((bitsMSB (swapPairs d)).drop (a % 16)).take n) := by
    rw [ofBitsMSB_slice _ _ _ (by rw [length_bitsMSB]; omega), ofBytesBE_eq, length_bitsMSB, hsl,
      Nat.shiftRight_eq_div_pow, Nat.mul_comm]
  rw [key, ← hd, swapPairs_take _ _ (by simp; omega), swapPairs_drop, bitsMSB_take, bitsMSB_drop]
  have h7 : 8 * (2 * (a / 16)) = 8 * (2 * (a / 16)) := rfl
  rw [window _ a (2 * (a / 16)) (a % 16) (2 * (w / 16)) n (by omega) (by omega)]

end Hachoir.Stream
