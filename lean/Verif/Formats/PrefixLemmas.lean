import Verif.Formats.VarIntLemmas

/-! Helper lemmas about the integers whose first byte announces their length. -/

set_option linter.unusedVariables false

namespace Hachoir.Formats
open Hachoir Hachoir.Stream Spec

/-- First byte of a 7z number followed by `n` bytes: `n` ones, a zero, the high bits `h`. -/
def szHead (n h : Nat) : Nat := 256 - 2 ^ (8 - n) + h

theorem szHead_split : ∀ f : Fin 256, ∃ n : Fin 9, ∃ h : Fin 128, h.val < 2 ^ (7 - n.val) ∧ f.val = szHead n h := by
  decide +kernel

theorem szHead_bits : ∀ n : Fin 9, ∀ h : Fin 128, h.val < 2 ^ (7 - n.val) →
    (∀ i : Fin 8, i.val < n.val → szHead n h &&& (0x80 >>> i.val) ≠ 0) ∧
    (n.val < 8 → szHead n h &&& (0x80 >>> n.val) = 0 ∧ szHead n h &&& ((0x80 >>> n.val) - 1) = h) ∧
    (n.val = 8 → h.val = 0) ∧ szHead n h < 256 := by
  decide +kernel

theorem ofBytesLE_take_succ (xs : Bytes) (i : Nat) (h : i < xs.length) :
    ofBytesLE (xs.take (i + 1)) = ofBytesLE (xs.take i) + 256 ^ i * xs[i].toNat := by
  rw [List.take_succ_eq_append_getElem h, ofBytesLE_append]
  simp only [ofBytesLE, List.length_take]
  rw [Nat.min_eq_left (by omega)]
  ring

theorem szLoop_eq (data : Bytes) (s : InputStream) (hs : stringInputStream data = .ok s)
    (k n h : Nat) (hn : n ≤ 8) (hh : h < 2 ^ (7 - n)) (b : UInt8) (bs : Bytes)
    (hd : data.drop k = b :: bs) (m i : Nat) (hmi : i + m = 8) (hi : i ≤ n) (hil : i ≤ bs.length) :
    szLoop s (szHead n h) m i (8 * (k + i) : Nat) (0x80 >>> i) (ofBytesLE (bs.take i)) (8 + 8 * i) =
      if n ≤ bs.length then .ok (ofBytesLE (bs.take n) + h * 256 ^ n, 8 + 8 * n)
      else .error .readStream := by
  have hh128 : h < 128 := by
    have : 2 ^ (7 - n) ≤ 2 ^ 7 := Nat.pow_le_pow_right (by omega) (by omega)
    omega
  obtain ⟨hb1, hb2, hb3, hb4⟩ := szHead_bits ⟨n, by omega⟩ ⟨h, hh128⟩ hh
  simp only at hb1 hb2 hb3 hb4
  induction m generalizing i with
  | zero =>
    have hn8 : n = 8 := by omega
    have hi8 : i = 8 := by omega
    rw [szLoop, if_pos (by omega), hb3 hn8, hi8, hn8]
    simp
  | succ m ih =>
    rw [szLoop]
    rcases Nat.lt_or_ge i n with hlt | hge
    · rw [if_neg (hb1 ⟨i, by omega⟩ hlt),
        show ((8 * (k + i) : Nat) : Int) + 8 = ((8 * (k + i + 1) : Nat) : Int) by omega,
        readBits_byte data s hs (k + i + 1) .little (by simp)]
      have hdrop : data.drop (k + i + 1) = bs.drop i := by
        rw [show k + i + 1 = k + (i + 1) by omega, ← List.drop_drop, hd, List.drop_succ_cons]
      rw [hdrop]
      rcases Nat.lt_or_ge i bs.length with hil' | hil'
      · rw [List.drop_eq_getElem_cons hil']
        simp only
        have hlt256 := ofBytesLE_lt (bs.take i)
        rw [List.length_take, Nat.min_eq_left hil, pow256] at hlt256
        rw [or_shift _ _ _ hlt256, ← pow256, ← ofBytesLE_take_succ bs i hil', ← Nat.shiftRight_add]
        have := ih (i + 1) (by omega) (by omega) (by omega)
        rw [show 8 + 8 * i + 8 = 8 + 8 * (i + 1) by omega]
        exact this
      · rw [List.drop_eq_nil_of_le hil', if_neg (by omega)]
    · have hni : i = n := by omega
      subst hni
      rw [if_pos (hb2 (by omega)).1, (hb2 (by omega)).2, if_pos hil, Nat.shiftLeft_eq, pow256]

theorem szUInt64_eq (data : Bytes) (s : InputStream) (hs : stringInputStream data = .ok s)
    (k n h : Nat) (hn : n ≤ 8) (hh : h < 2 ^ (7 - n)) (b : UInt8) (bs : Bytes)
    (hd : data.drop k = b :: bs) (hb : b.toNat = szHead n h) :
    szUInt64 s (8 * k : Nat) =
      if n ≤ bs.length then .ok (ofBytesLE (bs.take n) + h * 256 ^ n, 8 + 8 * n)
      else .error .readStream := by
  unfold szUInt64
  rw [readBits_byte data s hs k .little (by simp), hd]
  simp only [hb]
  have := szLoop_eq data s hs k n h hn hh b bs hd 8 0 rfl (by omega) (by omega)
  simpa [ofBytesLE] using this

/-! ### Matroska -/

/-- First byte of a Matroska number followed by `n` bytes: `n` zeros, a one, the bits `h`. -/
def mkvHead (n h : Nat) : Nat := 2 ^ (7 - n) + h

theorem mkvHead_split : ∀ f : Fin 256, f.val ≠ 0 →
    ∃ n : Fin 8, ∃ h : Fin 128, h.val < 2 ^ (7 - n.val) ∧ f.val = mkvHead n h := by
  decide +kernel

theorem rawIntLoop_eq (n : Nat) (hn : n ≤ 7) (size i : Nat) (hi : 0 < i) (h1 : 2 ^ (7 - n) ≤ i)
    (h2 : i < 2 * 2 ^ (7 - n)) : rawIntLoop size i hi = size + 8 * n := by
  induction n generalizing size i with
  | zero => rw [rawIntLoop, dif_neg (by simpa using h1)]; rfl
  | succ n ih =>
    have e : 2 ^ (7 - n) = 2 * 2 ^ (7 - (n + 1)) := by
      rw [show 7 - n = 7 - (n + 1) + 1 by omega, Nat.pow_succ]; omega
    have hle : 2 ^ (7 - n) ≤ 2 ^ 7 := Nat.pow_le_pow_right (by omega) (by omega)
    rw [rawIntLoop, dif_pos (by omega)]
    have e2 : i <<< 1 = 2 * i := by rw [Nat.shiftLeft_eq]; omega
    rw [ih (by omega) (size + 8) (i <<< 1) _ (by rw [e2]; omega) (by rw [e2]; omega)]
    omega

theorem readBits_bytes_big (data : Bytes) (s : InputStream) (hs : stringInputStream data = .ok s)
    (k m : Nat) (hm : 0 < m) :
    readBits s (8 * k : Nat) (8 * m) .big =
      if m ≤ (data.drop k).length then .ok (ofBytesBE ((data.drop k).take m)) else .error .readStream := by
  rw [List.length_drop]
  rcases Nat.lt_or_ge (data.length - k) m with h | h
  · rw [if_neg (by omega)]
    exact _root_.Props.C01_readBits_past_end data s hs (8 * k) (8 * m) (by omega) (by omega) .big (by simp)
  · rw [if_pos h, _root_.Props.C01_readBits_big data s hs (8 * k) (8 * m) (by omega), ← bitsMSB_drop,
      ← bitsMSB_take, ofBytesBE_eq]

theorem rawIntSize_eq (data : Bytes) (s : InputStream) (hs : stringInputStream data = .ok s)
    (k n h : Nat) (hn : n ≤ 7) (hh : h < 2 ^ (7 - n)) (b : UInt8) (bs : Bytes)
    (hd : data.drop k = b :: bs) (hb : b.toNat = mkvHead n h) :
    rawIntSize s .big (8 * k : Nat) = .ok (8 * (n + 1)) := by
  unfold rawIntSize readInteger
  rw [readBits_byte data s hs k .big (by simp), hd]
  simp only [Bool.false_eq_true, if_false, Int.toNat_natCast]
  have hp : 0 < 2 ^ (7 - n) := Nat.pow_pos (by omega)
  unfold mkvHead at hb
  rw [dif_neg (by omega), rawIntLoop_eq n hn 8 b.toNat _ (by omega) (by omega)]
  congr 1; omega

theorem mkv_raw (data : Bytes) (s : InputStream) (hs : stringInputStream data = .ok s)
    (k n h : Nat) (hn : n ≤ 7) (b : UInt8) (bs : Bytes)
    (hd : data.drop k = b :: bs) (hb : b.toNat = mkvHead n h) :
    readInteger s (8 * k : Nat) false (8 * (n + 1)) .big =
      if n ≤ bs.length then .ok ((2 ^ (7 * (n + 1)) + (h * 256 ^ n + ofBytesBE (bs.take n)) : Nat) : Int)
      else .error .readStream := by
  unfold readInteger
  rw [readBits_bytes_big data s hs k (n + 1) (by omega), hd]
  simp only [List.length_cons, List.take_succ_cons, ofBytesBE, hb]
  rcases Nat.lt_or_ge bs.length n with h1 | h1
  · rw [if_neg (by omega), if_neg (by omega)]
  · rw [if_pos (by omega), if_pos h1]
    simp only [Bool.false_eq_true, if_false, List.length_take, Nat.min_eq_left h1]
    congr 2
    unfold mkvHead
    have : 2 ^ (7 - n) * 256 ^ n = 2 ^ (7 * (n + 1)) := by
      rw [pow256, ← Nat.pow_add]; congr 1; omega
    rw [Nat.add_mul, this]; omega

end Hachoir.Formats
