import Verif.Formats.Addresses
import Verif.Props.Ntfs
import Verif.Props.HumanText
import Verif.Props.Bencode
import Mathlib.Data.List.Induction

/-!
# C83: texts of network addresses; C84: GUIDs
-/

set_option linter.unusedVariables false

namespace Hachoir.Props
open Hachoir Hachoir.Stream Hachoir.Formats Hachoir.Human Spec

/-! ### Specification -/

/-- The digits of hexadecimal numbers. -/
def lowerDigits : Bytes := asc "0123456789abcdef"
def upperDigits : Bytes := asc "0123456789ABCDEF"

/-- Two digits of a byte. -/
def pair (digits : Bytes) (b : UInt8) : Bytes := [digits.getD (b.toNat / 16) 0, digits.getD (b.toNat % 16) 0]

/-- The digits of some bytes. -/
def pairs (digits : Bytes) (bs : Bytes) : Bytes := bs.flatMap (pair digits)

/-- Texts with a character between them. -/
def between (c : UInt8) : List Bytes → Bytes
  | [] => []
  | [t] => t
  | t :: ts => t ++ c :: between c ts

/-- The text of a MAC address. -/
def macText (bs : Bytes) : Bytes := between 58 (bs.map (pair lowerDigits))

/-- The text of a GUID that is stored with its first three numbers in little endian. -/
def guidText (bs : Bytes) : Bytes :=
  between 45 [pairs upperDigits (bs.take 4).reverse, pairs upperDigits ((bs.drop 4).take 2).reverse,
    pairs upperDigits ((bs.drop 6).take 2).reverse, pairs upperDigits ((bs.drop 8).take 2),
    pairs upperDigits ((bs.drop 10).take 6)]

/-! ### Hexadecimal digits -/

theorem joinWith_eq (c : UInt8) (ts : List Bytes) : joinWith [c] ts = between c ts := by
  induction ts with
  | nil => rfl
  | cons t ts ih =>
    cases ts with
    | nil => rfl
    | cons u us => rw [joinWith, between, ih]; · simp
                   · simp
                   · simp

theorem baseDigits_pair (b : UInt8) : hexPadded 2 b.toNat = pair lowerDigits b := by
  have h : ∀ n : Fin 256, hexPadded 2 (n.val : Nat) = pair lowerDigits (UInt8.ofNat n.val) := by decide +kernel
  have := h ⟨b.toNat, b.toNat_lt⟩
  simpa using this

/-- A fixed number of digits. -/
def fixedHex : Nat → Nat → Bytes
  | 0, _ => []
  | w + 1, n => fixedHex w (n / 16) ++ [UInt8.ofNat (baseDigits.hexDigit (n % 16))]

theorem fixedHex_zero (w : Nat) : fixedHex w 0 = List.replicate w 48 := by
  induction w with
  | zero => rfl
  | succ w ih => rw [fixedHex, ih, List.replicate_succ']; rfl

theorem hexPadded_fixed (w n : Nat) (h : n < 16 ^ (w + 1)) : hexPadded (w + 1) n = fixedHex (w + 1) n := by
  unfold hexPadded
  simp only [Int.natAbs_natCast]
  rw [if_neg (by omega)]
  induction w generalizing n with
  | zero =>
    rw [baseDigits, dif_pos (Or.inl (by simpa using h)), fixedHex, fixedHex, Nat.mod_eq_of_lt (by simpa using h)]
    rfl
  | succ w ih =>
    rw [baseDigits]
    split
    · rename_i hn
      rw [fixedHex, Nat.div_eq_of_lt (by omega), Nat.mod_eq_of_lt (by omega), fixedHex_zero]
      rfl
    · rename_i hn
      rw [fixedHex, ← ih (n / 16) ((Nat.div_lt_iff_lt_mul (by decide)).2 (by rwa [← Nat.pow_succ])), List.length_append,
        List.length_singleton, ← List.append_assoc, Nat.add_sub_add_right]

theorem fixedHex_bytes (bs : Bytes) : fixedHex (2 * bs.length) (ofBytesBE bs) = pairs lowerDigits bs := by
  induction bs using List.reverseRecOn with
  | nil => rfl
  | append_singleton bs b ih =>
    have hb := b.toNat_lt
    rw [List.length_append, List.length_singleton, show 2 * (bs.length + 1) = 2 * bs.length + 1 + 1 by omega, fixedHex, fixedHex,
      ofBytesBE_append]
    have h1 : ofBytesBE [b] = b.toNat := by simp [ofBytesBE]
    rw [h1, List.length_singleton, Nat.pow_one]
    rw [show (ofBytesBE bs * 256 + b.toNat) / 16 / 16 = ofBytesBE bs by omega,
      show (ofBytesBE bs * 256 + b.toNat) / 16 % 16 = b.toNat / 16 by omega,
      show (ofBytesBE bs * 256 + b.toNat) % 16 = b.toNat % 16 by omega, ih]
    unfold pairs
    rw [List.flatMap_append, List.flatMap_singleton, List.append_assoc]
    congr 1
    have h : ∀ n : Fin 256, [UInt8.ofNat (baseDigits.hexDigit (n.val / 16)), UInt8.ofNat (baseDigits.hexDigit (n.val % 16))] =
        pair lowerDigits (UInt8.ofNat n.val) := by decide +kernel
    have := h ⟨b.toNat, b.toNat_lt⟩
    simpa using this

theorem hexPadded_bytes (bs : Bytes) (h : bs ≠ []) : hexPadded (2 * bs.length) (ofBytesBE bs) = pairs lowerDigits bs := by
  rw [← fixedHex_bytes]
  obtain ⟨w, hw⟩ : ∃ w, 2 * bs.length = w + 1 := ⟨2 * bs.length - 1, by
    have := List.length_pos_iff.2 h; omega⟩
  rw [hw]
  refine hexPadded_fixed w _ ?_
  rw [← hw, Nat.pow_mul]
  exact ofBytesBE_lt bs

theorem upper_pairs (bs : Bytes) : (pairs lowerDigits bs).map upperDigit = pairs upperDigits bs := by
  unfold pairs
  rw [List.map_flatMap]
  congr 1
  funext b
  have h : ∀ n : Fin 256, (pair lowerDigits (UInt8.ofNat n.val)).map upperDigit = pair upperDigits (UInt8.ofNat n.val) := by
    decide +kernel
  have := h ⟨b.toNat, b.toNat_lt⟩
  simpa using this

theorem hexUpper_bytes (bs : Bytes) (h : bs ≠ []) : hexUpper (2 * bs.length) (ofBytesBE bs) = pairs upperDigits bs := by
  unfold hexUpper
  rw [hexPadded_bytes bs h, upper_pairs]

theorem joinWith_nil (ts : List Bytes) : joinWith [] ts = ts.flatten := by
  induction ts with
  | nil => rfl
  | cons t ts ih =>
    cases ts with
    | nil => simp [joinWith]
    | cons u us => rw [joinWith, ih]; · simp
                   · simp

theorem str2hex_eq (bs : Bytes) : str2hex bs = pairs upperDigits bs := by
  unfold str2hex
  rw [joinWith_nil, pairs, List.flatMap_def]
  congr 1
  refine List.map_congr_left fun b _ => ?_
  have := hexUpper_bytes [b] (by simp)
  simpa [ofBytesBE, pairs] using this

/-! ### Network addresses -/

/-- C83: an IPv4 address is shown by its four numbers. -/
theorem C83_ipv4 (data : Bytes) (s : InputStream) (hs : stringInputStream data = .ok s) (k : Nat) (a b c d : UInt8)
    (hp : [a, b, c, d] <+: data.drop k) :
    ipv4 s (8 * k : Nat) = .ok (decimal a.toNat ++ 46 :: (decimal b.toNat ++ 46 :: (decimal c.toNat ++ 46 :: decimal d.toNat))) := by
  unfold ipv4
  have := readBytes_prefix data s hs k _ hp
  rw [show ([a, b, c, d] : Bytes).length = 4 from rfl] at this
  simp only [this]
  rw [joinWith_eq]
  rfl

/-- C83: a MAC address is shown by two digits for every byte. -/
theorem C83_mac (data : Bytes) (s : InputStream) (hs : stringInputStream data = .ok s) (k : Nat) (bs : Bytes) (h6 : bs.length = 6)
    (hp : bs <+: data.drop k) : mac48 s (8 * k : Nat) = .ok (macText bs) := by
  unfold mac48
  have := readBytes_prefix data s hs k _ hp
  rw [h6] at this
  simp only [this, Except.ok.injEq]
  match bs, h6 with
  | [a, b, c, d, e, f], _ =>
    simp only [List.flatMap_cons, List.flatMap_nil, baseDigits_pair]
    rfl

theorem ipv6Parts_bytes (bs : Bytes) (n : Nat) (h : bs.length = 2 * n) :
    (ipv6Parts n (ofBytesBE bs)).reverse = (List.range n).map fun i => pairs lowerDigits ((bs.drop (2 * i)).take 2) := by
  induction n generalizing bs with
  | zero => rfl
  | succ n ih =>
    have hsplit : bs = bs.take (2 * n) ++ bs.drop (2 * n) := (List.take_append_drop _ _).symm
    have hl2 : (bs.drop (2 * n)).length = 2 := by rw [List.length_drop]; omega
    have hl1 : (bs.take (2 * n)).length = 2 * n := by rw [List.length_take]; omega
    have hval : ofBytesBE bs = ofBytesBE (bs.take (2 * n)) * 65536 + ofBytesBE (bs.drop (2 * n)) := by
      conv => lhs; rw [hsplit]
      rw [ofBytesBE_append, hl2]
      rfl
    have hlt : ofBytesBE (bs.drop (2 * n)) < 65536 := by
      have := ofBytesBE_lt (bs.drop (2 * n)); rwa [hl2] at this
    have hand : ofBytesBE bs &&& 0xffff = ofBytesBE (bs.drop (2 * n)) := by
      rw [show (0xffff : Nat) = 2 ^ 16 - 1 from rfl, Nat.and_two_pow_sub_one_eq_mod, hval]
      omega
    have hshift : ofBytesBE bs >>> 16 = ofBytesBE (bs.take (2 * n)) := by
      rw [Nat.shiftRight_eq_div_pow, hval]
      omega
    rw [ipv6Parts, List.reverse_cons, hand, hshift, ih _ hl1, List.range_succ, List.map_append]
    congr 1
    · refine List.map_congr_left fun i hi => ?_
      rw [List.mem_range] at hi
      rw [List.drop_take, List.take_take, Nat.min_eq_left (by omega)]
    · have hne : bs.drop (2 * n) ≠ [] := by intro h; rw [h] at hl2; cases hl2
      have := hexPadded_bytes (bs.drop (2 * n)) hne
      rw [hl2] at this
      simp only [List.map_cons, List.map_nil]
      rw [show (4 : Nat) = 2 * 2 from rfl, this, List.take_of_length_le (by omega)]

/-- C83: an IPv6 address in network order is shown by its eight groups of four digits. -/
theorem C83_ipv6 (data : Bytes) (s : InputStream) (hs : stringInputStream data = .ok s) (k : Nat) (bs : Bytes)
    (h16 : bs.length = 16) (hp : bs <+: data.drop k) :
    ipv6 s (8 * k : Nat) .big =
      .ok (between 58 ((List.range 8).map fun i => pairs lowerDigits ((bs.drop (2 * i)).take 2))) := by
  unfold ipv6
  have hr := readBits_bytes_big data s hs k 16 (by omega)
  have hl := hp.length_le
  rw [if_pos (by omega)] at hr
  obtain ⟨t, ht⟩ := hp
  rw [← ht, List.take_left' h16] at hr
  rw [show (128 : Nat) = 8 * 16 from rfl, hr]
  simp only
  rw [joinWith_eq, ipv6Parts_bytes bs 8 h16]

example : ∃ s, stringInputStream [0xfe, 0x80, 0, 0, 0, 0, 0, 0, 2, 1, 0xff, 0xfe, 0, 0, 0, 0x0a] = .ok s ∧
    ipv6 s ((8 * 0 : Nat) : Int) .big = .ok (asc "fe80:0000:0000:0000:0201:fffe:0000:000a") ∧
    mac48 s ((8 * 8 : Nat) : Int) = .ok (asc "02:01:ff:fe:00:00") ∧
    ipv4 s ((8 * 0 : Nat) : Int) = .ok (asc "254.128.0.0") := by
  refine ⟨_, rfl, ?_, ?_, ?_⟩
  · rw [C83_ipv6 [0xfe, 0x80, 0, 0, 0, 0, 0, 0, 2, 1, 0xff, 0xfe, 0, 0, 0, 0x0a] _ rfl 0 [0xfe, 0x80, 0, 0, 0, 0, 0, 0, 2, 1, 0xff, 0xfe, 0, 0, 0, 0x0a] rfl ⟨[], rfl⟩]
    decide +kernel
  · rw [C83_mac [0xfe, 0x80, 0, 0, 0, 0, 0, 0, 2, 1, 0xff, 0xfe, 0, 0, 0, 0x0a] _ rfl 8 [2, 1, 0xff, 0xfe, 0, 0] rfl ⟨[0, 0x0a], rfl⟩]
    decide +kernel
  · rw [C83_ipv4 [0xfe, 0x80, 0, 0, 0, 0, 0, 0, 2, 1, 0xff, 0xfe, 0, 0, 0, 0x0a] _ rfl 0 0xfe 0x80 0 0 ⟨[0, 0, 0, 0, 2, 1, 0xff, 0xfe, 0, 0, 0, 0x0a], rfl⟩]
    decide +kernel

/-! ### GUIDs -/

/-- C84: a GUID stored in little endian is shown as it is written in registries: 8, 4, 4, 4 and 12
digits in upper case. -/
theorem C84_text (data : Bytes) (s : InputStream) (hs : stringInputStream data = .ok s) (k : Nat) (bs : Bytes)
    (h16 : bs.length = 16) (hp : bs <+: data.drop k) : guid s (8 * k : Nat) .little = .ok (guidText bs) := by
  have hl := hp.length_le
  rw [List.length_drop] at hl
  obtain ⟨t, ht⟩ := hp
  have hn : ∀ i m, 0 < m → i + m ≤ 16 →
      readBits s (8 * (k + i) : Nat) (m * 8) .little = .ok (ofBytesBE ((bs.drop i).take m).reverse) := by
    intro i m hm him
    rw [readBits_bytes_little data s hs (k + i) m hm, if_pos (by rw [List.length_drop]; omega), ofBytesBE_reverse,
      ← List.drop_drop, ← ht, List.drop_append_of_le_length (by omega), List.take_append_of_le_length (by simp; omega)]
  have hb : ∀ i m, i + m ≤ 16 → readBytes s (8 * (k + i) : Nat) m = .ok ((bs.drop i).take m) := by
    intro i m him
    have := readBytes_prefix data s hs (k + i) ((bs.drop i).take m) (by
      rw [← List.drop_drop, ← ht, List.drop_append_of_le_length (by omega)]
      exact (List.take_prefix _ _).trans (List.prefix_append _ _))
    rwa [List.length_take, List.length_drop, Nat.min_eq_left (by omega)] at this
  unfold guid
  have e1 := hn 0 4 (by omega) (by omega)
  have e2 := hn 4 2 (by omega) (by omega)
  have e3 := hn 6 2 (by omega) (by omega)
  have e4 := hb 8 2 (by omega)
  have e5 := hb 10 6 (by omega)
  rw [show ((8 * (k + 0) : Nat) : Int) = (8 * k : Nat) by omega] at e1
  rw [show ((8 * (k + 4) : Nat) : Int) = (8 * k : Nat) + 32 by omega] at e2
  rw [show ((8 * (k + 6) : Nat) : Int) = (8 * k : Nat) + 48 by omega] at e3
  rw [show ((8 * (k + 8) : Nat) : Int) = (8 * k : Nat) + 64 by omega] at e4
  rw [show ((8 * (k + 10) : Nat) : Int) = (8 * k : Nat) + 80 by omega] at e5
  rw [show 4 * 8 = 32 from rfl] at e1
  rw [show 2 * 8 = 16 from rfl] at e2 e3
  simp only [e1, e2, e3, e4, e5]
  have hx : ∀ i m, 0 < m → i + m ≤ 16 →
      hexUpper (2 * m) (ofBytesBE ((bs.drop i).take m).reverse) = pairs upperDigits ((bs.drop i).take m).reverse := by
    intro i m hm him
    have hlen : (((bs.drop i).take m).reverse).length = m := by
      rw [List.length_reverse, List.length_take, List.length_drop]; omega
    have := hexUpper_bytes ((bs.drop i).take m).reverse (by intro h; rw [h] at hlen; simp at hlen; omega)
    rwa [hlen] at this
  rw [show (8 : Nat) = 2 * 4 from rfl, hx 0 4 (by omega) (by omega), show (4 : Nat) = 2 * 2 from rfl, hx 4 2 (by omega) (by omega),
    hx 6 2 (by omega) (by omega), str2hex_eq, str2hex_eq]
  simp [guidText, between]

/-- Bits of some bytes in little endian. -/
theorem readBits_low (data : Bytes) (s : InputStream) (hs : stringInputStream data = .ok s)
    (k m a b : Nat) (hm0 : 0 < m) (hab : a + b ≤ 8 * m) (hm : m ≤ (data.drop k).length) (ad : Int) (had : ad = ((8 * k + a : Nat) : Int)) :
    readBits s ad b .little = .ok (ofBytesLE ((data.drop k).take m) / 2 ^ a % 2 ^ b) := by
  subst had
  rw [List.length_drop] at hm
  rw [_root_.Props.C01_readBits_little data s hs (8 * k + a) b (by omega), ofBytesLE_eq, bitsLSB_take, bitsLSB_drop,
    ← ofBitsLSB_slice _ a b (by rw [List.length_take, List.length_drop, length_bitsLSB]; omega)]
  congr 2
  rw [List.drop_take, List.drop_drop, List.take_take, Nat.min_eq_left (by omega)]

/-- C84: the version is the upper half of the eighth byte, as RFC 4122 has it for GUIDs in little
endian; the variant shown is the lower three bits of the ninth byte. -/
theorem C84_fields (data : Bytes) (s : InputStream) (hs : stringInputStream data = .ok s) (k : Nat) (bs : Bytes)
    (h16 : bs.length = 16) (hp : bs <+: data.drop k) :
    guidVersion s (8 * k : Nat) .little = .ok ((bs[7]).toNat / 16) ∧
    guidVariant s (8 * k : Nat) .little = .ok ((bs[8]).toNat % 8) := by
  have hl := hp.length_le
  rw [List.length_drop] at hl
  obtain ⟨t, ht⟩ := hp
  have hone : ∀ i (hi : i < 16), (data.drop (k + i)).take 1 = [bs[i]] := by
    intro i hi
    rw [← List.drop_drop, ← ht, List.drop_append_of_le_length (by omega), List.take_append_of_le_length (by simp; omega),
      List.drop_eq_getElem_cons (by omega)]
    rfl
  have hlen : ∀ i, i < 16 → 1 ≤ (data.drop (k + i)).length := by
    intro i hi; rw [List.length_drop]; omega
  have h7 := (bs[7]).toNat_lt
  constructor
  · unfold guidVersion
    rw [readBits_low data s hs (k + 7) 1 4 4 (by omega) (by omega) (hlen 7 (by omega)) _ (by omega), hone 7 (by omega)]
    simp only [ofBytesLE, Nat.mul_zero, Nat.add_zero]
    congr 1
    omega
  · unfold guidVariant
    rw [readBits_low data s hs (k + 8) 1 0 3 (by omega) (by omega) (hlen 8 (by omega)) _ (by omega), hone 8 (by omega)]
    simp [ofBytesLE]

/-- C84: GUIDs with the same text are the same. -/
theorem C84_injective (a b : Bytes) (ha : a.length = 16) (hb : b.length = 16) (h : guidText a = guidText b) : a = b := by
  have hpair : ∀ x y : UInt8, pair upperDigits x = pair upperDigits y → x = y := by
    have hd : ∀ n m : Fin 16, upperDigits.getD n.val 0 = upperDigits.getD m.val 0 → n = m := by decide
    intro x y h
    unfold pair at h
    simp only [List.cons.injEq, and_true] at h
    have h1 := hd ⟨x.toNat / 16, by have := x.toNat_lt; omega⟩ ⟨y.toNat / 16, by have := y.toNat_lt; omega⟩ h.1
    have h2 := hd ⟨x.toNat % 16, by omega⟩ ⟨y.toNat % 16, by omega⟩ h.2
    simp only [Fin.mk.injEq] at h1 h2
    apply UInt8.toNat.inj
    omega
  match a, ha, b, hb with
  | [a0, a1, a2, a3, a4, a5, a6, a7, a8, a9, a10, a11, a12, a13, a14, a15], _,
    [b0, b1, b2, b3, b4, b5, b6, b7, b8, b9, b10, b11, b12, b13, b14, b15], _ =>
    have key : ∀ x y : UInt8, upperDigits.getD (x.toNat / 16) 0 = upperDigits.getD (y.toNat / 16) 0 →
        upperDigits.getD (x.toNat % 16) 0 = upperDigits.getD (y.toNat % 16) 0 → x = y := by
      intro x y h1 h2
      apply hpair
      unfold pair
      rw [h1, h2]
    obtain ⟨u, hu⟩ : ∃ u : Nat → UInt8, u = fun n => upperDigits.getD n 0 := ⟨_, rfl⟩
    have h' : ([u (a3.toNat / 16), u (a3.toNat % 16), u (a2.toNat / 16), u (a2.toNat % 16), u (a1.toNat / 16), u (a1.toNat % 16), u (a0.toNat / 16), u (a0.toNat % 16), 45, u (a5.toNat / 16), u (a5.toNat % 16), u (a4.toNat / 16), u (a4.toNat % 16), 45, u (a7.toNat / 16), u (a7.toNat % 16), u (a6.toNat / 16), u (a6.toNat % 16), 45, u (a8.toNat / 16), u (a8.toNat % 16), u (a9.toNat / 16), u (a9.toNat % 16), 45, u (a10.toNat / 16), u (a10.toNat % 16), u (a11.toNat / 16), u (a11.toNat % 16), u (a12.toNat / 16), u (a12.toNat % 16), u (a13.toNat / 16), u (a13.toNat % 16), u (a14.toNat / 16), u (a14.toNat % 16), u (a15.toNat / 16), u (a15.toNat % 16)] : Bytes) =
        [u (b3.toNat / 16), u (b3.toNat % 16), u (b2.toNat / 16), u (b2.toNat % 16), u (b1.toNat / 16), u (b1.toNat % 16), u (b0.toNat / 16), u (b0.toNat % 16), 45, u (b5.toNat / 16), u (b5.toNat % 16), u (b4.toNat / 16), u (b4.toNat % 16), 45, u (b7.toNat / 16), u (b7.toNat % 16), u (b6.toNat / 16), u (b6.toNat % 16), 45, u (b8.toNat / 16), u (b8.toNat % 16), u (b9.toNat / 16), u (b9.toNat % 16), 45, u (b10.toNat / 16), u (b10.toNat % 16), u (b11.toNat / 16), u (b11.toNat % 16), u (b12.toNat / 16), u (b12.toNat % 16), u (b13.toNat / 16), u (b13.toNat % 16), u (b14.toNat / 16), u (b14.toNat % 16), u (b15.toNat / 16), u (b15.toNat % 16)] := by
      subst hu; exact h
    simp only [List.cons.injEq, true_and, and_true] at h'
    obtain ⟨h3, l3, h2, l2, h1, l1, h0, l0, h5, l5, h4, l4, h7, l7, h6, l6, h8, l8, h9, l9, h10, l10, h11, l11, h12, l12, h13, l13, h14, l14, h15, l15⟩ := h'
    subst hu
    rw [key a0 b0 h0 l0, key a1 b1 h1 l1, key a2 b2 h2 l2, key a3 b3 h3 l3, key a4 b4 h4 l4, key a5 b5 h5 l5, key a6 b6 h6 l6, key a7 b7 h7 l7, key a8 b8 h8 l8, key a9 b9 h9 l9, key a10 b10 h10 l10, key a11 b11 h11 l11, key a12 b12 h12 l12, key a13 b13 h13 l13, key a14 b14 h14 l14, key a15 b15 h15 l15]

/-- A GUID behind two bytes. -/
example : ∃ s, stringInputStream [9, 9, 0x33, 0x22, 0x11, 0, 0x55, 0x44, 0x77, 0x46, 0x88, 0x99, 0xaa, 0xbb, 0xcc, 0xdd, 0xee, 0xff] =
    .ok s ∧ guid s ((8 * 2 : Nat) : Int) .little = .ok (asc "00112233-4455-4677-8899-AABBCCDDEEFF") := by
  refine ⟨_, rfl, ?_⟩
  rw [C84_text [9, 9, 0x33, 0x22, 0x11, 0, 0x55, 0x44, 0x77, 0x46, 0x88, 0x99, 0xaa, 0xbb, 0xcc, 0xdd, 0xee, 0xff] _ rfl 2
    [0x33, 0x22, 0x11, 0, 0x55, 0x44, 0x77, 0x46, 0x88, 0x99, 0xaa, 0xbb, 0xcc, 0xdd, 0xee, 0xff] rfl ⟨[], rfl⟩]
  decide +kernel

/-- C84 (disagreement): the variant is in the upper bits of the ninth byte (RFC 4122, 4.1.1); a
random GUID of the variant of the RFC (binary 100 there) is shown as the variant 0 or any other. -/
theorem C84_variant (v : Nat) (hv : v < 8) :
    ∃ bs s, bs.length = 16 ∧ stringInputStream bs = .ok s ∧ (bs.getD 7 0).toNat / 16 = 4 ∧ (bs.getD 8 0).toNat / 32 = 4 ∧
      guidVariant s ((8 * 0 : Nat) : Int) .little = .ok v := by
  have hb : (UInt8.ofNat (128 + v)).toNat = 128 + v := by
    rw [UInt8.toNat_ofNat', Nat.mod_eq_of_lt (by omega)]
  refine ⟨[0, 0, 0, 0, 0, 0, 0, 0x40, UInt8.ofNat (128 + v), 0, 0, 0, 0, 0, 0, 0], _, rfl, rfl, by simp, ?_, ?_⟩
  · simp only [List.getD_cons_succ, List.getD_cons_zero, hb]
    omega
  · rw [(C84_fields [0, 0, 0, 0, 0, 0, 0, 0x40, UInt8.ofNat (128 + v), 0, 0, 0, 0, 0, 0, 0] _ rfl 0
      [0, 0, 0, 0, 0, 0, 0, 0x40, UInt8.ofNat (128 + v), 0, 0, 0, 0, 0, 0, 0] rfl ⟨[], rfl⟩).2]
    simp only [List.getElem_cons_succ, List.getElem_cons_zero, hb, Except.ok.injEq]
    omega

end Hachoir.Props
