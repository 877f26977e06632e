import Verif.Formats.PrefixLemmas
import Verif.Props.InputStream

/-!
# C55: integers whose first byte announces their length

7z numbers, Matroska numbers, ASN.1 lengths and Xiph lacing.  `k` is the byte where the field
starts; whatever stands before and behind is arbitrary.
-/

set_option linter.unusedVariables false

namespace Hachoir.Props
open Hachoir Hachoir.Stream Hachoir.Formats Spec

theorem cons_of_prefix {b : UInt8} {xs l : Bytes} (h : (b :: xs) <+: l) :
    ∃ bs, l = b :: bs ∧ xs <+: bs := by
  obtain ⟨t, rfl⟩ := h
  exact ⟨xs ++ t, rfl, ⟨t, rfl⟩⟩

theorem take_of_prefix {xs l : Bytes} (h : xs <+: l) : l.take xs.length = xs ∧ xs.length ≤ l.length := by
  obtain ⟨t, rfl⟩ := h
  simp

/-- C55, 7z: `n ≤ 8` ones, a zero, the bits `h`, then `n` bytes `xs` stand for the number of
`xs`, least significant byte first, plus `h` times `256^n`; the field covers exactly them. -/
theorem C55_sevenzip (data : Bytes) (s : InputStream) (hs : stringInputStream data = .ok s)
    (k h : Nat) (xs : Bytes) (hn : xs.length ≤ 8) (hh : h < 2 ^ (7 - xs.length))
    (hp : (UInt8.ofNat (256 - 2 ^ (8 - xs.length) + h) :: xs) <+: data.drop k) :
    szUInt64 s (8 * k : Nat) = .ok (ofBytesLE xs + h * 256 ^ xs.length, 8 * (xs.length + 1)) := by
  obtain ⟨bs, hd, hx⟩ := cons_of_prefix hp
  have hh128 : h < 128 := by
    have : 2 ^ (7 - xs.length) ≤ 2 ^ 7 := Nat.pow_le_pow_right (by omega) (by omega)
    omega
  have hb4 := (szHead_bits ⟨xs.length, by omega⟩ ⟨h, hh128⟩ hh).2.2.2
  have hb : (UInt8.ofNat (256 - 2 ^ (8 - xs.length) + h)).toNat = szHead xs.length h := by
    rw [UInt8.toNat_ofNat']
    exact Nat.mod_eq_of_lt hb4
  obtain ⟨ht, hl⟩ := take_of_prefix hx
  rw [szUInt64_eq data s hs k xs.length h hn hh _ bs hd hb, if_pos hl, ht]
  congr 2
  omega

/-- C55, 7z: every byte starts such a number; so the field is read unless the data end. -/
theorem C55_sevenzip_total (data : Bytes) (s : InputStream) (hs : stringInputStream data = .ok s)
    (k v size : Nat) :
    (szUInt64 s (8 * k : Nat) = .ok (v, size) →
      ∃ h xs, xs.length ≤ 8 ∧ h < 2 ^ (7 - xs.length) ∧
        (UInt8.ofNat (256 - 2 ^ (8 - xs.length) + h) :: xs) <+: data.drop k ∧
        v = ofBytesLE xs + h * 256 ^ xs.length ∧ size = 8 * (xs.length + 1) ∧ v < 2 ^ 64) ∧
    (∀ e, szUInt64 s (8 * k : Nat) = .error e → e = .readStream ∧ data.length < k + 9) := by
  cases hd : data.drop k with
  | nil =>
    have : szUInt64 s (8 * k : Nat) = .error .readStream := by
      unfold szUInt64
      rw [readBits_byte data s hs k .little (by simp), hd]
    rw [this]
    have := List.drop_eq_nil_iff.1 hd
    refine ⟨fun h => (by cases h), fun e h => ⟨(by cases h; rfl), by omega⟩⟩
  | cons b bs =>
    obtain ⟨n, h, hh, hb⟩ := szHead_split ⟨b.toNat, b.toNat_lt⟩
    have hb' : b.toNat = szHead n.val h.val := hb
    rw [szUInt64_eq data s hs k n.val h.val (by omega) hh b bs hd hb']
    have hlen : data.length - k = bs.length + 1 := by
      rw [← List.length_drop, hd]; rfl
    by_cases hl : n.val ≤ bs.length
    · rw [if_pos hl]
      refine ⟨fun hv => ?_, fun e he => (by cases he)⟩
      simp only [Except.ok.injEq, Prod.mk.injEq] at hv
      have hlt : (bs.take n.val).length = n.val := by rw [List.length_take]; omega
      refine ⟨h.val, bs.take n.val, by omega, by rw [hlt]; exact hh, ?_, ?_, by omega, ?_⟩
      · rw [hlt]
        have : UInt8.ofNat (256 - 2 ^ (8 - n.val) + h.val) = b := by
          apply UInt8.toNat_inj.1
          rw [hb', UInt8.toNat_ofNat']
          have h3 := (szHead_bits n h hh).2.2.2
          exact Nat.mod_eq_of_lt h3
        rw [this, List.cons_prefix_cons]
        exact ⟨rfl, List.take_prefix _ _⟩
      · rw [hlt]; exact hv.1.symm
      · rw [← hv.1]
        have h1 := ofBytesLE_lt (bs.take n.val)
        rw [hlt] at h1
        have h2 := (szHead_bits n h hh).2.2.1
        by_cases h8 : n.val = 8
        · rw [h2 h8, Nat.zero_mul, Nat.add_zero]
          rw [h8] at h1
          norm_num at h1 ⊢
          rw [h8]
          exact h1
        · have h3 : (h.val + 1) * 256 ^ n.val ≤ 2 ^ (7 - n.val) * 256 ^ n.val := Nat.mul_le_mul_right _ hh
          have h4 : 2 ^ (7 - n.val) * 256 ^ n.val ≤ 2 ^ 64 := by
            rw [pow256, ← Nat.pow_add]
            exact Nat.pow_le_pow_right (by omega) (by omega)
          rw [Nat.add_mul, Nat.one_mul] at h3
          omega
    · rw [if_neg hl]
      have := n.isLt
      refine ⟨fun h => (by cases h), fun e he => ⟨(by cases he; rfl), by omega⟩⟩

/-- C55, 7z: every number below 2^64 is read back from its nine byte encoding. -/
theorem C55_sevenzip_number (data : Bytes) (s : InputStream) (hs : stringInputStream data = .ok s)
    (k : Nat) (xs : Bytes) (hx : xs.length = 8) (hp : (0xff :: xs) <+: data.drop k) :
    szUInt64 s (8 * k : Nat) = .ok (ofBytesLE xs, 72) := by
  have := C55_sevenzip data s hs k 0 xs (by omega) (by rw [hx]; norm_num) (by rw [hx]; exact hp)
  rw [this, hx]
  simp

theorem mkvHead_byte (n h : Nat) (hn : n ≤ 7) (hh : h < 2 ^ (7 - n)) :
    (UInt8.ofNat (2 ^ (7 - n) + h)).toNat = mkvHead n h := by
  rw [UInt8.toNat_ofNat']
  have : 2 ^ (7 - n) ≤ 2 ^ 7 := Nat.pow_le_pow_right (by omega) (by omega)
  exact Nat.mod_eq_of_lt (by omega)

theorem mkv_payload_lt (h n : Nat) (xs : Bytes) (hl : xs.length = n) (hn : n ≤ 7) (hh : h < 2 ^ (7 - n)) :
    h * 256 ^ n + ofBytesBE xs < 2 ^ (7 * (n + 1)) := by
  have h1 := ofBytesBE_lt xs
  rw [hl] at h1
  have h3 : (h + 1) * 256 ^ n ≤ 2 ^ (7 - n) * 256 ^ n := Nat.mul_le_mul_right _ hh
  have h4 : 2 ^ (7 - n) * 256 ^ n = 2 ^ (7 * (n + 1)) := by
    rw [pow256, ← Nat.pow_add]; congr 1; omega
  rw [Nat.add_mul, Nat.one_mul] at h3
  omega

/-- C55, Matroska: `n ≤ 7` zeros, a one, the bits `h`, then `n` bytes: their number, most
significant byte first.  All bits set means "unknown" and gives no value.  Signed numbers are
stored with the offset `2^(7n+6) - 1`. -/
theorem C55_matroska (data : Bytes) (s : InputStream) (hs : stringInputStream data = .ok s)
    (k h : Nat) (xs : Bytes) (hn : xs.length ≤ 7) (hh : h < 2 ^ (7 - xs.length))
    (hp : (UInt8.ofNat (2 ^ (7 - xs.length) + h) :: xs) <+: data.drop k) :
    mkvUnsigned s .big (8 * k : Nat) =
      .ok (if h * 256 ^ xs.length + ofBytesBE xs = 2 ^ (7 * (xs.length + 1)) - 1 then none
        else some ((h * 256 ^ xs.length + ofBytesBE xs : Nat) : Int), 8 * (xs.length + 1)) ∧
    mkvSigned s .big (8 * k : Nat) =
      .ok (if h * 256 ^ xs.length + ofBytesBE xs = 2 ^ (7 * (xs.length + 1)) - 1 then none
        else some (((h * 256 ^ xs.length + ofBytesBE xs : Nat) : Int) - (2 ^ (7 * xs.length + 6) - 1)),
        8 * (xs.length + 1)) := by
  obtain ⟨bs, hd, hx⟩ := cons_of_prefix hp
  have hb := mkvHead_byte xs.length h hn hh
  obtain ⟨ht, hl⟩ := take_of_prefix hx
  have hsz := rawIntSize_eq data s hs k xs.length h hn hh _ bs hd hb
  have hraw := mkv_raw data s hs k xs.length h hn _ bs hd hb
  rw [if_pos hl, ht] at hraw
  have hpos : 0 < 2 ^ (7 * (xs.length + 1)) := Nat.pow_pos (by omega)
  obtain ⟨x, hxe⟩ : ∃ x, h * 256 ^ xs.length + ofBytesBE xs = x := ⟨_, rfl⟩
  rw [hxe] at hraw ⊢
  constructor
  · unfold mkvUnsigned
    rw [hsz]
    simp only
    rw [hraw]
    simp only [Nat.shiftLeft_eq, Nat.one_mul]
    rw [show 8 * (xs.length + 1) / 8 * 7 = 7 * (xs.length + 1) by omega]
    obtain ⟨m, hm⟩ : ∃ m, 2 ^ (7 * (xs.length + 1)) = m := ⟨_, rfl⟩
    rw [hm] at hpos ⊢
    congr 2
    by_cases hc : x = m - 1
    · rw [if_pos (by omega), if_pos hc]
    · rw [if_neg (by omega), if_neg hc]
      congr 1
      omega
  · unfold mkvSigned
    rw [hsz]
    simp only
    rw [hraw]
    simp only [Nat.shiftLeft_eq, Nat.one_mul]
    rw [show 8 * (xs.length + 1) / 8 * 7 - 1 = 7 * xs.length + 6 by omega]
    have h2 : 2 ^ (7 * (xs.length + 1)) = 2 * 2 ^ (7 * xs.length + 6) := by
      rw [show 7 * (xs.length + 1) = 7 * xs.length + 6 + 1 by omega, Nat.pow_succ]; omega
    have h3 : ((2 : Int) ^ (7 * xs.length + 6)) = ((2 ^ (7 * xs.length + 6) : Nat) : Int) := by push_cast; rfl
    rw [h3, h2]
    rw [h2] at hpos
    obtain ⟨m, hm⟩ : ∃ m, 2 ^ (7 * xs.length + 6) = m := ⟨_, rfl⟩
    rw [hm] at hpos ⊢
    congr 2
    by_cases hc : x = 2 * m - 1
    · rw [if_pos (by omega), if_pos hc]
    · rw [if_neg (by omega), if_neg hc]
      congr 1
      omega

/-- C55, Matroska: the only refused first byte is zero; so a number that is read has such an
encoding and otherwise the data end early. -/
theorem C55_matroska_total (data : Bytes) (s : InputStream) (hs : stringInputStream data = .ok s)
    (k : Nat) :
    (∀ v, mkvUnsigned s .big (8 * k : Nat) = .ok v →
      ∃ h xs, xs.length ≤ 7 ∧ h < 2 ^ (7 - xs.length) ∧
        (UInt8.ofNat (2 ^ (7 - xs.length) + h) :: xs) <+: data.drop k) ∧
    (mkvUnsigned s .big (8 * k : Nat) = .error .parser ↔ (data.drop k).head? = some 0) ∧
    (∀ e, mkvUnsigned s .big (8 * k : Nat) = .error e → e = .parser ∨ e = .readStream ∧ data.length < k + 8) := by
  cases hd : data.drop k with
  | nil =>
    have : mkvUnsigned s .big (8 * k : Nat) = .error .readStream := by
      unfold mkvUnsigned rawIntSize readInteger
      rw [readBits_byte data s hs k .big (by simp), hd]
    rw [this]
    have := List.drop_eq_nil_iff.1 hd
    refine ⟨fun v h => (by cases h), by simp, fun e h => .inr ⟨(by cases h; rfl), by omega⟩⟩
  | cons b bs =>
    have hlen : data.length - k = bs.length + 1 := by
      rw [← List.length_drop, hd]; rfl
    by_cases hb0 : b.toNat = 0
    · have : mkvUnsigned s .big (8 * k : Nat) = .error .parser := by
        unfold mkvUnsigned rawIntSize readInteger
        rw [readBits_byte data s hs k .big (by simp), hd]
        simp only [Bool.false_eq_true, if_false, Int.toNat_natCast]
        rw [dif_pos hb0]
      rw [this]
      refine ⟨fun v h => (by cases h), ?_, fun e h => .inl (by cases h; rfl)⟩
      simp only [List.head?_cons, Option.some.injEq, true_iff]
      exact UInt8.toNat_inj.1 hb0
    · obtain ⟨n, h, hh, hb⟩ := mkvHead_split ⟨b.toNat, b.toNat_lt⟩ hb0
      have hb' : b.toNat = mkvHead n.val h.val := hb
      have hn7 : n.val ≤ 7 := by omega
      have hsz := rawIntSize_eq data s hs k n.val h.val hn7 hh b bs hd hb'
      have hraw := mkv_raw data s hs k n.val h.val hn7 b bs hd hb'
      have hne : ¬ b = 0 := fun hz => hb0 (by rw [hz]; rfl)
      by_cases hl : n.val ≤ bs.length
      · rw [if_pos hl] at hraw
        have hok : ∃ v, mkvUnsigned s .big (8 * k : Nat) = .ok v := by
          unfold mkvUnsigned
          rw [hsz]
          simp only
          rw [hraw]
          exact ⟨_, rfl⟩
        obtain ⟨v, hv⟩ := hok
        rw [hv]
        refine ⟨fun w _ => ?_, ⟨fun h => (by cases h), fun h => by simp [hne] at h⟩, fun e h => (by cases h)⟩
        have hlt : (bs.take n.val).length = n.val := by rw [List.length_take]; omega
        refine ⟨h.val, bs.take n.val, by omega, by rw [hlt]; exact hh, ?_⟩
        rw [hlt]
        have : UInt8.ofNat (2 ^ (7 - n.val) + h.val) = b := by
          apply UInt8.toNat_inj.1
          rw [hb', mkvHead_byte _ _ hn7 hh]
        rw [this, List.cons_prefix_cons]
        exact ⟨rfl, List.take_prefix _ _⟩
      · rw [if_neg hl] at hraw
        have he : mkvUnsigned s .big (8 * k : Nat) = .error .readStream := by
          unfold mkvUnsigned
          rw [hsz]
          simp only
          rw [hraw]
        rw [he]
        refine ⟨fun v h => (by cases h), ⟨fun h => (by cases h), fun h => by simp [hne] at h⟩,
          fun e h => .inr ⟨(by cases h; rfl), by omega⟩⟩

/-- C55, ASN.1 lengths: a byte below 128 is the length; `128 + n` with `1 ≤ n ≤ 8` is followed
by its `n` bytes, most significant first; `128` and more than eight bytes are refused. -/
theorem C55_asn1 (data : Bytes) (s : InputStream) (hs : stringInputStream data = .ok s) (k : Nat) :
    (∀ v : Nat, v < 128 → [UInt8.ofNat v] <+: data.drop k → asnInteger s (8 * k : Nat) = .ok (v, 8)) ∧
    (∀ xs : Bytes, 1 ≤ xs.length → xs.length ≤ 8 →
      (UInt8.ofNat (128 + xs.length) :: xs) <+: data.drop k →
      asnInteger s (8 * k : Nat) = .ok (ofBytesBE xs, 8 * (xs.length + 1))) ∧
    (∀ b bs, data.drop k = b :: bs → b.toNat = 128 ∨ 136 < b.toNat → asnInteger s (8 * k : Nat) = .error .parser) ∧
    (∀ b bs, data.drop k = b :: bs → 128 < b.toNat → b.toNat ≤ 136 → bs.length < b.toNat - 128 →
      asnInteger s (8 * k : Nat) = .error .readStream) ∧
    (data.drop k = [] → asnInteger s (8 * k : Nat) = .error .readStream) := by
  have hread := readBits_byte data s hs k .big (by simp)
  have hstep : ∀ b bs, data.drop k = b :: bs → 128 < b.toNat → b.toNat ≤ 136 →
      asnInteger s (8 * k : Nat) =
        if b.toNat - 128 ≤ bs.length then .ok (ofBytesBE (bs.take (b.toNat - 128)), 8 * (b.toNat - 128 + 1))
        else .error .readStream := by
    intro b bs hd h1 h2
    have hd2 := drop_succ_of_cons data k b bs hd
    have hbig := readBits_bytes_big data s hs (k + 1) (b.toNat - 128) (by omega)
    rw [hd2] at hbig
    unfold asnInteger
    rw [hread, hd]
    simp only [and127]
    rw [if_pos (by omega), show b.toNat % 128 * 8 = 8 * (b.toNat - 128) by omega, if_neg (by omega),
      if_neg (by omega), addr_succ, hbig]
    by_cases hl : b.toNat - 128 ≤ bs.length
    · rw [if_pos hl, if_pos hl]
      simp only [Except.ok.injEq, Prod.mk.injEq, true_and]
      omega
    · rw [if_neg hl, if_neg hl]
  refine ⟨?_, ?_, ?_, ?_, ?_⟩
  · intro v hv hp
    obtain ⟨bs, hd, _⟩ := cons_of_prefix hp
    unfold asnInteger
    rw [hread, hd]
    have : (UInt8.ofNat v).toNat = v := by rw [UInt8.toNat_ofNat']; exact Nat.mod_eq_of_lt (by omega)
    simp only [this]
    rw [if_neg (by omega)]
  · intro xs h1 h8 hp
    obtain ⟨bs, hd, hx⟩ := cons_of_prefix hp
    obtain ⟨ht, hl⟩ := take_of_prefix hx
    have : (UInt8.ofNat (128 + xs.length)).toNat = 128 + xs.length := by
      rw [UInt8.toNat_ofNat']; exact Nat.mod_eq_of_lt (by omega)
    rw [hstep _ bs hd (by omega) (by omega), this, show 128 + xs.length - 128 = xs.length by omega,
      if_pos hl, ht]
  · intro b bs hd hb
    have := b.toNat_lt
    unfold asnInteger
    rw [hread, hd]
    simp only [and127]
    rw [if_pos (by omega)]
    rcases hb with hb | hb
    · rw [if_pos (by omega)]
    · rw [if_neg (by omega), if_pos (by omega)]
  · intro b bs hd h1 h2 h3
    rw [hstep b bs hd h1 h2, if_neg (by omega)]
  · intro hd
    unfold asnInteger
    rw [hread, hd]

/-! ### Xiph lacing -/

/-- Bytes of the number `v` in Xiph lacing: one 255 per 255, then the rest. -/
def xiphBytes (v : Nat) : Bytes := List.replicate (v / 255) 255 ++ [UInt8.ofNat (v % 255)]

theorem xiphLoop_eq (data : Bytes) (s : InputStream) (hs : stringInputStream data = .ok s)
    (max : Option Nat) (q r k n size value : Nat) (hr : r < 255) (hq : q < n)
    (hmax : ∀ m, max = some m → size + 8 * q < m)
    (hp : (List.replicate q 255 ++ [UInt8.ofNat r]) <+: data.drop k) :
    xiphLoop s max n (8 * k : Nat) size value = .ok (value + 255 * q + r, size + 8 * (q + 1)) := by
  induction q generalizing k n size value with
  | zero =>
    cases n with
    | zero => omega
    | succ n =>
      obtain ⟨bs, hd, _⟩ := cons_of_prefix hp
      have hc : max.all (size < ·) = true := by
        cases max with
        | none => rfl
        | some m => have := hmax m rfl; simpa using this
      have hrb : (UInt8.ofNat r).toNat = r := by rw [UInt8.toNat_ofNat']; exact Nat.mod_eq_of_lt (by omega)
      rw [xiphLoop, if_pos hc, readBits_byte data s hs k .little (by simp), hd]
      simp only [hrb]
      rw [if_pos (by omega)]
      rfl
  | succ q ih =>
    cases n with
    | zero => omega
    | succ n =>
      rw [List.replicate_succ, List.cons_append] at hp
      obtain ⟨bs, hd, hp2⟩ := cons_of_prefix hp
      have hc : max.all (size < ·) = true := by
        cases max with
        | none => rfl
        | some m => have := hmax m rfl; simp; omega
      have hrb : (255 : UInt8).toNat = 255 := rfl
      rw [xiphLoop, if_pos hc, readBits_byte data s hs k .little (by simp), hd]
      simp only [hrb]
      rw [if_neg (by omega), addr_succ, ih (k + 1) n _ _ (by omega) ?_ ?_]
      · simp only [Except.ok.injEq, Prod.mk.injEq]; omega
      · intro m hm; have := hmax m hm; omega
      · rw [drop_succ_of_cons data k _ bs hd]; exact hp2

/-- C55, Ogg: every number is read back from its lacing, unless a maximum size cuts it. -/
theorem C55_xiph (data : Bytes) (s : InputStream) (hs : stringInputStream data = .ok s)
    (max : Option Nat) (v k n : Nat) (hn : data.length < n) (hmax : ∀ m, max = some m → 8 * (v / 255 + 1) ≤ m)
    (hp : xiphBytes v <+: data.drop k) :
    xiphInt s n max (8 * k : Nat) = .ok (v, 8 * (v / 255 + 1)) := by
  have hl := hp.length_le
  simp only [xiphBytes, List.length_append, List.length_replicate, List.length_cons, List.length_nil,
    List.length_drop] at hl
  unfold xiphInt
  rw [xiphLoop_eq data s hs max (v / 255) (v % 255) k n 0 0 (Nat.mod_lt _ (by omega)) (by omega)
    (fun m hm => by have := hmax m hm; omega) hp]
  simp only [Except.ok.injEq, Prod.mk.injEq]
  omega

/-- C55, Ogg: a region holding the lacing of `vs` is divided into exactly these numbers. -/
theorem C55_lacing (data : Bytes) (s : InputStream) (hs : stringInputStream data = .ok s)
    (vs : List Nat) (k n m : Nat) (hn : data.length < n) (hm : vs.length < m)
    (hp : vs.flatMap xiphBytes <+: data.drop k) :
    lacing s n m (8 * k : Nat) (8 * (vs.flatMap xiphBytes).length) =
      .ok (vs.map fun v => (v, 8 * (v / 255 + 1))) := by
  unfold lacing
  induction vs generalizing k m with
  | nil =>
    cases m with
    | zero => simp at hm
    | succ m => rw [lacingLoop, if_pos (by simp)]; rfl
  | cons v vs ih =>
    cases m with
    | zero => simp at hm
    | succ m =>
      have hxl : (xiphBytes v).length = v / 255 + 1 := by simp [xiphBytes]
      rw [List.flatMap_cons] at hp
      simp only [List.flatMap_cons, List.length_append, hxl, List.length_cons] at hm ⊢
      rw [lacingLoop, if_neg (by omega),
        C55_xiph data s hs _ v k n hn (fun m hm => by simp only [Option.some.injEq] at hm; omega)
          ((List.prefix_append _ _).trans hp)]
      simp only
      have hp2 : vs.flatMap xiphBytes <+: data.drop (k + (v / 255 + 1)) := by
        obtain ⟨t, ht⟩ := hp
        refine ⟨t, ?_⟩
        rw [← List.drop_drop, ← ht, ← hxl, List.append_assoc, List.drop_left]
      have := ih (k + (v / 255 + 1)) m (by omega) hp2
      rw [show ((8 * k : Nat) : Int) + ((8 * (v / 255 + 1) : Nat) : Int) =
          ((8 * (k + (v / 255 + 1)) : Nat) : Int) by push_cast; ring,
        show 8 * (v / 255 + 1 + (vs.flatMap xiphBytes).length) - 8 * (v / 255 + 1) =
          8 * (vs.flatMap xiphBytes).length by omega, this]
      rfl

/-- The sum of the bytes of a region. -/
def byteSum (l : Bytes) : Nat := (l.map UInt8.toNat).sum

theorem byteSum_append (a b : Bytes) : byteSum (a ++ b) = byteSum a + byteSum b := by
  simp [byteSum]

theorem xiph_region (data : Bytes) (s : InputStream) (hs : stringInputStream data = .ok s)
    (n k M size value : Nat) (hn : M < n) (hM : k + M ≤ data.length) :
    ∃ j, j ≤ M ∧ (0 < M → 0 < j) ∧
      xiphLoop s (some (size + 8 * M)) n (8 * k : Nat) size value =
        .ok (value + byteSum ((data.drop k).take j), size + 8 * j) := by
  induction n generalizing k M size value with
  | zero => omega
  | succ n ih =>
    rcases Nat.eq_zero_or_pos M with hz | hpos
    · subst hz
      exact ⟨0, by omega, by omega, by rw [xiphLoop, if_neg (by simp)]; simp [byteSum]⟩
    · cases hd : data.drop k with
      | nil => have := List.drop_eq_nil_iff.1 hd; omega
      | cons b bs =>
        have hd2 := drop_succ_of_cons data k b bs hd
        rw [xiphLoop, if_pos (by simp; omega), readBits_byte data s hs k .little (by simp), hd]
        simp only
        by_cases hb : b.toNat ≠ 255
        · rw [if_pos hb]
          exact ⟨1, by omega, by omega, by simp [byteSum]⟩
        · rw [if_neg hb, addr_succ]
          obtain ⟨j, h1, h2, h3⟩ := ih (k + 1) (M - 1) (size + 8) (value + b.toNat) (by omega) (by omega)
          rw [show size + 8 + 8 * (M - 1) = size + 8 * M by omega] at h3
          refine ⟨j + 1, by omega, by omega, ?_⟩
          rw [h3, hd2, List.take_succ_cons]
          simp only [byteSum, List.map_cons, List.sum_cons, Except.ok.injEq, Prod.mk.injEq]
          omega

/-- C55, Ogg: whatever the bytes, the table is divided without gap and without rest, the last
number possibly being cut by the end of the table; the numbers sum to the sum of the bytes. -/
theorem C55_lacing_total (data : Bytes) (s : InputStream) (hs : stringInputStream data = .ok s)
    (k M n m : Nat) (hM : k + M ≤ data.length) (hn : M < n) (hm : M < m) :
    ∃ vs, lacing s n m (8 * k : Nat) (8 * M) = .ok vs ∧ (vs.map (·.2)).sum = 8 * M ∧
      (vs.map (·.1)).sum = byteSum ((data.drop k).take M) ∧ ∀ v ∈ vs, 0 < v.2 ∧ 8 ∣ v.2 := by
  unfold lacing
  induction m generalizing k M with
  | zero => omega
  | succ m ih =>
    rcases Nat.eq_zero_or_pos M with hz | hpos
    · subst hz
      exact ⟨[], by rw [lacingLoop, if_pos (by simp)], by simp, by simp [byteSum], by simp⟩
    · obtain ⟨j, h1, h2, h3⟩ := xiph_region data s hs n k M 0 0 hn hM
      have hj := h2 hpos
      simp only [Nat.zero_add] at h3
      obtain ⟨vs, g1, g2, g3, g4⟩ := ih (k + j) (M - j) (by omega) (by omega) (by omega)
      refine ⟨(byteSum ((data.drop k).take j), 8 * j) :: vs, ?_, ?_, ?_, ?_⟩
      · rw [lacingLoop, if_neg (by omega)]
        unfold xiphInt
        rw [h3]
        simp only
        rw [show ((8 * k : Nat) : Int) + ((8 * j : Nat) : Int) = ((8 * (k + j) : Nat) : Int) by push_cast; ring,
          show 8 * M - 8 * j = 8 * (M - j) by omega, g1]
      · simp only [List.map_cons, List.sum_cons, g2]; omega
      · simp only [List.map_cons, List.sum_cons, g3]
        rw [← byteSum_append, ← List.drop_drop, ← List.take_add, show j + (M - j) = M by omega]
      · intro v hv
        rcases List.mem_cons.1 hv with rfl | hv
        · exact ⟨by simp only; omega, ⟨j, rfl⟩⟩
        · exact g4 v hv

/-- 7z: 0x1234 in two bytes, and a number of the full width. -/
example : ∃ s, stringInputStream [0x92, 0x34, 0xff, 1, 2, 3, 4, 5, 6, 7, 8] = .ok s ∧
    szUInt64 s ((8 * 0 : Nat) : Int) = .ok (0x1234, 16) ∧
    szUInt64 s ((8 * 2 : Nat) : Int) = .ok (0x0807060504030201, 72) := by
  refine ⟨_, rfl, ?_, ?_⟩ <;> decide +kernel

/-- Matroska: 0x102 in two bytes, the same signed, an unknown size, a refused byte. -/
example : ∃ s, stringInputStream [0x41, 0x02, 0xff, 0x00] = .ok s ∧
    mkvUnsigned s .big ((8 * 0 : Nat) : Int) = .ok (some 0x102, 16) ∧
    mkvSigned s .big ((8 * 0 : Nat) : Int) = .ok (some (0x102 - 0x1fff), 16) ∧
    mkvUnsigned s .big ((8 * 2 : Nat) : Int) = .ok (none, 8) ∧
    mkvUnsigned s .big ((8 * 3 : Nat) : Int) = .error .parser := by
  refine ⟨_, rfl, ?_, ?_, ?_, ?_⟩ <;> decide +kernel

/-- ASN.1: 0x1234 in three bytes; lacing of 300 and 255. -/
example : ∃ s, stringInputStream [0x82, 0x12, 0x34, 255, 45, 255, 0] = .ok s ∧
    asnInteger s ((8 * 0 : Nat) : Int) = .ok (0x1234, 24) ∧
    [300, 255].flatMap xiphBytes = [255, 45, 255, 0] ∧
    lacing s 8 3 ((8 * 3 : Nat) : Int) 32 = .ok [(300, 16), (255, 16)] := by
  refine ⟨_, rfl, ?_, ?_, ?_⟩ <;> decide +kernel

end Hachoir.Props
