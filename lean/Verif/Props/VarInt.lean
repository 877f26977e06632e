import Verif.Formats.VarIntLemmas
import Verif.Props.InputStream

/-!
# C54: integers in base 128

The specification is `Spec.groups` (the bytes of a list of digits) with `Spec.ofDigitsBE` and
`Spec.ofDigitsLE` (its value).  `k` is the byte where the field starts; whatever stands before
and behind is arbitrary.
-/

set_option linter.unusedVariables false

namespace Hachoir.Props
open Hachoir Hachoir.Stream Hachoir.Formats Spec

/-- The digits `ds` stand at byte `k` of the data, and there are at most `m` of them. -/
def DigitsAt (data : Bytes) (k m : Nat) (ds : List Nat) : Prop :=
  Digits ds ∧ ds.length ≤ m ∧ groups ds <+: data.drop k

theorem digitsAt_unique (data : Bytes) (k m m' : Nat) (ds es : List Nat) (h1 : DigitsAt data k m ds)
    (h2 : DigitsAt data k m' es) : ds = es :=
  groups_unique ds es _ h1.1 h2.1 h1.2.2 h2.2.2

theorem beResult_iff (data : Bytes) (k m v size : Nat) :
    beResult 0 8 (scan m (data.drop k)) = .ok (v, size) ↔
      ∃ ds, DigitsAt data k m ds ∧ v = ofDigitsBE 128 ds ∧ size = 8 * ds.length := by
  constructor
  · intro h
    cases hsc : scan m (data.drop k) with
    | done ds =>
      rw [hsc] at h
      simp only [beResult, Except.ok.injEq, Prod.mk.injEq, Nat.zero_mul, Nat.zero_add] at h
      have h2 := (scan_done_iff m _ ds).1 hsc
      have hl : 0 < ds.length := by
        cases ds with
        | nil => exact absurd rfl h2.1.1
        | cons d ds => simp
      exact ⟨ds, h2, h.1.symm, by omega⟩
    | long => rw [hsc] at h; cases h
    | eof => rw [hsc] at h; cases h
  · rintro ⟨ds, h2, hv, hsz⟩
    rw [(scan_done_iff m _ ds).2 h2]
    have hl : 0 < ds.length := by
      cases ds with
      | nil => exact absurd rfl h2.1.1
      | cons d ds => simp
    simp only [beResult, Except.ok.injEq, Prod.mk.injEq, Nat.zero_mul, Nat.zero_add]
    exact ⟨hv.symm, by omega⟩

theorem beResult_long (data : Bytes) (k m : Nat) :
    beResult 0 8 (scan m (data.drop k)) = .error .parser ↔
      m ≤ (data.drop k).length ∧ ∀ b ∈ (data.drop k).take m, 128 ≤ b.toNat := by
  rw [← scan_long_iff]
  cases scan m (data.drop k) <;> simp [beResult]

theorem beResult_eof (data : Bytes) (k m : Nat) :
    beResult 0 8 (scan m (data.drop k)) = .error .readStream ↔
      (data.drop k).length < m ∧ ∀ b ∈ data.drop k, 128 ≤ b.toNat := by
  rw [← scan_eof_iff]
  cases scan m (data.drop k) <;> simp [beResult]

/-- C54, MIDI: the field reads exactly the numbers of at most four digits, most significant
digit first, and covers exactly their bytes; it refuses a number when its first four bytes all
announce another one, and reports the end of the data otherwise. -/
theorem C54_midi (data : Bytes) (s : InputStream) (hs : stringInputStream data = .ok s)
    (e : Endian) (he : e ≠ .middle) (k : Nat) :
    (∀ v size, midiInteger s e (8 * k : Nat) = .ok (v, size) ↔
      ∃ ds, DigitsAt data k 4 ds ∧ v = ofDigitsBE 128 ds ∧ size = 8 * ds.length) ∧
    (midiInteger s e (8 * k : Nat) = .error .parser ↔
      4 ≤ (data.drop k).length ∧ ∀ b ∈ (data.drop k).take 4, 128 ≤ b.toNat) ∧
    (midiInteger s e (8 * k : Nat) = .error .readStream ↔
      (data.drop k).length < 4 ∧ ∀ b ∈ data.drop k, 128 ≤ b.toNat) := by
  rw [midiInteger_eq data s hs e he k]
  exact ⟨beResult_iff data k 4, beResult_long data k 4, beResult_eof data k 4⟩

/-- C54, CHM: at most eight digits. -/
theorem C54_cword (data : Bytes) (s : InputStream) (hs : stringInputStream data = .ok s)
    (e : Endian) (he : e ≠ .middle) (k : Nat) :
    (∀ v size, cword s e (8 * k : Nat) = .ok (v, size) ↔
      ∃ ds, DigitsAt data k 8 ds ∧ v = ofDigitsBE 128 ds ∧ size = 8 * ds.length) ∧
    (cword s e (8 * k : Nat) = .error .parser ↔
      8 ≤ (data.drop k).length ∧ ∀ b ∈ (data.drop k).take 8, 128 ≤ b.toNat) ∧
    (cword s e (8 * k : Nat) = .error .readStream ↔
      (data.drop k).length < 8 ∧ ∀ b ∈ data.drop k, 128 ≤ b.toNat) := by
  rw [cword_eq data s hs e he k]
  exact ⟨beResult_iff data k 8, beResult_long data k 8, beResult_eof data k 8⟩

/-- C54, components of ASN.1 object identifiers: at most eight digits. -/
theorem C54_oid (data : Bytes) (s : InputStream) (hs : stringInputStream data = .ok s) (k : Nat) :
    (∀ v size, oidInteger s (8 * k : Nat) = .ok (v, size) ↔
      ∃ ds, DigitsAt data k 8 ds ∧ v = ofDigitsBE 128 ds ∧ size = 8 * ds.length) ∧
    (oidInteger s (8 * k : Nat) = .error .parser ↔
      8 ≤ (data.drop k).length ∧ ∀ b ∈ (data.drop k).take 8, 128 ≤ b.toNat) ∧
    (oidInteger s (8 * k : Nat) = .error .readStream ↔
      (data.drop k).length < 8 ∧ ∀ b ∈ data.drop k, 128 ≤ b.toNat) := by
  rw [oidInteger_eq data s hs k]
  exact ⟨beResult_iff data k 8, beResult_long data k 8, beResult_eof data k 8⟩

/-- C54, MP4 descriptors: any number of digits; the loop always ends (the bound `n` of the
model is only asked to exceed the length of the data). -/
theorem C54_instance (data : Bytes) (s : InputStream) (hs : stringInputStream data = .ok s)
    (n k : Nat) (hn : data.length ≤ n) :
    (∀ v size, instanceLength s n (8 * k : Nat) = .ok (v, size) ↔
      ∃ ds, DigitsAt data k (n + 1) ds ∧ v = ofDigitsBE 128 ds ∧ size = 8 * ds.length) ∧
    (instanceLength s n (8 * k : Nat) = .error .readStream ↔ ∀ b ∈ data.drop k, 128 ≤ b.toNat) := by
  rw [instanceLength_eq data s hs n k hn]
  refine ⟨beResult_iff data k (n + 1), ?_⟩
  rw [beResult_eof, List.length_drop]
  constructor
  · exact fun h => h.2
  · exact fun h => ⟨by omega, h⟩

theorem leResult_iff (data : Bytes) (k m v size : Nat) (l : PyErr) :
    leResult 0 0 1 l (scan m (data.drop k)) = .ok (v, size) ↔
      ∃ ds, DigitsAt data k m ds ∧ v = ofDigitsLE 128 ds ∧ size = 8 * ds.length := by
  constructor
  · intro h
    cases hsc : scan m (data.drop k) with
    | done ds =>
      rw [hsc] at h
      simp only [leResult, Except.ok.injEq, Prod.mk.injEq, Nat.one_mul, Nat.zero_add] at h
      exact ⟨ds, (scan_done_iff m _ ds).1 hsc, h.1.symm, h.2.symm⟩
    | long => rw [hsc] at h; cases h
    | eof => rw [hsc] at h; cases h
  · rintro ⟨ds, h2, hv, hsz⟩
    rw [(scan_done_iff m _ ds).2 h2]
    simp only [leResult, Except.ok.injEq, Prod.mk.injEq, Nat.one_mul, Nat.zero_add]
    exact ⟨hv.symm, hsz.symm⟩

/-- C54, SWF, unsigned: any number of digits, least significant digit first. -/
theorem C54_flash (data : Bytes) (s : InputStream) (hs : stringInputStream data = .ok s)
    (n nbits k : Nat) (hn : data.length < n) :
    (∀ v size, flashInteger s n false nbits (8 * k : Nat) = .ok (v, size) ↔
      ∃ ds, DigitsAt data k n ds ∧ v = (ofDigitsLE 128 ds : Nat) ∧ size = 8 * ds.length) ∧
    (flashInteger s n false nbits (8 * k : Nat) = .error .readStream ↔
      ∀ b ∈ data.drop k, 128 ≤ b.toNat) := by
  have h := flashLoop_eq data s hs n k 0 0 1 (by omega) (by omega)
  simp only [Nat.mul_zero, Nat.add_zero] at h
  unfold flashInteger
  rw [h]
  constructor
  · intro v size
    constructor
    · intro h2
      cases hr : leResult 0 0 1 .endless (scan n (data.drop k)) with
      | error e => rw [hr] at h2; cases h2
      | ok p =>
        obtain ⟨v', size'⟩ := p
        rw [hr] at h2
        simp only [Bool.false_eq_true, false_and, if_false, Except.ok.injEq, Prod.mk.injEq] at h2
        obtain ⟨ds, h3, h4, h5⟩ := (leResult_iff data k n v' size' .endless).1 hr
        exact ⟨ds, h3, by rw [← h4]; exact h2.1.symm, by omega⟩
    · rintro ⟨ds, h3, h4, h5⟩
      rw [(leResult_iff data k n _ _ .endless).2 ⟨ds, h3, rfl, rfl⟩]
      simp only [Bool.false_eq_true, false_and, if_false, Except.ok.injEq, Prod.mk.injEq]
      exact ⟨h4.symm, h5.symm⟩
  · constructor
    · intro h2
      cases hsc : scan n (data.drop k) with
      | done ds => rw [hsc] at h2; simp [leResult] at h2
      | long => rw [hsc] at h2; simp [leResult] at h2
      | eof => exact ((scan_eof_iff _ _).1 hsc).2
    · intro h2
      have hl : (data.drop k).length < n := by rw [List.length_drop]; omega
      rw [(scan_eof_iff n (data.drop k)).2 ⟨hl, h2⟩]
      rfl

/-- C54, SWF, signed: a number that fits `nbits` bits is read as two's complement. -/
theorem C54_flash_signed (data : Bytes) (s : InputStream) (hs : stringInputStream data = .ok s)
    (n nbits k : Nat) (hn : data.length < n) (hnb : 0 < nbits) (ds : List Nat)
    (hds : DigitsAt data k n ds) (hfit : ofDigitsLE 128 ds < 2 ^ nbits) :
    flashInteger s n true nbits (8 * k : Nat) =
      .ok (twosComplement nbits (ofDigitsLE 128 ds), 8 * ds.length) := by
  have h := flashLoop_eq data s hs n k 0 0 1 (by omega) (by omega)
  simp only [Nat.mul_zero, Nat.add_zero] at h
  unfold flashInteger
  rw [h, (leResult_iff data k n _ _ .endless).2 ⟨ds, hds, rfl, rfl⟩]
  simp only [true_and, Nat.shiftLeft_eq, Nat.one_mul]
  unfold twosComplement
  by_cases hv : ofDigitsLE 128 ds < 2 ^ (nbits - 1)
  · rw [if_neg (by omega), if_pos hv]
  · rw [if_pos (by omega), if_neg hv]
    congr 2

/-- C54 (disagreement): `FlashU30` and its relatives do not look at the width: an encoding of
seven bytes gives a 44 bit "U30", and an over-wide negative "S32" is not reduced to 32 bits. -/
theorem C54_flash_too_wide :
    ∃ s t, stringInputStream [0xff, 0xff, 0xff, 0xff, 0xff, 0xff, 0x03] = .ok s ∧
      flashInteger s 8 false 30 ((8 * 0 : Nat) : Int) = .ok (2 ^ 44 - 1, 56) ∧
      stringInputStream [0xff, 0xff, 0xff, 0xff, 0x7f] = .ok t ∧
      flashInteger t 6 true 32 ((8 * 0 : Nat) : Int) = .ok (2 ^ 35 - 1 - 2 ^ 32, 40) := by
  refine ⟨_, _, rfl, ?_, rfl, ?_⟩ <;> decide +kernel

/-- C54, mapsforge unsigned: at most 99 digits, least significant first. -/
theorem C54_uintVbe (data : Bytes) (s : InputStream) (hs : stringInputStream data = .ok s)
    (k v size : Nat) :
    uintVbe s (8 * k : Nat) = .ok (v, size) ↔
      ∃ ds, DigitsAt data k 99 ds ∧ v = ofDigitsLE 128 ds ∧ size = 8 * ds.length := by
  have h := uvbeLoop_eq data s hs 99 (by omega) k 0 (by norm_num)
  simp only [Nat.sub_self, Nat.zero_mul, Nat.pow_zero, Nat.one_mul, Nat.zero_add, Nat.add_zero] at h
  unfold uintVbe
  rw [h]
  cases hsc : scan 99 (data.drop k) with
  | done ds =>
    have h2 := (scan_done_iff 99 _ ds).1 hsc
    simp only [Except.ok.injEq, Prod.mk.injEq]
    constructor
    · rintro ⟨h3, h4⟩
      exact ⟨ds, h2, h3.symm, by omega⟩
    · rintro ⟨es, h3, h4, h5⟩
      rw [digitsAt_unique data k 99 99 ds es h2 h3]
      exact ⟨h4.symm, by omega⟩
  | long =>
    constructor
    · intro h3
      simp only at h3
      split at h3
      · cases h3
      · rename_i h4
        split at h4 <;> cases h4
    · rintro ⟨es, h3, _⟩
      rw [(scan_done_iff 99 _ es).2 h3] at hsc; cases hsc
  | eof =>
    constructor
    · intro h3; cases h3
    · rintro ⟨es, h3, _⟩
      rw [(scan_done_iff 99 _ es).2 h3] at hsc; cases hsc

theorem byte_bits : ∀ b : Fin 256, (b.val &&& 0x40 ≠ 0 ↔ b.val / 64 % 2 = 1) ∧ b.val &&& 0x3f = b.val % 64 := by
  decide +kernel

/-- The number with sign `neg`, six low bits `d` and further digits `ds`, and its bytes. -/
def vbeBytes (neg : Bool) (d : Nat) (ds : List Nat) : Bytes :=
  UInt8.ofNat ((if ds = [] then 0 else 128) + (if neg then 64 else 0) + d) :: groups ds

/-- C54, mapsforge signed: bit 6 of the first byte is the sign, the rest is the magnitude,
six bits in the first byte and at most 98 digits behind. -/
theorem C54_intVbe (data : Bytes) (s : InputStream) (hs : stringInputStream data = .ok s)
    (k : Nat) (v : Int) (size : Nat) :
    intVbe s (8 * k : Nat) = .ok (v, size) ↔
      ∃ neg d ds, d < 64 ∧ (∀ x ∈ ds, x < 128) ∧ ds.length ≤ 98 ∧
        vbeBytes neg d ds <+: data.drop k ∧
        v = (if neg then (-1 : Int) else 1) * ((d + 64 * ofDigitsLE 128 ds : Nat) : Int) ∧
        size = 8 * (ds.length + 1) := by
  unfold intVbe
  rw [readBytes_byte data s hs k]
  cases hd : data.drop k with
  | nil =>
    simp only
    constructor
    · intro h; cases h
    · rintro ⟨neg, d, ds, _, _, _, h, _⟩
      simp [vbeBytes] at h
  | cons b bs =>
    have hb : b.toNat < 256 := b.toNat_lt
    have hbits := byte_bits ⟨b.toNat, hb⟩
    simp only at hbits
    have hd2 := drop_succ_of_cons data k b bs hd
    have hloop := ivbeLoop_eq data s hs 98 (by omega) k (b.toNat % 64) 6 (by omega)
    simp only [show 99 - 98 = 1 from rfl, hd2] at hloop
    simp only [and128 _ hb, hbits.2]
    have hneg : ∀ w : Nat, (if b.toNat &&& 0x40 ≠ 0 then (w : Int) * -1 else (w : Int)) =
        (if decide (b.toNat / 64 % 2 = 1) = true then (-1 : Int) else 1) * (w : Int) := by
      intro w
      by_cases h1 : b.toNat &&& 0x40 ≠ 0
      · rw [if_pos h1, if_pos (by simpa using hbits.1.1 h1)]; omega
      · rw [if_neg h1, if_neg (by simpa using fun h2 => h1 (hbits.1.2 h2))]; omega
    -- the encoding of a given head byte
    have hhead : ∀ neg d ds, d < 64 → vbeBytes neg d ds <+: b :: bs →
        groups ds <+: bs ∧ neg = decide (b.toNat / 64 % 2 = 1) ∧ d = b.toNat % 64 ∧ (ds = [] ↔ b.toNat < 128) := by
      intro neg d ds hd64 hp
      simp only [vbeBytes, List.cons_prefix_cons] at hp
      have h4 := congrArg UInt8.toNat hp.1
      simp only [UInt8.toNat_ofNat'] at h4
      refine ⟨hp.2, ?_, ?_, ?_⟩
      · cases neg <;> by_cases hz : ds = [] <;> simp only [hz, if_true, if_false, Bool.false_eq_true] at h4 <;>
          simp <;> omega
      · cases neg <;> by_cases hz : ds = [] <;> simp only [hz, if_true, if_false, Bool.false_eq_true] at h4 <;> omega
      · cases neg <;> by_cases hz : ds = [] <;> simp only [hz, if_true, if_false, Bool.false_eq_true] at h4 <;>
          simp [hz] <;> omega
    have hmk : ∀ ds : List Nat, groups ds <+: bs → (ds = [] ↔ b.toNat < 128) →
        vbeBytes (decide (b.toNat / 64 % 2 = 1)) (b.toNat % 64) ds <+: b :: bs := by
      intro ds h1 h2
      simp only [vbeBytes, List.cons_prefix_cons]
      refine ⟨?_, h1⟩
      apply UInt8.toNat_inj.1
      simp only [UInt8.toNat_ofNat']
      by_cases hz : ds = []
      · have := h2.1 hz
        by_cases hn : b.toNat / 64 % 2 = 1 <;> simp [hz, hn] <;> omega
      · have := mt h2.2 hz
        by_cases hn : b.toNat / 64 % 2 = 1 <;> simp [hz, hn] <;> omega
    by_cases hlt : b.toNat < 128
    · rw [if_pos hlt]
      simp only [Except.ok.injEq, Prod.mk.injEq, hneg]
      constructor
      · rintro ⟨h1, h2⟩
        refine ⟨_, b.toNat % 64, [], by omega, by simp, by simp, hmk [] (by simp [groups]) (by simp [hlt]), ?_, ?_⟩
        · rw [← h1]; simp [ofDigitsLE]
        · simp; omega
      · rintro ⟨neg, d, ds, h1, h2, h3, h4, h5, h6⟩
        obtain ⟨g1, g2, g3, g4⟩ := hhead neg d ds h1 h4
        have := g4.2 hlt
        subst this
        subst g2
        subst g3
        rw [h5, h6]
        simp [ofDigitsLE]
    · rw [if_neg hlt, hloop]
      cases hsc : scan 98 bs with
      | done ds =>
        have h2 := (scan_done_iff 98 _ ds).1 hsc
        simp only [Except.ok.injEq, Prod.mk.injEq, hneg]
        constructor
        · rintro ⟨h3, h4⟩
          refine ⟨_, b.toNat % 64, ds, by omega, h2.1.2, h2.2.1, hmk ds h2.2.2 ?_, ?_, by omega⟩
          · exact ⟨fun h => absurd h h2.1.1, fun h => absurd h hlt⟩
          · rw [← h3]; rfl
        · rintro ⟨neg, d, es, h1, h3, h4, h5, h6, h7⟩
          obtain ⟨g1, g2, g3, g4⟩ := hhead neg d es h1 h5
          have hne : es ≠ [] := fun h => hlt (g4.1 h)
          have := groups_unique ds es bs h2.1 ⟨hne, h3⟩ h2.2.2 g1
          subst this
          subst g2
          subst g3
          rw [h6, h7]
          exact ⟨rfl, by omega⟩
      | long =>
        simp only
        constructor
        · intro h3
          split at h3
          · cases h3
          · rename_i h4
            split at h4 <;> cases h4
        · rintro ⟨neg, d, es, h1, h3, h4, h5, h6, h7⟩
          obtain ⟨g1, g2, g3, g4⟩ := hhead neg d es h1 h5
          have hne : es ≠ [] := fun h => hlt (g4.1 h)
          rw [(scan_done_iff 98 _ es).2 ⟨⟨hne, h3⟩, h4, g1⟩] at hsc; cases hsc
      | eof =>
        simp only
        constructor
        · intro h3; cases h3
        · rintro ⟨neg, d, es, h1, h3, h4, h5, h6, h7⟩
          obtain ⟨g1, g2, g3, g4⟩ := hhead neg d es h1 h5
          have hne : es ≠ [] := fun h => hlt (g4.1 h)
          rw [(scan_done_iff 98 _ es).2 ⟨⟨hne, h3⟩, h4, g1⟩] at hsc; cases hsc

/-- C54, git "size encoding": any number of digits, least significant first. -/
theorem C54_git (data : Bytes) (s : InputStream) (hs : stringInputStream data = .ok s)
    (n k : Nat) (hn : data.length < n) (v size : Nat) :
    gitVarLength s n (8 * k : Nat) = .ok (v, size) ↔
      ∃ ds, DigitsAt data k n ds ∧ v = ofDigitsLE 128 ds ∧ size = 8 * ds.length := by
  have h := gitLoop_eq data s hs n k 0 0 0 (by norm_num) (by omega) (by omega)
  simp only [Nat.mul_zero, Nat.add_zero, Nat.pow_zero] at h
  unfold gitVarLength
  rw [h, leResult_iff]

/-- C54, header of a git object: three bits of type and four bits of size in the first byte,
then digits of weight 16, 16·128, .. as long as the first byte announces them. -/
theorem C54_git_type (data : Bytes) (s : InputStream) (hs : stringInputStream data = .ok s)
    (n k : Nat) (hn : data.length < n) (typ d : Nat) (ht : typ < 8) (hd : d < 16) (ds : List Nat)
    (hds : ∀ x ∈ ds, x < 128) (hln : ds.length ≤ n)
    (hp : (UInt8.ofNat ((if ds = [] then 0 else 128) + 16 * typ + d) :: groups ds) <+: data.drop k) :
    gitTypeAndSize s n (8 * k : Nat) = .ok (typ, d + 16 * ofDigitsLE 128 ds, 8 * (ds.length + 1)) := by
  unfold gitTypeAndSize
  rw [readBits_high data s hs k 0 1 (by omega) (by omega) _ (by omega),
    readBits_high data s hs k 1 3 (by omega) (by omega) _ (by omega),
    readBits_high data s hs k 4 4 (by omega) (by omega) _ (by omega)]
  cases hdr : data.drop k with
  | nil => rw [hdr] at hp; simp at hp
  | cons b bs =>
    have hd2 := drop_succ_of_cons data k b bs hdr
    rw [hdr, List.cons_prefix_cons] at hp
    have h4 := congrArg UInt8.toNat hp.1
    simp only [UInt8.toNat_ofNat'] at h4
    simp only [Nat.sub_zero, Nat.reduceSub, Nat.reducePow, Nat.div_one]
    by_cases hz : ds = []
    · subst hz
      simp only [if_true] at h4
      rw [if_neg (by omega)]
      simp only [ofDigitsLE, List.length_nil, Except.ok.injEq, Prod.mk.injEq, Nat.mul_zero, Nat.add_zero]
      exact ⟨by omega, by omega, by simp⟩
    · simp only [if_neg hz] at h4
      rw [if_pos (by omega)]
      have hg := gitLoop_eq data s hs n k 1 (b.toNat % 16) 4 (by omega) (by omega) (by omega)
      rw [Nat.mul_one, hd2, (scan_done_iff n bs ds).2 ⟨⟨hz, hds⟩, hln, hp.2⟩] at hg
      rw [hg]
      simp only [leResult, Except.ok.injEq, Prod.mk.injEq]
      refine ⟨by omega, ?_, by omega⟩
      have : b.toNat % 16 = d := by omega
      rw [this]
      norm_num

/-- Git's encoding of the offset of a delta base: the digits, most significant first, plus
`128 + 128^2 + ..` for the digits announced. -/
def gitOffset : List Nat → Nat
  | [] => 0
  | d :: ds => ds.foldl (fun v x => (v + 1) * 128 + x) d

/-- C54 (disagreement): the base offset of an `OBJ_OFS_DELTA` object is read with the encoding
of sizes (git_pack.py:177) but git uses another one (most significant digit first, plus one
for each announced digit); they agree on a single digit and nowhere on two. -/
theorem C54_git_offset_wrong :
    (∀ d, ofDigitsLE 128 [d] = gitOffset [d]) ∧
    (∀ d e, d < 128 → e < 128 → ofDigitsLE 128 [d, e] ≠ gitOffset [d, e]) := by
  refine ⟨fun d => by simp [ofDigitsLE, gitOffset], ?_⟩
  intro d e h1 h2
  simp only [ofDigitsLE, gitOffset, List.foldl_cons, List.foldl_nil]
  omega

/-- C54, ID3: four digits, most significant first. -/
theorem C54_id3 (data : Bytes) (s : InputStream) (hs : stringInputStream data = .ok s)
    (k a b c d : Nat) (ha : a < 128) (hb : b < 128) (hc : c < 128) (hd : d < 128)
    (hp : [UInt8.ofNat a, UInt8.ofNat b, UInt8.ofNat c, UInt8.ofNat d] <+: data.drop k) :
    id3Size s (8 * k : Nat) = .ok (ofDigitsBE 128 [a, b, c, d]) := by
  unfold id3Size
  have hl := hp.length_le
  simp only [List.length_cons, List.length_nil, List.length_drop] at hl
  rw [_root_.Props.C04_readBytes data s hs k 4, if_pos (by omega)]
  obtain ⟨t, ht⟩ := hp
  have h4 : (data.drop k).take 4 = [UInt8.ofNat a, UInt8.ofNat b, UInt8.ofNat c, UInt8.ofNat d] := by
    rw [← ht]; rfl
  rw [h4]
  simp only [List.foldl_cons, List.foldl_nil, UInt8.toNat_ofNat', ofDigitsBE, List.length_cons,
    List.length_nil, Except.ok.injEq]
  omega

/-- C54: every number has an encoding that is read back: MIDI below 2^28, CHM and ASN.1 below
2^56, MP4 without limit (most significant digit first). -/
theorem C54_number_be (data : Bytes) (s : InputStream) (hs : stringInputStream data = .ok s)
    (e : Endian) (he : e ≠ .middle) (k v : Nat) (hp : groups (digitsBE v) <+: data.drop k) :
    (v < 2 ^ 28 → midiInteger s e (8 * k : Nat) = .ok (v, 8 * (digitsBE v).length)) ∧
    (v < 2 ^ 56 → cword s e (8 * k : Nat) = .ok (v, 8 * (digitsBE v).length)) ∧
    (v < 2 ^ 56 → oidInteger s (8 * k : Nat) = .ok (v, 8 * (digitsBE v).length)) ∧
    (∀ n, data.length ≤ n → instanceLength s n (8 * k : Nat) = .ok (v, 8 * (digitsBE v).length)) := by
  have hD := digitsBE_digits v
  have hV := (ofDigitsBE_digitsBE v).symm
  refine ⟨?_, ?_, ?_, ?_⟩
  · intro h
    exact ((C54_midi data s hs e he k).1 _ _).2 ⟨_, ⟨hD, digitsBE_length 3 v (by norm_num at h ⊢; omega), hp⟩, hV, rfl⟩
  · intro h
    exact ((C54_cword data s hs e he k).1 _ _).2 ⟨_, ⟨hD, digitsBE_length 7 v (by norm_num at h ⊢; omega), hp⟩, hV, rfl⟩
  · intro h
    exact ((C54_oid data s hs k).1 _ _).2 ⟨_, ⟨hD, digitsBE_length 7 v (by norm_num at h ⊢; omega), hp⟩, hV, rfl⟩
  · intro n hn
    have hl := hp.length_le
    rw [length_groups, List.length_drop] at hl
    exact ((C54_instance data s hs n k hn).1 _ _).2 ⟨_, ⟨hD, by omega, hp⟩, hV, rfl⟩

/-- C54: the same with the least significant digit first: SWF and git without limit, mapsforge
below 2^693. -/
theorem C54_number_le (data : Bytes) (s : InputStream) (hs : stringInputStream data = .ok s)
    (k v n : Nat) (hn : data.length < n) (hp : groups (digitsLE v) <+: data.drop k) :
    flashInteger s n false 30 (8 * k : Nat) = .ok ((v : Int), 8 * (digitsLE v).length) ∧
    gitVarLength s n (8 * k : Nat) = .ok (v, 8 * (digitsLE v).length) ∧
    (v < 128 ^ 99 → uintVbe s (8 * k : Nat) = .ok (v, 8 * (digitsLE v).length)) := by
  have hD := digitsLE_digits v
  have hV := (ofDigitsLE_digitsLE v).symm
  have hl := hp.length_le
  rw [length_groups, List.length_drop] at hl
  refine ⟨?_, ?_, ?_⟩
  · exact ((C54_flash data s hs n 30 k hn).1 _ _).2 ⟨_, ⟨hD, by omega, hp⟩, by rw [← hV], rfl⟩
  · exact (C54_git data s hs n k hn _ _).2 ⟨_, ⟨hD, by omega, hp⟩, hV, rfl⟩
  · intro h
    exact (C54_uintVbe data s hs k _ _).2 ⟨_, ⟨hD, digitsLE_length 98 v h, hp⟩, hV, rfl⟩

/-- 1000 as a MIDI number in the middle of a stream: two bytes. -/
example : groups (digitsBE 1000) = [0x87, 0x68] ∧ ∃ s, stringInputStream [0x4d, 0x87, 0x68, 0xff] = .ok s ∧
    midiInteger s .big ((8 * 1 : Nat) : Int) = .ok (1000, 16) ∧
    instanceLength s 4 ((8 * 1 : Nat) : Int) = .ok (1000, 16) := by
  refine ⟨by decide +kernel, _, rfl, ?_, ?_⟩ <;> decide +kernel

/-- The same bytes read with the least significant digit first, and a negative number. -/
example : groups (digitsLE 13319) = [0x87, 0x68] ∧ ∃ s, stringInputStream [0x4d, 0x87, 0x68, 0xff] = .ok s ∧
    gitVarLength s 5 ((8 * 1 : Nat) : Int) = .ok (13319, 16) ∧
    vbeBytes true 5 [104] = [0xc5, 0x68] ∧ ∃ t, stringInputStream [0xc5, 0x68] = .ok t ∧
    intVbe t ((8 * 0 : Nat) : Int) = .ok (-6661, 16) := by
  refine ⟨by decide +kernel, _, rfl, ?_, by decide +kernel, _, rfl, ?_⟩ <;> decide +kernel

/-- Four bytes that all announce another one: refused. -/
example : ∃ s, stringInputStream [0x80, 0x80, 0x80, 0x80, 0x01] = .ok s ∧
    midiInteger s .big ((8 * 0 : Nat) : Int) = .error .parser ∧
    cword s .little ((8 * 0 : Nat) : Int) = .ok (1, 40) := by
  refine ⟨_, rfl, ?_, ?_⟩ <;> decide +kernel

/-- A git header: commit of 300 bytes; an ID3 size. -/
example : ∃ s, stringInputStream [0x9c, 0x12, 0, 0, 2, 1] = .ok s ∧
    gitTypeAndSize s 7 ((8 * 0 : Nat) : Int) = .ok (1, 300, 16) ∧
    id3Size s ((8 * 2 : Nat) : Int) = .ok 257 := by
  refine ⟨_, rfl, ?_, ?_⟩ <;> decide +kernel

end Hachoir.Props
