import Verif.Formats.VarInt
import Verif.Spec.VarInt
import Verif.Props.InputStream

/-! Helper lemmas about the integers of variable length. -/

set_option linter.unusedVariables false

namespace Hachoir.Formats
open Hachoir Hachoir.Stream Spec

theorem take_drop_one {α : Type _} (l : List α) (k : Nat) (h : k < l.length) :
    (l.drop k).take 1 = [l[k]] := by
  rw [List.drop_eq_getElem_cons h]; rfl

/-- A byte read at a byte boundary. -/
theorem readBits_byte (data : Bytes) (s : InputStream) (hs : stringInputStream data = .ok s)
    (k : Nat) (e : Endian) (he : e ≠ .middle) :
    readBits s (8 * k : Nat) 8 e = match data.drop k with
      | [] => .error .readStream
      | b :: _ => .ok b.toNat := by
  rcases Nat.lt_or_ge k data.length with h | h
  · rw [List.drop_eq_getElem_cons h]
    cases e with
    | middle => exact absurd rfl he
    | big =>
      rw [_root_.Props.C01_readBits_big data s hs (8 * k) 8 (by omega), ← bitsMSB_drop]
      have := bitsMSB_take (data.drop k) 1
      rw [Nat.mul_one] at this
      rw [← this, take_drop_one data k h]
      simp only [bitsMSB, List.flatMap_cons, List.flatMap_nil, List.append_nil, ofBitsMSB_byteMSB]
    | little =>
      rw [_root_.Props.C01_readBits_little data s hs (8 * k) 8 (by omega), ← bitsLSB_drop]
      have := bitsLSB_take (data.drop k) 1
      rw [Nat.mul_one] at this
      rw [← this, take_drop_one data k h]
      simp only [bitsLSB, List.flatMap_cons, List.flatMap_nil, List.append_nil, ofBitsLSB_byteLSB]
  · rw [List.drop_eq_nil_of_le h]
    exact _root_.Props.C01_readBits_past_end data s hs (8 * k) 8 (by omega) (by omega) e he

theorem readBytes_byte (data : Bytes) (s : InputStream) (hs : stringInputStream data = .ok s) (k : Nat) :
    readBytes s (8 * k : Nat) 1 = match data.drop k with
      | [] => .error .readStream
      | b :: _ => .ok [b] := by
  unfold readBytes
  rw [(_root_.Props.stringInputStream_ok data s hs).1]
  rcases Nat.lt_or_ge k data.length with h | h
  · rw [stringRead_ok data (8 * k) (8 * 1) (by omega), List.drop_eq_getElem_cons h]
    have e1 : 8 * k % 8 = 0 := by omega
    have e2 : 8 * k / 8 = k := by omega
    simp only [e1, e2, ne_eq, not_true_eq_false, if_false, Bool.false_eq_true]
    rw [show (8 * 1 + 0 + 7) / 8 = 1 from rfl, take_drop_one data k h]
  · rw [stringRead_err data (8 * k) (8 * 1) (by omega) (Or.inl (by omega)), List.drop_eq_nil_of_le h]

/-- Result of looking for the end of a number in base 128. -/
inductive Scan where
  | done (ds : List Nat) | long | eof
  deriving DecidableEq

/-- At most `m` bytes are examined. -/
def scan : Nat → Bytes → Scan
  | 0, _ => .long
  | _ + 1, [] => .eof
  | m + 1, b :: bs =>
    if b.toNat < 128 then .done [b.toNat]
    else match scan m bs with
      | .done ds => .done ((b.toNat - 128) :: ds)
      | .long => .long
      | .eof => .eof

theorem scan_done_iff (m : Nat) (bs : Bytes) (ds : List Nat) :
    scan m bs = .done ds ↔ Digits ds ∧ ds.length ≤ m ∧ groups ds <+: bs := by
  induction m generalizing bs ds with
  | zero =>
    simp only [scan]
    constructor
    · intro h; cases h
    · rintro ⟨h, h2, _⟩
      exact absurd (List.eq_nil_of_length_eq_zero (by omega)) h.1
  | succ m ih =>
    cases bs with
    | nil =>
      simp only [scan]
      constructor
      · intro h; cases h
      · rintro ⟨h, h2, h3⟩
        have h4 := h3.length_le
        rw [length_groups] at h4
        exact absurd (List.eq_nil_of_length_eq_zero (by simpa using h4)) h.1
    | cons b bs =>
      simp only [scan]
      have hb : b.toNat < 256 := b.toNat_lt
      by_cases hlt : b.toNat < 128
      · rw [if_pos hlt]
        constructor
        · intro h
          cases h
          refine ⟨⟨by simp, by intro d hd; simp at hd; omega⟩, by simp, ?_⟩
          simp [groups]
        · rintro ⟨h, h2, h3⟩
          congr 1
          refine groups_unique [b.toNat] ds (b :: bs) ⟨by simp, by intro d hd; simp at hd; omega⟩ h ?_ h3
          simp [groups]
      · rw [if_neg hlt]
        constructor
        · intro h
          cases hsc : scan m bs with
          | done es =>
            rw [hsc] at h
            simp only [Scan.done.injEq] at h
            obtain ⟨h1, h2, h3⟩ := (ih bs es).1 hsc
            subst h
            cases es with
            | nil => exact absurd rfl h1.1
            | cons e es =>
              refine ⟨⟨by simp, ?_⟩, by simp only [List.length_cons] at *; omega, ?_⟩
              · intro d hd
                rcases List.mem_cons.1 hd with hd | hd
                · omega
                · exact h1.2 d hd
              · have : UInt8.ofNat (b.toNat - 128 + 128) = b := by
                  rw [Nat.sub_add_cancel (by omega)]; exact UInt8.ofNat_toNat
                simp only [groups, this]
                exact (List.cons_prefix_cons).2 ⟨rfl, h3⟩
          | long => rw [hsc] at h; cases h
          | eof => rw [hsc] at h; cases h
        · rintro ⟨h, h2, h3⟩
          cases ds with
          | nil => exact absurd rfl h.1
          | cons d ds =>
            have hd := h.2 d (by simp)
            cases ds with
            | nil =>
              simp only [groups, List.cons_prefix_cons] at h3
              have := congrArg UInt8.toNat h3.1
              simp only [UInt8.toNat_ofNat'] at this
              omega
            | cons d2 ds =>
              simp only [groups, List.cons_prefix_cons] at h3
              have h4 := congrArg UInt8.toNat h3.1
              simp only [UInt8.toNat_ofNat'] at h4
              have h5 := (ih bs (d2 :: ds)).2 ⟨⟨by simp, fun x hx => h.2 x (List.mem_cons_of_mem _ hx)⟩,
                by simp only [List.length_cons] at *; omega, h3.2⟩
              rw [h5]
              simp only [Scan.done.injEq, List.cons.injEq, and_true]
              omega

theorem scan_long_iff (m : Nat) (bs : Bytes) :
    scan m bs = .long ↔ m ≤ bs.length ∧ ∀ b ∈ bs.take m, 128 ≤ b.toNat := by
  induction m generalizing bs with
  | zero => simp [scan]
  | succ m ih =>
    cases bs with
    | nil => simp [scan]
    | cons b bs =>
      simp only [scan, List.length_cons, List.take_succ_cons, List.forall_mem_cons]
      have := ih bs
      by_cases hlt : b.toNat < 128
      · rw [if_pos hlt]
        constructor
        · intro h; cases h
        · rintro ⟨_, h, _⟩; omega
      · rw [if_neg hlt]
        cases hsc : scan m bs with
        | done es =>
          rw [hsc] at this
          simp only [reduceCtorEq, false_iff] at this ⊢
          rintro ⟨h1, h2, h3⟩
          exact this ⟨by omega, h3⟩
        | long =>
          rw [hsc] at this
          simp only [true_iff] at this ⊢
          exact ⟨by omega, by omega, this.2⟩
        | eof =>
          rw [hsc] at this
          simp only [reduceCtorEq, false_iff] at this ⊢
          rintro ⟨h1, h2, h3⟩
          exact this ⟨by omega, h3⟩

theorem scan_eof_iff (m : Nat) (bs : Bytes) :
    scan m bs = .eof ↔ bs.length < m ∧ ∀ b ∈ bs, 128 ≤ b.toNat := by
  induction m generalizing bs with
  | zero => simp [scan]
  | succ m ih =>
    cases bs with
    | nil => simp [scan]
    | cons b bs =>
      simp only [scan, List.length_cons, List.forall_mem_cons]
      have := ih bs
      by_cases hlt : b.toNat < 128
      · rw [if_pos hlt]
        constructor
        · intro h; cases h
        · rintro ⟨_, h, _⟩; omega
      · rw [if_neg hlt]
        cases hsc : scan m bs with
        | done es =>
          rw [hsc] at this
          simp only [reduceCtorEq, false_iff] at this ⊢
          rintro ⟨h1, h2, h3⟩
          exact this ⟨by omega, h3⟩
        | eof =>
          rw [hsc] at this
          simp only [true_iff] at this ⊢
          exact ⟨by omega, by omega, this.2⟩
        | long =>
          rw [hsc] at this
          simp only [reduceCtorEq, false_iff] at this ⊢
          rintro ⟨h1, h2, h3⟩
          exact this ⟨by omega, h3⟩

theorem and127 (b : Nat) : b &&& 127 = b % 128 := Nat.and_two_pow_sub_one_eq_mod b 7

theorem and128 (b : Nat) (h : b < 256) : b &&& 128 = 0 ↔ b < 128 := by
  have : ∀ n : Fin 256, n.val &&& 128 = 0 ↔ n.val < 128 := by decide +kernel
  exact this ⟨b, h⟩

theorem shl7 (v : Nat) : v <<< 7 = v * 128 := by rw [Nat.shiftLeft_eq]

theorem addr_succ (k : Nat) : ((8 * k : Nat) : Int) + 8 = ((8 * (k + 1) : Nat) : Int) := by omega

theorem drop_succ_of_cons {α : Type _} (l : List α) (k : Nat) (b : α) (bs : List α)
    (h : l.drop k = b :: bs) : l.drop (k + 1) = bs := by
  rw [← List.drop_drop, h]; rfl

/-! ### Most significant digit first -/

/-- What a constructor makes of a scan. -/
def beResult (value size : Nat) : Scan → Except PyErr (Nat × Nat)
  | .done ds => .ok (value * 128 ^ ds.length + ofDigitsBE 128 ds, size + 8 * (ds.length - 1))
  | .long => .error .parser
  | .eof => .error .readStream

theorem beResult_cons (value size b m : Nat) (bs : Bytes) (h1 : 128 ≤ b) (h2 : b < 256) :
    beResult (value * 128 + b % 128) (size + 8) (scan m bs) =
      beResult value size (match scan m bs with
        | .done ds => .done ((b - 128) :: ds)
        | .long => .long
        | .eof => .eof) := by
  cases hsc : scan m bs with
  | done ds =>
    have hds := ((scan_done_iff m bs ds).1 hsc).1.1
    have hl : 0 < ds.length := by
      cases ds with
      | nil => exact absurd rfl hds
      | cons d ds => simp
    simp only [beResult, List.length_cons, ofDigitsBE, Nat.pow_succ]
    have hb : b % 128 = b - 128 := by omega
    rw [hb]
    simp only [Except.ok.injEq, Prod.mk.injEq]
    exact ⟨by ring, by omega⟩
  | long => rfl
  | eof => rfl

theorem midiLoop_eq (data : Bytes) (s : InputStream) (hs : stringInputStream data = .ok s)
    (e : Endian) (he : e ≠ .middle) (m : Nat) (hm : m ≤ 3) (k value : Nat) :
    midiLoop s e (8 * k : Nat) (32 - 8 * m) value =
      beResult value (32 - 8 * m) (scan (m + 1) (data.drop k)) := by
  induction m generalizing k value with
  | zero =>
    rw [midiLoop, readBits_byte data s hs k e he]
    cases hd : data.drop k with
    | nil => rfl
    | cons b bs =>
      have hb : b.toNat < 256 := b.toNat_lt
      simp only [and127, and128 _ hb, shl7, scan]
      by_cases hlt : b.toNat < 128
      · rw [if_pos hlt, if_pos hlt]
        simp only [beResult, List.length_singleton, ofDigitsBE, Nat.mod_eq_of_lt hlt]
        simp
      · rw [if_neg hlt, if_neg hlt, dif_pos (by omega)]
        rfl
  | succ m ih =>
    rw [midiLoop, readBits_byte data s hs k e he]
    cases hd : data.drop k with
    | nil => rfl
    | cons b bs =>
      have hb : b.toNat < 256 := b.toNat_lt
      simp only [and127, and128 _ hb, shl7]
      rw [scan]
      by_cases hlt : b.toNat < 128
      · rw [if_pos hlt, if_pos hlt]
        simp only [beResult, List.length_singleton, ofDigitsBE, Nat.mod_eq_of_lt hlt]
        simp
      · rw [if_neg hlt, if_neg hlt, dif_neg (by omega), addr_succ,
          show 32 - 8 * (m + 1) + 8 = 32 - 8 * m by omega, ih (by omega), drop_succ_of_cons data k b bs hd,
          ← beResult_cons value _ b.toNat (m + 1) bs (by omega) hb,
          show 32 - 8 * (m + 1) + 8 = 32 - 8 * m by omega]

theorem midiInteger_eq (data : Bytes) (s : InputStream) (hs : stringInputStream data = .ok s)
    (e : Endian) (he : e ≠ .middle) (k : Nat) :
    midiInteger s e (8 * k : Nat) = beResult 0 8 (scan 4 (data.drop k)) :=
  midiLoop_eq data s hs e he 3 (by omega) k 0

theorem cwordLoop_eq (data : Bytes) (s : InputStream) (hs : stringInputStream data = .ok s)
    (e : Endian) (he : e ≠ .middle) (m : Nat) (hm : m ≤ 7) (k value : Nat) (b : UInt8) (bs : Bytes)
    (hd : data.drop k = b :: bs) :
    cwordLoop s e (8 * k : Nat) (64 - 8 * m) value b.toNat =
      beResult value (64 - 8 * m) (scan (m + 1) (b :: bs)) := by
  induction m generalizing k value b bs with
  | zero =>
    have hb : b.toNat < 256 := b.toNat_lt
    rw [cwordLoop]
    simp only [ne_eq, and128 _ hb, and127, shl7, scan]
    by_cases hlt : b.toNat < 128
    · rw [if_neg (by omega), if_pos hlt]
      simp only [beResult, List.length_singleton, ofDigitsBE]
      simp
    · rw [if_pos hlt, if_neg hlt, dif_pos (by omega)]
      rfl
  | succ m ih =>
    have hb : b.toNat < 256 := b.toNat_lt
    rw [cwordLoop]
    simp only [ne_eq, and128 _ hb, and127, shl7]
    rw [scan]
    by_cases hlt : b.toNat < 128
    · rw [if_neg (by omega), if_pos hlt]
      simp only [beResult, List.length_singleton, ofDigitsBE]
      simp
    · rw [if_pos hlt, if_neg hlt, dif_neg (by omega), addr_succ, readBits_byte data s hs (k + 1) e he]
      have hd2 := drop_succ_of_cons data k b bs hd
      rw [hd2]
      cases bs with
      | nil => rfl
      | cons b2 bs =>
        simp only
        rw [show 64 - 8 * (m + 1) + 8 = 64 - 8 * m by omega, ih (by omega) (k + 1) _ b2 bs hd2,
          ← beResult_cons value _ b.toNat (m + 1) (b2 :: bs) (by omega) hb,
          show 64 - 8 * (m + 1) + 8 = 64 - 8 * m by omega]

theorem cword_eq (data : Bytes) (s : InputStream) (hs : stringInputStream data = .ok s)
    (e : Endian) (he : e ≠ .middle) (k : Nat) :
    cword s e (8 * k : Nat) = beResult 0 8 (scan 8 (data.drop k)) := by
  unfold cword
  rw [readBits_byte data s hs k e he]
  cases hd : data.drop k with
  | nil => rfl
  | cons b bs => exact cwordLoop_eq data s hs e he 7 (by omega) k 0 b bs hd

/-- The same for a loop that has already added the digit of the byte in hand. -/
theorem oidLoop_eq (data : Bytes) (s : InputStream) (hs : stringInputStream data = .ok s)
    (m : Nat) (hm : m ≤ 7) (k value : Nat) (b : UInt8) (bs : Bytes) (hd : data.drop k = b :: bs) :
    oidLoop s (8 * k : Nat) (64 - 8 * m) (value * 128 + b.toNat % 128) b.toNat =
      beResult value (64 - 8 * m) (scan (m + 1) (b :: bs)) := by
  induction m generalizing k value b bs with
  | zero =>
    have hb : b.toNat < 256 := b.toNat_lt
    rw [oidLoop]
    simp only [scan]
    by_cases hlt : b.toNat < 128
    · rw [if_neg (by omega), if_pos hlt]
      simp only [beResult, List.length_singleton, ofDigitsBE, Nat.mod_eq_of_lt hlt]
      simp
    · rw [if_pos (by omega), if_neg hlt, dif_pos (by omega)]
      rfl
  | succ m ih =>
    have hb : b.toNat < 256 := b.toNat_lt
    rw [oidLoop, scan]
    by_cases hlt : b.toNat < 128
    · rw [if_neg (by omega), if_pos hlt]
      simp only [beResult, List.length_singleton, ofDigitsBE, Nat.mod_eq_of_lt hlt]
      simp
    · rw [if_pos (by omega), if_neg hlt, dif_neg (by omega), addr_succ,
        readBits_byte data s hs (k + 1) .big (by simp)]
      have hd2 := drop_succ_of_cons data k b bs hd
      rw [hd2]
      cases bs with
      | nil => rfl
      | cons b2 bs =>
        simp only [and127, shl7]
        rw [show 64 - 8 * (m + 1) + 8 = 64 - 8 * m by omega, ih (by omega) (k + 1) _ b2 bs hd2,
          ← beResult_cons value _ b.toNat (m + 1) (b2 :: bs) (by omega) hb,
          show 64 - 8 * (m + 1) + 8 = 64 - 8 * m by omega]

theorem oidInteger_eq (data : Bytes) (s : InputStream) (hs : stringInputStream data = .ok s) (k : Nat) :
    oidInteger s (8 * k : Nat) = beResult 0 8 (scan 8 (data.drop k)) := by
  unfold oidInteger
  rw [readBits_byte data s hs k .big (by simp)]
  cases hd : data.drop k with
  | nil => rfl
  | cons b bs =>
    have := oidLoop_eq data s hs 7 (by omega) k 0 b bs hd
    simp only [Nat.zero_mul, Nat.zero_add] at this
    simp only [and127]
    exact this

theorem instanceLoop_eq (data : Bytes) (s : InputStream) (hs : stringInputStream data = .ok s)
    (n : Nat) (k size value : Nat) (b : UInt8) (bs : Bytes) (hd : data.drop k = b :: bs)
    (hn : bs.length < n) :
    instanceLoop s n (8 * k : Nat) size (value * 128 + b.toNat % 128) b.toNat =
      beResult value size (scan (n + 1) (b :: bs)) := by
  induction n generalizing k size value b bs with
  | zero => omega
  | succ n ih =>
    have hb : b.toNat < 256 := b.toNat_lt
    rw [instanceLoop, scan]
    simp only [ne_eq, and128 _ hb]
    by_cases hlt : b.toNat < 128
    · rw [if_neg (by omega), if_pos hlt]
      simp only [beResult, List.length_singleton, ofDigitsBE, Nat.mod_eq_of_lt hlt]
      simp
    · rw [if_pos hlt, if_neg hlt, addr_succ, readBits_byte data s hs (k + 1) .big (by simp)]
      have hd2 := drop_succ_of_cons data k b bs hd
      rw [hd2]
      cases bs with
      | nil => rfl
      | cons b2 bs =>
        simp only [and127, shl7]
        rw [ih (k + 1) _ _ b2 bs hd2 (by simp only [List.length_cons] at hn; omega),
          ← beResult_cons value _ b.toNat (n + 1) (b2 :: bs) (by omega) hb]

theorem instanceLength_eq (data : Bytes) (s : InputStream) (hs : stringInputStream data = .ok s)
    (n k : Nat) (hn : data.length ≤ n) :
    instanceLength s n (8 * k : Nat) = beResult 0 8 (scan (n + 1) (data.drop k)) := by
  unfold instanceLength
  rw [readBits_byte data s hs k .big (by simp)]
  cases hd : data.drop k with
  | nil => rfl
  | cons b bs =>
    have hl : (data.drop k).length = bs.length + 1 := by rw [hd]; rfl
    rw [List.length_drop] at hl
    have := instanceLoop_eq data s hs n k 8 0 b bs hd (by omega)
    simp only [Nat.zero_mul, Nat.zero_add] at this
    simp only [and127]
    exact this

/-! ### Least significant digit first -/

/-- What a constructor makes of a scan; `m` is the weight of the first digit. -/
def leResult (value size w : Nat) (long : PyErr) : Scan → Except PyErr (Nat × Nat)
  | .done ds => .ok (value + w * ofDigitsLE 128 ds, size + 8 * ds.length)
  | .long => .error long
  | .eof => .error .readStream

theorem leResult_cons (value size w b m : Nat) (l : PyErr) (bs : Bytes) (h1 : 128 ≤ b) (h2 : b < 256) :
    leResult (value + w * (b % 128)) (size + 8) (w * 128) l (scan m bs) =
      leResult value size w l (match scan m bs with
        | .done ds => .done ((b - 128) :: ds)
        | .long => .long
        | .eof => .eof) := by
  cases hsc : scan m bs with
  | done ds =>
    simp only [leResult, List.length_cons, ofDigitsLE]
    have hb : b % 128 = b - 128 := by omega
    rw [hb]
    simp only [Except.ok.injEq, Prod.mk.injEq]
    exact ⟨by ring, by omega⟩
  | long => rfl
  | eof => rfl

theorem flashLoop_eq (data : Bytes) (s : InputStream) (hs : stringInputStream data = .ok s)
    (n : Nat) (k j value w : Nat) (hn : data.length < n + (k + j)) (hn0 : 0 < n) :
    flashLoop s (8 * k : Nat) n (8 * j) value w =
      leResult value (8 * j) w .endless (scan n (data.drop (k + j))) := by
  induction n generalizing j value w with
  | zero => omega
  | succ n ih =>
    rw [flashLoop, show ((8 * k : Nat) : Int) + (8 * j : Nat) = ((8 * (k + j) : Nat) : Int) by omega,
      readBits_byte data s hs (k + j) .little (by simp)]
    cases hd : data.drop (k + j) with
    | nil => rfl
    | cons b bs =>
      have hb : b.toNat < 256 := b.toNat_lt
      simp only [and127, shl7]
      rw [scan]
      by_cases hlt : b.toNat < 128
      · rw [if_pos hlt, if_pos hlt]
        simp only [leResult, List.length_singleton, ofDigitsLE, Nat.mod_eq_of_lt hlt]
        simp
      · rw [if_neg hlt, if_neg hlt]
        have hl : (data.drop (k + j)).length = bs.length + 1 := by rw [hd]; rfl
        rw [List.length_drop] at hl
        have hd2 := drop_succ_of_cons data (k + j) b bs hd
        rw [← leResult_cons value (8 * j) w b.toNat n .endless bs (by omega) hb,
          show 8 * j + 8 = 8 * (j + 1) by omega, ih (j + 1) _ _ (by omega) (by omega),
          show k + (j + 1) = k + j + 1 by omega, hd2]

theorem or_shift (value d j : Nat) (h : value < 2 ^ j) : value ||| (d <<< j) = value + 2 ^ j * d := by
  rw [Nat.shiftLeft_eq, Nat.or_comm, ← Nat.shiftLeft_eq, ← Nat.shiftLeft_add_eq_or_of_lt h, Nat.shiftLeft_eq]
  ring

theorem uvbeLoop_eq (data : Bytes) (s : InputStream) (hs : stringInputStream data = .ok s)
    (m : Nat) (hm : m ≤ 99) (k value : Nat) (hv : value < 2 ^ ((99 - m) * 7)) :
    uvbeLoop s (8 * k : Nat) (99 - m) value = match scan m (data.drop (k + (99 - m))) with
      | .done ds => .ok (value + 2 ^ ((99 - m) * 7) * ofDigitsLE 128 ds, 99 - m + ds.length)
      | .long => match data.drop (k + 99) with
        | [] => .error .readStream
        | _ => .error .assertion
      | .eof => .error .readStream := by
  induction m generalizing value with
  | zero =>
    rw [uvbeLoop, show ((8 * k : Nat) : Int) + ((99 - 0 : Nat) : Int) * 8 = ((8 * (k + 99) : Nat) : Int) by omega,
      readBytes_byte data s hs (k + 99)]
    simp only [scan]
    cases hd : data.drop (k + 99) with
    | nil => rfl
    | cons b bs =>
      simp only
      rw [dif_pos (by omega)]
  | succ m ih =>
    have hj : ∃ j, 99 - (m + 1) = j ∧ 99 - m = j + 1 := ⟨_, rfl, by omega⟩
    obtain ⟨j, hj, hj2⟩ := hj
    rw [hj] at hv ⊢
    rw [hj2] at ih
    rw [uvbeLoop, show ((8 * k : Nat) : Int) + (j : Int) * 8 = ((8 * (k + j) : Nat) : Int) by omega,
      readBytes_byte data s hs (k + j)]
    cases hd : data.drop (k + j) with
    | nil => rfl
    | cons b bs =>
      have hb : b.toNat < 256 := b.toNat_lt
      simp only [and128 _ hb, and127]
      rw [scan, dif_neg (by omega), or_shift value _ _ hv]
      by_cases hlt : b.toNat < 128
      · rw [if_pos hlt, if_pos hlt]
        simp [ofDigitsLE, Nat.mod_eq_of_lt hlt]
      · rw [if_neg hlt, if_neg hlt]
        have hd2 := drop_succ_of_cons data (k + j) b bs hd
        have hlt' : value + 2 ^ (j * 7) * (b.toNat % 128) < 2 ^ ((j + 1) * 7) := by
          have h1 : 2 ^ ((j + 1) * 7) = 2 ^ (j * 7) * 128 := by rw [Nat.add_mul, Nat.pow_add]
          rw [h1]
          have h2 : b.toNat % 128 ≤ 127 := by omega
          have h3 := Nat.mul_le_mul_left (2 ^ (j * 7)) h2
          omega
        rw [ih (by omega) _ hlt', show k + (j + 1) = k + j + 1 by omega, hd2]
        cases hsc : scan m bs with
        | done ds =>
          simp only [List.length_cons, ofDigitsLE, Except.ok.injEq, Prod.mk.injEq]
          have h5 : b.toNat % 128 = b.toNat - 128 := by omega
          rw [h5, Nat.add_mul, Nat.pow_add, show 2 ^ (1 * 7) = 128 from rfl]
          refine ⟨?_, by omega⟩
          ring
        | long => rfl
        | eof => rfl

theorem ivbeLoop_eq (data : Bytes) (s : InputStream) (hs : stringInputStream data = .ok s)
    (m : Nat) (hm : m ≤ 98) (k value sh : Nat) (hv : value < 2 ^ sh) :
    ivbeLoop s (8 * k : Nat) (99 - m) sh value = match scan m (data.drop (k + (99 - m))) with
      | .done ds => .ok (value + 2 ^ sh * ofDigitsLE 128 ds, 99 - m + ds.length)
      | .long => match data.drop (k + 99) with
        | [] => .error .readStream
        | _ => .error .assertion
      | .eof => .error .readStream := by
  induction m generalizing value sh with
  | zero =>
    rw [ivbeLoop, show ((8 * k : Nat) : Int) + ((99 - 0 : Nat) : Int) * 8 = ((8 * (k + 99) : Nat) : Int) by omega,
      readBytes_byte data s hs (k + 99)]
    simp only [scan]
    cases hd : data.drop (k + 99) with
    | nil => rfl
    | cons b bs =>
      simp only
      rw [dif_pos (by omega)]
  | succ m ih =>
    have hj : ∃ j, 99 - (m + 1) = j ∧ 99 - m = j + 1 := ⟨_, rfl, by omega⟩
    obtain ⟨j, hj, hj2⟩ := hj
    rw [hj]
    rw [hj2] at ih
    rw [ivbeLoop, show ((8 * k : Nat) : Int) + (j : Int) * 8 = ((8 * (k + j) : Nat) : Int) by omega,
      readBytes_byte data s hs (k + j)]
    cases hd : data.drop (k + j) with
    | nil => rfl
    | cons b bs =>
      have hb : b.toNat < 256 := b.toNat_lt
      simp only [and128 _ hb, and127]
      rw [scan, dif_neg (by omega), or_shift value _ _ hv]
      by_cases hlt : b.toNat < 128
      · rw [if_pos hlt, if_pos hlt]
        simp [ofDigitsLE, Nat.mod_eq_of_lt hlt]
      · rw [if_neg hlt, if_neg hlt]
        have hd2 := drop_succ_of_cons data (k + j) b bs hd
        have hlt' : value + 2 ^ sh * (b.toNat % 128) < 2 ^ (sh + 7) := by
          have h1 : 2 ^ (sh + 7) = 2 ^ sh * 128 := by rw [Nat.pow_add]
          rw [h1]
          have h2 : b.toNat % 128 ≤ 127 := by omega
          have h3 := Nat.mul_le_mul_left (2 ^ sh) h2
          omega
        rw [ih (by omega) _ _ hlt', show k + (j + 1) = k + j + 1 by omega, hd2]
        cases hsc : scan m bs with
        | done ds =>
          simp only [List.length_cons, ofDigitsLE, Except.ok.injEq, Prod.mk.injEq]
          have h5 : b.toNat % 128 = b.toNat - 128 := by omega
          rw [h5, Nat.pow_add, show 2 ^ 7 = 128 from rfl]
          refine ⟨?_, by omega⟩
          ring
        | long => rfl
        | eof => rfl

/-- The two halves of a byte in BIG_ENDIAN: `a` bits, then the rest. -/
theorem readBits_high (data : Bytes) (s : InputStream) (hs : stringInputStream data = .ok s)
    (k a b : Nat) (hab : a + b ≤ 8) (hb : 0 < b) (ad : Int) (had : ad = ((8 * k + a : Nat) : Int)) :
    readBits s ad b .big = match data.drop k with
      | [] => .error .readStream
      | x :: _ => .ok (x.toNat / 2 ^ (8 - a - b) % 2 ^ b) := by
  subst had
  rcases Nat.lt_or_ge k data.length with h | h
  · rw [List.drop_eq_getElem_cons h]
    simp only
    rw [_root_.Props.C01_readBits_big data s hs (8 * k + a) b (by omega)]
    have h1 : ((bitsMSB data).drop (8 * k + a)).take b = ((byteMSB data[k]).drop a).take b := by
      rw [← List.drop_drop, ← bitsMSB_drop, List.drop_eq_getElem_cons h, bitsMSB_cons]
      have h8 : (byteMSB data[k]).length = 8 := rfl
      rw [List.drop_append, List.take_append, List.length_drop, h8, show b - (8 - a) = 0 by omega,
        List.take_zero, List.append_nil]
    rw [h1, ofBitsMSB_slice _ a b (by show a + b ≤ 8; exact hab), ofBitsMSB_byteMSB]
    rfl
  · rw [List.drop_eq_nil_of_le h]
    exact _root_.Props.C01_readBits_past_end data s hs (8 * k + a) b hb (by omega) .big (by simp)

theorem gitLoop_eq (data : Bytes) (s : InputStream) (hs : stringInputStream data = .ok s)
    (n : Nat) (k j value sh : Nat) (hv : value < 2 ^ sh) (hn : data.length < n + (k + j)) (hn0 : 0 < n) :
    gitLoop s (8 * k : Nat) n (8 * j) value sh =
      leResult value (8 * j) (2 ^ sh) .endless (scan n (data.drop (k + j))) := by
  induction n generalizing j value sh with
  | zero => omega
  | succ n ih =>
    rw [gitLoop, readBits_high data s hs (k + j) 0 1 (by omega) (by omega) _ (by omega),
      readBits_high data s hs (k + j) 1 7 (by omega) (by omega) _ (by omega)]
    cases hd : data.drop (k + j) with
    | nil => rfl
    | cons b bs =>
      have hb : b.toNat < 256 := b.toNat_lt
      simp only [Nat.sub_zero, Nat.reduceSub, Nat.reducePow, Nat.div_one]
      rw [scan, or_shift value _ _ hv]
      have hdiv : b.toNat / 128 % 2 = 1 ↔ ¬ b.toNat < 128 := by omega
      by_cases hlt : b.toNat < 128
      · rw [if_neg (by omega), if_pos hlt]
        simp only [leResult, List.length_singleton, ofDigitsLE, Nat.mod_eq_of_lt hlt]
        simp
      · rw [if_pos (by omega), if_neg hlt]
        have hl : (data.drop (k + j)).length = bs.length + 1 := by rw [hd]; rfl
        rw [List.length_drop] at hl
        have hd2 := drop_succ_of_cons data (k + j) b bs hd
        have hlt' : value + 2 ^ sh * (b.toNat % 128) < 2 ^ (sh + 7) := by
          have h1 : 2 ^ (sh + 7) = 2 ^ sh * 128 := by rw [Nat.pow_add]
          rw [h1]
          have h2 : b.toNat % 128 ≤ 127 := by omega
          have h3 := Nat.mul_le_mul_left (2 ^ sh) h2
          omega
        rw [← leResult_cons value (8 * j) (2 ^ sh) b.toNat n .endless bs (by omega) hb,
          show 8 * j + 8 = 8 * (j + 1) by omega, ih (j + 1) _ _ hlt' (by omega) (by omega),
          show k + (j + 1) = k + j + 1 by omega, hd2, Nat.pow_add 2 sh 7]

end Hachoir.Formats
