import Verif.Core.Charset
import Verif.Spec.Unicode

/-! Lemmas on the decoders. -/

set_option linter.unusedVariables false

namespace Hachoir.Charset
open Hachoir Hachoir.Spec

theorem byte_toNat (n : Nat) (h : n < 256) : (UInt8.ofNat n).toNat = n := by
  show n % 256 = n
  omega

theorem byte_eq (b : UInt8) (n : Nat) (h : b.toNat = n) : UInt8.ofNat n = b := by
  rw [← h]; exact UInt8.ofNat_toNat

theorem byte_lt (b : UInt8) : b.toNat < 256 := UInt8.toNat_lt b

theorem inRange_iff (lo hi : Nat) (b : UInt8) : inRange lo hi b = true ↔ lo ≤ b.toNat ∧ b.toNat ≤ hi := by
  simp [inRange]

/-! ### UTF-8 -/

theorem utf8Decode_cons (b : UInt8) (rest : Bytes) : utf8Decode (b :: rest) =
    if b.toNat < 0x80 then (utf8Decode rest).map (b.toNat :: ·)
    else if inRange 0xc2 0xdf b then
      match rest with
      | c :: rest =>
        if inRange 0x80 0xbf c then
          (utf8Decode rest).map (((b.toNat - 0xc0) * 64 + (c.toNat - 0x80)) :: ·)
        else none
      | _ => none
    else if inRange 0xe0 0xef b then
      match rest with
      | c :: d :: rest =>
        if second3 b c && inRange 0x80 0xbf d then
          (utf8Decode rest).map
            (((b.toNat - 0xe0) * 4096 + (c.toNat - 0x80) * 64 + (d.toNat - 0x80)) :: ·)
        else none
      | _ => none
    else if inRange 0xf0 0xf4 b then
      match rest with
      | c :: d :: e :: rest =>
        if second4 b c && inRange 0x80 0xbf d && inRange 0x80 0xbf e then
          (utf8Decode rest).map
            (((b.toNat - 0xf0) * 262144 + (c.toNat - 0x80) * 4096 + (d.toNat - 0x80) * 64
              + (e.toNat - 0x80)) :: ·)
        else none
      | _ => none
    else none := by
  rw [utf8Decode.eq_def]; rfl

theorem utf16Decode_cons (big : Bool) (b c : UInt8) (rest : Bytes) : utf16Decode big (b :: c :: rest) =
    (let u := codeUnit big b c
    if u < 0xd800 ∨ 0xdfff < u then
      match utf16Decode big rest with
      | .ok l => .ok (u :: l)
      | .error e => .error e
    else if 0xdc00 ≤ u then .error ⟨false, rest.isEmpty⟩
    else
      match rest with
      | d :: e :: rest =>
        let v := codeUnit big d e
        if 0xdc00 ≤ v ∧ v ≤ 0xdfff then
          match utf16Decode big rest with
          | .ok l => .ok ((0x10000 + (u - 0xd800) * 1024 + (v - 0xdc00)) :: l)
          | .error e => .error e
        else .error ⟨false, false⟩
      | _ => .error ⟨false, true⟩) := by
  rw [utf16Decode.eq_def]; rfl

theorem utf8Decode_char (n : Nat) (h : Scalar n) (rest : Bytes) :
    utf8Decode (utf8Char n ++ rest) = (utf8Decode rest).map (n :: ·) := by
  unfold Scalar at h
  unfold utf8Char
  split
  · rename_i h1
    simp only [List.cons_append, List.nil_append]
    rw [utf8Decode_cons]
    have e := byte_toNat n (by omega)
    rw [if_pos (by omega), e]
  · split
    · rename_i h1 h2
      simp only [List.cons_append, List.nil_append]
      rw [utf8Decode_cons]
      have e1 := byte_toNat (0xc0 + n / 64) (by omega)
      have e2 := byte_toNat (0x80 + n % 64) (by omega)
      rw [if_neg (by omega), if_pos (by rw [inRange_iff]; omega)]
      simp only []
      rw [if_pos (by rw [inRange_iff]; omega), e1, e2]
      have : (192 + n / 64 - 192) * 64 + (128 + n % 64 - 128) = n := by omega
      rw [this]
    · split
      · rename_i h1 h2 h3
        simp only [List.cons_append, List.nil_append]
        rw [utf8Decode_cons]
        have e1 := byte_toNat (0xe0 + n / 4096) (by omega)
        have e2 := byte_toNat (0x80 + n / 64 % 64) (by omega)
        have e3 := byte_toNat (0x80 + n % 64) (by omega)
        rw [if_neg (by omega), if_neg (by rw [inRange_iff]; omega), if_pos (by rw [inRange_iff]; omega)]
        simp only []
        have hs : second3 (UInt8.ofNat (0xe0 + n / 4096)) (UInt8.ofNat (0x80 + n / 64 % 64)) = true := by
          unfold second3
          rw [inRange_iff, e1, e2]
          split <;> split <;> omega
        have ht : inRange 0x80 0xbf (UInt8.ofNat (0x80 + n % 64)) = true := by
          rw [inRange_iff]; omega
        rw [hs, ht, e1, e2, e3]
        have : (224 + n / 4096 - 224) * 4096 + (128 + n / 64 % 64 - 128) * 64 + (128 + n % 64 - 128) = n := by
          omega
        simp only [this, Bool.and_self, if_true]
      · rename_i h1 h2 h3
        simp only [List.cons_append, List.nil_append]
        rw [utf8Decode_cons]
        have e1 := byte_toNat (0xf0 + n / 262144) (by omega)
        have e2 := byte_toNat (0x80 + n / 4096 % 64) (by omega)
        have e3 := byte_toNat (0x80 + n / 64 % 64) (by omega)
        have e4 := byte_toNat (0x80 + n % 64) (by omega)
        rw [if_neg (by omega), if_neg (by rw [inRange_iff]; omega), if_neg (by rw [inRange_iff]; omega),
          if_pos (by rw [inRange_iff]; omega)]
        simp only []
        have hs : second4 (UInt8.ofNat (0xf0 + n / 262144)) (UInt8.ofNat (0x80 + n / 4096 % 64)) = true := by
          unfold second4
          rw [inRange_iff, e1, e2]
          split <;> split <;> omega
        have ht : inRange 0x80 0xbf (UInt8.ofNat (0x80 + n / 64 % 64)) = true := by
          rw [inRange_iff]; omega
        have hu : inRange 0x80 0xbf (UInt8.ofNat (0x80 + n % 64)) = true := by
          rw [inRange_iff]; omega
        rw [hs, ht, hu, e1, e2, e3, e4]
        have : (240 + n / 262144 - 240) * 262144 + (128 + n / 4096 % 64 - 128) * 4096
            + (128 + n / 64 % 64 - 128) * 64 + (128 + n % 64 - 128) = n := by
          omega
        simp only [this, Bool.and_self, if_true]

theorem utf8Decode_utf8 (text : List Nat) (h : ∀ n ∈ text, Scalar n) : utf8Decode (utf8 text) = some text := by
  induction text with
  | nil => rfl
  | cons n text ih =>
    show utf8Decode (utf8Char n ++ utf8 text) = _
    rw [utf8Decode_char n (h n (by simp)), ih (fun m hm => h m (by simp [hm]))]
    rfl

theorem utf8Char_one (b : UInt8) (h : b.toNat < 0x80) : utf8Char b.toNat = [b] ∧ Scalar b.toNat := by
  unfold utf8Char Scalar
  rw [if_pos h, byte_eq b _ rfl]
  exact ⟨rfl, by omega⟩

theorem utf8Char_two (b c : UInt8) (hb : inRange 0xc2 0xdf b = true) (hc : inRange 0x80 0xbf c = true) :
    utf8Char ((b.toNat - 0xc0) * 64 + (c.toNat - 0x80)) = [b, c] ∧
    Scalar ((b.toNat - 0xc0) * 64 + (c.toNat - 0x80)) := by
  rw [inRange_iff] at hb hc
  unfold utf8Char Scalar
  rw [if_neg (by omega), if_pos (by omega), byte_eq b _ (by omega), byte_eq c _ (by omega)]
  exact ⟨rfl, by omega⟩

theorem second3_iff (b c : UInt8) (hb : 0xe0 ≤ b.toNat ∧ b.toNat ≤ 0xef) (h : second3 b c = true) :
    0x80 ≤ c.toNat ∧ c.toNat ≤ 0xbf ∧ (b.toNat = 0xe0 → 0xa0 ≤ c.toNat) ∧ (b.toNat = 0xed → c.toNat ≤ 0x9f) := by
  unfold second3 at h
  rw [inRange_iff] at h
  split at h <;> split at h <;> omega

theorem second4_iff (b c : UInt8) (hb : 0xf0 ≤ b.toNat ∧ b.toNat ≤ 0xf4) (h : second4 b c = true) :
    0x80 ≤ c.toNat ∧ c.toNat ≤ 0xbf ∧ (b.toNat = 0xf0 → 0x90 ≤ c.toNat) ∧ (b.toNat = 0xf4 → c.toNat ≤ 0x8f) := by
  unfold second4 at h
  rw [inRange_iff] at h
  split at h <;> split at h <;> omega

theorem utf8Char_three (b c d : UInt8) (hb : inRange 0xe0 0xef b = true) (hc : second3 b c = true)
    (hd : inRange 0x80 0xbf d = true) :
    utf8Char ((b.toNat - 0xe0) * 4096 + (c.toNat - 0x80) * 64 + (d.toNat - 0x80)) = [b, c, d] ∧
    Scalar ((b.toNat - 0xe0) * 4096 + (c.toNat - 0x80) * 64 + (d.toNat - 0x80)) := by
  rw [inRange_iff] at hb hd
  obtain ⟨c1, c2, c3, c4⟩ := second3_iff b c hb hc
  unfold utf8Char Scalar
  by_cases h0 : b.toNat = 0xe0
  · have := c3 h0
    rw [if_neg (by omega), if_neg (by omega), if_pos (by omega), byte_eq b _ (by omega), byte_eq c _ (by omega),
      byte_eq d _ (by omega)]
    exact ⟨rfl, by omega⟩
  · by_cases h1 : b.toNat = 0xed
    · have := c4 h1
      rw [if_neg (by omega), if_neg (by omega), if_pos (by omega), byte_eq b _ (by omega), byte_eq c _ (by omega),
        byte_eq d _ (by omega)]
      exact ⟨rfl, by omega⟩
    · rw [if_neg (by omega), if_neg (by omega), if_pos (by omega), byte_eq b _ (by omega), byte_eq c _ (by omega),
        byte_eq d _ (by omega)]
      exact ⟨rfl, by omega⟩

theorem utf8Char_four (b c d e : UInt8) (hb : inRange 0xf0 0xf4 b = true) (hc : second4 b c = true)
    (hd : inRange 0x80 0xbf d = true) (he : inRange 0x80 0xbf e = true) :
    utf8Char ((b.toNat - 0xf0) * 262144 + (c.toNat - 0x80) * 4096 + (d.toNat - 0x80) * 64 + (e.toNat - 0x80))
      = [b, c, d, e] ∧
    Scalar ((b.toNat - 0xf0) * 262144 + (c.toNat - 0x80) * 4096 + (d.toNat - 0x80) * 64 + (e.toNat - 0x80)) := by
  rw [inRange_iff] at hb hd he
  obtain ⟨c1, c2, c3, c4⟩ := second4_iff b c hb hc
  unfold utf8Char Scalar
  have hlo : 0x10000 ≤ (b.toNat - 0xf0) * 262144 + (c.toNat - 0x80) * 4096 + (d.toNat - 0x80) * 64
      + (e.toNat - 0x80) := by
    by_cases h0 : b.toNat = 0xf0
    · have := c3 h0; omega
    · omega
  have hhi : (b.toNat - 0xf0) * 262144 + (c.toNat - 0x80) * 4096 + (d.toNat - 0x80) * 64
      + (e.toNat - 0x80) < 0x110000 := by
    by_cases h0 : b.toNat = 0xf4
    · have := c4 h0; omega
    · omega
  rw [if_neg (by omega), if_neg (by omega), if_neg (by omega), byte_eq b _ (by omega), byte_eq c _ (by omega),
    byte_eq d _ (by omega), byte_eq e _ (by omega)]
  exact ⟨rfl, by omega⟩

/-- What is decoded is the text of which the bytes are the encoding. -/
theorem utf8Decode_sound (data : Bytes) : ∀ text, utf8Decode data = some text →
    (∀ n ∈ text, Scalar n) ∧ utf8 text = data := by
  have step : ∀ (n : Nat) (l : List UInt8) (rest : Bytes),
      (utf8Char n = l ∧ Scalar n) →
      (∀ text, utf8Decode rest = some text → (∀ n ∈ text, Scalar n) ∧ utf8 text = rest) →
      ∀ text, (utf8Decode rest).map (n :: ·) = some text →
        (∀ n ∈ text, Scalar n) ∧ utf8 text = l ++ rest := by
    intro n l rest hn ih text h
    cases hr : utf8Decode rest with
    | none => rw [hr] at h; cases h
    | some t =>
      rw [hr] at h
      simp only [Option.map_some, Option.some.injEq] at h
      subst h
      obtain ⟨i1, i2⟩ := ih t hr
      refine ⟨?_, ?_⟩
      · intro m hm
        rcases List.mem_cons.1 hm with rfl | hm
        · exact hn.2
        · exact i1 m hm
      · show utf8Char n ++ utf8 t = _
        rw [hn.1, i2]
  induction hk : data.length using Nat.strongRecOn generalizing data with
  | _ k ih =>
    intro text h
    cases data with
    | nil =>
      rw [utf8Decode] at h
      cases h
      exact ⟨by simp, rfl⟩
    | cons b rest =>
      simp only [List.length_cons] at hk
      rw [utf8Decode_cons] at h
      split at h
      · rename_i hb
        exact step _ [b] rest (utf8Char_one b hb) (ih rest.length (by omega) rest rfl) text h
      · split at h
        · rename_i hb
          cases rest with
          | nil => cases h
          | cons c rest =>
            simp only [List.length_cons] at hk
            simp only [] at h
            split at h
            · rename_i hc
              exact step _ [b, c] rest (utf8Char_two b c hb hc) (ih rest.length (by omega) rest rfl) text h
            · cases h
        · split at h
          · rename_i hb
            match rest, hk, h with
            | [], hk, h => cases h
            | [_], hk, h => cases h
            | c :: d :: rest, hk, h =>
              simp only [List.length_cons] at hk
              simp only [] at h
              split at h
              · rename_i hc
                rw [Bool.and_eq_true] at hc
                exact step _ [b, c, d] rest (utf8Char_three b c d hb hc.1 hc.2)
                  (ih rest.length (by omega) rest rfl) text h
              · cases h
          · split at h
            · rename_i hb
              match rest, hk, h with
              | [], hk, h => cases h
              | [_], hk, h => cases h
              | [_, _], hk, h => cases h
              | c :: d :: e :: rest, hk, h =>
                simp only [List.length_cons] at hk
                simp only [] at h
                split at h
                · rename_i hc
                  rw [Bool.and_eq_true, Bool.and_eq_true] at hc
                  exact step _ [b, c, d, e] rest (utf8Char_four b c d e hb hc.1.1 hc.1.2 hc.2)
                    (ih rest.length (by omega) rest rfl) text h
                · cases h
            · cases h

/-! ### UTF-16 -/

theorem codeUnit_unit16 (big : Bool) (n : Nat) (h : n < 65536) :
    ∃ b c, unit16 big n = [b, c] ∧ codeUnit big b c = n := by
  have e1 := byte_toNat (n / 256) (by omega)
  have e2 := byte_toNat (n % 256) (by omega)
  cases big with
  | true =>
    refine ⟨_, _, rfl, ?_⟩
    show (UInt8.ofNat (n / 256)).toNat * 256 + (UInt8.ofNat (n % 256)).toNat = n
    rw [e1, e2]; omega
  | false =>
    refine ⟨_, _, rfl, ?_⟩
    show (UInt8.ofNat (n / 256)).toNat * 256 + (UInt8.ofNat (n % 256)).toNat = n
    rw [e1, e2]; omega

theorem utf16Decode_char (big : Bool) (n : Nat) (h : Scalar n) (rest : Bytes) (text : List Nat)
    (hr : utf16Decode big rest = .ok text) :
    utf16Decode big (utf16Char big n ++ rest) = .ok (n :: text) := by
  unfold Scalar at h
  unfold utf16Char
  split
  · obtain ⟨b, c, e1, e2⟩ := codeUnit_unit16 big n (by omega)
    rw [e1]
    simp only [List.cons_append, List.nil_append]
    rw [utf16Decode_cons]
    simp only [e2]
    rw [if_pos (by omega), hr]
  · obtain ⟨b, c, e1, e2⟩ := codeUnit_unit16 big (0xd800 + (n - 0x10000) / 1024) (by omega)
    obtain ⟨d, e, e3, e4⟩ := codeUnit_unit16 big (0xdc00 + (n - 0x10000) % 1024) (by omega)
    rw [e1, e3]
    simp only [List.cons_append, List.nil_append]
    rw [utf16Decode_cons]
    simp only [e2]
    rw [if_neg (by omega), if_neg (by omega)]
    simp only [e4]
    rw [if_pos (by omega), hr]
    have : 0x10000 + (0xd800 + (n - 0x10000) / 1024 - 0xd800) * 1024 + (0xdc00 + (n - 0x10000) % 1024 - 0xdc00)
        = n := by omega
    simp only [this]

theorem utf16Decode_utf16 (big : Bool) (text : List Nat) (h : ∀ n ∈ text, Scalar n) :
    utf16Decode big (utf16 big text) = .ok text := by
  induction text with
  | nil => rfl
  | cons n text ih =>
    exact utf16Decode_char big n (h n (by simp)) _ _ (ih fun m hm => h m (by simp [hm]))

/-- Whole characters, then a single byte. -/
theorem utf16Decode_odd (big : Bool) (text : List Nat) (h : ∀ n ∈ text, Scalar n) (b : UInt8) :
    utf16Decode big (utf16 big text ++ [b]) = .error ⟨true, true⟩ := by
  induction text with
  | nil => rfl
  | cons n text ih =>
    have ih := ih fun m hm => h m (by simp [hm])
    have hn := h n (by simp)
    unfold Scalar at hn
    show utf16Decode big (utf16Char big n ++ utf16 big text ++ [b]) = _
    rw [List.append_assoc]
    obtain ⟨rest, hrest⟩ : ∃ rest, utf16 big text ++ [b] = rest := ⟨_, rfl⟩
    rw [hrest] at ih ⊢
    unfold utf16Char
    split
    · obtain ⟨b, c, e1, e2⟩ := codeUnit_unit16 big n (by omega)
      rw [e1]
      simp only [List.cons_append, List.nil_append]
      rw [utf16Decode_cons]
      simp only [e2]
      rw [if_pos (by omega), ih]
    · obtain ⟨b, c, e1, e2⟩ := codeUnit_unit16 big (0xd800 + (n - 0x10000) / 1024) (by omega)
      obtain ⟨d, e, e3, e4⟩ := codeUnit_unit16 big (0xdc00 + (n - 0x10000) % 1024) (by omega)
      rw [e1, e3]
      simp only [List.cons_append, List.nil_append]
      rw [utf16Decode_cons]
      simp only [e2]
      rw [if_neg (by omega), if_neg (by omega)]
      simp only [e4]
      rw [if_pos (by omega), ih]

theorem codeUnit_lt (big : Bool) (b c : UInt8) : codeUnit big b c < 65536 := by
  have := byte_lt b
  have := byte_lt c
  unfold codeUnit
  split <;> omega

theorem unit16_codeUnit (big : Bool) (b c : UInt8) : unit16 big (codeUnit big b c) = [b, c] := by
  have hb := byte_lt b
  have hc := byte_lt c
  cases big with
  | true =>
    have e : codeUnit true b c = b.toNat * 256 + c.toNat := rfl
    have e1 : codeUnit true b c / 256 = b.toNat := by omega
    have e2 : codeUnit true b c % 256 = c.toNat := by omega
    show [UInt8.ofNat (codeUnit true b c / 256), UInt8.ofNat (codeUnit true b c % 256)] = [b, c]
    rw [e1, e2, byte_eq b _ rfl, byte_eq c _ rfl]
  | false =>
    have e : codeUnit false b c = c.toNat * 256 + b.toNat := rfl
    have e1 : codeUnit false b c / 256 = c.toNat := by omega
    have e2 : codeUnit false b c % 256 = b.toNat := by omega
    show [UInt8.ofNat (codeUnit false b c % 256), UInt8.ofNat (codeUnit false b c / 256)] = [b, c]
    rw [e1, e2, byte_eq b _ rfl, byte_eq c _ rfl]

/-- What is decoded was encoded. -/
theorem utf16Decode_sound (big : Bool) (data : Bytes) : ∀ text, utf16Decode big data = .ok text →
    (∀ n ∈ text, Scalar n) ∧ utf16 big text = data := by
  induction hk : data.length using Nat.strongRecOn generalizing data with
  | _ k ih =>
    intro text h
    match data, hk with
    | [], hk => rw [utf16Decode] at h; cases h; exact ⟨by simp, rfl⟩
    | [b], hk => rw [utf16Decode] at h; cases h
    | b :: c :: rest, hk =>
      simp only [List.length_cons] at hk
      rw [utf16Decode_cons] at h
      have hlt := codeUnit_lt big b c
      have hun := unit16_codeUnit big b c
      obtain ⟨u, hu⟩ : ∃ u, codeUnit big b c = u := ⟨_, rfl⟩
      rw [hu] at hlt hun
      simp only [hu] at h
      by_cases h1 : u < 0xd800 ∨ 0xdfff < u
      · rw [if_pos h1] at h
        cases hr : utf16Decode big rest with
        | error e => rw [hr] at h; cases h
        | ok l =>
          rw [hr] at h
          cases h
          obtain ⟨i1, i2⟩ := ih rest.length (by omega) rest rfl l hr
          refine ⟨?_, ?_⟩
          · intro n hn
            rcases List.mem_cons.1 hn with rfl | hn
            · unfold Scalar; omega
            · exact i1 n hn
          · show utf16Char big u ++ utf16 big l = _
            rw [i2, utf16Char, if_pos (by omega), hun]
            rfl
      · rw [if_neg h1] at h
        by_cases h2 : 0xdc00 ≤ u
        · rw [if_pos h2] at h; cases h
        · rw [if_neg h2] at h
          match rest, hk, h with
          | [], hk, h => cases h
          | [_], hk, h => cases h
          | d :: e :: rest, hk, h =>
            simp only [List.length_cons] at hk
            have hvt := codeUnit_lt big d e
            have hvn := unit16_codeUnit big d e
            obtain ⟨v, hv⟩ : ∃ v, codeUnit big d e = v := ⟨_, rfl⟩
            rw [hv] at hvt hvn
            simp only [hv] at h
            by_cases h3 : 0xdc00 ≤ v ∧ v ≤ 0xdfff
            · rw [if_pos h3] at h
              cases hr : utf16Decode big rest with
              | error e => rw [hr] at h; cases h
              | ok l =>
                rw [hr] at h
                cases h
                obtain ⟨i1, i2⟩ := ih rest.length (by omega) rest rfl l hr
                refine ⟨?_, ?_⟩
                · intro n hn
                  rcases List.mem_cons.1 hn with hn | hn
                  · rw [hn]; unfold Scalar; omega
                  · exact i1 n hn
                · show utf16Char big (0x10000 + (u - 0xd800) * 1024 + (v - 0xdc00)) ++ utf16 big l = _
                  have e1 : 0xd800 + (0x10000 + (u - 0xd800) * 1024 + (v - 0xdc00) - 0x10000) / 1024 = u := by omega
                  have e2 : 0xdc00 + (0x10000 + (u - 0xd800) * 1024 + (v - 0xdc00) - 0x10000) % 1024 = v := by omega
                  rw [i2, utf16Char, if_neg (by omega), e1, e2, hun, hvn]
                  rfl
            · rw [if_neg h3] at h; cases h

/-! ### 8 bit charsets -/

theorem asciiDecode_iff (data : Bytes) :
    asciiDecode data = if ∀ b ∈ data, b.toNat < 128 then some (data.map UInt8.toNat) else none := by
  induction data with
  | nil => rfl
  | cons b rest ih =>
    rw [asciiDecode, ih]
    by_cases hb : b.toNat < 128
    · rw [if_pos hb]
      by_cases hr : ∀ b ∈ rest, b.toNat < 128
      · have hall : ∀ x ∈ b :: rest, x.toNat < 128 := by
          intro x hx
          rcases List.mem_cons.1 hx with rfl | hx
          · exact hb
          · exact hr x hx
        rw [if_pos hr, if_pos hall]
        rfl
      · rw [if_neg hr, if_neg (fun h => hr fun x hx => h x (by simp [hx]))]
        rfl
    · rw [if_neg hb, if_neg (fun h => hb (h b (by simp)))]

theorem tableDecode_ok (table : List Nat) (data : Bytes)
    (h : ∀ b ∈ data, 128 ≤ b.toNat → table.getD (b.toNat - 128) 0 ≠ 0) :
    tableDecode table data =
      some (data.map fun b => if b.toNat < 128 then b.toNat else table.getD (b.toNat - 128) 0) := by
  induction data with
  | nil => rfl
  | cons b rest ih =>
    rw [tableDecode, ih (fun x hx => h x (by simp [hx]))]
    rw [if_pos]
    · rfl
    · by_cases hb : b.toNat < 128
      · exact .inl hb
      · right
        rw [if_neg hb]
        exact h b (by simp) (by omega)

theorem tableDecode_none (table : List Nat) (data : Bytes) (b : UInt8) (hb : b ∈ data) (h128 : 128 ≤ b.toNat)
    (h : table.getD (b.toNat - 128) 0 = 0) : tableDecode table data = none := by
  induction data with
  | nil => cases hb
  | cons c rest ih =>
    rw [tableDecode]
    rcases List.mem_cons.1 hb with rfl | hb
    · rw [if_neg (by omega : ¬ b.toNat < 128), h, if_neg (by omega)]
    · rw [ih hb]
      simp

end Hachoir.Charset
