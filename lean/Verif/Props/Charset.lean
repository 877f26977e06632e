import Verif.Core.CharsetLemmas
import Mathlib.Data.List.Forall2

/-!
# C69: guessing the charset of bytes; C70: converting bytes to text
-/

set_option linter.unusedVariables false

namespace Hachoir.Props
open Hachoir Hachoir.Charset Hachoir.Spec

/-- Bytes below 128 only. -/
def AsciiOnly (data : Bytes) : Prop := ∀ b ∈ data, b.toNat < 128

/-- The bytes are a text in UTF-8. -/
def IsUtf8 (data : Bytes) : Prop := ∃ text : List Nat, (∀ n ∈ text, Scalar n) ∧ utf8 text = data

/-- Every byte is below 128 or one of the given ones. -/
def OnlyBytes (bytes : List Nat) (data : Bytes) : Prop := ∀ b ∈ data, b.toNat < 128 ∨ b.toNat ∈ bytes

/-- The bytes begin with a byte order mark. -/
def HasMark (data : Bytes) : Prop :=
  [0xef, 0xbb, 0xbf] <+: data ∨ [0xff, 0xfe] <+: data ∨ [0xfe, 0xff] <+: data

/-- © ® é ê è à ç in ISO-8859-1. -/
def latin1Bytes : List Nat := [0xa9, 0xae, 0xe9, 0xea, 0xe8, 0xe0, 0xe7]
/-- The same and € in ISO-8859-15. -/
def latin15Bytes : List Nat := [0xa9, 0xae, 0xe9, 0xea, 0xe8, 0xe0, 0xe7, 0xa4]
/-- © ® in MacRoman. -/
def macRomanBytes : List Nat := [0xa9, 0xa8]
/-- ε δ η ι θ κ μ ο Ρ σ ς υ Έ ί in ISO-8859-7. -/
def greekBytes : List Nat := [0xe5, 0xe4, 0xe7, 0xe9, 0xe8, 0xea, 0xec, 0xef, 0xd1, 0xf3, 0xf2, 0xf5, 0xb8, 0xdf]

/-! ### Helper lemmas -/

theorem isUtf8_iff (data : Bytes) : IsUtf8 data ↔ (utf8Decode data).isSome = true := by
  constructor
  · rintro ⟨text, h, rfl⟩
    rw [utf8Decode_utf8 text h]; rfl
  · intro h
    obtain ⟨text, ht⟩ := Option.isSome_iff_exists.1 h
    exact ⟨text, utf8Decode_sound data text ht⟩

theorem asciiOnly_iff (data : Bytes) : AsciiOnly data ↔ (asciiDecode data).isSome = true := by
  rw [asciiDecode_iff]
  unfold AsciiOnly
  split
  · rename_i h; exact ⟨fun _ => rfl, fun _ => h⟩
  · rename_i h; exact ⟨fun h' => absurd h' h, fun h' => by cases h'⟩

theorem asciiOnly_utf8 (data : Bytes) (h : AsciiOnly data) : IsUtf8 data := by
  refine ⟨data.map UInt8.toNat, ?_, ?_⟩
  · intro n hn
    obtain ⟨b, hb, rfl⟩ := List.mem_map.1 hn
    exact (utf8Char_one b (h b hb)).2
  · induction data with
    | nil => rfl
    | cons b rest ih =>
      show utf8Char b.toNat ++ utf8 (rest.map UInt8.toNat) = _
      rw [ih (fun x hx => h x (by simp [hx])), (utf8Char_one b (h b (by simp))).1]
      rfl

/-- No text in UTF-8 begins with FE or FF. -/
theorem not_utf8_mark16 (b : UInt8) (rest : Bytes) (h : b = 0xff ∨ b = 0xfe) : ¬ IsUtf8 (b :: rest) := by
  rw [isUtf8_iff, utf8Decode_cons]
  rcases h with rfl | rfl
  · rw [if_neg (by decide), if_neg (by decide), if_neg (by decide), if_neg (by decide)]; simp
  · rw [if_neg (by decide), if_neg (by decide), if_neg (by decide), if_neg (by decide)]; simp

theorem onlyBytes_iff (bytes : List Nat) (set : Bytes) (hs : ∀ b : UInt8, set.contains b = true ↔ b.toNat ∈ bytes)
    (data : Bytes) :
    ((data.filter fun b => decide (128 ≤ b.toNat)).all fun b => set.contains b) = true ↔ OnlyBytes bytes data := by
  rw [List.all_eq_true]
  constructor
  · intro h b hb
    by_cases hlt : b.toNat < 128
    · exact .inl hlt
    · right
      exact (hs b).1 (h b (List.mem_filter.2 ⟨hb, decide_eq_true (by omega)⟩))
  · intro h b hb
    obtain ⟨hb, h128⟩ := List.mem_filter.1 hb
    have h128 := of_decide_eq_true h128
    rcases h b hb with h | h
    · omega
    · exact (hs b).2 h

theorem byte_forall (P : Nat → Prop) (h : ∀ n, n < 256 → P n) (b : UInt8) : P b.toNat := h _ (byte_lt b)

theorem contains_iff (set : Bytes) (b : UInt8) : set.contains b = true ↔ b.toNat ∈ set.map UInt8.toNat := by
  rw [List.contains_iff_mem, List.mem_map]
  constructor
  · intro h; exact ⟨b, h, rfl⟩
  · rintro ⟨c, hc, he⟩
    have : c = b := UInt8.toNat_inj.1 he
    rw [← this]; exact hc

/-- The guess, in terms of the predicates above. -/
theorem guess_table (data : Bytes) (default : Option Name) : guessBytesCharset data default =
    open Classical in
    if [0xef, 0xbb, 0xbf] <+: data then some .utf8
    else if [0xff, 0xfe] <+: data then some .utf16le
    else if [0xfe, 0xff] <+: data then some .utf16be
    else if AsciiOnly data then some .ascii
    else if IsUtf8 data then some .utf8
    else if OnlyBytes latin1Bytes data then some .latin1
    else if OnlyBytes latin15Bytes data then some .latin15
    else if OnlyBytes macRomanBytes data then some .macRoman
    else if OnlyBytes greekBytes data then some .greek
    else default := by
  classical
  unfold guessBytesCharset utfBoms charsetCharacters
  simp only [List.find?_cons, List.find?_nil]
  have p : ∀ m : Bytes, m.isPrefixOf data = decide (m <+: data) := by
    intro m
    rw [Bool.eq_iff_iff, List.isPrefixOf_iff_prefix, decide_eq_true_iff]
  rw [p, p, p]
  by_cases h1 : [0xef, 0xbb, 0xbf] <+: data
  · simp only [h1, decide_true, if_true]
  by_cases h2 : [0xff, 0xfe] <+: data
  · simp only [h1, h2, decide_true, decide_false, if_true, if_false]
  by_cases h3 : [0xfe, 0xff] <+: data
  · simp only [h1, h2, h3, decide_true, decide_false, if_true, if_false]
  simp only [h1, h2, h3, decide_false, if_false]
  by_cases h4 : AsciiOnly data
  · rw [if_pos h4, if_pos ((asciiOnly_iff data).1 h4)]
  rw [if_neg h4, if_neg (fun h => h4 ((asciiOnly_iff data).2 h))]
  by_cases h5 : IsUtf8 data
  · rw [if_pos h5, if_pos ((isUtf8_iff data).1 h5)]
  rw [if_neg h5, if_neg (fun h => h5 ((isUtf8_iff data).2 h))]
  have q : ∀ (bytes : List Nat) (set : Bytes), bytes = set.map UInt8.toNat →
      ((data.filter fun b => decide (128 ≤ b.toNat)).all fun b => set.contains b) = decide (OnlyBytes bytes data) := by
    intro bytes set hs
    rw [Bool.eq_iff_iff, decide_eq_true_iff]
    subst hs
    exact onlyBytes_iff _ set (contains_iff set) data
  rw [q latin1Bytes _ (by decide), q latin15Bytes _ (by decide), q macRomanBytes _ (by decide),
    q greekBytes _ (by decide)]
  by_cases h6 : OnlyBytes latin1Bytes data
  · simp only [h6, decide_true, if_true]
  by_cases h7 : OnlyBytes latin15Bytes data
  · simp only [h6, h7, decide_true, decide_false, if_true, if_false]
  by_cases h8 : OnlyBytes macRomanBytes data
  · simp only [h6, h7, h8, decide_true, decide_false, if_true, if_false]
  by_cases h9 : OnlyBytes greekBytes data
  · simp only [h6, h7, h8, h9, decide_true, decide_false, if_true, if_false]
  simp only [h6, h7, h8, h9, decide_false, if_false]

theorem mark_not_ascii (b : UInt8) (m data : Bytes) (h : (b :: m) <+: data) (hb : 128 ≤ b.toNat) :
    ¬ AsciiOnly data := by
  obtain ⟨rest, rfl⟩ := h
  intro h
  have := h b (by simp)
  omega

theorem mark8_first (data : Bytes) (h : [0xef, 0xbb, 0xbf] <+: data) :
    ¬ [0xff, 0xfe] <+: data ∧ ¬ [0xfe, 0xff] <+: data := by
  obtain ⟨rest, rfl⟩ := h
  constructor
  · rintro ⟨t, ht⟩; simp at ht
  · rintro ⟨t, ht⟩; simp at ht

theorem mark16_utf8 (data : Bytes) (h : [0xff, 0xfe] <+: data ∨ [0xfe, 0xff] <+: data) : ¬ IsUtf8 data := by
  rcases h with ⟨rest, rfl⟩ | ⟨rest, rfl⟩
  · exact not_utf8_mark16 0xff (0xfe :: rest) (.inl rfl)
  · exact not_utf8_mark16 0xfe (0xff :: rest) (.inr rfl)

/-! ### C69 -/

/-- C69.  ASCII is guessed exactly for bytes below 128. -/
theorem C69_ascii (data : Bytes) : guessBytesCharset data none = some .ascii ↔ AsciiOnly data := by
  rw [guess_table]
  constructor
  · intro h
    repeat' split at h
    all_goals first | assumption | cases h
  · intro h
    have n1 : ¬ [0xef, 0xbb, 0xbf] <+: data := fun hm => mark_not_ascii _ _ _ hm (by decide) h
    have n2 : ¬ [0xff, 0xfe] <+: data := fun hm => mark_not_ascii _ _ _ hm (by decide) h
    have n3 : ¬ [0xfe, 0xff] <+: data := fun hm => mark_not_ascii _ _ _ hm (by decide) h
    rw [if_neg n1, if_neg n2, if_neg n3, if_pos h]

/-- C69.  UTF-8 is guessed exactly for the texts in UTF-8 that are not plain ASCII, and for
bytes that begin with the mark of UTF-8. -/
theorem C69_utf8 (data : Bytes) : guessBytesCharset data none = some .utf8 ↔
    [0xef, 0xbb, 0xbf] <+: data ∨ (IsUtf8 data ∧ ¬ AsciiOnly data) := by
  rw [guess_table]
  constructor
  · intro h
    repeat' split at h
    all_goals first | exact .inl ‹_› | exact .inr ⟨‹_›, ‹_›⟩ | cases h
  · rintro (h | ⟨h, ha⟩)
    · rw [if_pos h]
    · by_cases h1 : [0xef, 0xbb, 0xbf] <+: data
      · rw [if_pos h1]
      · rw [if_neg h1, if_neg (fun hm => mark16_utf8 data (.inl hm) h), if_neg (fun hm => mark16_utf8 data (.inr hm) h),
          if_neg ha, if_pos h]

/-- C69.  UTF-16 is guessed exactly for bytes that begin with its mark, in the order of the
bytes of the mark. -/
theorem C69_utf16 (data : Bytes) :
    (guessBytesCharset data none = some .utf16le ↔ [0xff, 0xfe] <+: data) ∧
    (guessBytesCharset data none = some .utf16be ↔ [0xfe, 0xff] <+: data) := by
  rw [guess_table]
  constructor
  · constructor
    · intro h
      repeat' split at h
      all_goals first | assumption | cases h
    · intro h
      rw [if_neg (fun hm => (mark8_first data hm).1 h), if_pos h]
  · constructor
    · intro h
      repeat' split at h
      all_goals first | assumption | cases h
    · intro h
      rw [if_neg (fun hm => (mark8_first data hm).2 h), if_neg, if_pos h]
      obtain ⟨rest, rfl⟩ := h
      rintro ⟨t, ht⟩
      simp at ht

/-- C69.  Bytes without mark that are not UTF-8: the first of the four sets that has all the
bytes from 128 on decides, in the order ISO-8859-1, ISO-8859-15, MacRoman, ISO-8859-7; without
such a set the default is returned. -/
theorem C69_sets (data : Bytes) (hm : ¬ HasMark data) (hu : ¬ IsUtf8 data) (default : Option Name) :
    (OnlyBytes latin1Bytes data → guessBytesCharset data default = some .latin1) ∧
    (¬ OnlyBytes latin1Bytes data → OnlyBytes latin15Bytes data →
      guessBytesCharset data default = some .latin15) ∧
    (¬ OnlyBytes latin1Bytes data → ¬ OnlyBytes latin15Bytes data → OnlyBytes macRomanBytes data →
      guessBytesCharset data default = some .macRoman) ∧
    (¬ OnlyBytes latin1Bytes data → ¬ OnlyBytes latin15Bytes data → ¬ OnlyBytes macRomanBytes data →
      OnlyBytes greekBytes data → guessBytesCharset data default = some .greek) ∧
    (¬ OnlyBytes latin1Bytes data → ¬ OnlyBytes latin15Bytes data → ¬ OnlyBytes macRomanBytes data →
      ¬ OnlyBytes greekBytes data → guessBytesCharset data default = default) := by
  have n1 : ¬ [0xef, 0xbb, 0xbf] <+: data := fun h => hm (.inl h)
  have n2 : ¬ [0xff, 0xfe] <+: data := fun h => hm (.inr (.inl h))
  have n3 : ¬ [0xfe, 0xff] <+: data := fun h => hm (.inr (.inr h))
  have n4 : ¬ AsciiOnly data := fun h => hu (asciiOnly_utf8 data h)
  rw [guess_table, if_neg n1, if_neg n2, if_neg n3, if_neg n4, if_neg hu]
  refine ⟨fun h => by rw [if_pos h], fun h h' => by rw [if_neg h, if_pos h'],
    fun h h' h'' => by rw [if_neg h, if_neg h', if_pos h''],
    fun h h' h'' h3 => by rw [if_neg h, if_neg h', if_neg h'', if_pos h3],
    fun h h' h'' h3 => by rw [if_neg h, if_neg h', if_neg h'', if_neg h3]⟩

/-- "éléphant" in ISO-8859-1, "100 €" in ISO-8859-15, "®" in MacRoman. -/
example : guessBytesCharset [0xe9, 0x6c, 0xe9, 0x70] none = some .latin1 := by decide +kernel
example : guessBytesCharset [0x31, 0x30, 0x30, 0x20, 0xa4] none = some .latin15 := by decide +kernel
example : guessBytesCharset [0x50, 0xa8] none = some .macRoman := by decide +kernel
example : guessBytesCharset [0xd1, 0xf5, 0xe8] none = some .greek := by decide +kernel
example : guessBytesCharset [0xff] none = none := by decide +kernel
example : guessBytesCharset [0x61, 0xc3, 0xa9] none = some .utf8 := by decide +kernel

theorem latin15_bytes : ∀ n ∈ latin15Bytes, latin15Table.getD (n - 128) 0 ≠ 0 := by decide +kernel
theorem macRoman_bytes : ∀ n ∈ macRomanBytes, macRomanTable.getD (n - 128) 0 ≠ 0 := by decide +kernel
theorem greek_bytes : ∀ n ∈ greekBytes, greekTable.getD (n - 128) 0 ≠ 0 := by decide +kernel

theorem table_ok (table bytes : List Nat) (hb : ∀ n ∈ bytes, table.getD (n - 128) 0 ≠ 0) (data : Bytes)
    (h : OnlyBytes bytes data) : ∃ text, tableDecode table data = some text := by
  refine ⟨_, tableDecode_ok table data fun b hmem h128 => ?_⟩
  rcases h b hmem with h | h
  · omega
  · exact hb _ h

/-- C69.  The guess can be trusted: without a byte order mark, the bytes can be decoded
with the charset that was guessed. -/
theorem C69_decodes (data : Bytes) (hm : ¬ HasMark data) (c : Name) (h : guessBytesCharset data none = some c) :
    ∃ text, decode c data = .ok text := by
  rw [guess_table] at h
  rw [if_neg (fun h => hm (.inl h)), if_neg (fun h => hm (.inr (.inl h))), if_neg (fun h => hm (.inr (.inr h)))] at h
  split at h
  · rename_i ha
    cases h
    obtain ⟨t, ht⟩ := Option.isSome_iff_exists.1 ((asciiOnly_iff data).1 ha)
    exact ⟨t, by simp only [decode, ht]⟩
  split at h
  · rename_i hu
    cases h
    obtain ⟨t, ht⟩ := Option.isSome_iff_exists.1 ((isUtf8_iff data).1 hu)
    exact ⟨t, by simp only [decode, ht]⟩
  split at h
  · cases h
    exact ⟨_, rfl⟩
  split at h
  · rename_i ho
    cases h
    obtain ⟨t, ht⟩ := table_ok _ _ latin15_bytes data ho
    exact ⟨t, by simp only [decode, ht]⟩
  split at h
  · rename_i ho
    cases h
    obtain ⟨t, ht⟩ := table_ok _ _ macRoman_bytes data ho
    exact ⟨t, by simp only [decode, ht]⟩
  split at h
  · rename_i ho
    cases h
    obtain ⟨t, ht⟩ := table_ok _ _ greek_bytes data ho
    exact ⟨t, by simp only [decode, ht]⟩
  · cases h

/-- The hypotheses of `C69_decodes` hold for a Greek word. -/
example : ¬ HasMark [0xd1, 0xf5, 0xe8] ∧ guessBytesCharset [0xd1, 0xf5, 0xe8] none = some .greek ∧
    decode .greek [0xd1, 0xf5, 0xe8] = .ok [0x3a1, 0x3c5, 0x3b8] := by
  refine ⟨?_, by decide +kernel, by decide +kernel⟩
  rintro (⟨t, h⟩ | ⟨t, h⟩ | ⟨t, h⟩) <;> simp at h

/-- C69, disagreement.  A mark is believed without looking at the bytes behind it: they may
not be decodable with the charset that is returned. -/
theorem C69_markUnchecked :
    guessBytesCharset [0xef, 0xbb, 0xbf, 0xff] none = some .utf8 ∧
    decode .utf8 [0xef, 0xbb, 0xbf, 0xff] = .error ⟨false, false⟩ ∧
    guessBytesCharset [0xff, 0xfe, 0x41] none = some .utf16le ∧
    decode .utf16le [0xff, 0xfe, 0x41] = .error ⟨true, true⟩ := by decide +kernel

/-! ### C70 -/

/-- C70.  A text in UTF-8 is read back, whether the charset of the field is UTF-8 or is to be
guessed. -/
theorem C70_utf8 (text : List Nat) (h : ∀ n ∈ text, Scalar n) :
    convertText none (utf8 text) = text ∧ convertText (some .utf8) (utf8 text) = text := by
  have hd := utf8Decode_utf8 text h
  have h8 : decode .utf8 (utf8 text) = .ok text := by simp only [decode, hd]
  refine ⟨?_, by unfold convertText; simp only [h8]⟩
  have hu : IsUtf8 (utf8 text) := ⟨text, h, rfl⟩
  unfold convertText
  by_cases ha : AsciiOnly (utf8 text)
  · have hg : guessBytesCharset (utf8 text) (some .latin1) = some .ascii := by
      have := (C69_ascii _).2 ha
      rw [guess_table] at this ⊢
      repeat' split at this
      all_goals first
        | (cases this; done)
        | skip
      have n1 : ¬ [0xef, 0xbb, 0xbf] <+: utf8 text := fun hm => mark_not_ascii _ _ _ hm (by decide) ha
      have n2 : ¬ [0xff, 0xfe] <+: utf8 text := fun hm => mark_not_ascii _ _ _ hm (by decide) ha
      have n3 : ¬ [0xfe, 0xff] <+: utf8 text := fun hm => mark_not_ascii _ _ _ hm (by decide) ha
      rw [if_neg n1, if_neg n2, if_neg n3, if_pos ha]
    have hda : decode .ascii (utf8 text) = .ok text := by
      simp only [decode, asciiDecode_iff]
      have ha' : ∀ b ∈ utf8 text, b.toNat < 128 := ha
      rw [if_pos ha']
      have hx : utf8Decode (utf8 text) = some ((utf8 text).map UInt8.toNat) := by
        have hsc : ∀ n ∈ (utf8 text).map UInt8.toNat, Scalar n := by
          intro n hn
          obtain ⟨b, hb, rfl⟩ := List.mem_map.1 hn
          exact (utf8Char_one b (ha b hb)).2
        have := utf8Decode_utf8 _ hsc
        have hid : ∀ l : Bytes, AsciiOnly l → utf8 (l.map UInt8.toNat) = l := by
          intro l hl
          induction l with
          | nil => rfl
          | cons b rest ih =>
            show utf8Char b.toNat ++ utf8 (rest.map UInt8.toNat) = _
            rw [ih (fun x hx => hl x (by simp [hx])), (utf8Char_one b (hl b (by simp))).1]
            rfl
        rw [hid _ ha] at this
        exact this
      rw [hd] at hx
      rw [← Option.some.inj hx]
    simp only [hg, hda]
  · have hg : guessBytesCharset (utf8 text) (some .latin1) = some .utf8 := by
      rw [guess_table]
      by_cases h1 : [0xef, 0xbb, 0xbf] <+: utf8 text
      · rw [if_pos h1]
      · rw [if_neg h1, if_neg (fun hm => mark16_utf8 _ (.inl hm) hu), if_neg (fun hm => mark16_utf8 _ (.inr hm) hu),
          if_neg ha, if_pos hu]
    simp only [hg, h8]

/-- "aé€😀" -/
example : (∀ n ∈ [0x61, 0xe9, 0x20ac, 0x1f600], Scalar n) ∧
    utf8 [0x61, 0xe9, 0x20ac, 0x1f600] = [0x61, 0xc3, 0xa9, 0xe2, 0x82, 0xac, 0xf0, 0x9f, 0x98, 0x80] := by
  constructor
  · unfold Scalar; decide
  · decide +kernel

/-- The charset of UTF-16 with the given order. -/
def utf16Name (big : Bool) : Name := if big then .utf16be else .utf16le

/-- C70.  A text in UTF-16 is read back in a field with this charset. -/
theorem C70_utf16 (big : Bool) (text : List Nat) (h : ∀ n ∈ text, Scalar n) :
    convertText (some (utf16Name big)) (utf16 big text) = text := by
  have hd : decode (utf16Name big) (utf16 big text) = .ok text := by
    cases big
    · exact utf16Decode_utf16 false text h
    · exact utf16Decode_utf16 true text h
  unfold convertText
  simp only [hd]

theorem low_last (u : Nat) (l raw : Bytes) (h : 256 ≤ u) (hu : u < 65536) (he : l ++ unit16 false u = raw ++ [0]) :
    False := by
  have e : unit16 false u = [UInt8.ofNat (u % 256)] ++ [UInt8.ofNat (u / 256)] := rfl
  rw [e, ← List.append_assoc] at he
  have := List.append_inj_right' he rfl
  have := congrArg UInt8.toNat (List.cons.inj this).1
  rw [byte_toNat _ (by omega)] at this
  have h0 : (0 : UInt8).toNat = 0 := rfl
  omega

/-- C70.  A text in UTF-16-LE whose last byte, a zero, is missing is read back. -/
theorem C70_truncated (text : List Nat) (h : ∀ n ∈ text, Scalar n) (raw : Bytes)
    (hraw : utf16 false text = raw ++ [0]) : convertText (some .utf16le) raw = text := by
  have hd := utf16Decode_utf16 false text h
  rw [hraw] at hd
  have hodd : utf16Decode false raw = .error ⟨true, true⟩ := by
    rcases List.eq_nil_or_concat text with rfl | ⟨init, n, rfl⟩
    · have := congrArg List.length hraw
      simp [utf16] at this
    · have hn := h n (by simp)
      have hi : ∀ m ∈ init, Scalar m := fun m hm => h m (by simp [hm])
      unfold Scalar at hn
      have hsplit : utf16 false (init.concat n) = utf16 false init ++ utf16Char false n := by
        simp [utf16, List.concat_eq_append]
      rw [hsplit] at hraw
      unfold utf16Char at hraw
      split at hraw
      · have hu : unit16 false n = [UInt8.ofNat (n % 256)] ++ [UInt8.ofNat (n / 256)] := rfl
        rw [hu, ← List.append_assoc] at hraw
        have := List.append_inj_left' hraw rfl
        rw [← this]
        exact utf16Decode_odd false init hi _
      · exfalso
        rw [← List.append_assoc] at hraw
        exact low_last _ _ _ (by omega) (by omega) hraw
  have h1 : decode .utf16le raw = .error ⟨true, true⟩ := hodd
  have h2 : decode .utf16le (raw ++ [0]) = .ok text := hd
  unfold convertText
  simp only [h1, h2]
  rfl

/-- "Be" without its last byte, the case of the source's comment. -/
example : (∀ n ∈ [0x42, 0x65], Scalar n) ∧ utf16 false [0x42, 0x65] = [0x42, 0, 0x65] ++ [0] := by
  constructor
  · unfold Scalar; decide
  · decide +kernel

/-- The text of the bytes in ISO-8859-1. -/
def latin1Text (data : Bytes) : List Nat := data.map UInt8.toNat

/-- C70.  Bytes that are not text in the charset of the field are read as ISO-8859-1: for a
field in UTF-8 the bytes that are not UTF-8, for a field in ASCII those with a byte from 128
on, for a field in UTF-16-BE those of odd length.  No content makes the conversion fail. -/
theorem C70_fallback (data : Bytes) :
    (¬ IsUtf8 data → convertText (some .utf8) data = latin1Text data) ∧
    (convertText (some .ascii) data = latin1Text data) ∧
    (convertText (some .latin1) data = latin1Text data) ∧
    (data.length % 2 = 1 → convertText (some .utf16be) data = latin1Text data) := by
  refine ⟨?_, ?_, rfl, ?_⟩
  · intro h
    rw [isUtf8_iff] at h
    have hn : utf8Decode data = none := by
      cases hd : utf8Decode data with
      | none => rfl
      | some t => rw [hd] at h; exact absurd rfl h
    unfold convertText
    simp only [decode, hn]
    rfl
  · unfold convertText
    simp only [decode, asciiDecode_iff]
    by_cases ha : ∀ b ∈ data, b.toNat < 128
    · simp only [if_pos ha]; rfl
    · simp only [if_neg ha]; rfl
  · intro hodd
    have : ∃ e, utf16Decode true data = .error e := by
      induction hk : data.length using Nat.strongRecOn generalizing data with
      | _ k ih =>
        match data, hk, hodd with
        | [], hk, hodd => simp at hodd
        | [b], hk, hodd => exact ⟨_, rfl⟩
        | b :: c :: rest, hk, hodd =>
          simp only [List.length_cons] at hk hodd
          rw [utf16Decode_cons]
          simp only []
          split
          · obtain ⟨e, he⟩ := ih rest.length (by omega) rest (by omega) rfl
            rw [he]
            exact ⟨_, rfl⟩
          · split
            · exact ⟨_, rfl⟩
            · match rest, hk, hodd with
              | [], hk, hodd => exact ⟨_, rfl⟩
              | [_], hk, hodd => exact ⟨_, rfl⟩
              | d :: e :: rest, hk, hodd =>
                simp only [List.length_cons] at hk hodd
                simp only []
                split
                · obtain ⟨e, he⟩ := ih rest.length (by omega) rest (by omega) rfl
                  rw [he]
                  exact ⟨_, rfl⟩
                · exact ⟨_, rfl⟩
    obtain ⟨e, he⟩ := this
    have hd : decode .utf16be data = .error e := he
    unfold convertText
    simp only [hd]
    have : decide (Name.utf16be = Name.utf16le) = false := rfl
    rw [this, Bool.and_false]
    rfl

/-- Bytes that are a text in UTF-16. -/
def IsUtf16 (big : Bool) (data : Bytes) : Prop := ∃ text, (∀ n ∈ text, Scalar n) ∧ utf16 big text = data

/-- C70.  Bytes that are not text in UTF-16, for the little-endian order also not when a zero
byte is added, are read as ISO-8859-1. -/
theorem C70_fallback16 (data : Bytes) :
    (¬ IsUtf16 true data → convertText (some .utf16be) data = latin1Text data) ∧
    (¬ IsUtf16 false data → ¬ IsUtf16 false (data ++ [0]) → convertText (some .utf16le) data = latin1Text data) := by
  have key : ∀ big d, ¬ IsUtf16 big d → ∃ e, utf16Decode big d = .error e := by
    intro big d h
    cases hd : utf16Decode big d with
    | error e => exact ⟨e, rfl⟩
    | ok t => exact absurd ⟨t, utf16Decode_sound big d t hd⟩ h
  constructor
  · intro h
    obtain ⟨e, he⟩ := key true data h
    have hd : decode .utf16be data = .error e := he
    unfold convertText
    simp only [hd]
    have : decide (Name.utf16be = Name.utf16le) = false := rfl
    rw [this, Bool.and_false]
    rfl
  · intro h h0
    obtain ⟨e, he⟩ := key false data h
    obtain ⟨e', he'⟩ := key false (data ++ [0]) h0
    have hd : decode .utf16le data = .error e := he
    have hd' : decode .utf16le (data ++ [0]) = .error e' := he'
    unfold convertText
    simp only [hd, hd']
    split <;> rfl

/-- A surrogate alone. -/
example : ¬ IsUtf16 false [0x41, 0, 0, 0xdc] ∧ convertText (some .utf16le) [0x41, 0, 0, 0xdc] = [0x41, 0, 0, 0xdc] := by
  refine ⟨?_, by decide +kernel⟩
  rintro ⟨text, h1, h2⟩
  have := utf16Decode_utf16 false text h1
  rw [h2] at this
  have e : utf16Decode false [0x41, 0, 0, 0xdc] = .error ⟨false, true⟩ := by decide +kernel
  rw [e] at this
  cases this

example : ¬ IsUtf8 [0xe9, 0x6c] ∧ convertText (some .utf8) [0xe9, 0x6c] = [0xe9, 0x6c] := by
  rw [isUtf8_iff]; decide +kernel

/-- The characters of each set with their bytes: © ® é ê è à ç; the same and €; © ®; the
Greek letters. -/
def latin1Chars : List (Nat × Nat) :=
  [(0xa9, 0xa9), (0xae, 0xae), (0xe9, 0xe9), (0xea, 0xea), (0xe8, 0xe8), (0xe0, 0xe0), (0xe7, 0xe7)]
def latin15Chars : List (Nat × Nat) := (0x20ac, 0xa4) :: latin1Chars
def macRomanChars : List (Nat × Nat) := [(0xa9, 0xa9), (0xae, 0xa8)]
def greekChars : List (Nat × Nat) :=
  [(0x3b5, 0xe5), (0x3b4, 0xe4), (0x3b7, 0xe7), (0x3b9, 0xe9), (0x3b8, 0xe8), (0x3ba, 0xea), (0x3bc, 0xec),
   (0x3bf, 0xef), (0x3a1, 0xd1), (0x3c3, 0xf3), (0x3c2, 0xf2), (0x3c5, 0xf5), (0x388, 0xb8), (0x3af, 0xdf)]

/-- `data` is `text` written with ASCII and the characters of a set. -/
def Written (chars : List (Nat × Nat)) (text : List Nat) (data : Bytes) : Prop :=
  List.Forall₂ (fun n b => (n < 128 ∧ b.toNat = n) ∨ (n, b.toNat) ∈ chars) text data

theorem written_only (chars : List (Nat × Nat)) (text : List Nat) (data : Bytes) (h : Written chars text data) :
    OnlyBytes (chars.map Prod.snd) data := by
  induction h with
  | nil => intro b hb; cases hb
  | cons h1 h2 ih =>
    rename_i n c text data
    intro b hb
    rcases List.mem_cons.1 hb with rfl | hb
    · rcases h1 with ⟨h, h'⟩ | h
      · left; omega
      · right; exact List.mem_map.2 ⟨_, h, rfl⟩
    · exact ih b hb

theorem written_table (chars : List (Nat × Nat)) (table : List Nat)
    (ht : ∀ p ∈ chars, 128 ≤ p.2 ∧ table.getD (p.2 - 128) 0 = p.1 ∧ p.1 ≠ 0)
    (text : List Nat) (data : Bytes) (h : Written chars text data) : tableDecode table data = some text := by
  induction h with
  | nil => rfl
  | cons h1 h2 ih =>
    rename_i n b text data
    rw [tableDecode, ih]
    rcases h1 with ⟨h, h'⟩ | h
    · rw [if_pos (.inl (by omega)), if_pos (by omega), h']
      rfl
    · obtain ⟨t1, t2, t3⟩ := ht _ h
      simp only [] at t1 t2 t3
      have e : (if b.toNat < 128 then b.toNat else table.getD (b.toNat - 128) 0) = n := by
        rw [if_neg (by omega), t2]
      rw [e, if_pos (.inr t3)]
      rfl

theorem written_latin1 (text : List Nat) (data : Bytes) (h : Written latin1Chars text data) :
    latin1Text data = text := by
  have hd : ∀ p ∈ latin1Chars, p.2 = p.1 := by decide
  induction h with
  | nil => rfl
  | cons h1 h2 ih =>
    rename_i n b text data
    show b.toNat :: latin1Text data = n :: text
    rw [ih]
    rcases h1 with ⟨h, h'⟩ | h
    · rw [h']
    · have := hd _ h
      simp only [] at this
      rw [this]

theorem only_swap (a b : List Nat) (h : ∀ n ∈ a, n ∈ b) (data : Bytes) (hd : OnlyBytes a data) : OnlyBytes b data := by
  intro x hx
  rcases hd x hx with h' | h'
  · exact .inl h'
  · exact .inr (h _ h')

/-- C70, partial.  A text of ASCII and the characters that are looked for is read back when the
charset is to be guessed, provided its bytes are not UTF-8 by accident and no charset tried
earlier has all its bytes.  Missing: other characters of these charsets. -/
theorem C70_guessed_partial (text : List Nat) (data : Bytes) (hm : ¬ HasMark data) (hu : ¬ IsUtf8 data) :
    (Written latin1Chars text data → convertText none data = text) ∧
    (Written latin15Chars text data → 0x20ac ∈ text → convertText none data = text) ∧
    (Written macRomanChars text data → 0xae ∈ text → convertText none data = text) ∧
    (Written greekChars text data → ¬ OnlyBytes latin1Bytes data → convertText none data = text) := by
  obtain ⟨s1, s2, s3, s4, s5⟩ := C69_sets data hm hu (some .latin1)
  have hmem : ∀ (chars : List (Nat × Nat)) (n : Nat), 128 ≤ n → Written chars text data → n ∈ text →
      ∃ b ∈ data, (n, b.toNat) ∈ chars := by
    intro chars n hn hw
    clear s1 s2 s3 s4 s5 hm hu
    induction hw with
    | nil => intro h; cases h
    | cons h1 h2 ih =>
      rename_i m b text data
      intro h
      rcases List.mem_cons.1 h with rfl | h
      · rcases h1 with h1 | h1
        · omega
        · exact ⟨b, by simp, h1⟩
      · obtain ⟨c, hc, hc'⟩ := ih h
        exact ⟨c, by simp [hc], hc'⟩
  refine ⟨?_, ?_, ?_, ?_⟩
  · intro h
    have hg := s1 (written_only _ _ _ h)
    unfold convertText
    simp only [hg]
    exact written_latin1 text data h
  · intro h he
    have h15 : OnlyBytes latin15Bytes data := only_swap _ _ (by decide) data (written_only _ _ _ h)
    have hn1 : ¬ OnlyBytes latin1Bytes data := by
      obtain ⟨b, hb, hp⟩ := hmem latin15Chars 0x20ac (by decide) h he
      have hb4 : b.toNat = 0xa4 := by
        have : ∀ p ∈ latin15Chars, p.1 = 0x20ac → p.2 = 0xa4 := by decide
        exact this _ hp rfl
      intro ho
      rcases ho b hb with h' | h'
      · omega
      · rw [hb4] at h'; revert h'; decide
    have hg := s2 hn1 h15
    have hd : decode .latin15 data = .ok text := by
      simp only [decode, written_table latin15Chars latin15Table (by decide +kernel) text data h]
    unfold convertText
    simp only [hg, hd]
  · intro h he
    have hmac : OnlyBytes macRomanBytes data := only_swap _ _ (by decide) data (written_only _ _ _ h)
    obtain ⟨b, hb, hp⟩ := hmem macRomanChars 0xae (by decide) h he
    have hb4 : b.toNat = 0xa8 := by
      have : ∀ p ∈ macRomanChars, p.1 = 0xae → p.2 = 0xa8 := by decide
      exact this _ hp rfl
    have hno : ∀ bytes : List Nat, 0xa8 ∉ bytes → ¬ OnlyBytes bytes data := by
      intro bytes hn ho
      rcases ho b hb with h' | h'
      · omega
      · rw [hb4] at h'; exact hn h'
    have hg := s3 (hno _ (by decide)) (hno _ (by decide)) hmac
    have hd : decode .macRoman data = .ok text := by
      simp only [decode, written_table macRomanChars macRomanTable (by decide +kernel) text data h]
    unfold convertText
    simp only [hg, hd]
  · intro h hn1
    have hgr : OnlyBytes greekBytes data := only_swap _ _ (by decide) data (written_only _ _ _ h)
    -- the sets tried earlier have no Greek byte that ISO-8859-1 has not
    have hn15 : ¬ OnlyBytes latin15Bytes data := by
      intro ho
      apply hn1
      intro b hb
      rcases ho b hb with h' | h'
      · exact .inl h'
      · rcases hgr b hb with h'' | h''
        · exact .inl h''
        · right
          have : ∀ n ∈ latin15Bytes, n ∈ greekBytes → n ∈ latin1Bytes := by decide
          exact this _ h' h''
    have hnm : ¬ OnlyBytes macRomanBytes data := by
      intro ho
      apply hn1
      intro b hb
      rcases ho b hb with h' | h'
      · exact .inl h'
      · rcases hgr b hb with h'' | h''
        · exact .inl h''
        · right
          have : ∀ n ∈ macRomanBytes, n ∈ greekBytes → n ∈ latin1Bytes := by decide
          exact this _ h' h''
    have hg := s4 hn1 hn15 hnm hgr
    have hd : decode .greek data = .ok text := by
      simp only [decode, written_table greekChars greekTable (by decide +kernel) text data h]
    unfold convertText
    simp only [hg, hd]

/-- "10 €" -/
example : ¬ HasMark [0x31, 0x30, 0x20, 0xa4] ∧ ¬ IsUtf8 [0x31, 0x30, 0x20, 0xa4] ∧
    Written latin15Chars [0x31, 0x30, 0x20, 0x20ac] [0x31, 0x30, 0x20, 0xa4] ∧
    0x20ac ∈ [0x31, 0x30, 0x20, 0x20ac] := by
  refine ⟨?_, by rw [isUtf8_iff]; decide +kernel, ?_, by decide⟩
  · rintro (⟨t, h⟩ | ⟨t, h⟩ | ⟨t, h⟩) <;> simp at h
  · unfold Written
    refine .cons (by decide) (.cons (by decide) (.cons (by decide) (.cons (by decide) .nil)))

/-- C70.  What the guess does not recognise is read as ISO-8859-1. -/
theorem C70_unknown (data : Bytes) (h : guessBytesCharset data none = none) :
    convertText none data = latin1Text data := by
  have hg : guessBytesCharset data (some .latin1) = some .latin1 := by
    rw [guess_table] at h ⊢
    repeat' split at h
    all_goals first
      | (cases h; done)
      | skip
    rename_i h1 h2 h3 h4 h5 h6 h7 h8 h9
    rw [if_neg h1, if_neg h2, if_neg h3, if_neg h4, if_neg h5, if_neg h6, if_neg h7, if_neg h8, if_neg h9]
  unfold convertText
  simp only [hg]
  rfl

example : guessBytesCharset [0xff, 0x41] none = none := by decide +kernel

/-- C70, disagreement.  The mark at the beginning of a text remains in the value: U+FEFF is
its first character. -/
theorem C70_markKept (text : List Nat) (h : ∀ n ∈ text, Scalar n) (big : Bool) :
    convertText none (utf16 big (0xfeff :: text)) = 0xfeff :: text ∧
    convertText none (utf8 (0xfeff :: text)) = 0xfeff :: text := by
  have hs : ∀ n ∈ 0xfeff :: text, Scalar n := by
    intro n hn
    rcases List.mem_cons.1 hn with rfl | hn
    · unfold Scalar; decide
    · exact h n hn
  refine ⟨?_, (C70_utf8 _ hs).1⟩
  have hsplit : utf16 big (0xfeff :: text) = unit16 big 0xfeff ++ utf16 big text := rfl
  have hd : decode (utf16Name big) (utf16 big (0xfeff :: text)) = .ok (0xfeff :: text) := by
    cases big
    · exact utf16Decode_utf16 false _ hs
    · exact utf16Decode_utf16 true _ hs
  have hg : guessBytesCharset (utf16 big (0xfeff :: text)) (some .latin1) = some (utf16Name big) := by
    rw [guess_table, hsplit]
    cases big
    · have hu : unit16 false 0xfeff = [0xff, 0xfe] := by decide +kernel
      rw [hu, if_neg (by rintro ⟨t, ht⟩; simp at ht), if_pos ⟨_, rfl⟩]
      rfl
    · have hu : unit16 true 0xfeff = [0xfe, 0xff] := by decide +kernel
      rw [hu, if_neg (by rintro ⟨t, ht⟩; simp at ht), if_neg (by rintro ⟨t, ht⟩; simp at ht), if_pos ⟨_, rfl⟩]
      rfl
  unfold convertText
  simp only [hg, hd]

example : ∀ n ∈ [0x41, 0x1f600], Scalar n := by unfold Scalar; decide

/-- C70, disagreement.  "é©®" in ISO-8859-1 has the bytes of one Chinese character in UTF-8,
which is guessed; "θη" in ISO-8859-7 is guessed as ISO-8859-1 and read as "èç". -/
theorem C70_accident :
    Written latin1Chars [0xe9, 0xa9, 0xae] [0xe9, 0xa9, 0xae] ∧
    convertText none [0xe9, 0xa9, 0xae] = [0x9a6e] ∧
    Written greekChars [0x3b8, 0x3b7] [0xe8, 0xe7] ∧
    convertText none [0xe8, 0xe7] = [0xe8, 0xe7] := by
  refine ⟨?_, by decide +kernel, ?_, by decide +kernel⟩
  · exact .cons (by decide) (.cons (by decide) (.cons (by decide) .nil))
  · exact .cons (by decide) (.cons (by decide) .nil)

end Hachoir.Props
