import Verif.Field.StringField
import Verif.Props.InputStream
import Mathlib.Data.List.TakeWhile

/-!
# C42: terminated strings; C50: announced, truncated and stripped strings
-/

set_option linter.unusedVariables false
set_option linter.unusedSimpArgs false

namespace Hachoir.Props
open Hachoir Hachoir.Stream Hachoir.Field

/-- The first place of a pattern in a text. -/
def FirstAt (pattern text : Bytes) (j : Nat) : Prop :=
  pattern <+: text.drop j ∧ ∀ i, i < j → ¬ pattern <+: text.drop i

theorem search_first {data : Bytes} {s : InputStream} (hs : stringInputStream data = .ok s) (needle : Bytes)
    (hne : needle ≠ []) (p : Nat) (hp : p ≤ data.length) :
    (∃ j, FirstAt needle (data.drop p) j ∧ searchBytesLength s needle false (8 * p : Nat) none = .ok (some (j : Int))) ∨
    ((∀ j, ¬ needle <+: (data.drop p).drop j) ∧ searchBytesLength s needle false (8 * p : Nat) none = .ok none) := by
  obtain ⟨r, h, hr⟩ := _root_.Props.C05_searchBytes data needle s hs hne p none _ rfl hp
  simp only [Option.map_none] at h
  have hlen : 8 * data.length / 8 = data.length := by omega
  simp only [hlen] at hr
  have hfit : ∀ k, needle <+: data.drop k → k + needle.length ≤ data.length := by
    intro k hk
    have h1 := hk.length_le
    rw [List.length_drop] at h1
    have : 0 < needle.length := List.length_pos_iff.2 hne
    omega
  cases r with
  | none =>
    right
    refine ⟨?_, by simp only [searchBytesLength, h]⟩
    intro j hj
    rw [List.drop_drop] at hj
    exact hr (p + j) (by omega) (hfit _ hj) hj
  | some a =>
    left
    obtain ⟨k, h1, h2, h3, h4, h5⟩ := hr
    refine ⟨k - p, ⟨?_, ?_⟩, ?_⟩
    · rw [List.drop_drop, show p + (k - p) = k by omega]; exact h4
    · intro i hi
      rw [List.drop_drop]
      exact h5 (p + i) (by omega) (by omega)
    · simp only [searchBytesLength, h, h1]
      congr 2
      simp
      omega

theorem singleton_prefix (t : UInt8) (l : Bytes) : [t] <+: l ↔ l.head? = some t := by
  cases l with
  | nil => simp
  | cons a l =>
    rw [List.prefix_cons_iff]
    simp
    exact eq_comm

theorem firstAt_takeWhile (t : UInt8) (l : Bytes) : ∀ j, FirstAt [t] l j →
    (l.takeWhile (· ≠ t)).length = j ∧ j < l.length := by
  induction l with
  | nil =>
    intro j h
    have := h.1
    simp at this
  | cons a l ih =>
    intro j h
    by_cases ha : a = t
    · subst ha
      cases j with
      | zero => simp
      | succ j =>
        have := h.2 0 (by omega)
        simp at this
    · cases j with
      | zero =>
        have := h.1
        simp only [List.drop_zero, singleton_prefix] at this
        simp at this
        exact absurd this ha
      | succ j =>
        have := ih j ⟨h.1, fun i hi => h.2 (i + 1) (by omega)⟩
        rw [List.takeWhile_cons_of_pos (by simpa using ha)]
        simp only [List.length_cons]
        omega

theorem no_terminator (t : UInt8) (l : Bytes) (h : ∀ j, ¬ [t] <+: l.drop j) : l.takeWhile (· ≠ t) = l := by
  induction l with
  | nil => rfl
  | cons a l ih =>
    have ha : a ≠ t := by
      intro e
      subst e
      exact h 0 (by simp [singleton_prefix])
    rw [List.takeWhile_cons_of_pos (by simpa using ha), ih (fun j => h (j + 1))]

/-- The terminator of an 8 bit string. -/
def terminator : StrFormat → Option UInt8
  | .c => some 0
  | .unixLine => some 10
  | _ => none

/-- **C42**, charsets with code units of one byte (none, 8 bit charsets, UTF-8): the content is
everything before the first terminator, the size is one byte more; without terminator there
is a FieldError. -/
theorem C42_byte {data : Bytes} {s : InputStream} (hs : stringInputStream data = .ok s) (endian : Endian)
    (he : endian ≠ .middle) (p : Nat) (hp : p ≤ data.length) (format : StrFormat) (t : UInt8)
    (ht : terminator format = some t) (charset : Charset) (hc : charset = .eightBit ∨ charset = .utf8) :
    let text := (data.drop p).takeWhile (· ≠ t)
    if text.length < (data.drop p).length
    then genericString s endian (8 * p) format charset none = .ok ⟨charset, 0, text.length, (text.length + 1) * 8⟩ ∧
      stringContent s (8 * p) ⟨charset, 0, text.length, (text.length + 1) * 8⟩ = .ok text
    else genericString s endian (8 * p) format charset none = .error .field := by
  intro text
  have hunit : charset.unit = 1 := by rcases hc with rfl | rfl <;> rfl
  have hsuf : suffixStr format charset.unit endian = .ok [t] := by
    rw [hunit]
    cases format <;> cases endian <;> simp [terminator] at ht he ⊢ <;> subst ht <;> rfl
  have hfmt : format = .c ∨ format = .unixLine := by
    cases format <;> simp [terminator] at ht ⊢
  have hgen : ∀ r, stringSizes s endian (8 * p) format charset none = r → genericString s endian (8 * p) format charset none = r := by
    intro r hr
    unfold genericString
    rw [hr]
    rcases hc with rfl | rfl <;> cases r <;> simp
  rcases search_first hs [t] (by simp) p hp with ⟨j, hj, hr⟩ | ⟨hno, hr⟩
  · obtain ⟨h1, h2⟩ := firstAt_takeWhile t _ j hj
    have h1' : text.length = j := h1
    rw [if_pos (by rw [h1']; exact h2)]
    refine ⟨hgen _ ?_, ?_⟩
    · unfold stringSizes
      simp only [hfmt, if_true, hsuf, hr, h1']
      simp
    · unfold stringContent
      have hpre : text <+: data.drop p := List.takeWhile_prefix _
      simp only
      rw [if_neg (by omega)]
      split
      · rename_i h0
        have : text.length = 0 := by omega
        rw [List.length_eq_zero_iff.1 this]
      · have hb := _root_.Props.C04_readBytes data s hs p text.length
        rw [List.length_drop] at h2
        rw [if_pos (Or.inl (by omega))] at hb
        simp only [Nat.zero_mul, Nat.add_zero, Int.toNat_natCast]
        rw [hb, ← List.prefix_iff_eq_take.1 hpre]
  · have h1 : text = data.drop p := no_terminator t _ hno
    rw [if_neg (by rw [h1]; omega)]
    apply hgen
    unfold stringSizes
    simp only [hfmt, if_true, hsuf, hr]

/-- The text holds no terminator, and the terminator follows it. -/
theorem C42_byte_text (data : Bytes) (p : Nat) (t : UInt8)
    (h : ((data.drop p).takeWhile (· ≠ t)).length < (data.drop p).length) :
    t ∉ (data.drop p).takeWhile (· ≠ t) ∧
      data[p + ((data.drop p).takeWhile (· ≠ t)).length]? = some t := by
  constructor
  · intro hm
    have := List.mem_takeWhile_imp hm
    simp at this
  · generalize hl : data.drop p = l at h
    have key : ∀ l : Bytes, (l.takeWhile (· ≠ t)).length < l.length → l[(l.takeWhile (· ≠ t)).length]? = some t := by
      intro l
      induction l with
      | nil => intro h; simp at h
      | cons a l ih =>
        intro h
        by_cases ha : a = t
        · subst ha; simp
        · rw [List.takeWhile_cons_of_pos (by simpa using ha)] at h ⊢
          simp only [List.length_cons, List.getElem?_cons_succ] at h ⊢
          exact ih (by omega)
    have := key l h
    rw [← hl, List.getElem?_drop] at this
    rw [← hl]
    exact this

/-! ## Code units of 2 and 4 bytes -/

/-- The code unit number `k`. -/
def unitAt (w : Nat) (text : Bytes) (k : Nat) : Bytes := (text.drop (w * k)).take w

theorem alignValue_up (j w k : Nat) (hw : 0 < w) (h1 : w * k < j + w) (h2 : j ≤ w * k) :
    Tools.alignValue (j : Int) (w : Int) = .ok ((w * k : Nat) : Int) := by
  unfold Tools.alignValue
  rw [if_neg (by omega)]
  have hf : (j : Int).fmod (w : Int) = ((j % w : Nat) : Int) := by
    rw [Int.fmod_eq_emod_of_nonneg _ (by omega)]; omega
  rw [hf]
  have hdm := Nat.div_add_mod j w
  have hlt := Nat.mod_lt j hw
  by_cases h0 : j % w = 0
  · rw [h0]
    simp only [Nat.cast_ofNat, ne_eq, Int.natCast_zero, not_true_eq_false, if_false]
    have : j = w * k := by
      have hk : j / w = k := by
        have : j / w ≤ k := Nat.div_le_of_le_mul h2
        have : k ≤ j / w := by
          have h3 : w * k < w * (j / w + 1) := by rw [Nat.mul_add]; omega
          have := Nat.lt_of_mul_lt_mul_left h3
          omega
        omega
      rw [← hk]; omega
    rw [this]
  · rw [if_pos (by omega)]
    have hk : k = j / w + 1 := by
      have h3 : w * k < w * (j / w + 2) := by rw [Nat.mul_add]; omega
      have h3 := Nat.lt_of_mul_lt_mul_left h3
      have h4 : w * (j / w) < w * k := by omega
      have h4 := Nat.lt_of_mul_lt_mul_left h4
      omega
    rw [hk, Nat.mul_add]
    congr 1
    obtain ⟨x, hx⟩ : ∃ x, w * (j / w) = x := ⟨_, rfl⟩
    rw [hx] at hdm ⊢
    omega

theorem suffix_length {format : StrFormat} {w : Nat} {endian : Endian} {suffix : Bytes} (hw : 0 < w)
    (hf : format = .c ∨ format = .unixLine) (h : suffixStr format w endian = .ok suffix) : suffix.length = w := by
  rcases hf with rfl | rfl <;> cases endian <;> simp [suffixStr] at h <;> subst h <;> simp <;> omega

/-- Charsets with wide code units and no byte order mark. -/
def Wide (charset : Charset) : Prop :=
  charset = .utf16le ∨ charset = .utf16be ∨ charset = .utf32le ∨ charset = .utf32be

/-- **C42** (partial), UTF-16 and UTF-32: the string ends at the first code unit that is the
terminator, provided the bytes of the terminator do not occur earlier, across two code
units. -/
theorem C42_wide_partial {data : Bytes} {s : InputStream} (hs : stringInputStream data = .ok s) (endian : Endian)
    (p : Nat) (hp : p ≤ data.length) (format : StrFormat) (hf : format = .c ∨ format = .unixLine)
    (charset : Charset) (hc : Wide charset) (suffix : Bytes) (hsuf : suffixStr format charset.unit endian = .ok suffix)
    (k : Nat) (hk : unitAt charset.unit (data.drop p) k = suffix)
    (hno : ∀ j, j + charset.unit ≤ charset.unit * k → ¬ suffix <+: (data.drop p).drop j) :
    genericString s endian (8 * p) format charset none
      = .ok ⟨charset, 0, (charset.unit * k : Nat), ((charset.unit * k + charset.unit : Nat) : Int) * 8⟩ ∧
    stringContent s (8 * p) ⟨charset, 0, (charset.unit * k : Nat), ((charset.unit * k + charset.unit : Nat) : Int) * 8⟩
      = .ok ((data.drop p).take (charset.unit * k)) := by
  obtain ⟨w, hw⟩ : ∃ w, charset.unit = w := ⟨_, rfl⟩
  have hw2 : 1 < w := by rcases hc with rfl | rfl | rfl | rfl <;> (rw [← hw]; decide)
  rw [hw] at hsuf hk hno ⊢
  have hsl := suffix_length (by omega) hf hsuf
  have hne : suffix ≠ [] := by intro e; rw [e] at hsl; simp at hsl; omega
  have hat : suffix <+: (data.drop p).drop (w * k) := by
    rw [← hk]; exact List.take_prefix _ _
  have hfit : w * k + w ≤ (data.drop p).length := by
    have := hat.length_le
    rw [List.length_drop] at this
    omega
  rcases search_first hs suffix hne p hp with ⟨j, hj, hr⟩ | ⟨hnone, hr⟩
  · have hj1 : j ≤ w * k := by
      apply Decidable.byContradiction
      intro hlt
      exact hj.2 (w * k) (by omega) hat
    have hj2 : w * k < j + w := by
      apply Decidable.byContradiction
      intro hlt
      exact hno j (by omega) hj.1
    have hsizes : stringSizes s endian (8 * p) format charset none
        = .ok ⟨charset, 0, (w * k : Nat), ((w * k + w : Nat) : Int) * 8⟩ := by
      unfold stringSizes
      simp only [hf, if_true, hw, hsuf, hr]
      rw [if_pos (by omega), hsl, alignValue_up j w k (by omega) hj2 hj1]
      simp only
      congr 2
    constructor
    · unfold genericString
      rw [hsizes]
      rcases hc with rfl | rfl | rfl | rfl <;> simp
    · unfold stringContent
      simp only
      rw [if_neg (by omega)]
      split
      · rename_i h0
        have : w * k = 0 := by omega
        rw [this]; rfl
      · have hb := _root_.Props.C04_readBytes data s hs p (w * k)
        rw [List.length_drop] at hfit
        rw [if_pos (Or.inl (by omega))] at hb
        simp only [Nat.zero_mul, Nat.add_zero, Int.toNat_natCast]
        exact hb
  · exact absurd hat (hnone _)

/-- **C42** (partial): if the bytes of the terminator occur nowhere, there is a FieldError. -/
theorem C42_wide_missing_partial {data : Bytes} {s : InputStream} (hs : stringInputStream data = .ok s) (endian : Endian)
    (p : Nat) (hp : p ≤ data.length) (format : StrFormat) (hf : format = .c ∨ format = .unixLine)
    (charset : Charset) (hc : Wide charset) (suffix : Bytes) (hsuf : suffixStr format charset.unit endian = .ok suffix)
    (hno : ∀ j, ¬ suffix <+: (data.drop p).drop j) :
    genericString s endian (8 * p) format charset none = .error .field := by
  have hu : 0 < charset.unit := by rcases hc with rfl | rfl | rfl | rfl <;> decide
  have hsl := suffix_length hu hf hsuf
  have hne : suffix ≠ [] := by intro e; rw [e] at hsl; simp at hsl; omega
  rcases search_first hs suffix hne p hp with ⟨j, hj, hr⟩ | ⟨hnone, hr⟩
  · exact absurd hj.1 (hno j)
  · unfold genericString stringSizes
    have : charset ≠ .unknown := by rcases hc with rfl | rfl | rfl | rfl <;> simp
    simp only [this, if_false, hf, if_true, hsuf, hr]

theorem pair_prefix (a b : UInt8) (l : Bytes) (j : Nat) (h : [a, b] <+: l.drop j) : l[j]? = some a ∧ l[j + 1]? = some b := by
  obtain ⟨t, ht⟩ := h
  have h0 : (l.drop j)[0]? = some a := by rw [← ht]; rfl
  have h1 : (l.drop j)[1]? = some b := by rw [← ht]; rfl
  rw [List.getElem?_drop] at h0 h1
  exact ⟨h0, h1⟩

/-- **C42**: a text in UTF-16-LE whose characters all have a low byte that is not zero (Latin
text for example) is read up to its terminator. -/
theorem C42_utf16le_text {data : Bytes} {s : InputStream} (hs : stringInputStream data = .ok s) (endian : Endian)
    (he : endian ≠ .middle) (p : Nat) (hp : p ≤ data.length) (k : Nat) (hk : unitAt 2 (data.drop p) k = [0, 0])
    (hlow : ∀ i, i < k → (data.drop p)[2 * i]? ≠ some 0) :
    genericString s endian (8 * p) .c .utf16le none
      = .ok ⟨.utf16le, 0, (2 * k : Nat), ((2 * k + 2 : Nat) : Int) * 8⟩ ∧
    stringContent s (8 * p) ⟨.utf16le, 0, (2 * k : Nat), ((2 * k + 2 : Nat) : Int) * 8⟩
      = .ok ((data.drop p).take (2 * k)) := by
  have hsuf : suffixStr .c Charset.utf16le.unit endian = .ok [0, 0] := by
    cases endian
    · rfl
    · rfl
    · exact absurd rfl he
  refine C42_wide_partial hs endian p hp .c (Or.inl rfl) .utf16le (Or.inl rfl) [0, 0] hsuf k hk ?_
  intro j hj hpre
  obtain ⟨h0, h1⟩ := pair_prefix _ _ _ _ hpre
  have hj : j + 2 ≤ 2 * k := hj
  by_cases hodd : j % 2 = 0
  · exact hlow (j / 2) (by omega) (by rw [show 2 * (j / 2) = j by omega]; exact h0)
  · exact hlow ((j + 1) / 2) (by omega) (by rw [show 2 * ((j + 1) / 2) = j + 1 by omega]; exact h1)

/-! ## Where the full claim fails -/

/-- The text "a", U+0100 and the terminator in UTF-16-LE: the string ends after the "a". -/
theorem C42_wide_early : ∀ s, stringInputStream [0x61, 0, 0, 1, 0, 0] = .ok s →
    genericString s .little 0 .c .utf16le none = .ok ⟨.utf16le, 0, 2, 32⟩ ∧
    unitAt 2 [0x61, 0, 0, 1, 0, 0] 1 ≠ [0, 0] := by
  intro s hs
  cases hs
  decide +kernel

/-- Without terminator: the string is said to be longer than the file. -/
theorem C42_wide_beyond : ∀ s, stringInputStream [0x61, 0, 0] = .ok s →
    genericString s .little 0 .c .utf16le none = .ok ⟨.utf16le, 0, 2, 32⟩ := by
  intro s hs
  cases hs
  decide +kernel

/-- The line "š" in UTF-16-LE in a big endian parent: the terminator that is searched is the one
of the parent's endian, so the end is not found. -/
theorem C42_line_other_endian : ∀ s, stringInputStream [0x61, 1, 10, 0] = .ok s →
    genericString s .big 0 .unixLine .utf16le none = .error .field ∧
    genericString s .little 0 .unixLine .utf16le none = .ok ⟨.utf16le, 0, 2, 32⟩ := by
  intro s hs
  constructor
  · refine C42_wide_missing_partial hs .big 0 (by simp) .unixLine (Or.inr rfl) .utf16le (Or.inl rfl) [0, 10] rfl ?_
    intro j
    match j with
    | 0 | 1 | 2 | 3 => decide
    | j + 4 => simp
  · cases hs
    decide +kernel

/-- A middle endian parent: KeyError, whatever the data. -/
theorem C42_middle_endian (s : InputStream) (addr : Nat) (format : StrFormat) (hf : format = .c ∨ format = .unixLine)
    (charset : Charset) (hc : charset ≠ .unknown) : genericString s .middle addr format charset none = .error .key := by
  unfold genericString stringSizes
  rw [if_neg hc]
  simp only [hf, if_true]
  rcases hf with rfl | rfl <;> rfl

/-! ## C50 -/

/-- **C50**: a string of fixed size holds exactly that many bytes. -/
theorem C50_fixed {data : Bytes} {s : InputStream} (hs : stringInputStream data = .ok s) (endian : Endian) (p n : Nat)
    (hn : 1 ≤ n ∧ n ≤ 65535) (hfit : p + n ≤ data.length) (charset : Charset)
    (hc : charset ≠ .unknown ∧ charset ≠ .utf16bom ∧ charset ≠ .utf32bom) :
    genericString s endian (8 * p) .fixed charset (some n) = .ok ⟨charset, 0, n, (n : Int) * 8⟩ ∧
    stringContent s (8 * p) ⟨charset, 0, n, (n : Int) * 8⟩ = .ok ((data.drop p).take n) := by
  constructor
  · unfold genericString stringSizes
    simp only [hc, if_false, false_or, or_self, ne_eq, not_true_eq_false]
    rw [if_neg (by omega)]
  · unfold stringContent
    simp only
    rw [if_neg (by omega), if_neg (by omega)]
    have hb := _root_.Props.C04_readBytes data s hs p n
    rw [if_pos (Or.inl hfit)] at hb
    simp only [Nat.zero_mul, Nat.add_zero, Int.toNat_natCast]
    exact hb

/-- Sizes outside 1..65535 are a FieldError. -/
theorem C50_fixed_range (s : InputStream) (endian : Endian) (addr : Nat) (n : Int) (hn : ¬ (1 ≤ n ∧ n ≤ 65535))
    (charset : Charset) : genericString s endian addr .fixed charset (some n) = .error .field := by
  unfold genericString
  split
  · rfl
  · unfold stringSizes
    simp only [ne_eq, not_true_eq_false, if_false]
    rw [if_pos hn]

/-- U+FEFF in code units of two or four bytes, in both byte orders. -/
def markBytes : Charset → Bytes
  | .utf16le => [0xff, 0xfe]
  | .utf16be => [0xfe, 0xff]
  | .utf32le => [0xff, 0xfe, 0, 0]
  | .utf32be => [0, 0, 0xfe, 0xff]
  | _ => []

/-- The charset that leaves the byte order to the mark. -/
def markedCharset : Charset → Charset
  | .utf16le | .utf16be => .utf16bom
  | _ => .utf32bom

/-- The mark is the one character U+FEFF. -/
example : Spec.ofBytesLE (markBytes .utf16le) = 0xFEFF ∧ Spec.ofBytesBE (markBytes .utf16be) = 0xFEFF ∧
    Spec.ofBytesLE (markBytes .utf32le) = 0xFEFF ∧ Spec.ofBytesBE (markBytes .utf32be) = 0xFEFF := by decide

/-- **C50**: a byte order mark decides the byte order of a string of fixed size; the text is what
comes behind the mark. -/
theorem C50_mark {data : Bytes} {s : InputStream} (hs : stringInputStream data = .ok s) (endian : Endian) (p : Nat)
    (charset : Charset) (hc : Wide charset) (content rest : Bytes)
    (hdata : data.drop p = markBytes charset ++ (content ++ rest)) (hn : charset.unit + content.length ≤ 65535) :
    genericString s endian (8 * p) .fixed (markedCharset charset) (some (charset.unit + content.length : Nat))
      = .ok ⟨charset, charset.unit, content.length, ((charset.unit + content.length : Nat) : Int) * 8⟩ ∧
    stringContent s (8 * p) ⟨charset, charset.unit, content.length, ((charset.unit + content.length : Nat) : Int) * 8⟩
      = .ok content := by
  have hu : (markBytes charset).length = charset.unit ∧ (markedCharset charset).unit = charset.unit ∧
      0 < charset.unit ∧ bomCharset charset.unit (markBytes charset) = some charset ∧
      (markedCharset charset = .utf16bom ∨ markedCharset charset = .utf32bom) ∧ markedCharset charset ≠ .unknown := by
    rcases hc with rfl | rfl | rfl | rfl <;> decide
  obtain ⟨hu1, hu2, hu3, hu4, hu5, hu6⟩ := hu
  have hlen : data.length - p = charset.unit + (content.length + rest.length) := by
    have := congrArg List.length hdata
    rw [List.length_drop, List.length_append, List.length_append, hu1] at this
    exact this
  constructor
  · unfold genericString stringSizes
    rw [if_neg hu6]
    simp only [ne_eq, not_true_eq_false, if_false]
    rw [if_neg (by omega)]
    simp only
    rw [if_pos hu5, hu2]
    have hb := _root_.Props.C04_readBytes data s hs p charset.unit
    rw [if_pos (Or.inl (by omega)), hdata, List.take_left' hu1] at hb
    rw [hb]
    simp only
    rw [hu4]
    simp only [Nat.zero_add, Except.ok.injEq, StrSizes.mk.injEq, true_and, and_true]
    omega
  · unfold stringContent
    simp only
    rw [if_neg (by omega)]
    by_cases h0 : content = []
    · subst h0; rfl
    · have hl : 0 < content.length := List.length_pos_iff.2 h0
      rw [if_neg (by omega)]
      have hb := _root_.Props.C04_readBytes data s hs (p + charset.unit) content.length
      rw [if_pos (Or.inl (by omega)), ← List.drop_drop, hdata, List.drop_left' hu1, List.take_left' rfl] at hb
      rw [Int.toNat_natCast, show 8 * p + charset.unit * 8 = 8 * (p + charset.unit) by omega]
      exact hb

/-- Without a mark there is no string. -/
theorem C50_unmarked {data : Bytes} {s : InputStream} (hs : stringInputStream data = .ok s) (endian : Endian) (p n : Nat)
    (charset : Charset) (hc : charset = .utf16bom ∨ charset = .utf32bom) (hn : 1 ≤ n ∧ n ≤ 65535)
    (hfit : p + charset.unit ≤ data.length)
    (hno : ∀ c, Wide c → markedCharset c = charset → ¬ markBytes c <+: data.drop p) :
    genericString s endian (8 * p) .fixed charset (some n) = .error .field := by
  unfold genericString stringSizes
  rw [if_neg (by rcases hc with rfl | rfl <;> decide)]
  simp only [ne_eq, not_true_eq_false, if_false]
  rw [if_neg (by omega)]
  simp only
  rw [if_pos hc]
  have hb := _root_.Props.C04_readBytes data s hs p charset.unit
  rw [if_pos (Or.inl hfit)] at hb
  rw [hb]
  simp only
  have hne : ∀ c, Wide c → markedCharset c = charset → (data.drop p).take charset.unit ≠ markBytes c := by
    intro c h1 h2 h3
    exact hno c h1 h2 (h3 ▸ List.take_prefix _ _)
  have : bomCharset charset.unit ((data.drop p).take charset.unit) = none := by
    rcases hc with rfl | rfl
    · have h1 := hne .utf16le (Or.inl rfl) rfl
      have h2 := hne .utf16be (by unfold Wide; simp) rfl
      unfold bomCharset
      simp only [Charset.unit, markBytes] at h1 h2 ⊢
      rw [if_neg h1, if_neg h2]
    · have h1 := hne .utf32le (by unfold Wide; simp) rfl
      have h2 := hne .utf32be (by unfold Wide; simp) rfl
      unfold bomCharset
      simp only [Charset.unit, markBytes] at h1 h2 ⊢
      rw [if_neg h1, if_neg h2]
  rw [this]

example : ∀ s, stringInputStream [9, 0xfe, 0xff, 0, 0x61] = .ok s →
    genericString s .little 8 .fixed .utf16bom (some 4) = .ok ⟨.utf16be, 2, 2, 32⟩ := fun s hs =>
  (C50_mark hs .little 1 .utf16be (by unfold Wide; simp) [0, 0x61] [] rfl (by decide)).1

/-- The length in a prefix: the number that its bytes spell in the endianness. -/
def prefixNumber (endian : Endian) (b : Bytes) : Nat :=
  match endian with
  | .little => Spec.ofBytesLE b
  | _ => Spec.ofBytesBE b

/-- **C50** (partial: no charset with byte order mark).  A string with a length in front holds
the announced bytes behind the prefix, and its size is prefix plus content. -/
theorem C50_pascal_partial {data : Bytes} {s : InputStream} (hs : stringInputStream data = .ok s) (endian : Endian)
    (he : endian ≠ .middle) (p : Nat) (format : StrFormat) (n : Nat) (hn : pascalPrefix format = some n)
    (pre content rest : Bytes) (hpre : pre.length = n) (hdata : data.drop p = pre ++ (content ++ rest))
    (hnum : prefixNumber endian pre = content.length) (charset : Charset)
    (hc : charset ≠ .unknown ∧ charset ≠ .utf16bom ∧ charset ≠ .utf32bom) :
    genericString s endian (8 * p) format charset none
      = .ok ⟨charset, n, content.length, ((n : Int) + content.length) * 8⟩ ∧
    stringContent s (8 * p) ⟨charset, n, content.length, ((n : Int) + content.length) * 8⟩ = .ok content := by
  have hn0 : 0 < n := by cases format <;> simp [pascalPrefix] at hn <;> omega
  have hlen : n + content.length + rest.length = data.length - p := by
    have := congrArg List.length hdata
    simp only [List.length_drop, List.length_append] at this
    omega
  have hp8 : 8 * p + n * 8 ≤ 8 * data.length := by omega
  have hdrop : ∀ (f : UInt8 → List Bool), (∀ b, (f b).length = 8) →
      (((data.flatMap f).drop (8 * p)).take (n * 8)) = pre.flatMap f := by
    intro f hf
    have hfl : ∀ l : Bytes, (l.flatMap f).length = 8 * l.length := by
      intro l
      induction l with
      | nil => rfl
      | cons a l ih => rw [List.flatMap_cons, List.length_append, ih, hf, List.length_cons]; omega
    have hd : (data.flatMap f).drop (8 * p) = (data.drop p).flatMap f := by
      conv => lhs; rw [← List.take_append_drop p data, List.flatMap_append]
      have : (List.flatMap f (List.take p data)).length = 8 * p := by
        rw [hfl, List.length_take]
        congr 1
        have hlen' := congrArg List.length hdata
        simp only [List.length_drop, List.length_append] at hlen'
        omega
      rw [List.drop_append_of_le_length (by omega), List.drop_eq_nil_of_le (by omega), List.nil_append]
    rw [hd, hdata, List.flatMap_append]
    have : n * 8 = (pre.flatMap f).length := by rw [hfl, hpre]; omega
    rw [this, List.take_left]
  have hread : readBits s ((8 * p : Nat) : Int) (n * 8) endian = .ok content.length := by
    rw [← hnum]
    cases endian with
    | little =>
      rw [_root_.Props.C01_readBits_little data s hs (8 * p) (n * 8) hp8]
      unfold prefixNumber
      simp only
      rw [Spec.ofBytesLE_eq]
      unfold Spec.bitsLSB
      rw [hdrop _ (fun b => by simp [Spec.byteLSB])]
    | big =>
      rw [_root_.Props.C01_readBits_big data s hs (8 * p) (n * 8) hp8]
      unfold prefixNumber
      simp only
      rw [Spec.ofBytesBE_eq]
      unfold Spec.bitsMSB
      rw [hdrop _ (fun b => by simp [Spec.byteMSB])]
    | middle => exact absurd rfl he
  have hfmt : ¬ (format = .c ∨ format = .unixLine) := by
    cases format <;> simp [pascalPrefix] at hn ⊢
  constructor
  · unfold genericString stringSizes
    simp only [hc, if_false, hfmt, hn, hread, false_or, or_self]
  · unfold stringContent
    simp only
    rw [if_neg (by omega)]
    split
    · rename_i h0
      have : content.length = 0 := by omega
      rw [List.length_eq_zero_iff.1 this]
    · have hb := _root_.Props.C04_readBytes data s hs (p + n) content.length
      rw [if_pos (Or.inl (by omega))] at hb
      rw [show 8 * p + n * 8 = 8 * (p + n) by omega, Int.toNat_natCast, hb, ← List.drop_drop, hdata]
      rw [← hpre, List.drop_left, List.take_left]

/-- A string with length and byte order mark: the mark is looked for in the prefix, so a
correct string is refused. -/
theorem C50_pascal_bom : ∀ s, stringInputStream [4, 0, 0xff, 0xfe, 0x61, 0] = .ok s →
    genericString s .little 0 .pascal16 .utf16bom none = .error .field := by
  intro s hs
  cases hs
  decide +kernel

/-- **C50**, truncation: the text ends at the first occurrence of the pattern. -/
theorem C50_truncate {α : Type} [BEq α] [LawfulBEq α] (text pattern : List α) (hp : pattern ≠ []) :
    ∃ rest, text = textValue text (some pattern) none ++ rest ∧
      (rest = [] ∨ pattern <+: rest) ∧
      ∀ j, j < (textValue text (some pattern) none).length → ¬ pattern <+: text.drop j := by
  have key : ∀ text : List α, (∀ t, truncateText pattern text = some t →
        (∃ rest, text = t ++ rest ∧ pattern <+: rest) ∧ ∀ j, j < t.length → ¬ pattern <+: text.drop j) ∧
      (truncateText pattern text = none → ∀ j, ¬ pattern <+: text.drop j) := by
    intro text
    induction text with
    | nil =>
      have : pattern.isPrefixOf ([] : List α) = false := by
        cases pattern with
        | nil => exact absurd rfl hp
        | cons a l => rfl
      constructor
      · intro t ht
        simp [truncateText, this] at ht
      · intro _ j hj
        rw [List.drop_nil] at hj
        exact hp (List.prefix_nil.1 hj)
    | cons c cs ih =>
      by_cases hpre : pattern.isPrefixOf (c :: cs) = true
      · constructor
        · intro t ht
          simp [truncateText, hpre] at ht
          subst ht
          exact ⟨⟨_, rfl, List.isPrefixOf_iff_prefix.1 hpre⟩, by simp⟩
        · intro h
          simp [truncateText, hpre] at h
      · have hno : ¬ pattern <+: c :: cs := fun e => hpre (List.isPrefixOf_iff_prefix.2 e)
        constructor
        · intro t ht
          simp [truncateText, hpre] at ht
          obtain ⟨t', ht', rfl⟩ := ht
          obtain ⟨⟨rest, h1, h2⟩, h3⟩ := ih.1 t' ht'
          refine ⟨⟨rest, by rw [h1]; rfl, h2⟩, ?_⟩
          intro j hj
          cases j with
          | zero => exact hno
          | succ j => exact h3 j (by simp at hj; omega)
        · intro h
          simp [truncateText, hpre] at h
          intro j
          cases j with
          | zero => exact hno
          | succ j => exact ih.2 h j
  unfold textValue
  cases pattern with
  | nil => exact absurd rfl hp
  | cons a l =>
    simp only
    cases ht : truncateText (a :: l) text with
    | none => exact ⟨[], by simp, Or.inl rfl, fun j _ => (key text).2 ht j⟩
    | some t =>
      obtain ⟨⟨rest, h1, h2⟩, h3⟩ := (key text).1 t ht
      exact ⟨rest, by simpa using h1, Or.inr h2, by simpa using h3⟩

theorem dropWhile_split {α : Type} (f : α → Bool) (l : List α) : ∃ a, l = a ++ l.dropWhile f ∧ (∀ x ∈ a, f x = true) ∧
    ∀ x, (l.dropWhile f).head? = some x → f x = false := by
  refine ⟨l.takeWhile f, (List.takeWhile_append_dropWhile).symm, fun x hx => List.mem_takeWhile_imp hx, ?_⟩
  intro x hx
  have := List.head?_dropWhile_not f l
  rw [hx] at this
  simpa using this

/-- **C50**, stripping: characters are only removed at the ends, only the given ones, and
all of them. -/
theorem C50_strip {α : Type} [BEq α] (f : α → Bool) (text : List α) :
    ∃ a b, text = a ++ textValue text none (some f) ++ b ∧ (∀ x ∈ a, f x = true) ∧ (∀ x ∈ b, f x = true) ∧
      (∀ x, (textValue text none (some f)).head? = some x → f x = false) ∧
      (∀ x, (textValue text none (some f)).getLast? = some x → f x = false) := by
  unfold textValue stripText
  simp only
  obtain ⟨a, h1, h2, h3⟩ := dropWhile_split f text
  obtain ⟨b, g1, g2, g3⟩ := dropWhile_split f (text.dropWhile f).reverse
  have hmid : text.dropWhile f = ((text.dropWhile f).reverse.dropWhile f).reverse ++ b.reverse := by
    rw [← List.reverse_append, ← g1, List.reverse_reverse]
  refine ⟨a, b.reverse, ?_, h2, ?_, ?_, ?_⟩
  · rw [List.append_assoc, ← hmid]; exact h1
  · intro x hx; exact g2 x (by simpa using hx)
  · intro x hx
    apply h3
    rw [hmid, List.head?_append, hx]
    rfl
  · intro x hx
    rw [List.getLast?_reverse] at hx
    exact g3 x hx

/-! ## Examples -/

example : ∀ s, stringInputStream [1, 0x61, 0x62, 0, 0x63] = .ok s →
    genericString s .big 8 .c .eightBit none = .ok ⟨.eightBit, 0, 2, 24⟩ ∧
    stringContent s 8 ⟨.eightBit, 0, 2, 24⟩ = .ok [0x61, 0x62] := by
  intro s hs
  cases hs
  decide +kernel

/-- "ab" in UTF-16-LE meets the hypotheses of `C42_utf16le_text`. -/
example : unitAt 2 ([0x61, 0, 0x62, 0, 0, 0] : Bytes) 2 = [0, 0] ∧
    ∀ i, i < 2 → ([0x61, 0, 0x62, 0, 0, 0] : Bytes)[2 * i]? ≠ some 0 := by
  decide

/-- With byte order mark. -/
example : ∀ s, stringInputStream [0xff, 0xfe, 0x61, 0, 0, 0] = .ok s →
    genericString s .little 0 .c .utf16bom none = .ok ⟨.utf16le, 2, 2, 48⟩ := by
  intro s hs
  cases hs
  decide +kernel

example : ∀ s, stringInputStream [2, 0, 0x61, 0x62] = .ok s →
    stringContent s 0 ⟨.eightBit, 2, 2, 32⟩ = .ok [0x61, 0x62] ∧
    genericString s .little 0 .pascal16 .eightBit none = .ok ⟨.eightBit, 2, 2, 32⟩ := by
  intro s hs
  cases hs
  decide +kernel

example : prefixNumber .little [2, 0] = 2 ∧ prefixNumber .big [1, 0] = 256 := by decide

example : textValue "  ab\x00c".toList (some ['\x00']) (some (· == ' ')) = "ab".toList := by decide

end Hachoir.Props
