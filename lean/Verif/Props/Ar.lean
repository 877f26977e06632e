import Verif.Formats.Ar
import Verif.Props.Bencode
import Verif.Props.Gzip

/-!
# C103: Unix archives
-/

namespace Hachoir.Props
open Hachoir Hachoir.Stream Hachoir.Field Hachoir.Formats Hachoir.Formats.Ar Spec

/-! ## What the bytes of an archive are -/

/-- A text in a column of `n` characters. -/
def arColumn (n : Nat) (t : Bytes) : Bytes := t ++ List.replicate (n - t.length) 32

/-- A file of an archive: the texts of its columns, the digits of its size, its content, and the number of line
feeds behind it (one if the size is odd). -/
structure ArItem where
  name : Bytes
  date : Bytes
  uid : Bytes
  gid : Bytes
  mode : Bytes
  digits : Bytes
  content : Bytes
  feeds : Nat

def ArItem.columns (i : ArItem) : Bytes :=
  arColumn 16 i.name ++ arColumn 12 i.date ++ arColumn 6 i.uid ++ arColumn 6 i.gid ++ arColumn 8 i.mode ++ arColumn 10 i.digits

/-- The 59 characters before the line feed. -/
def ArItem.header (i : ArItem) : Bytes := i.columns ++ [0x60]

def ArItem.bytes (i : ArItem) : Bytes := i.header ++ [10] ++ i.content ++ List.replicate i.feeds 10

/-- Blanks between the words of a header. -/
def blanks : Bytes := [9, 10, 11, 12, 13, 28, 29, 30, 31, 32, 0x85, 0xa0]

structure ArItem.Good (i : ArItem) : Prop where
  /-- All texts fit, and there is something in the name; the first character is not a line feed. -/
  fits : i.name.length ≤ 16 ∧ i.date.length ≤ 12 ∧ i.uid.length ≤ 6 ∧ i.gid.length ≤ 6 ∧ i.mode.length < 8
  lines : 10 ∉ i.header
  named : ∃ c ∈ i.name, c ∉ blanks
  digits : i.digits ≠ [] ∧ AllDigits i.digits
  size : valueFrom 0 i.digits = i.content.length

/-- The address behind the header of a file at the byte `k` is 60 bytes on. -/
def ArItem.shown (i : ArItem) (k : Nat) : Entry :=
  ⟨i.header, if i.content = [] then none else some (8 * (k + 60), 8 * i.content.length), 8 * (60 + i.content.length)⟩

/-- Empty lines from the byte `k` on. -/
def arLines : Nat → Nat → List (Nat × Item)
  | _, 0 => []
  | k, n + 1 => (8 * k, .line) :: arLines (k + 1) n

def arPlaces : Nat → List ArItem → List (Nat × Item)
  | _, [] => []
  | k, i :: l =>
    (8 * k, .file (i.shown k)) :: (arLines (k + 60 + i.content.length) i.feeds ++ arPlaces (k + i.bytes.length) l)

/-! ## Words -/

theorem blank_iff (c : UInt8) : isSpace c = true ↔ c ∈ blanks := by
  have h : ∀ i : Fin 256, isSpace (UInt8.ofNat i) = true ↔ UInt8.ofNat i ∈ blanks := by decide +kernel
  have := h ⟨c.toNat, c.toNat_lt⟩
  simpa only [UInt8.ofNat_toNat] using this

theorem words_append (c : UInt8) (hc : isSpace c = true) (b a : Bytes) : ∀ cur, words cur (a ++ c :: b) = words cur a ++ words [] b := by
  induction a with
  | nil =>
    intro cur
    simp only [List.nil_append, words, hc, if_true]
    split <;> simp
  | cons x a ih =>
    intro cur
    simp only [List.cons_append, words]
    split
    · split
      · rw [ih]
      · rw [ih]; simp
    · rw [ih]

theorem words_word (w : Bytes) (h : ∀ c ∈ w, isSpace c = false) : ∀ cur, cur ++ w ≠ [] → words cur w = [cur ++ w] := by
  induction w with
  | nil =>
    intro cur hc
    rw [List.append_nil] at hc ⊢
    simp [words, hc]
  | cons x w ih =>
    intro cur hc
    rw [words, if_neg (by simp [h x (by simp)]), ih (fun c hx => h c (by simp [hx])) _ (by simp)]
    simp

theorem words_spaces (n : Nat) : words [] (List.replicate n 32) = [] := by
  induction n with
  | zero => rfl
  | succ n ih =>
    rw [List.replicate_succ, words, if_pos (by decide), if_pos rfl, ih]

theorem words_some (a : Bytes) : ∀ cur, cur ≠ [] ∨ (∃ c ∈ a, isSpace c = false) → words cur a ≠ [] := by
  induction a with
  | nil =>
    intro cur h
    rcases h with h | ⟨c, hc, _⟩
    · simp [words, h]
    · cases hc
  | cons x a ih =>
    intro cur h
    rw [words]
    split
    · rename_i hx
      split
      · rename_i hcur
        apply ih
        right
        rcases h with h | ⟨c, hc, hs⟩
        · exact absurd hcur h
        · rcases List.mem_cons.1 hc with rfl | hc
          · rw [hx] at hs; cases hs
          · exact ⟨c, hc, hs⟩
      · simp
    · exact ih _ (Or.inl (by simp))

theorem digit_word (d : Bytes) (h : AllDigits d) : ∀ c ∈ d, isSpace c = false := by
  intro c hc
  have := h c hc
  unfold isSpace
  simp
  omega

theorem pyInt_digits (d : Bytes) (h0 : d ≠ []) (h : AllDigits d) : pyInt d = some (valueFrom 0 d : Int) :=
  (C58_int_text d _).2 ⟨[], [], [], d, [], by simp [underscored], by simp, by simp, by simpa using ⟨h0, h⟩, Or.inl ⟨Or.inl rfl, by simp⟩⟩

/-- The size is the number before the last word. -/
theorem header_size (p d z : Bytes) (m : Nat) (hp : ∃ c ∈ p, c ∉ blanks) (h0 : d ≠ []) (h : AllDigits d) (hz0 : z ≠ [])
    (hz : ∀ c ∈ z, isSpace c = false) :
    headerSize (p ++ (32 :: (d ++ (32 :: (List.replicate m 32 ++ z))))) = .ok (valueFrom 0 d : Int) := by
  have hw : words [] (p ++ (32 :: (d ++ (32 :: (List.replicate m 32 ++ z))))) = words [] p ++ [d, z] := by
    rw [words_append 32 (by decide), words_append 32 (by decide), words_word d (digit_word d h) [] (by simpa using h0)]
    have : words [] (List.replicate m 32 ++ z) = [z] := by
      cases m with
      | zero =>
        rw [List.replicate_zero, List.nil_append, words_word z hz [] (by simpa using hz0)]
        simp
      | succ m =>
        rw [List.replicate_succ', List.append_assoc]
        show words [] (List.replicate m 32 ++ 32 :: z) = _
        rw [words_append 32 (by decide), words_spaces, words_word z hz [] (by simpa using hz0)]
        simp
    rw [this]
    simp
  have hne : words [] p ≠ [] := by
    apply words_some
    right
    obtain ⟨c, hc, hb⟩ := hp
    exact ⟨c, hc, by rw [← blank_iff] at hb; simpa using hb⟩
  have hpos := List.length_pos_of_ne_nil hne
  unfold headerSize
  simp only
  rw [hw]
  rw [if_neg (by simp only [List.length_append, List.length_cons, List.length_nil]; omega)]
  have : (words [] p ++ [d, z])[(words [] p ++ [d, z]).length - 2]? = some d := by
    rw [show (words [] p ++ [d, z]).length - 2 = (words [] p).length by simp]
    simp
  rw [this]
  simp only
  rw [pyInt_digits d h0 h]

/-! ## Entries -/

theorem column_length (n : Nat) (t : Bytes) (h : t.length ≤ n) : (arColumn n t).length = n := by
  unfold arColumn
  simp
  omega

theorem read_line (data : Bytes) (s : InputStream) (hs : stringInputStream data = .ok s) (k : Nat) (t : Bytes) (h0 : 10 ∉ t)
    (hp : t ++ [10] <+: data.drop k) :
    genericString s .big (8 * k) .unixLine .eightBit none = .ok ⟨.eightBit, 0, t.length, (t.length + 1) * 8⟩ ∧
    stringContent s (8 * k) ⟨.eightBit, 0, t.length, (t.length + 1) * 8⟩ = .ok t := by
  obtain ⟨rest, hr⟩ := hp
  have hk : k ≤ data.length := by
    rcases Nat.lt_or_ge data.length k with h | h
    · rw [List.drop_eq_nil_of_le (by omega)] at hr
      simp at hr
    · exact h
  have ht : (data.drop k).takeWhile (· ≠ 10) = t := by
    rw [← hr, List.append_assoc]
    exact takeWhile_until t rest 10 h0
  have hl : t.length < (data.drop k).length := by
    rw [← hr]
    simp
  have h := C42_byte hs .big (by simp) k hk .unixLine 10 rfl .eightBit (Or.inl rfl)
  simp only [ht] at h
  rw [if_pos hl] at h
  exact h

theorem read_ar_entry (data : Bytes) (s : InputStream) (hs : stringInputStream data = .ok s) (k : Nat) (t : Bytes) (h0 : 10 ∉ t) (n : Nat)
    (hn : headerSize t = .ok (n : Int)) (hp : t ++ [10] <+: data.drop k) :
    readEntry s (8 * k) = .ok ⟨t, if n = 0 then none else some (8 * (k + t.length + 1), 8 * n), 8 * (t.length + 1 + n)⟩ := by
  obtain ⟨h1, h2⟩ := read_line data s hs k t h0 hp
  unfold readEntry
  rw [h1]
  simp only
  rw [h2]
  simp only
  rw [hn]
  simp only
  have e : ((t.length + 1 : Int) * 8).toNat = 8 * (t.length + 1) := by omega
  rw [e, Int.toNat_natCast]
  by_cases h : n = 0
  · subst h
    rfl
  · rw [if_pos (by omega), if_neg h, show 8 * k + 8 * (t.length + 1) = 8 * (k + t.length + 1) by omega,
      show 8 * (t.length + 1) + 8 * n = 8 * (t.length + 1 + n) by omega]

/-- A file is read with its header and its content, if its size has at most nine digits. -/
theorem C103_entry (data : Bytes) (s : InputStream) (hs : stringInputStream data = .ok s) (i : ArItem) (h : i.Good)
    (hd : i.digits.length ≤ 9) (k : Nat) (hp : i.header ++ [10] <+: data.drop k) : readEntry s (8 * k) = .ok (i.shown k) := by
  have hl : i.header.length = 59 := by
    unfold ArItem.header ArItem.columns
    obtain ⟨h1, h2, h3, h4, h5⟩ := h.fits
    simp only [List.length_append, column_length _ _ h1, column_length _ _ h2, column_length _ _ h3, column_length _ _ h4,
      column_length _ _ (Nat.le_of_lt h5), column_length 10 _ (by omega : i.digits.length ≤ 10), List.length_singleton]
  have hsize : headerSize i.header = .ok (i.content.length : Int) := by
    have h5 := h.fits.2.2.2.2
    have e : i.header = (arColumn 16 i.name ++ arColumn 12 i.date ++ arColumn 6 i.uid ++ arColumn 6 i.gid ++
        (i.mode ++ List.replicate (7 - i.mode.length) 32)) ++ (32 :: (i.digits ++ (32 :: (List.replicate (9 - i.digits.length) 32 ++ [0x60])))) := by
      unfold ArItem.header ArItem.columns
      rw [show arColumn 8 i.mode = i.mode ++ List.replicate (7 - i.mode.length) 32 ++ [32] by
          unfold arColumn
          rw [show 8 - i.mode.length = (7 - i.mode.length) + 1 by omega, List.replicate_succ', List.append_assoc],
        show arColumn 10 i.digits = i.digits ++ (32 :: List.replicate (9 - i.digits.length) 32) by
          unfold arColumn
          rw [show 10 - i.digits.length = (9 - i.digits.length) + 1 by omega, List.replicate_succ]]
      simp
    rw [e, header_size _ _ _ _ _ h.digits.1 h.digits.2 (by simp) (by decide), h.size]
    obtain ⟨c, hc, hb⟩ := h.named
    exact ⟨c, by simp [arColumn, hc], hb⟩
  rw [read_ar_entry data s hs k i.header h.lines _ hsize hp, hl]
  unfold ArItem.shown
  by_cases hc : i.content = []
  · rw [hc]; rfl
  · have := List.length_pos_of_ne_nil hc
    rw [if_neg (by omega), if_neg hc]

/-- The files of an archive are found in order, with the empty lines between them. -/
theorem C103_archive (data : Bytes) (s : InputStream) (hs : stringInputStream data = .ok s) (l : List ArItem)
    (h : ∀ i ∈ l, i.Good ∧ i.digits.length ≤ 9) (k fuel : Nat) (hf : (l.map fun i => i.feeds + 1).sum < fuel) (hk : k ≤ data.length)
    (hd : data.drop k = (l.map ArItem.bytes).flatten) : readItems s fuel (8 * k) (8 * data.length) = .ok (arPlaces k l) := by
  have feeds : ∀ (n k fuel : Nat) (rest : Bytes) (r : List (Nat × Item)), n < fuel → k ≤ data.length →
      data.drop k = List.replicate n 10 ++ rest → readItems s (fuel - n) (8 * (k + n)) (8 * data.length) = .ok r →
      readItems s fuel (8 * k) (8 * data.length) = .ok (arLines k n ++ r) := by
    intro n
    induction n with
    | zero => intro k fuel rest r _ _ _ hr; exact hr
    | succ n ih =>
      intro k fuel rest r hf hk hd hr
      obtain ⟨fuel, rfl⟩ : ∃ f, fuel = f + 1 := ⟨fuel - 1, by omega⟩
      have hd' : data.drop k = [10] ++ (List.replicate n 10 ++ rest) := by
        rw [hd, List.replicate_succ]
        rfl
      have hlen := congrArg List.length hd'
      rw [List.length_drop, List.length_append, List.length_singleton] at hlen
      have d1 : data.drop (k + 1) = List.replicate n 10 ++ rest := by
        rw [← List.drop_drop, hd']
        rfl
      have hb : readBytes s ((8 * k : Nat) : Int) 1 = .ok [10] := readBytes_prefix data s hs k [10] (by rw [hd']; exact List.prefix_append ..)
      unfold readItems
      rw [if_pos (by omega), hb]
      simp only
      rw [if_pos trivial, show 8 * k + 8 = 8 * (k + 1) by omega,
        ih (k + 1) fuel rest r (by omega) (by omega) d1 (by
          rw [show fuel - n = fuel + 1 - (n + 1) by omega, show k + 1 + n = k + (n + 1) by omega]; exact hr)]
      rfl
  induction l generalizing k fuel with
  | nil =>
    obtain ⟨fuel, rfl⟩ : ∃ f, fuel = f + 1 := ⟨fuel - 1, by simp at hf; omega⟩
    have : data.length ≤ k := by
      have := congrArg List.length hd
      simp at this
      omega
    unfold readItems
    rw [if_neg (by omega)]
    rfl
  | cons i l ih =>
    simp only [List.map_cons, List.sum_cons] at hf
    obtain ⟨fuel, rfl⟩ : ∃ f, fuel = f + 1 := ⟨fuel - 1, by omega⟩
    obtain ⟨hg, h9⟩ := h i (by simp)
    have hd' : data.drop k = i.header ++ [10] ++ (i.content ++ (List.replicate i.feeds 10 ++ (l.map ArItem.bytes).flatten)) := by
      rw [hd]
      simp [ArItem.bytes]
    have hhl : i.header.length = 59 := by
      unfold ArItem.header ArItem.columns
      obtain ⟨h1, h2, h3, h4, h5⟩ := hg.fits
      simp only [List.length_append, column_length _ _ h1, column_length _ _ h2, column_length _ _ h3, column_length _ _ h4,
        column_length _ _ (Nat.le_of_lt h5), column_length 10 _ (by omega : i.digits.length ≤ 10), List.length_singleton]
    have hlen := congrArg List.length hd'
    simp only [List.length_drop, List.length_append, hhl, List.length_singleton, List.length_replicate] at hlen
    have d1 : data.drop (k + 60 + i.content.length) = List.replicate i.feeds 10 ++ (l.map ArItem.bytes).flatten := by
      rw [Nat.add_assoc, ← List.drop_drop, hd', ← List.append_assoc,
        show 60 + i.content.length = (i.header ++ [10] ++ i.content).length by simp [hhl]; omega, List.drop_left]
    have hbl : i.bytes.length = 60 + i.content.length + i.feeds := by
      unfold ArItem.bytes
      simp [hhl]
      omega
    have d2 : data.drop (k + i.bytes.length) = (l.map ArItem.bytes).flatten := by
      rw [hbl, show k + (60 + i.content.length + i.feeds) = (k + 60 + i.content.length) + i.feeds by omega, ← List.drop_drop, d1,
        List.drop_left' (by simp)]
    -- the first byte
    obtain ⟨c, hc, hc10⟩ : ∃ c, [c] <+: data.drop k ∧ c ≠ 10 := by
      cases hh : i.header with
      | nil => rw [hh] at hhl; cases hhl
      | cons c t =>
        refine ⟨c, ?_, ?_⟩
        · rw [hd', hh]
          exact ⟨_, rfl⟩
        · rintro rfl
          exact hg.lines (by rw [hh]; simp)
    have hb : readBytes s ((8 * k : Nat) : Int) 1 = .ok [c] := readBytes_prefix data s hs k [c] hc
    have hr := C103_entry data s hs i hg h9 k (by rw [hd']; exact List.prefix_append ..)
    unfold readItems
    rw [if_pos (by omega), hb]
    simp only
    rw [if_neg (by simp [hc10]), hr]
    simp only
    have hsz : (i.shown k).size = 8 * (60 + i.content.length) := rfl
    rw [hsz, if_neg (by omega), show 8 * k + 8 * (60 + i.content.length) = 8 * (k + 60 + i.content.length) by omega,
      feeds i.feeds (k + 60 + i.content.length) fuel _ (arPlaces (k + i.bytes.length) l) (by omega) (by omega) d1 (by
        rw [show k + 60 + i.content.length + i.feeds = k + i.bytes.length by omega]
        exact ih (fun j hj => h j (by simp [hj])) (k + i.bytes.length) (fuel - i.feeds) (by omega) (by omega) d2)]
    rfl

/-- Violation: a size of ten digits has no blank behind it, and the mode is taken as size. -/
theorem C103_big_file (data : Bytes) (s : InputStream) (hs : stringInputStream data = .ok s) (i : ArItem) (h : i.Good)
    (hd : i.digits.length = 10) (hm : i.mode ≠ [] ∧ AllDigits i.mode) (hgid : i.gid.length < 6) (k : Nat) (hp : i.header ++ [10] <+: data.drop k) :
    ∃ e, readEntry s (8 * k) = .ok e ∧ e.size = 8 * (60 + valueFrom 0 i.mode) := by
  have hl : i.header.length = 59 := by
    unfold ArItem.header ArItem.columns
    obtain ⟨h1, h2, h3, h4, h5⟩ := h.fits
    simp only [List.length_append, column_length _ _ h1, column_length _ _ h2, column_length _ _ h3, column_length _ _ h4,
      column_length _ _ (Nat.le_of_lt h5), column_length 10 _ (by omega : i.digits.length ≤ 10), List.length_singleton]
  have h5 := h.fits.2.2.2.2
  have e : i.header = (arColumn 16 i.name ++ arColumn 12 i.date ++ arColumn 6 i.uid ++ (i.gid ++ List.replicate (5 - i.gid.length) 32)) ++
      (32 :: (i.mode ++ (32 :: (List.replicate (7 - i.mode.length) 32 ++ (i.digits ++ [0x60]))))) := by
    unfold ArItem.header ArItem.columns
    rw [show arColumn 6 i.gid = i.gid ++ List.replicate (5 - i.gid.length) 32 ++ [32] by
        unfold arColumn
        rw [show 6 - i.gid.length = (5 - i.gid.length) + 1 by omega, List.replicate_succ', List.append_assoc],
      show arColumn 8 i.mode = i.mode ++ (32 :: List.replicate (7 - i.mode.length) 32) by
        unfold arColumn
        rw [show 8 - i.mode.length = (7 - i.mode.length) + 1 by omega, List.replicate_succ],
      show arColumn 10 i.digits = i.digits by
        unfold arColumn
        rw [hd]
        simp]
    simp
  have hsize : headerSize i.header = .ok ((valueFrom 0 i.mode : Nat) : Int) := by
    rw [e, header_size _ _ _ _ _ hm.1 hm.2 (by simp) (by
      intro c hc
      rcases List.mem_append.1 hc with hc | hc
      · exact digit_word _ h.digits.2 c hc
      · rw [List.mem_singleton.1 hc]; decide)]
    obtain ⟨c, hc, hb⟩ := h.named
    exact ⟨c, by simp [arColumn, hc], hb⟩
  refine ⟨_, read_ar_entry data s hs k i.header h.lines _ hsize hp, ?_⟩
  rw [hl]

/-- A header of two words is refused, even if the first is a number. -/
theorem C103_two_words (a b : Bytes) (ha0 : a ≠ []) (hb0 : b ≠ []) (ha : ∀ c ∈ a, isSpace c = false) (hb : ∀ c ∈ b, isSpace c = false) :
    headerSize (a ++ 32 :: b) = .error .parser := by
  have hw : words [] (a ++ 32 :: b) = [a, b] := by
    rw [words_append 32 (by decide), words_word a ha [] (by simpa using ha0), words_word b hb [] (by simpa using hb0)]
    rfl
  unfold headerSize
  rw [hw]
  rfl

/-- The mark at the beginning is required. -/
theorem C103_valid (data : Bytes) (s : InputStream) (hs : stringInputStream data = .ok s) (h8 : 8 ≤ data.length) :
    Ar.valid s = .ok (decide ([0x21, 0x3c, 0x61, 0x72, 0x63, 0x68, 0x3e, 10] <+: data)) := by
  have hb : readBytes s 0 8 = .ok (data.take 8) := by
    have := readBytes_prefix data s hs 0 (data.take 8) (List.take_prefix ..)
    rw [List.length_take_of_le h8] at this
    exact this
  unfold Ar.valid
  rw [hb]
  simp only
  congr 1
  rw [decide_eq_decide]
  constructor
  · intro e
    rw [← e]
    exact List.take_prefix ..
  · rintro ⟨r, rfl⟩
    rfl

/-! ## Examples -/

def sampleAr : ArItem := ⟨[97, 47], [48], [48], [48], [54, 52, 52], [51], [1, 2, 3], 1⟩

theorem sampleAr_good : sampleAr.Good where
  fits := by decide
  lines := by decide
  named := by decide
  digits := by unfold AllDigits; decide
  size := by decide

def sampleArFile : Bytes := [0x21, 0x3c, 0x61, 0x72, 0x63, 0x68, 0x3e, 10] ++ ([sampleAr, sampleAr].map ArItem.bytes).flatten

example (s : InputStream) (hs : stringInputStream sampleArFile = .ok s) :
    readArchive s 5 (8 * sampleArFile.length) = .ok (arPlaces 8 [sampleAr, sampleAr]) :=
  C103_archive _ s hs [sampleAr, sampleAr] (by
    intro i hi
    have : i = sampleAr := by simpa using hi
    subst this
    exact ⟨sampleAr_good, by decide⟩) 8 5 (by decide) (by decide +kernel) rfl

example : arPlaces 8 [sampleAr, sampleAr] = [(64, .file (sampleAr.shown 8)), (568, .line), (576, .file (sampleAr.shown 72)), (1080, .line)] := by
  decide

example (s : InputStream) (hs : stringInputStream [0x21, 0x3c, 0x61, 0x72, 0x63, 0x68, 0x3e, 10] = .ok s) : Ar.valid s = .ok true :=
  C103_valid _ s hs (by decide)

/-- A header that tells 1234567890 bytes. -/
example (data : Bytes) (s : InputStream) (hs : stringInputStream data = .ok s) (content : Bytes) (hc : content.length = 1234567890)
    (hp : ({sampleAr with digits := [49, 50, 51, 52, 53, 54, 55, 56, 57, 48], content := content} : ArItem).header ++ [10] <+: data.drop 8) :
    ∃ e, readEntry s 64 = .ok e ∧ e.size = 8 * (60 + 644) :=
  C103_big_file data s hs {sampleAr with digits := [49, 50, 51, 52, 53, 54, 55, 56, 57, 48], content := content}
    ⟨by simp [sampleAr], by simp [ArItem.header, ArItem.columns, sampleAr, arColumn], ⟨97, by simp [sampleAr], by decide⟩,
      by constructor; simp; unfold AllDigits; simp, by rw [hc]; rfl⟩
    rfl (by simp [sampleAr, AllDigits]) (by simp [sampleAr]) 8 hp

end Hachoir.Props
