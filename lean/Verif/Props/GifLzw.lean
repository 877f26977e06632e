import Verif.Formats.GifLzwLemmas
import Mathlib.Tactic.IntervalCases

/-!
# C59: the LZW codes of a GIF image
-/

set_option linter.unusedVariables false

namespace Hachoir.Props
open Hachoir Hachoir.Stream Hachoir.Formats Spec

/-- Number of pixels of a list of phrases. -/
def pixelCount (ws : List (List Nat)) : Nat := (ws.map List.length).sum

/-- The fields expected for a picture, `total` pixels being decoded already. -/
def pictureFields (sb : Nat) : Nat → List LzwSegment → LzwSegment → List GifCode
  | total, [], g => phraseFields sb 0 total g.words g.codes ++
      [specialField sb g.codes.length (total + pixelCount g.words) (2 ^ sb + 1)]
  | total, h :: hs, g => phraseFields sb 0 total h.words h.codes ++
      specialField sb h.codes.length (total + pixelCount h.words) (2 ^ sb) ::
        pictureFields sb (total + pixelCount h.words) hs g

/-- The segment leaves the table with unused numbers: the largest number usable at its end has at
most 12 bits. -/
def NotFull (sb : Nat) (g : LzwSegment) : Prop := 2 ^ sb + 1 + g.codes.length < 4096

/-- The clear code does not come at the moment the size of the codes grows. -/
def ClearInside (sb : Nat) (g : LzwSegment) : Prop := ∀ k, 2 ^ sb + 1 + g.codes.length ≠ 2 ^ k

theorem gifWidth_eq (sb i : Nat) (h : 2 ^ sb + 1 + i < 4096) : gifWidth sb i = lzwWidth sb i := by
  unfold gifWidth lzwWidth
  have : Nat.log2 (2 ^ sb + 1 + i) < 12 := (Nat.log2_lt (by rw [Nat.add_assoc]; exact Nat.ne_of_gt (Nat.add_pos_right _ (by omega)))).2 h
  omega

theorem lzwBits_congr (f g : Nat → Nat) (cs : List Nat) (i : Nat)
    (h : ∀ j, j < i + cs.length → f j = g j) : lzwBits f i cs = lzwBits g i cs := by
  induction cs generalizing i with
  | nil => rfl
  | cons c cs ih =>
    simp only [List.length_cons] at h
    rw [lzwBits, lzwBits, h i (by omega), ih (i + 1) (fun j hj => h j (by omega))]

theorem gifBits_lzwWidth (sb : Nat) (hs : List LzwSegment) (g : LzwSegment)
    (hf : ∀ h ∈ g :: hs, NotFull sb h) : gifBits sb (gifWidth sb) hs g = gifBits sb (lzwWidth sb) hs g := by
  have key : ∀ h c, NotFull sb h → lzwBits (gifWidth sb) 0 (h.codes ++ [c]) = lzwBits (lzwWidth sb) 0 (h.codes ++ [c]) := by
    intro h c hn
    refine lzwBits_congr _ _ _ _ (fun j hj => gifWidth_eq sb j ?_)
    unfold NotFull at hn
    simp only [List.length_append, List.length_cons, List.length_nil] at hj
    omega
  induction hs with
  | nil => exact key g _ (hf g (by simp))
  | cons h hs ih =>
    rw [gifBits, gifBits, key h _ (hf h (by simp)), ih (fun k hk => hf k (by
      simp only [List.mem_cons] at hk ⊢
      tauto))]

theorem lzwBits_append (f : Nat → Nat) (cs ds : List Nat) (i : Nat) :
    lzwBits f i (cs ++ ds) = lzwBits f i cs ++ lzwBits f (i + cs.length) ds := by
  induction cs generalizing i with
  | nil => simp [lzwBits]
  | cons c cs ih =>
    simp only [List.cons_append, lzwBits, ih, List.append_assoc, List.length_cons]
    rw [show i + 1 + cs.length = i + (cs.length + 1) by omega]

theorem gifLoop_picture (data : Bytes) (s : InputStream) (hstr : stringInputStream data = .ok s)
    (sb : Nat) (hsb : 2 ≤ sb) (hs : List LzwSegment) (g : LzwSegment)
    (hv : ∀ h ∈ g :: hs, h.Valid sb) (hc : ∀ h ∈ hs, ClearInside sb h) (n addr : Nat) (st : LzwState)
    (hst : ∀ ws, LzwInv sb ws 0 st) (rest : List Bool)
    (hb : (gifBits sb (lzwWidth sb) hs g ++ rest) <+: (bitsLSB data).drop addr)
    (hn : (pictureFields sb st.total hs g).length ≤ n) :
    gifLoop s sb n addr st =
      (pictureFields sb st.total hs g, addr + (gifBits sb (lzwWidth sb) hs g).length, none) := by
  have hpl : ∀ (h : LzwSegment) (t : Nat), h.Valid sb →
      (phraseFields sb 0 t h.words h.codes).length = h.codes.length := by
    intro h t hval
    have : ∀ (ws : List (List Nat)) (cs : List Nat) (i t : Nat), cs.length = ws.length →
        (phraseFields sb i t ws cs).length = cs.length := by
      intro ws
      induction ws with
      | nil => intro cs i t hl; cases cs <;> simp_all [phraseFields]
      | cons w ws ih =>
        intro cs i t hl
        cases cs with
        | nil => simp at hl
        | cons c cs => simp [phraseFields, ih cs (i + 1) _ (by simpa using hl)]
    exact this _ _ _ _ hval.1
  induction hs generalizing n addr st rest with
  | nil =>
    have hval := hv g (by simp)
    simp only [pictureFields, List.length_append, List.length_singleton, hpl g _ hval] at hn
    obtain ⟨m, rfl⟩ : ∃ m, n = m + 1 + g.codes.length := ⟨n - 1 - g.codes.length, by omega⟩
    simp only [gifBits] at hb
    obtain ⟨st', h1, h2, h3, h4⟩ := gifLoop_phrases data s hstr sb hsb g.words (m + 1) [2 ^ sb + 1] rest
      g.codes 0 addr st (hst _) (fun j c hj => by rw [Nat.zero_add]; exact hval.2 j c hj) hb
    rw [Nat.zero_add] at h2 h3
    rw [h1, gifLoop_end data s hstr sb hsb g.words m g.codes.length _ st' h2 rest h3, h4]
    simp only [List.drop_zero, pictureFields, gifBits, lzwBits_append, List.length_append, lzwBits,
      length_toBitsLSB, Nat.zero_add, List.append_nil, Nat.add_assoc]
    rw [show List.take g.codes.length g.words = g.words by rw [hval.1, List.take_length]]
    rfl
  | cons h hs ih =>
    have hval := hv h (by simp)
    simp only [pictureFields, List.length_append, List.length_cons, hpl h _ hval] at hn
    obtain ⟨m, rfl⟩ : ∃ m, n = m + 1 + h.codes.length := ⟨n - 1 - h.codes.length, by omega⟩
    simp only [gifBits, List.append_assoc] at hb
    obtain ⟨st', h1, h2, h3, h4⟩ := gifLoop_phrases data s hstr sb hsb h.words (m + 1) [2 ^ sb]
      (gifBits sb (lzwWidth sb) hs g ++ rest)
      h.codes 0 addr st (hst _) (fun j c hj => by rw [Nat.zero_add]; exact hval.2 j c hj) hb
    rw [Nat.zero_add] at h2 h3
    obtain ⟨st2, k1, k2, k3, k4⟩ := gifLoop_clear data s hstr sb hsb h.words m h.codes.length _ st' h2
      (hc h (by simp)) _ h3
    have htot : st2.total = st.total + pixelCount h.words := by
      rw [k4, h4, List.drop_zero, hval.1, List.take_length]
      rfl
    have := ih (fun k hk => hv k (by
        simp only [List.mem_cons] at hk ⊢
        tauto)) (fun k hk => hc k (by simp [hk])) m _ st2 k2 rest k3 (by rw [htot]; omega)
    rw [h1, k1, this, htot]
    have ht' : st'.total = st.total + pixelCount h.words := by rw [← k4, htot]
    rw [ht']
    simp only [List.drop_zero, pictureFields, gifBits, lzwBits_append, List.length_append, lzwBits,
      length_toBitsLSB, Nat.zero_add, List.append_nil, Nat.add_assoc]

/-- C59 (partial): the fields `code[]` of a picture written by any LZW encoder have the sizes and
the values of the codes sent, and each is described by the phrase it stands for; the generator
stops right behind the end code.  Missing: pictures whose table fills up
(`C59_full_table_disagrees`) and clear codes sent when the size of the codes grows
(`C59_clear_disagrees`). -/
theorem C59_decode_partial (data : Bytes) (s : InputStream) (hstr : stringInputStream data = .ok s)
    (sb : Nat) (hsb : 2 ≤ sb) (hs : List LzwSegment) (g : LzwSegment)
    (hv : ∀ h ∈ g :: hs, h.Valid sb) (hf : ∀ h ∈ g :: hs, NotFull sb h)
    (hc : ∀ h ∈ hs, ClearInside sb h) (n : Nat)
    (hb : gifBits sb (gifWidth sb) hs g <+: bitsLSB data)
    (hn : (pictureFields sb 0 hs g).length ≤ n) :
    gifImageBlock s sb n =
      (pictureFields sb 0 hs g, (gifBits sb (gifWidth sb) hs g).length, none) := by
  rw [gifBits_lzwWidth sb hs g hf] at hb ⊢
  have := gifLoop_picture data s hstr sb hsb hs g hv hc n 0
    { nbits := sb, dict := [], obuf := [], total := 0 } (fun ws => Or.inl ⟨rfl, rfl, rfl, Or.inl rfl⟩) []
    (by simpa using hb) hn
  rw [gifImageBlock, this, Nat.zero_add]

theorem phraseFields_words (sb : Nat) (ws : List (List Nat)) (cs : List Nat) (i t : Nat)
    (h : cs.length = ws.length) :
    ((phraseFields sb i t ws cs).map GifCode.word).flatten = ws.flatten ∧
    (phraseFields sb i t ws cs).map GifCode.value = cs := by
  induction ws generalizing cs i t with
  | nil => cases cs <;> simp_all [phraseFields]
  | cons w ws ih =>
    cases cs with
    | nil => simp at h
    | cons c cs =>
      have := ih cs (i + 1) (t + w.length) (by simpa using h)
      simp [phraseFields, phraseField, this]

/-- C59 (partial): the pixels named by the descriptions, one after the other, are the pixels of
the picture, and the "Current Decoded Length" of the last field is their number. -/
theorem C59_pixels_partial (data : Bytes) (s : InputStream) (hstr : stringInputStream data = .ok s)
    (sb : Nat) (hsb : 2 ≤ sb) (hs : List LzwSegment) (g : LzwSegment)
    (hv : ∀ h ∈ g :: hs, h.Valid sb) (hf : ∀ h ∈ g :: hs, NotFull sb h)
    (hc : ∀ h ∈ hs, ClearInside sb h) (n : Nat)
    (hb : gifBits sb (gifWidth sb) hs g <+: bitsLSB data)
    (hn : (pictureFields sb 0 hs g).length ≤ n) :
    ((gifImageBlock s sb n).1.map GifCode.word).flatten = ((hs ++ [g]).flatMap LzwSegment.words).flatten ∧
    ((gifImageBlock s sb n).1.map GifCode.total).getLast? =
      some ((hs ++ [g]).flatMap LzwSegment.words).flatten.length := by
  rw [C59_decode_partial data s hstr sb hsb hs g hv hf hc n hb hn]
  clear hb hn hc hf hstr
  have key : ∀ t, ((pictureFields sb t hs g).map GifCode.word).flatten = ((hs ++ [g]).flatMap LzwSegment.words).flatten ∧
      ((pictureFields sb t hs g).map GifCode.total).getLast? =
      some (t + ((hs ++ [g]).flatMap LzwSegment.words).flatten.length) := by
    induction hs with
    | nil =>
      intro t
      have := (phraseFields_words sb g.words g.codes 0 t (hv g (by simp)).1).1
      constructor
      · simp [pictureFields, this, specialField]
      · simp [pictureFields, specialField, pixelCount, List.length_flatten]
    | cons h hs ih =>
      intro t
      have hp := (phraseFields_words sb h.words h.codes 0 t (hv h (by simp)).1).1
      have hi := ih (fun k hk => hv k (by
        simp only [List.mem_cons] at hk ⊢
        tauto)) (t + pixelCount h.words)
      constructor
      · simp only [pictureFields, List.map_append, List.map_cons, List.flatten_append, List.flatten_cons, hp, hi.1]
        simp [specialField]
      · simp only [pictureFields, List.map_append, List.map_cons]
        have hne : (pictureFields sb (t + pixelCount h.words) hs g).map GifCode.total ≠ [] := by
          intro h0
          have := hi.2
          rw [h0] at this
          cases this
        rw [List.getLast?_append, List.getLast?_cons]
        rw [hi.2]
        simp [pixelCount, List.length_flatten]
        omega
  have := key 0
  rw [Nat.zero_add] at this
  exact this

/-- Phrases of one pixel can always be sent as they are. -/
theorem literal_valid (sb : Nat) (ps : List Nat) (h : ∀ p ∈ ps, p < 2 ^ sb) :
    (LzwSegment.mk (ps.map fun p => [p]) ps).Valid sb := by
  refine ⟨by simp, fun i c hc => Or.inl ⟨h c (List.mem_of_getElem? hc), ?_⟩⟩
  have hc' : ps[i]? = some c := hc
  show (ps.map fun p => [p])[i]? = some [c]
  rw [List.getElem?_map, hc']
  rfl

/-- The pixels 1 1 1 1 2 1 1 1 in the phrases 1, 11, 1, 2, 111 (the code 6 is used while its
entry is being defined), then a clear code, and the pixel 3. -/
example : ∃ s, stringInputStream [113, 228, 104, 5] = .ok s ∧
    (LzwSegment.mk [[1], [1, 1], [1], [2], [1, 1, 1]] [1, 6, 1, 2, 7]).Valid 2 ∧
    NotFull 2 ⟨[[1], [1, 1], [1], [2], [1, 1, 1]], [1, 6, 1, 2, 7]⟩ ∧
    ClearInside 2 ⟨[[1], [1, 1], [1], [2], [1, 1, 1]], [1, 6, 1, 2, 7]⟩ ∧
    gifBits 2 (gifWidth 2) [⟨[[1], [1, 1], [1], [2], [1, 1, 1]], [1, 6, 1, 2, 7]⟩] ⟨[[3]], [3]⟩ <+:
      bitsLSB [113, 228, 104, 5] ∧
    (gifImageBlock s 2 9).1.map GifCode.word = [[1], [1, 1], [1], [2], [1, 1, 1], [], [3], []] := by
  refine ⟨_, rfl, ⟨rfl, ?_⟩, by unfold NotFull; decide, ?_, by decide +kernel, by decide +kernel⟩
  · intro i c h
    match i, h with
    | 0, h => cases h; exact Or.inl (by decide)
    | 1, h => cases h; exact Or.inr ⟨0, [1, 1], by decide⟩
    | 2, h => cases h; exact Or.inl (by decide)
    | 3, h => cases h; exact Or.inl (by decide)
    | 4, h => cases h; exact Or.inr ⟨1, [1, 1, 1], by decide⟩
  · intro k h
    have h' : 10 = 2 ^ k := h
    rcases Nat.lt_or_ge k 4 with hk | hk
    · interval_cases k <;> simp at h'
    · have := Nat.pow_le_pow_right (n := 2) (by omega) hk
      omega

/-- C59 (disagreement): a clear code sent when the size of the codes grows is taken to be one bit
shorter than the code before it would be written with, and everything behind it is misread: the
pixels 0 1 2, a clear code and the pixel 1 are shown as 0 1 2 2 .. -/
theorem C59_clear_disagrees : ∃ (data : Bytes) (s : InputStream) (h g : LzwSegment),
    stringInputStream data = .ok s ∧ h.Valid 2 ∧ g.Valid 2 ∧ NotFull 2 h ∧ NotFull 2 g ∧
    gifBits 2 (gifWidth 2) [h] g <+: bitsLSB data ∧
    h.words.flatten ++ g.words.flatten = [0, 1, 2, 1] ∧
    ((gifImageBlock s 2 9).1.map GifCode.word).flatten.take 4 = [0, 1, 2, 2] :=
  ⟨[136, 40, 5], _, ⟨[[0], [1], [2]], [0, 1, 2]⟩, ⟨[[1]], [1]⟩, rfl,
    literal_valid 2 [0, 1, 2] (by decide), literal_valid 2 [1] (by decide),
    by unfold NotFull; decide, by unfold NotFull; decide, by decide +kernel, rfl, by decide +kernel⟩

/-- C59 (disagreement): a number that no phrase can have yet is described all the same: after the
pixel 0 the largest usable number is 6, but 7 is shown as the pixels 0 0. -/
theorem C59_unknown_code_disagrees : ∃ (data : Bytes) (s : InputStream),
    stringInputStream data = .ok s ∧ bitsLSB data = toBitsLSB 3 0 ++ toBitsLSB 3 7 ++ toBitsLSB 3 5 ++ toBitsLSB 7 0 ∧
    (∀ ws, ¬ LzwCodeFor 2 ws 1 7) ∧
    (gifImageBlock s 2 9).1.map (fun f => (f.value, f.word)) = [(0, [0]), (7, [0, 0]), (5, [])] ∧
    (gifImageBlock s 2 9).2.2 = none := by
  refine ⟨[120, 1], _, rfl, by decide +kernel, ?_, by decide +kernel, by decide +kernel⟩
  rintro ws (⟨h, _⟩ | ⟨j, w, hj, h, _⟩)
  · exact absurd h (by decide)
  · have : 7 = 2 ^ 2 + 2 + j := h
    omega

/-- C59 (disagreement): when the table is full (the next entry would be number 4096) the codes
stay 12 bits wide in GIF, but the parser reads 13 bits: a clear code followed by a one bit is
not recognised and is described as an entry of the table. -/
theorem C59_full_table_disagrees (data : Bytes) (s : InputStream) (hstr : stringInputStream data = .ok s)
    (sb : Nat) (hsb : 2 ≤ sb) (hsb' : sb ≤ 11) (g : LzwSegment) (hv : g.Valid sb)
    (hfull : 2 ^ sb + 1 + g.codes.length = 4096) (n : Nat)
    (hb : lzwBits (gifWidth sb) 0 (g.codes ++ [2 ^ sb]) ++ [true] <+: bitsLSB data) :
    ∃ f fs, (gifImageBlock s sb (n + 1 + g.codes.length)).1 =
        phraseFields sb 0 0 g.words g.codes ++ f :: fs ∧
      f.width = 13 ∧ f.value = 4096 + 2 ^ sb ∧ f.word ≠ [] ∧ f.guessed = true := by
  have hw : gifWidth sb g.codes.length = 12 := by
    have : lzwWidth sb g.codes.length = 13 := by
      unfold lzwWidth
      rw [hfull, log2_unique 4096 12 (by norm_num) (by norm_num)]
    unfold gifWidth
    rw [this]
    rfl
  have hW : lzwWidth sb g.codes.length = 13 := by
    unfold lzwWidth
    rw [hfull, log2_unique 4096 12 (by norm_num) (by norm_num)]
  have hp : 2 ^ sb ≤ 2 ^ 11 := Nat.pow_le_pow_right (by omega) hsb'
  have hbits : toBitsLSB 12 (2 ^ sb) ++ [true] = toBitsLSB 13 (4096 + 2 ^ sb) := by
    refine ofBitsLSB_inj _ _ (by simp [length_toBitsLSB]) ?_
    rw [ofBitsLSB_append, ofBitsLSB_toBitsLSB, ofBitsLSB_toBitsLSB, length_toBitsLSB,
      Nat.mod_eq_of_lt (by omega), Nat.mod_eq_of_lt (by omega)]
    simp only [ofBitsLSB, Bool.toNat_true]
    omega
  have hb' : lzwBits (lzwWidth sb) 0 (g.codes ++ [4096 + 2 ^ sb]) ++ [] <+: (bitsLSB data).drop 0 := by
    rw [List.append_nil, List.drop_zero, lzwBits_append]
    rw [lzwBits_append] at hb
    rw [show lzwBits (gifWidth sb) 0 g.codes = lzwBits (lzwWidth sb) 0 g.codes from
      lzwBits_congr _ _ _ _ (fun j hj => gifWidth_eq sb j (by omega))] at hb
    simp only [lzwBits, Nat.zero_add, List.append_nil] at hb ⊢
    rw [hW, ← hbits]
    rw [hw, List.append_assoc] at hb
    exact hb
  obtain ⟨st', h1, h2, h3, h4⟩ := gifLoop_phrases data s hstr sb hsb g.words (n + 1) [4096 + 2 ^ sb] []
    g.codes 0 0 { nbits := sb, dict := [], obuf := [], total := 0 }
    (Or.inl ⟨rfl, rfl, rfl, Or.inl rfl⟩) (fun j c hj => by rw [Nat.zero_add]; exact hv.2 j c hj) hb'
  rw [Nat.zero_add] at h1 h2 h3
  rw [Nat.zero_add] at h3
  simp only [lzwBits, List.append_nil, hW] at h3
  obtain ⟨hread, _⟩ := readBits_toBits data s hstr _ 13 (4096 + 2 ^ sb) [] (by omega) (by omega)
    (by simpa using h3)
  have hlook : LzwState.lookup { st' with nbits := 13 } sb (4096 + 2 ^ sb) = none := by
    unfold LzwState.lookup
    refine List.getElem?_eq_none ?_
    show st'.dict.length ≤ _
    rcases h2 with ⟨h0, hd, _⟩ | ⟨k, hk, _, hd, _⟩
    · rw [hd]; simp
    · have hk' : ∀ a b, a + 1 + b = 4096 → b ≤ 4095 := by intro a b h; omega
      have := hk' _ _ hfull
      rw [hd, Nat.add_comm 4096, Nat.add_sub_add_left]
      omega
  obtain ⟨q, qs, hq⟩ : ∃ q qs, st'.obuf = q :: qs := by
    rcases h2 with ⟨h0, hd, _⟩ | ⟨k, hk, _, hd, _, _, ho⟩
    · omega
    · cases h : st'.obuf with
      | nil => exact absurd h ho
      | cons a b => exact ⟨a, b, rfl⟩
  have hwid := h2.width hsb
  rw [hW] at hwid
  have hne1 : ¬ 4096 + 2 ^ sb = 2 ^ sb := by omega
  have hne2 : ¬ 4096 + 2 ^ sb = 2 ^ sb + 1 := by omega
  have hne3 : ¬ 4096 + 2 ^ sb < 2 ^ sb := by omega
  have hcode : ∃ st2, lzwCode sb { st' with nbits := 13 } (4096 + 2 ^ sb) =
      .ok (st2, { width := 13, value := 4096 + 2 ^ sb, word := st'.obuf ++ [q], guessed := true,
                  total := st'.total + (st'.obuf ++ [q]).length }) := by
    unfold lzwCode
    rw [if_neg hne3]
    simp only [hlook]
    simp only [hq]
    exact ⟨_, rfl⟩
  obtain ⟨st2, hcode⟩ := hcode
  refine ⟨{ width := 13, value := 4096 + 2 ^ sb, word := st'.obuf ++ [q], guessed := true,
            total := st'.total + (st'.obuf ++ [q]).length },
    (gifLoop s sb n ((lzwBits (lzwWidth sb) 0 g.codes).length + 13) st2).1, ?_, rfl, rfl, by simp, rfl⟩
  rw [gifImageBlock, h1]
  simp only [List.drop_zero]
  rw [gifLoop]
  simp only [hwid, hread, if_neg hne1, if_neg hne2, hcode]

/-- The full table is met: 4091 single pixels with two bits per pixel fill it. -/
example : ∃ g : LzwSegment, g.Valid 2 ∧ 2 ^ 2 + 1 + g.codes.length = 4096 := by
  refine ⟨_, literal_valid 2 (List.replicate 4091 1) (fun p hp => ?_), ?_⟩
  · rw [(List.mem_replicate.1 hp).2]; decide
  · rw [List.length_replicate]; rfl

end Hachoir.Props
