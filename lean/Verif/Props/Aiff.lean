import Verif.Formats.Aiff
import Verif.Props.Records
import Verif.Props.Float

/-!
# AIFF files (C117)
-/

namespace Hachoir.Props
open Hachoir Hachoir.Stream Hachoir.Field Hachoir.Floats Hachoir.Formats Hachoir.Formats.Aiff Spec

/-- A chunk: tag, content, and a byte behind if the size is odd. -/
def aiffChunk (tag content : Bytes) (pad : UInt8) : Bytes :=
  tag ++ (beBytes 4 content.length ++ (content ++ if content.length % 2 = 0 then [] else [pad]))

theorem chunk_length (tag content : Bytes) (pad : UInt8) (ht : tag.length = 4) :
    (aiffChunk tag content pad).length = 8 + content.length + content.length % 2 := by
  unfold aiffChunk
  by_cases h : content.length % 2 = 0
  · simp only [List.length_append, beBytes_length, ht, if_pos h, List.length_nil]; omega
  · simp only [List.length_append, beBytes_length, ht, if_neg h, List.length_cons, List.length_nil]; omega

/-- The bytes of chunks. -/
def aiffChunks : List (Bytes × Bytes × UInt8) → Bytes
  | [] => []
  | (tag, content, pad) :: cs => aiffChunk tag content pad ++ aiffChunks cs

/-- Where the chunks are, from the byte `k` on. -/
def aiffPlaces (k : Nat) : List (Bytes × Bytes × UInt8) → List Aiff.Chunk
  | [] => []
  | (tag, content, pad) :: cs => ⟨8 * k, tag, content.length⟩ :: aiffPlaces (k + (aiffChunk tag content pad).length) cs

/-- **C117**: the chunks of a file, with any tags and contents, are found at their places. -/
theorem C117_chunks {data : Bytes} {s : InputStream} (hs : stringInputStream data = .ok s) :
    ∀ (cs : List (Bytes × Bytes × UInt8)) (fuel k : Nat), cs.length < fuel → (∀ c ∈ cs, c.1.length = 4 ∧ c.2.1.length < 2 ^ 32) →
      k ≤ data.length → data.drop k = aiffChunks cs →
      readChunks s fuel (8 * k) (8 * data.length) = .ok (aiffPlaces k cs)
  | _, 0, _, hf, _, _, _ => by omega
  | [], fuel + 1, k, _, _, hk, hp => by
    have := congrArg List.length hp
    simp only [aiffChunks, List.length_drop, List.length_nil] at this
    rw [readChunks, if_neg (by omega)]
    rfl
  | (tag, content, pad) :: cs, fuel + 1, k, hf, hg, hk, hp => by
    obtain ⟨ht, hc⟩ := hg (tag, content, pad) (by simp)
    simp only at ht hc
    have hl := chunk_length tag content pad ht
    have hlen := congrArg List.length hp
    simp only [aiffChunks, List.length_append, List.length_drop] at hlen
    have hp' : [tag, beBytes 4 content.length, content, (if content.length % 2 = 0 then [] else [pad]), aiffChunks cs].flatten <+: data.drop k := by
      rw [hp]; exact ⟨[], by simp [aiffChunks, aiffChunk]⟩
    have r1 := readBytes_prefix data s hs k tag (record_part _ 0 _ rfl _ (by simp) hp')
    have r2 := read_be data s hs 4 (k + 4) content.length (by omega) (by omega) (record_part _ 1 _ rfl _ (by simp [ht]) hp') 32 rfl
      ((8 * k + 32 : Nat) : Int) (by omega)
    rw [ht] at r1
    have ih := C117_chunks hs cs fuel (k + (aiffChunk tag content pad).length) (by simp only [List.length_cons] at hf; omega)
      (fun x hx => hg x (by simp [hx])) (by omega)
      (by rw [← List.drop_drop, hp]; simp [aiffChunks])
    have e : 8 * k + (8 + (content.length + content.length % 2)) * 8 = 8 * (k + (aiffChunk tag content pad).length) := by omega
    rw [readChunks, if_pos (by omega)]
    have r1' : readBytes s ((8 * k : Nat) : Int) 4 = .ok tag := r1
    rw [r1']
    simp only []
    rw [r2]
    simp only []
    rw [e, if_neg (by omega), ih]
    rfl

/-- The bytes of a file. -/
def aiffBytes (type : Bytes) (cs : List (Bytes × Bytes × UInt8)) : Bytes :=
  [70, 79, 82, 77] ++ (beBytes 4 (4 + (aiffChunks cs).length) ++ (type ++ aiffChunks cs))

/-- **C117**: a file is accepted, and all its chunks are found. -/
theorem C117_file (type : Bytes) (ht : type = [65, 73, 70, 70] ∨ type = [65, 73, 70, 67]) (cs : List (Bytes × Bytes × UInt8))
    (hg : ∀ c ∈ cs, c.1.length = 4 ∧ c.2.1.length < 2 ^ 32) (s : InputStream) (hs : stringInputStream (aiffBytes type cs) = .ok s)
    (fuel : Nat) (hf : cs.length < fuel) :
    Aiff.valid s = .ok true ∧ readChunks s fuel 96 (8 * (aiffBytes type cs).length) = .ok (aiffPlaces 12 cs) := by
  have hl : type.length = 4 := by rcases ht with rfl | rfl <;> rfl
  generalize hd : aiffBytes type cs = data at *
  have hp : [[70, 79, 82, 77], beBytes 4 (4 + (aiffChunks cs).length), type, aiffChunks cs].flatten <+: data.drop 0 := by
    rw [← hd]; exact ⟨[], by simp [aiffBytes]⟩
  have r0 := readBytes_prefix data s hs 0 [70, 79, 82, 77] (record_part _ 0 _ rfl _ (by simp) hp)
  have r1 := readBytes_prefix data s hs 8 type (record_part _ 2 _ rfl _ (by simp [beBytes_length]) hp)
  have hdrop : data.drop 12 = aiffChunks cs := by
    rw [← hd]
    have e : ([70, 79, 82, 77] ++ (beBytes 4 (4 + (aiffChunks cs).length) ++ type)).length = 12 := by simp [beBytes_length, hl]
    have : aiffBytes type cs = ([70, 79, 82, 77] ++ (beBytes 4 (4 + (aiffChunks cs).length) ++ type)) ++ aiffChunks cs := by simp [aiffBytes]
    rw [this, ← e, List.drop_left]
  have hlen : 12 ≤ data.length := by
    rw [← hd]
    simp only [aiffBytes, List.length_append, beBytes_length, hl, List.length_cons, List.length_nil]
    omega
  constructor
  · have r0' : readBytes s 0 4 = .ok [70, 79, 82, 77] := r0
    have r1' : readBytes s 64 4 = .ok type := by rw [hl] at r1; exact r1
    rw [Aiff.valid, r0']
    simp only [bind, Except.bind]
    rw [if_neg (by decide), r1']
    rcases ht with rfl | rfl <;> rfl
  · exact C117_chunks hs cs fuel 12 hf hg hlen hdrop

/-- Violation: the content size is 8 bytes too small, for every file. -/
theorem C117_content_size (type : Bytes) (cs : List (Bytes × Bytes × UInt8)) (s : InputStream) (ht : type.length = 4)
    (hs : stringInputStream (aiffBytes type cs) = .ok s) (h : 4 + (aiffChunks cs).length < 2 ^ 32) :
    ∃ n, Aiff.contentSize s = .ok n ∧ n + 64 = 8 * (aiffBytes type cs).length := by
  have hl : (aiffBytes type cs).length = 12 + (aiffChunks cs).length := by
    simp only [aiffBytes, List.length_append, beBytes_length, List.length_cons, List.length_nil, ht]
    omega
  rw [hl]
  generalize hd : aiffBytes type cs = data at *
  have hp : [[70, 79, 82, 77], beBytes 4 (4 + (aiffChunks cs).length), type, aiffChunks cs].flatten <+: data.drop 0 := by
    rw [← hd]; exact ⟨[], by simp [aiffBytes]⟩
  have r := read_be data s hs 4 4 _ (by omega) (by omega) (record_part _ 1 _ rfl _ (by simp) hp) 32 rfl 32 rfl
  refine ⟨(4 + (aiffChunks cs).length) * 8, ?_, by omega⟩
  rw [Aiff.contentSize, r]
  rfl

/-! ## Sounds -/

/-- The content of a chunk `COMM`: channels, samples, bits, the rate as a number of 80 bits, and more in
files of type `AIFC`. -/
def commonBytes (channels samples bits rate : Nat) (more : Bytes) : Bytes :=
  beBytes 2 channels ++ (beBytes 4 samples ++ (beBytes 2 bits ++ (beBytes 10 (extendedOf rate) ++ more)))

theorem extended_lt (n : Nat) (h : n < 2 ^ 53) (h0 : 0 < n) : extendedOf n < 256 ^ 10 := by
  obtain ⟨l1, l2⟩ := Time.log2_bounds n h0
  obtain ⟨L, hL⟩ : ∃ L, Nat.log2 n = L := ⟨_, rfl⟩
  rw [hL] at l1 l2
  have hL52 : L ≤ 52 := by
    have := (Nat.pow_lt_pow_iff_right (by omega : 1 < 2)).1 (Nat.lt_of_le_of_lt l1 h)
    omega
  have hbig : n * 2 ^ (63 - L) < 2 ^ 64 := by
    calc n * 2 ^ (63 - L) < 2 ^ (L + 1) * 2 ^ (63 - L) := Nat.mul_lt_mul_of_pos_right l2 (by positivity)
      _ = 2 ^ 64 := by rw [← Nat.pow_add]; congr 1; omega
  unfold extendedOf
  rw [hL]
  have : (256 : Nat) ^ 10 = 2 ^ 80 := by norm_num
  rw [this]
  have h1 : (16383 + L) * 2 ^ 64 ≤ 16435 * 2 ^ 64 := Nat.mul_le_mul_right _ (by omega)
  norm_num at *
  omega

/-- A float is accepted exactly if its value is in the range. -/
theorem float_in (lo hi : Nat) (hlo : 0 < lo) (f : PyFloat) (v : ℚ) (h : floatValue f = some v) :
    floatIn lo hi f = true ↔ (lo : ℚ) ≤ v ∧ v ≤ (hi : ℚ) := by
  cases f with
  | infinite n => simp [floatValue] at h
  | finite negative num exp =>
    simp only [floatValue, Option.some.injEq] at h
    subst h
    have hlo' : (0 : ℚ) < lo := by exact_mod_cast hlo
    by_cases hn : negative = true ∧ num ≠ 0
    · rw [floatIn, if_pos hn, signed, if_pos hn.1]
      have : (0 : ℚ) ≤ (num : ℚ) * 2 ^ exp := mul_nonneg (Nat.cast_nonneg _) (zpow_nonneg (by norm_num) _)
      constructor
      · intro h; simp at h
      · intro h; linarith [h.1]
    · have hv : signed negative ((num : ℚ) * 2 ^ exp) = (num : ℚ) * 2 ^ exp := by
        unfold signed
        by_cases h1 : negative = true
        · have : num = 0 := by
            by_contra h2
            exact hn ⟨h1, h2⟩
          rw [if_pos h1, this]; simp
        · rw [if_neg h1]
      rw [floatIn, if_neg hn, hv]
      by_cases he : 0 ≤ exp
      · obtain ⟨m, rfl⟩ := Int.eq_ofNat_of_zero_le he
        rw [if_pos he]
        simp only [Int.toNat_natCast, zpow_natCast, Bool.and_eq_true, decide_eq_true_eq]
        constructor
        · intro ⟨a, b⟩
          exact ⟨by exact_mod_cast a, by exact_mod_cast b⟩
        · intro ⟨a, b⟩
          exact ⟨by exact_mod_cast a, by exact_mod_cast b⟩
      · obtain ⟨m, hm⟩ : ∃ m : Nat, exp = -(m : Int) := ⟨(-exp).toNat, by omega⟩
        rw [if_neg he, hm]
        simp only [neg_neg, Int.toNat_natCast, zpow_neg, zpow_natCast, Bool.and_eq_true, decide_eq_true_eq]
        have hpos : (0 : ℚ) < 2 ^ m := by positivity
        rw [← div_eq_mul_inv, le_div_iff₀ hpos, div_le_iff₀ hpos]
        constructor
        · intro ⟨a, b⟩
          exact ⟨by exact_mod_cast a, by exact_mod_cast b⟩
        · intro ⟨a, b⟩
          exact ⟨by exact_mod_cast a, by exact_mod_cast b⟩

/-- What follows the rate in files of type `AIFC`: the codec and its name. -/
def moreBytes : Option (Bytes × Bytes) → Bytes
  | none => []
  | some (codec, name) => codec ++ name

theorem aiff_common {data : Bytes} {s : InputStream} (hs : stringInputStream data = .ok s) (k channels samples bits rate : Nat)
    (more : Option (Bytes × Bytes)) (h1 : channels < 2 ^ 16) (h2 : samples < 2 ^ 32) (h3 : bits < 2 ^ 16) (h4 : 0 < rate) (h5 : rate < 2 ^ 53)
    (h6 : ∀ m ∈ more, m.1.length = 4) (hp : commonBytes channels samples bits rate (moreBytes more) <+: data.drop (k + 8)) :
    ∃ f, floatValue f = some (rate : ℚ) ∧
      readCommon s (8 * k) (commonBytes channels samples bits rate (moreBytes more)).length =
        .ok ⟨channels, samples, bits, f, more.map (·.1)⟩ := by
  have hlen : (commonBytes channels samples bits rate (moreBytes more)).length = 18 + (moreBytes more).length := by
    simp only [commonBytes, List.length_append, beBytes_length]; omega
  have hp' : [beBytes 2 channels, beBytes 4 samples, beBytes 2 bits, beBytes 10 (extendedOf rate), moreBytes more].flatten <+: data.drop (k + 8) := by
    simpa [commonBytes] using hp
  have r1 := read_be data s hs 2 (k + 8) channels (by omega) (by omega) (record_part _ 0 _ rfl _ (by simp) hp') 16 rfl
    ((8 * k + 64 : Nat) : Int) (by omega)
  have r2 := read_be data s hs 4 (k + 10) samples (by omega) (by omega) (record_part _ 1 _ rfl _ (by simp [beBytes_length]) hp') 32 rfl
    ((8 * k + 80 : Nat) : Int) (by omega)
  have r3 := read_be data s hs 2 (k + 14) bits (by omega) (by omega) (record_part _ 2 _ rfl _ (by simp [beBytes_length]) hp') 16 rfl
    ((8 * k + 112 : Nat) : Int) (by omega)
  have p4 := record_part _ 3 _ rfl (k + 16) (by simp [beBytes_length]) hp'
  have hb := beBytes_big 10 (extendedOf rate) (extended_lt rate h5 h4)
  obtain ⟨f, r4, hf⟩ := C87_integers data s hs (k + 16) rate _ p4 (beBytes_length _ _) h4 h5 hb.2
  rw [show ((8 * (k + 16) : Nat) : Int) = ((8 * k + 128 : Nat) : Int) by omega] at r4
  refine ⟨f, hf, ?_⟩
  rw [hlen, readCommon, r1]
  simp only [bind, Except.bind]
  rw [r2]
  simp only []
  rw [r3]
  simp only []
  rw [r4]
  simp only []
  cases more with
  | none => rfl
  | some m =>
    obtain ⟨codec, name⟩ := m
    have hc : codec.length = 4 := h6 (codec, name) (by simp)
    have p5 := record_part _ 4 _ rfl (k + 26) (by simp [beBytes_length]) hp'
    have r5 := readBytes_prefix data s hs (k + 26) codec (prefix_left p5)
    rw [hc] at r5
    have r5' : readBytes s ((8 * k + 208 : Nat) : Int) 4 = .ok codec := by
      rw [show ((8 * k + 208 : Nat) : Int) = ((8 * (k + 26) : Nat) : Int) by omega]; exact r5
    have hm : (moreBytes (some (codec, name))).length = 4 + name.length := by simp [moreBytes, hc]
    rw [hm, if_neg (by omega), r5']
    rfl

/-- The first chunk of a kind in a list of chunks. -/
theorem aiff_find (tag content : Bytes) (pad : UInt8) : ∀ (before after : List (Bytes × Bytes × UInt8)) (k : Nat), (∀ b ∈ before, b.1 ≠ tag) →
    (aiffPlaces k (before ++ (tag, content, pad) :: after)).find? (fun c => c.tag = tag) =
      some ⟨8 * (k + (aiffChunks before).length), tag, content.length⟩
  | [], after, k, _ => by simp [aiffPlaces, aiffChunks]
  | (t, c, p) :: before, after, k, h => by
    have h0 : t ≠ tag := h (t, c, p) (by simp)
    rw [List.cons_append, aiffPlaces, List.find?_cons_of_neg (by simpa using h0),
      aiff_find tag content pad before after _ (fun b hb => h b (by simp [hb]))]
    simp only [aiffChunks, List.length_append, Nat.add_assoc]

theorem aiff_content (tag content : Bytes) (pad : UInt8) (ht : tag.length = 4) (data : Bytes) :
    ∀ (before after : List (Bytes × Bytes × UInt8)) (k : Nat), aiffChunks (before ++ (tag, content, pad) :: after) <+: data.drop k →
      content <+: data.drop (k + (aiffChunks before).length + 8)
  | [], after, k, hp => by
    have hp' : (tag ++ beBytes 4 content.length) ++ (content ++ ((if content.length % 2 = 0 then [] else [pad]) ++ aiffChunks after)) <+: data.drop k := by
      simpa [aiffChunks, aiffChunk] using hp
    have := prefix_left (drop_prefix hp')
    simpa [aiffChunks, beBytes_length, ht] using this
  | (t, c, p) :: before, after, k, hp => by
    have hp' : aiffChunk t c p ++ aiffChunks (before ++ (tag, content, pad) :: after) <+: data.drop k := by simpa [aiffChunks] using hp
    have := aiff_content tag content pad ht data before after _ (drop_prefix hp')
    simpa only [aiffChunks, List.length_append, Nat.add_assoc] using this

/-- **C117**: of a file with a chunk `COMM`, wherever it is, channels, bits, the rate and the duration (samples by rate) are told,
for all rates that are whole numbers from 1000 to 192000. -/
theorem C117_told {data : Bytes} {s : InputStream} (hs : stringInputStream data = .ok s) (ok : Nat → PyFloat → Bool)
    (before after : List (Bytes × Bytes × UInt8)) (pad : UInt8) (k : Nat) (channels samples bits rate : Nat) (more : Option (Bytes × Bytes))
    (h1 : 1 ≤ channels ∧ channels ≤ 8) (h2 : samples < 2 ^ 32) (h3 : 1 ≤ bits ∧ bits ≤ 64) (h4 : 1000 ≤ rate ∧ rate ≤ 192000)
    (h6 : ∀ m ∈ more, m.1.length = 4) (hn : ∀ b ∈ before, b.1 ≠ [67, 79, 77, 77])
    (hp : aiffChunks (before ++ ([67, 79, 77, 77], commonBytes channels samples bits rate (moreBytes more), pad) :: after) <+: data.drop k)
    (hok : ∀ f, floatValue f = some (rate : ℚ) → ok samples f = true) :
    ∃ f, floatValue f = some (rate : ℚ) ∧
      Aiff.extract s ok (aiffPlaces k (before ++ ([67, 79, 77, 77], commonBytes channels samples bits rate (moreBytes more), pad) :: after)) =
        ⟨some channels, some bits, some f, some (samples, f), more.map (·.1)⟩ := by
  have hc := aiff_content _ _ _ rfl data before after k hp
  obtain ⟨f, hf, hr⟩ := aiff_common hs (k + (aiffChunks before).length) channels samples bits rate more (by omega) h2 (by omega) (by omega)
    (by omega) h6 hc
  refine ⟨f, hf, ?_⟩
  unfold Aiff.extract
  rw [aiff_find _ _ _ before after k hn]
  simp only []
  have h0 : (commonBytes channels samples bits rate (moreBytes more)).length ≠ 0 := by
    simp only [commonBytes, List.length_append, beBytes_length]; omega
  rw [if_neg h0, hr]
  simp only []
  have hin : floatIn 1000 192000 f = true := (float_in 1000 192000 (by omega) f rate hf).2 ⟨by exact_mod_cast h4.1, by exact_mod_cast h4.2⟩
  unfold useCommon
  rw [hin]
  simp only [if_true, hok f hf, and_self]
  have e1 : Au.inRange 1 8 channels = some channels := by unfold Au.inRange; rw [if_pos h1]
  have e2 : Au.inRange 1 64 bits = some bits := by unfold Au.inRange; rw [if_pos h3]
  rw [e1, e2]

/-! ## Examples -/

/-- A text of odd size, then stereo with 16 bits at 44100 Hz and a codec. -/
def sampleAiff : List (Bytes × Bytes × UInt8) :=
  [([78, 65, 77, 69], [97], 0), ([67, 79, 77, 77], commonBytes 2 5 16 44100 (moreBytes (some ([78, 79, 78, 69], [0]))), 0), ([83, 83, 78, 68], [], 0)]

example : ∀ c ∈ sampleAiff, c.1.length = 4 ∧ c.2.1.length < 2 ^ 32 := by decide +kernel

example : ∃ s, stringInputStream (aiffBytes [65, 73, 70, 67] sampleAiff) = .ok s ∧ 4 + (aiffChunks sampleAiff).length < 2 ^ 32 ∧
    aiffChunks sampleAiff <+: (aiffBytes [65, 73, 70, 67] sampleAiff).drop 12 :=
  ⟨_, rfl, by decide +kernel, by decide +kernel⟩

end Hachoir.Props
