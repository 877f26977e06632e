import Verif.Formats.Mp3Meta
import Verif.Props.MpegAudio
import Mathlib.Tactic.FieldSimp
import Mathlib.Tactic.Linarith
import Mathlib.Tactic.Positivity
import Mathlib.Algebra.BigOperators.Group.List.Basic

/-!
# C155: playing time of MPEG audio files
-/

namespace Hachoir.Props
open Hachoir Hachoir.Stream Hachoir.Formats Hachoir.Formats.MpegAudio Spec

/-! ### Specification -/

/-- A frame: four bytes of header and the sound. -/
structure Mp3Frame where
  a : UInt8
  b : UInt8
  c : UInt8
  d : UInt8
  body : Bytes

/-- The values of the header. -/
def mp3Hdr (f : Mp3Frame) : Hdr := hdrOf (ofBytesBE [f.a, f.b, f.c])

/-- The bytes of a frame. -/
def mp3Bytes (f : Mp3Frame) : Bytes := [f.a, f.b, f.c] ++ (f.d :: f.body)

/-- Bits per second of a frame. -/
def mp3Rate (f : Mp3Frame) : Nat := (kbpsList ((mp3Hdr f).version == 3) (mp3Hdr f).layer).getD ((mp3Hdr f).bitRate - 1) 0 * 1000

/-- Samples per second. -/
def mp3Hertz (f : Mp3Frame) : Nat := hertz (mp3Hdr f).version (mp3Hdr f).samplingRate

/-- The seconds that a frame plays. -/
def mp3Seconds (f : Mp3Frame) : ℚ := (samplesOf (mp3Hdr f) : ℚ) / mp3Hertz f

/-- A frame of the standards: no reserved values, and the size that follows from them. -/
def Mp3Good (f : Mp3Frame) : Prop := Sized (mp3Hdr f) ∧ (mp3Bytes f).length = isoSize (mp3Hdr f)

/-- Frames behind other bytes, from byte `k` of a file on. -/
structure Mp3File (data : Bytes) (k : Nat) (junk : Bytes) (f : Mp3Frame) (fs : List Mp3Frame) : Prop where
  bytes : junk ++ (f :: fs).flatMap mp3Bytes <+: data.drop k
  good : ∀ g ∈ f :: fs, Mp3Good g
  sync : FrameHeader (mp3Bytes f)
  short : junk.length < k + 256
  first : ∀ i, i < junk.length → ¬ FrameHeader (data.drop (k + i))

/-- Bytes of all frames. -/
def mp3Size (fs : List Mp3Frame) : Nat := (fs.map fun g => (mp3Bytes g).length).sum

/-- Frames of one kind: only the bit rate and the padding may differ. -/
def OneKind (f g : Mp3Frame) : Prop :=
  (mp3Hdr g).version = (mp3Hdr f).version ∧ (mp3Hdr g).layer = (mp3Hdr f).layer ∧ (mp3Hdr g).samplingRate = (mp3Hdr f).samplingRate

instance (f g : Mp3Frame) : Decidable (OneKind f g) := inferInstanceAs (Decidable (_ ∧ _))

/-! ### Reading -/

theorem mp3_frames : ∀ fs : List Mp3Frame, (∀ g ∈ fs, Mp3Good g) → FrameBytes (fs.map fun g => (mp3Bytes g).length) (fs.flatMap mp3Bytes)
  | [], _ => .nil
  | f :: fs, h => by
    have hf := h f (by simp)
    exact .cons [f.a, f.b, f.c] (f.d :: f.body) rfl hf.1 _ rfl hf.2 _ _ (mp3_frames fs fun g hg => h g (by simp [hg]))

theorem mp3_headers (data : Bytes) (s : InputStream) (hs : stringInputStream data = .ok s) :
    ∀ (fs : List Mp3Frame) (k : Nat), fs.flatMap mp3Bytes <+: data.drop k →
      Mp3Meta.headers s (placesFrom k (fs.map fun g => (mp3Bytes g).length)) = .ok (fs.map mp3Hdr)
  | [], _, _ => rfl
  | f :: fs, k, hp => by
    rw [List.flatMap_cons] at hp
    have h1 : [f.a, f.b, f.c] <+: data.drop k := prefix_left (prefix_left hp)
    have h2 := mp3_headers data s hs fs (k + (mp3Bytes f).length) (drop_prefix hp)
    rw [List.map_cons, placesFrom, Mp3Meta.headers, readHdr_eq data s hs k _ rfl h1 _ rfl]
    simp only
    rw [h2]
    rfl

/-- **C155.** What is told depends on the headers of all frames in their order, the mode of the
first, and all bytes, also those in front of the frames. -/
theorem C155_read (data : Bytes) (s : InputStream) (hs : stringInputStream data = .ok s) (k fuel : Nat) (q : Mp3Meta.Quality) (junk : Bytes) (f : Mp3Frame)
    (fs : List Mp3Frame) (h : Mp3File data k junk f fs) (hfu : data.length < fuel) :
    Mp3Meta.told s fuel q (8 * k) (8 * (junk.length + mp3Size (f :: fs))) =
      .ok (some (Mp3Meta.extract q (8 * (junk.length + mp3Size (f :: fs))) (f.d.toNat / 64) (mp3Hdr f) (fs.map mp3Hdr))) := by
  have hsize : (junk ++ (f :: fs).flatMap mp3Bytes).length = junk.length + mp3Size (f :: fs) := by
    rw [List.length_append, List.length_flatMap]; rfl
  have hh : FrameHeader ((f :: fs).flatMap mp3Bytes) := by
    obtain ⟨a, b, c, d, h1, h2⟩ := h.sync
    exact ⟨a, b, c, d, h1.trans (by rw [List.flatMap_cons]; exact List.prefix_append _ _), h2⟩
  have h1 := C92_file data s hs k fuel junk _ _ h.bytes (mp3_frames _ h.good) hh h.short h.first hfu
  rw [hsize] at h1
  have hp := drop_prefix h.bytes
  rw [Mp3Meta.told, h1]
  simp only
  rw [mp3_headers data s hs _ _ hp]
  simp only [List.map_cons]
  rw [placesFrom]
  simp only [List.headD_cons]
  rw [List.flatMap_cons] at hp
  have hp4 : [f.a, f.b, f.c, f.d] <+: data.drop (k + junk.length) := by
    refine List.IsPrefix.trans ?_ (prefix_left hp)
    exact ⟨f.body, by simp [mp3Bytes]⟩
  rw [readBits_mid data s hs (k + junk.length) 24 2 _ hp4 (by simp) (by simp) _ (by push_cast; ring)]
  have : ofBytesBE [f.a, f.b, f.c, f.d] / 2 ^ (8 * [f.a, f.b, f.c, f.d].length - 24 - 2) % 2 ^ 2 = f.d.toNat / 64 := by
    have := f.a.toNat_lt
    have := f.b.toNat_lt
    have := f.c.toNat_lt
    have := f.d.toNat_lt
    simp only [ofBytesBE, List.length_cons, List.length_nil]
    omega
  rw [this]

/-! ### Rates -/

theorem mp3_rate (f : Mp3Frame) (h : Sized (mp3Hdr f)) : bitRate (mp3Hdr f) = some (mp3Rate f) ∧ 0 < mp3Rate f := by
  have key : ∀ v : Fin 4, ∀ l : Fin 4, ∀ b : Fin 16, ∀ r : Fin 4, ∀ p : Fin 2, Sized ⟨0, v, l, 0, b, r, p⟩ →
      bitRate ⟨0, v, l, 0, b, r, p⟩ = some ((kbpsList (v.val == 3) l.val).getD (b.val - 1) 0 * 1000) ∧ 0 < (kbpsList (v.val == 3) l.val).getD (b.val - 1) 0 * 1000 := by
    decide +kernel
  have hw : InWidth (mp3Hdr f) := hdrOf_width _
  unfold mp3Rate
  revert h hw
  obtain ⟨a, v, l, c, b, r, p⟩ := mp3Hdr f
  intro h hw
  exact key ⟨v, hw.version⟩ ⟨l, hw.layer⟩ ⟨b, hw.bitRate⟩ ⟨r, hw.samplingRate⟩ ⟨p, hw.padding⟩ h

theorem mp3_hertz (f : Mp3Frame) (h : Sized (mp3Hdr f)) : sampleRate (mp3Hdr f).version (mp3Hdr f).samplingRate = some (mp3Hertz f) ∧ 0 < mp3Hertz f := by
  have key : ∀ v : Fin 4, ∀ r : Fin 4, v.val ≠ 1 → r.val ≠ 3 → sampleRate v.val r.val = some (hertz v r) ∧ 0 < hertz v r := by
    decide +kernel
  have hw : InWidth (mp3Hdr f) := hdrOf_width _
  exact key ⟨_, hw.version⟩ ⟨_, hw.samplingRate⟩ h.1 h.2.2.2.2

/-- The size of a frame differs by at most one slot from what its samples take at the bit rate. -/
theorem mp3_size (f : Mp3Frame) (h : Sized (mp3Hdr f)) :
    8 * isoSize (mp3Hdr f) * mp3Hertz f ≤ samplesOf (mp3Hdr f) * mp3Rate f + 8 * slotOf (mp3Hdr f) * mp3Hertz f ∧
    samplesOf (mp3Hdr f) * mp3Rate f ≤ 8 * isoSize (mp3Hdr f) * mp3Hertz f + 8 * slotOf (mp3Hdr f) * mp3Hertz f := by
  have key : ∀ v : Fin 4, ∀ l : Fin 4, ∀ b : Fin 16, ∀ r : Fin 4, ∀ p : Fin 2, Sized ⟨0, v, l, 0, b, r, p⟩ →
      8 * isoSize ⟨0, v, l, 0, b, r, p⟩ * hertz v r ≤ samplesOf ⟨0, v, l, 0, b, r, p⟩ * ((kbpsList (v.val == 3) l.val).getD (b.val - 1) 0 * 1000) + 8 * slotOf ⟨0, v, l, 0, b, r, p⟩ * hertz v r ∧
      samplesOf ⟨0, v, l, 0, b, r, p⟩ * ((kbpsList (v.val == 3) l.val).getD (b.val - 1) 0 * 1000) ≤ 8 * isoSize ⟨0, v, l, 0, b, r, p⟩ * hertz v r + 8 * slotOf ⟨0, v, l, 0, b, r, p⟩ * hertz v r := by
    decide +kernel
  have hw : InWidth (mp3Hdr f) := hdrOf_width _
  unfold mp3Rate mp3Hertz
  revert h hw
  obtain ⟨a, v, l, c, b, r, p⟩ := mp3Hdr f
  intro h hw
  exact key ⟨v, hw.version⟩ ⟨l, hw.layer⟩ ⟨b, hw.bitRate⟩ ⟨r, hw.samplingRate⟩ ⟨p, hw.padding⟩ h

/-- The sum of the bit rates. -/
def mp3Rates (fs : List Mp3Frame) : Nat := (fs.map mp3Rate).sum

theorem mp3_sizes (f : Mp3Frame) : ∀ fs : List Mp3Frame, (∀ g ∈ fs, Mp3Good g) → (∀ g ∈ fs, OneKind f g) →
    8 * mp3Size fs * mp3Hertz f ≤ samplesOf (mp3Hdr f) * mp3Rates fs + 8 * (fs.length * slotOf (mp3Hdr f)) * mp3Hertz f ∧
    samplesOf (mp3Hdr f) * mp3Rates fs ≤ 8 * mp3Size fs * mp3Hertz f + 8 * (fs.length * slotOf (mp3Hdr f)) * mp3Hertz f
  | [], _, _ => by simp [mp3Size, mp3Rates]
  | g :: fs, hg, hk => by
    obtain ⟨i1, i2⟩ := mp3_sizes f fs (fun x hx => hg x (by simp [hx])) (fun x hx => hk x (by simp [hx]))
    have gg := hg g (by simp)
    obtain ⟨k1, k2, k3⟩ := hk g (by simp)
    obtain ⟨s1, s2⟩ := mp3_size g gg.1
    have e1 : samplesOf (mp3Hdr g) = samplesOf (mp3Hdr f) := by rw [samplesOf, samplesOf, k1, k2]
    have e2 : slotOf (mp3Hdr g) = slotOf (mp3Hdr f) := by rw [slotOf, slotOf, k2]
    have e3 : mp3Hertz g = mp3Hertz f := by rw [mp3Hertz, mp3Hertz, k1, k3]
    rw [e1, e2, e3, ← gg.2] at s1 s2
    simp only [mp3Size, mp3Rates, List.map_cons, List.sum_cons, List.length_cons] at i1 i2 ⊢
    constructor <;> nlinarith

/-! ### Constant bit rate -/

theorem constLoop_true (f : Mp3Frame) : ∀ (fs : List Mp3Frame) (n : Nat) (l : Hdr), l.version = (mp3Hdr f).version → l.layer = (mp3Hdr f).layer → l.bitRate = (mp3Hdr f).bitRate →
    (∀ g ∈ fs.take n, (mp3Hdr g).version = (mp3Hdr f).version ∧ (mp3Hdr g).layer = (mp3Hdr f).layer ∧ (mp3Hdr g).bitRate = (mp3Hdr f).bitRate) →
    Mp3Meta.constLoop n l (fs.map mp3Hdr) = true
  | _, 0, _, _, _, _, _ => by rw [Mp3Meta.constLoop]
  | [], n + 1, _, _, _, _, _ => rfl
  | g :: fs, n + 1, l, h1, h2, h3, h => by
    obtain ⟨a, b, c⟩ := h g (by simp)
    rw [List.map_cons, Mp3Meta.constLoop, if_pos ⟨by rw [a, h1], by rw [b, h2], by rw [c, h3]⟩]
    exact constLoop_true f fs n _ a b c (fun x hx => h x (by simp [hx]))

/-- **C155.** A file whose first eleven frames have one version, layer and bit rate is told with
that bit rate, the rate and channels of the first frame, and the time that all its bytes take at that bit rate. -/
theorem C155_head (data : Bytes) (s : InputStream) (hs : stringInputStream data = .ok s) (k fuel : Nat) (q : Mp3Meta.Quality) (junk : Bytes) (f : Mp3Frame)
    (fs : List Mp3Frame) (h : Mp3File data k junk f fs) (hfu : data.length < fuel)
    (hc : ∀ g ∈ fs.take 10, (mp3Hdr g).version = (mp3Hdr f).version ∧ (mp3Hdr g).layer = (mp3Hdr f).layer ∧ (mp3Hdr g).bitRate = (mp3Hdr f).bitRate) :
    Mp3Meta.told s fuel q (8 * k) (8 * (junk.length + mp3Size (f :: fs))) =
      .ok (some ⟨if f.d.toNat / 64 = 3 then 1 else 2, some (mp3Hertz f), true, some (mp3Rate f), some (8 * (junk.length + mp3Size (f :: fs)) / mp3Rate f)⟩) := by
  have hg := h.good f (by simp)
  rw [C155_read data s hs k fuel q junk f fs h hfu, Mp3Meta.extract]
  have : Mp3Meta.looksConstant (mp3Hdr f :: fs.map mp3Hdr) = true := constLoop_true f fs 10 _ rfl rfl rfl hc
  simp only [this, if_true, (mp3_hertz f hg.1).1, Mp3Meta.constantRate, (mp3_rate f hg.1).1]
  have hr := (mp3_rate f hg.1).2
  generalize mp3Rate f = r at hr
  match r, hr with
  | r + 1, _ => simp

/-- **C155.** For files of a constant bit rate the time that is told differs from the time that the
frames play by what the padding is off, and the time that the bytes in front of the frames would take. -/
theorem C155_constant (data : Bytes) (s : InputStream) (hs : stringInputStream data = .ok s) (k fuel : Nat) (q : Mp3Meta.Quality) (junk : Bytes) (f : Mp3Frame)
    (fs : List Mp3Frame) (h : Mp3File data k junk f fs) (hfu : data.length < fuel) (hk : ∀ g ∈ f :: fs, OneKind f g) (hc : ∀ g ∈ fs, (mp3Hdr g).bitRate = (mp3Hdr f).bitRate) :
    ∃ m d, Mp3Meta.told s fuel q (8 * k) (8 * (junk.length + mp3Size (f :: fs))) = .ok (some m) ∧ m.constant = true ∧ m.bitRate = some (mp3Rate f : ℚ) ∧ m.duration = some d ∧
      |d - (fs.length + 1) * mp3Seconds f| ≤ 8 * ((fs.length + 1) * slotOf (mp3Hdr f) + junk.length) / mp3Rate f ∧
      ∀ e : ℚ, |(mp3Size (f :: fs) : ℚ) - (fs.length + 1) * mp3Seconds f * mp3Rate f / 8| ≤ e →
        |d - (fs.length + 1) * mp3Seconds f| ≤ 8 * (e + junk.length) / mp3Rate f := by
  have hg := h.good f (by simp)
  have hR : (0 : ℚ) < mp3Rate f := by exact_mod_cast (mp3_rate f hg.1).2
  have hF : (0 : ℚ) < mp3Hertz f := by exact_mod_cast (mp3_hertz f hg.1).2
  have key : ∀ e : ℚ, |(mp3Size (f :: fs) : ℚ) - (fs.length + 1) * mp3Seconds f * mp3Rate f / 8| ≤ e →
        |8 * (junk.length + mp3Size (f :: fs)) / (mp3Rate f : ℚ) - (fs.length + 1) * mp3Seconds f| ≤ 8 * (e + junk.length) / mp3Rate f := by
    intro e he
    rw [abs_le] at he ⊢
    have hJ : (0 : ℚ) ≤ junk.length := Nat.cast_nonneg _
    have e1 : 8 * (junk.length + mp3Size (f :: fs)) / (mp3Rate f : ℚ) - (fs.length + 1) * mp3Seconds f =
        8 * (((mp3Size (f :: fs) : ℚ) - (fs.length + 1) * mp3Seconds f * mp3Rate f / 8) + junk.length) / mp3Rate f := by
      field_simp
      ring
    rw [e1]
    constructor
    · rw [← neg_div]
      apply div_le_div_of_nonneg_right _ hR.le
      linarith [he.1]
    · apply div_le_div_of_nonneg_right _ hR.le
      linarith [he.2]
  refine ⟨_, _, C155_head data s hs k fuel q junk f fs h hfu fun g hg => ?_, rfl, rfl, rfl, ?_, key⟩
  · have hg := List.mem_of_mem_take hg
    exact ⟨(hk g (by simp [hg])).1, (hk g (by simp [hg])).2.1, hc g hg⟩
  · apply key
    obtain ⟨s1, s2⟩ := mp3_sizes f (f :: fs) h.good hk
    have hrates : mp3Rates (f :: fs) = (fs.length + 1) * mp3Rate f := by
      rw [mp3Rates, List.map_cons, List.map_congr_left (g := fun _ => mp3Rate f), List.map_const', List.sum_cons, List.sum_replicate, nsmul_eq_mul]
      · push_cast; ring
      · intro g hg
        rw [mp3Rate, mp3Rate, hc g hg, (hk g (by simp [hg])).1, (hk g (by simp [hg])).2.1]
    rw [hrates, List.length_cons] at s1 s2
    have s1 : (8 * mp3Size (f :: fs) * mp3Hertz f : ℚ) ≤ samplesOf (mp3Hdr f) * ((fs.length + 1) * mp3Rate f) + 8 * ((fs.length + 1) * slotOf (mp3Hdr f)) * mp3Hertz f := by exact_mod_cast s1
    have s2 : (samplesOf (mp3Hdr f) * ((fs.length + 1) * mp3Rate f) : ℚ) ≤ 8 * mp3Size (f :: fs) * mp3Hertz f + 8 * ((fs.length + 1) * slotOf (mp3Hdr f)) * mp3Hertz f := by exact_mod_cast s2
    have e2 : (mp3Size (f :: fs) : ℚ) - (fs.length + 1) * mp3Seconds f * mp3Rate f / 8 =
        (8 * mp3Size (f :: fs) * mp3Hertz f - samplesOf (mp3Hdr f) * ((fs.length + 1) * mp3Rate f)) / (8 * mp3Hertz f) := by
      rw [mp3Seconds]
      field_simp
    rw [e2, abs_le]
    constructor
    · rw [le_div_iff₀ (by positivity)]
      linarith
    · rw [div_le_iff₀ (by positivity)]
      linarith

/-! ### Variable bit rate -/

theorem sumLoop_all : ∀ (fs : List Mp3Frame) (t c : Nat), (∀ g ∈ fs, Mp3Good g) → Mp3Meta.sumLoop none (fs.map mp3Hdr) t c = (t + mp3Rates fs, c + fs.length)
  | [], t, c, _ => rfl
  | g :: fs, t, c, h => by
    rw [List.map_cons, Mp3Meta.sumLoop, (mp3_rate g (h g (by simp)).1).1]
    simp only
    rw [sumLoop_all fs _ _ fun x hx => h x (by simp [hx])]
    simp only [mp3Rates, List.map_cons, List.sum_cons, List.length_cons, Prod.mk.injEq]
    omega

theorem sumLoop_some (m : Nat) : ∀ (fs : List Mp3Frame) (t c : Nat), c < m → (∀ g ∈ fs, Mp3Good g) →
    Mp3Meta.sumLoop (some m) (fs.map mp3Hdr) t c = (t + mp3Rates (fs.take (m - c)), c + (fs.take (m - c)).length)
  | [], t, c, _, _ => by simp [Mp3Meta.sumLoop, mp3Rates]
  | g :: fs, t, c, hc, h => by
    obtain ⟨n, hn⟩ : ∃ n, m - c = n + 1 := ⟨m - c - 1, by omega⟩
    rw [List.map_cons, Mp3Meta.sumLoop, (mp3_rate g (h g (by simp)).1).1, hn]
    simp only [List.take_succ_cons]
    by_cases hm : m ≤ c + 1
    · have : n = 0 := by omega
      subst this
      rw [if_pos hm]
      simp [mp3Rates]
    · rw [if_neg hm, sumLoop_some m fs _ _ (by omega) fun x hx => h x (by simp [hx]), show m - (c + 1) = n by omega]
      simp only [mp3Rates, List.map_cons, List.sum_cons, List.length_cons, Prod.mk.injEq]
      omega

/-- The frames whose bit rates are counted: all but the first three at the best quality, otherwise
the first 250 or 375 of these. -/
def mp3Counted (q : Mp3Meta.Quality) (fs : List Mp3Frame) : List Mp3Frame :=
  match q with
  | .best => fs.drop 3
  | .good => (fs.drop 3).take 375
  | _ => (fs.drop 3).take 250

theorem sumLoop_counted (q : Mp3Meta.Quality) (hq : q ≠ .fastest ∧ q ≠ .fast) (fs : List Mp3Frame) (h : ∀ g ∈ fs, Mp3Good g) :
    Mp3Meta.sumLoop (Mp3Meta.maxCount q) ((fs.map mp3Hdr).drop 3) 0 0 = (mp3Rates (mp3Counted q fs), (mp3Counted q fs).length) := by
  have h' : ∀ g ∈ fs.drop 3, Mp3Good g := fun g hg => h g (List.mem_of_mem_drop hg)
  rw [← List.map_drop]
  cases q with
  | fastest => exact absurd rfl hq.1
  | fast => exact absurd rfl hq.2
  | normal => rw [Mp3Meta.maxCount, sumLoop_some 250 _ _ _ (by omega) h', mp3Counted.eq_def]; simp
  | good => rw [Mp3Meta.maxCount, sumLoop_some 375 _ _ _ (by omega) h', mp3Counted.eq_def]; simp
  | best => rw [Mp3Meta.maxCount, sumLoop_all _ _ _ h', mp3Counted.eq_def]; simp

theorem constLoop_false (g : Mp3Frame) (post : List Mp3Frame) (f : Mp3Frame) (hd : (mp3Hdr g).version ≠ (mp3Hdr f).version ∨ (mp3Hdr g).layer ≠ (mp3Hdr f).layer ∨ (mp3Hdr g).bitRate ≠ (mp3Hdr f).bitRate) :
    ∀ (pre : List Mp3Frame) (n : Nat) (l : Hdr), l.version = (mp3Hdr f).version → l.layer = (mp3Hdr f).layer → l.bitRate = (mp3Hdr f).bitRate → pre.length < n →
    Mp3Meta.constLoop n l ((pre ++ g :: post).map mp3Hdr) = false
  | [], n + 1, l, h1, h2, h3, _ => by
    rw [List.nil_append, List.map_cons, Mp3Meta.constLoop, if_neg]
    rintro ⟨a, b, c⟩
    rw [h1] at a
    rw [h2] at b
    rw [h3] at c
    tauto
  | p :: pre, n + 1, l, h1, h2, h3, hn => by
    rw [List.cons_append, List.map_cons, Mp3Meta.constLoop]
    split
    · rename_i hh
      obtain ⟨a, b, c⟩ := hh
      exact constLoop_false g post f hd pre n _ (by rw [a, h1]) (by rw [b, h2]) (by rw [c, h3]) (by simpa using hn)
    · rfl
  | [], 0, _, _, _, _, hn => by simp at hn
  | _ :: _, 0, _, _, _, _, hn => by simp at hn

theorem looks_variable (f : Mp3Frame) (fs : List Mp3Frame) (hv : ∃ g ∈ fs.take 10, (mp3Hdr g).version ≠ (mp3Hdr f).version ∨ (mp3Hdr g).layer ≠ (mp3Hdr f).layer ∨ (mp3Hdr g).bitRate ≠ (mp3Hdr f).bitRate) :
    Mp3Meta.looksConstant (mp3Hdr f :: fs.map mp3Hdr) = false := by
  obtain ⟨g, hg, hd⟩ := hv
  obtain ⟨pre, post, hpp⟩ := List.append_of_mem hg
  have hl : pre.length < 10 := by
    have := congrArg List.length hpp
    rw [List.length_take, List.length_append, List.length_cons] at this
    omega
  have : fs = pre ++ g :: (post ++ fs.drop 10) := by
    have := List.take_append_drop 10 fs
    rw [hpp] at this
    simpa using this.symm
  rw [this]
  exact constLoop_false g _ f hd pre 10 _ rfl rfl rfl hl

/-- **C155.** A file whose first eleven frames differ in version, layer or bit rate is told with the
mean of the bit rates of the counted frames, and the time that all its bytes take at that bit rate. -/
theorem C155_mean (data : Bytes) (s : InputStream) (hs : stringInputStream data = .ok s) (k fuel : Nat) (q : Mp3Meta.Quality) (hq : q ≠ .fastest ∧ q ≠ .fast) (junk : Bytes) (f : Mp3Frame)
    (fs : List Mp3Frame) (h : Mp3File data k junk f fs) (hfu : data.length < fuel) (h3 : 3 ≤ fs.length)
    (hv : ∃ g ∈ fs.take 10, (mp3Hdr g).version ≠ (mp3Hdr f).version ∨ (mp3Hdr g).layer ≠ (mp3Hdr f).layer ∨ (mp3Hdr g).bitRate ≠ (mp3Hdr f).bitRate)
    (r : ℚ) (hr : r = (mp3Rates (mp3Counted q (f :: fs)) : ℚ) / (mp3Counted q (f :: fs)).length) :
    Mp3Meta.told s fuel q (8 * k) (8 * (junk.length + mp3Size (f :: fs))) =
      .ok (some ⟨if f.d.toNat / 64 = 3 then 1 else 2, some (mp3Hertz f), false, some r, some (8 * (junk.length + mp3Size (f :: fs)) / r)⟩) := by
  have hg := h.good f (by simp)
  have hlen : (mp3Counted q (f :: fs)).length ≠ 0 := by
    cases q <;> simp [mp3Counted] <;> omega
  rw [C155_read data s hs k fuel q junk f fs h hfu, Mp3Meta.extract]
  have hsum := sumLoop_counted q hq (f :: fs) h.good
  rw [List.map_cons] at hsum
  simp only [looks_variable f fs hv, Bool.false_eq_true, if_false, (mp3_hertz f hg.1).1, Mp3Meta.variableRate, if_neg (show ¬ (q = .fastest ∨ q = .fast) by tauto), hsum, if_neg hlen, ← hr]
  simp

/-- **C155.** At the two lowest qualities no time is told for files of a variable bit rate. -/
theorem C155_fast (data : Bytes) (s : InputStream) (hs : stringInputStream data = .ok s) (k fuel : Nat) (q : Mp3Meta.Quality) (hq : q = .fastest ∨ q = .fast) (junk : Bytes) (f : Mp3Frame)
    (fs : List Mp3Frame) (h : Mp3File data k junk f fs) (hfu : data.length < fuel)
    (hv : ∃ g ∈ fs.take 10, (mp3Hdr g).version ≠ (mp3Hdr f).version ∨ (mp3Hdr g).layer ≠ (mp3Hdr f).layer ∨ (mp3Hdr g).bitRate ≠ (mp3Hdr f).bitRate) :
    ∃ m, Mp3Meta.told s fuel q (8 * k) (8 * (junk.length + mp3Size (f :: fs))) = .ok (some m) ∧ m.bitRate = none ∧ m.duration = none := by
  refine ⟨_, C155_read data s hs k fuel q junk f fs h hfu, ?_⟩
  rw [Mp3Meta.extract, looks_variable f fs hv, if_neg Bool.false_ne_true, Mp3Meta.variableRate, if_pos hq]
  exact ⟨rfl, rfl⟩

/-- **C155**, for files whose counted frames have the mean bit rate of all frames: the time that is
told is off by at most a slot for every frame, and the bytes in front of the frames.  (When the
counted frames have another mean, the time is off by the quotient of the means.) -/
theorem C155_variable_partial (data : Bytes) (s : InputStream) (hs : stringInputStream data = .ok s) (k fuel : Nat) (q : Mp3Meta.Quality) (hq : q ≠ .fastest ∧ q ≠ .fast) (junk : Bytes) (f : Mp3Frame)
    (fs : List Mp3Frame) (h : Mp3File data k junk f fs) (hfu : data.length < fuel) (h3 : 3 ≤ fs.length)
    (hv : ∃ g ∈ fs.take 10, (mp3Hdr g).version ≠ (mp3Hdr f).version ∨ (mp3Hdr g).layer ≠ (mp3Hdr f).layer ∨ (mp3Hdr g).bitRate ≠ (mp3Hdr f).bitRate)
    (hk : ∀ g ∈ f :: fs, OneKind f g)
    (r : ℚ) (hr : r = (mp3Rates (mp3Counted q (f :: fs)) : ℚ) / (mp3Counted q (f :: fs)).length) (hm : r = (mp3Rates (f :: fs) : ℚ) / (fs.length + 1)) :
    ∃ m d, Mp3Meta.told s fuel q (8 * k) (8 * (junk.length + mp3Size (f :: fs))) = .ok (some m) ∧ m.constant = false ∧ m.bitRate = some r ∧ m.duration = some d ∧
      |d - (fs.length + 1) * mp3Seconds f| ≤ 8 * ((fs.length + 1) * slotOf (mp3Hdr f) + junk.length) / r := by
  have hg := h.good f (by simp)
  refine ⟨_, _, C155_mean data s hs k fuel q hq junk f fs h hfu h3 hv r hr, rfl, rfl, rfl, ?_⟩
  have hF : (0 : ℚ) < mp3Hertz f := by exact_mod_cast (mp3_hertz f hg.1).2
  have hT : (0 : ℚ) < mp3Rates (f :: fs) := by
    have := (mp3_rate f hg.1).2
    have : 0 < mp3Rates (f :: fs) := by rw [mp3Rates, List.map_cons, List.sum_cons]; omega
    exact_mod_cast this
  have hR : 0 < r := by rw [hm]; positivity
  have hsum : (mp3Rates (f :: fs) : ℚ) = (fs.length + 1) * r := by rw [hm]; field_simp
  obtain ⟨s1, s2⟩ := mp3_sizes f (f :: fs) h.good hk
  rw [List.length_cons] at s1 s2
  have s1 : (8 * mp3Size (f :: fs) * mp3Hertz f : ℚ) ≤ samplesOf (mp3Hdr f) * mp3Rates (f :: fs) + 8 * ((fs.length + 1) * slotOf (mp3Hdr f)) * mp3Hertz f := by exact_mod_cast s1
  have s2 : (samplesOf (mp3Hdr f) * mp3Rates (f :: fs) : ℚ) ≤ 8 * mp3Size (f :: fs) * mp3Hertz f + 8 * ((fs.length + 1) * slotOf (mp3Hdr f)) * mp3Hertz f := by exact_mod_cast s2
  rw [hsum] at s1 s2
  have e2 : 8 * (junk.length + mp3Size (f :: fs)) / r - (fs.length + 1) * mp3Seconds f =
      (8 * junk.length * mp3Hertz f + (8 * mp3Size (f :: fs) * mp3Hertz f - samplesOf (mp3Hdr f) * ((fs.length + 1) * r))) / (r * mp3Hertz f) := by
    rw [mp3Seconds]
    field_simp
    ring
  have hJ : (0 : ℚ) ≤ junk.length * mp3Hertz f := by positivity
  have e3 : 8 * ((fs.length + 1) * slotOf (mp3Hdr f) + junk.length) / r = 8 * ((fs.length + 1) * slotOf (mp3Hdr f) + junk.length) * mp3Hertz f / (r * mp3Hertz f) := by
    field_simp
  rw [e2, e3, abs_le]
  constructor
  · rw [← neg_div]
    apply div_le_div_of_nonneg_right _ (by positivity)
    nlinarith
  · apply div_le_div_of_nonneg_right _ (by positivity)
    nlinarith

/-! ### Disagreement -/

/-- A frame of 320 kbit/s and one of 32 kbit/s, both of MPEG 1 layer III with 44100 Hz. -/
def plainFrame (c : UInt8) (n : Nat) : Mp3Frame := ⟨0xff, 0xfb, c, 0, List.replicate n 0⟩
def loudFrame : Mp3Frame := plainFrame 0xe0 1040
def quietFrame : Mp3Frame := plainFrame 0x10 100

theorem plain_length (c : UInt8) (n : Nat) : (mp3Bytes (plainFrame c n)).length = n + 4 := by
  simp [mp3Bytes, plainFrame]

theorem plain_sync (c : UInt8) (n : Nat) : [0xff, 0xfb, c, 0] <+: mp3Bytes (plainFrame c n) := ⟨List.replicate n 0, by simp [mp3Bytes, plainFrame]⟩

theorem loud_sync (n : Nat) : FrameHeader (mp3Bytes (plainFrame 0xe0 n)) :=
  ⟨0xff, 0xfb, 0xe0, 0, plain_sync _ _, by decide +kernel, by decide +kernel, by decide⟩

theorem loud_good : Mp3Good loudFrame := by
  constructor
  · show Sized (hdrOf (ofBytesBE [0xff, 0xfb, 0xe0]))
    decide +kernel
  · rw [loudFrame, plain_length]
    show 1040 + 4 = isoSize (hdrOf (ofBytesBE [0xff, 0xfb, 0xe0]))
    decide +kernel

theorem quiet_good : Mp3Good quietFrame := by
  constructor
  · show Sized (hdrOf (ofBytesBE [0xff, 0xfb, 0x10]))
    decide +kernel
  · rw [quietFrame, plain_length]
    show 100 + 4 = isoSize (hdrOf (ofBytesBE [0xff, 0xfb, 0x10]))
    decide +kernel

/-- The frames of a file that begins loud. -/
def mixedFrames (m : Nat) : List Mp3Frame := List.replicate 10 loudFrame ++ List.replicate m quietFrame

theorem mixed_file (m : Nat) : Mp3File ((loudFrame :: mixedFrames m).flatMap mp3Bytes) 0 [] loudFrame (mixedFrames m) where
  bytes := by rw [List.drop_zero, List.nil_append]
  good := by
    intro g hg
    simp only [mixedFrames, List.mem_cons, List.mem_append, List.mem_replicate] at hg
    rcases hg with rfl | ⟨-, rfl⟩ | ⟨-, rfl⟩
    · exact loud_good
    · exact loud_good
    · exact quiet_good
  sync := loud_sync 1040
  short := Nat.zero_lt_succ _
  first := fun i hi => absurd hi (Nat.not_lt_zero i)

/-- **C155**, violated: the bit rate of a file is told as constant when it changes behind the
eleventh frame; the time is then less than a fifth of the true one. -/
theorem C155_fooled (m : Nat) (hm : 1000 ≤ m) (q : Mp3Meta.Quality) (s : InputStream) (hs : stringInputStream ((loudFrame :: mixedFrames m).flatMap mp3Bytes) = .ok s) :
    ∃ t d, Mp3Meta.told s (((loudFrame :: mixedFrames m).flatMap mp3Bytes).length + 1) q 0 (8 * ((loudFrame :: mixedFrames m).flatMap mp3Bytes).length) = .ok (some t) ∧ t.constant = true ∧ t.duration = some d ∧
      5 * d < ((loudFrame :: mixedFrames m).map mp3Seconds).sum := by
  have h := C155_head _ s hs 0 (((loudFrame :: mixedFrames m).flatMap mp3Bytes).length + 1) q [] loudFrame (mixedFrames m) (mixed_file m) (by omega) (by
    intro g hg
    rw [mixedFrames, List.take_append_of_le_length (by simp)] at hg
    rw [List.eq_of_mem_replicate (List.mem_of_mem_take hg)]
    exact ⟨rfl, rfl, rfl⟩)
  have hl : (mp3Bytes loudFrame).length = 1044 := plain_length _ _
  have hq : (mp3Bytes quietFrame).length = 104 := plain_length _ _
  have hsz : mp3Size (loudFrame :: mixedFrames m) = 11484 + 104 * m := by
    rw [mp3Size, mixedFrames, List.map_cons, List.map_append, List.map_replicate, List.map_replicate, List.sum_cons, List.sum_append, List.sum_replicate, List.sum_replicate, hl, hq]
    simp only [nsmul_eq_mul, Nat.cast_id]
    omega
  have hlen : ((loudFrame :: mixedFrames m).flatMap mp3Bytes).length = mp3Size (loudFrame :: mixedFrames m) := by
    rw [List.length_flatMap]; rfl
  simp only [List.length_nil, Nat.zero_add, Nat.mul_zero] at h
  rw [hlen] at h ⊢
  refine ⟨_, _, h, rfl, rfl, ?_⟩
  have hr : mp3Rate loudFrame = 320000 := by decide +kernel
  have h1 : mp3Seconds loudFrame = 1152 / 44100 := by
    rw [mp3Seconds, show samplesOf (mp3Hdr loudFrame) = 1152 by decide +kernel, show mp3Hertz loudFrame = 44100 by decide +kernel]; norm_num
  have h2 : mp3Seconds quietFrame = 1152 / 44100 := by
    rw [mp3Seconds, show samplesOf (mp3Hdr quietFrame) = 1152 by decide +kernel, show mp3Hertz quietFrame = 44100 by decide +kernel]; norm_num
  rw [hr, hsz, mixedFrames, List.map_cons, List.map_append, List.map_replicate, List.map_replicate, List.sum_cons, List.sum_append, List.sum_replicate, List.sum_replicate, h1, h2]
  have hm' : (1000 : ℚ) ≤ m := by exact_mod_cast hm
  simp only [nsmul_eq_mul]
  push_cast
  linarith

/-- Frames in two rounds of loud, quiet, quiet: the hypotheses of `C155_variable_partial`. -/
example : (∀ g ∈ [loudFrame, quietFrame, quietFrame, loudFrame, quietFrame, quietFrame], Mp3Good g ∧ OneKind loudFrame g) ∧
    (mp3Hdr quietFrame).bitRate ≠ (mp3Hdr loudFrame).bitRate ∧
    (mp3Rates (mp3Counted .normal [loudFrame, quietFrame, quietFrame, loudFrame, quietFrame, quietFrame]) : ℚ) / 3 =
      (mp3Rates [loudFrame, quietFrame, quietFrame, loudFrame, quietFrame, quietFrame] : ℚ) / 6 := by
  have hr : mp3Rate loudFrame = 320000 := by decide +kernel
  have hq : mp3Rate quietFrame = 32000 := by decide +kernel
  refine ⟨?_, by decide +kernel, ?_⟩
  · intro g hg
    simp only [List.mem_cons, List.not_mem_nil, or_false] at hg
    rcases hg with rfl | rfl | rfl | rfl | rfl | rfl
    · exact ⟨loud_good, rfl, rfl, rfl⟩
    · exact ⟨quiet_good, by decide +kernel⟩
    · exact ⟨quiet_good, by decide +kernel⟩
    · exact ⟨loud_good, rfl, rfl, rfl⟩
    · exact ⟨quiet_good, by decide +kernel⟩
    · exact ⟨quiet_good, by decide +kernel⟩
  · simp only [mp3Counted, mp3Rates, List.drop_succ_cons, List.drop_zero, List.take_succ_cons, List.take_nil, List.map_cons, List.map_nil, List.sum_cons, List.sum_nil, hr, hq]
    norm_num

end Hachoir.Props
