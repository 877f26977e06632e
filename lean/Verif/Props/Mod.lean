import Verif.Formats.Mod
import Verif.Props.Disks

/-!
# Amiga modules
-/

namespace Hachoir.Props
open Hachoir Hachoir.Stream Hachoir.Field Hachoir.Formats Spec
section
open Mod

def modSample (s : Sample) : Bytes := s.name ++ (beBytes 2 s.count ++ (beBytes 1 s.tune ++ (beBytes 1 s.volume ++ (beBytes 2 s.loopStart ++ beBytes 2 s.loopLen))))

structure ModSampleGood (s : Sample) : Prop where
  name : s.name.length = 22
  words : s.count < 65536 ∧ s.loopStart < 65536 ∧ s.loopLen < 65536
  bytes : s.tune < 256 ∧ s.volume < 256

def modHeader (h : Mod.Header) : Bytes :=
  h.name ++ (h.samples.flatMap modSample ++ (beBytes 1 h.length ++ (beBytes 1 h.played ++ (h.positions.flatMap (beBytes 1) ++ h.type))))

structure ModHeaderGood (h : Mod.Header) : Prop where
  name : h.name.length = 20
  samples : h.samples.length = 31 ∧ ∀ s ∈ h.samples, ModSampleGood s
  bytes : h.length < 256 ∧ h.played < 256
  positions : h.positions.length = 128 ∧ ∀ p ∈ h.positions, p < 256
  type : h.type.length = 4

theorem reads_mod_sample (s : Sample) (g : ModSampleGood s) : Reads sample s (modSample s) := by
  obtain ⟨h1, ⟨h2, h3, h4⟩, h5, h6⟩ := g
  refine Reads.bind (reads_fixed .big .eightBit (by decide) 22 _ h1 (by omega)) ?_
  refine Reads.bind (reads_int_be 2 _ (by omega) (by omega)) ?_
  refine Reads.bind (reads_int_be 1 _ (by omega) (by omega)) ?_
  refine Reads.bind (reads_int_be 1 _ (by omega) (by omega)) ?_
  refine Reads.bind (reads_int_be 2 _ (by omega) (by omega)) ?_
  exact Reads.map (f := fun x => Sample.mk s.name s.count s.tune s.volume s.loopStart x) (reads_int_be 2 _ (by omega) (by omega))

/-- **C141**: header, samples and order of patterns are read as they were written. -/
theorem C141_header (h : Mod.Header) (g : ModHeaderGood h) : Reads Mod.header h (modHeader h) := by
  obtain ⟨h1, ⟨h2, h3⟩, ⟨h4, h5⟩, ⟨h6, h7⟩, h8⟩ := g
  refine Reads.bind (reads_fixed .big .eightBit (by decide) 20 _ h1 (by omega)) ?_
  refine Reads.bind (reads_times_n _ modSample h.samples _ h2.symm fun s hs => reads_mod_sample s (h3 s hs)) ?_
  refine Reads.bind (reads_int_be 1 _ (by omega) (by omega)) ?_
  refine Reads.bind (reads_int_be 1 _ (by omega) (by omega)) ?_
  refine Reads.bind (reads_times_n _ (beBytes 1) h.positions _ h6.symm fun p hp => reads_int_be 1 p (by omega) (by have := h7 p hp; omega)) ?_
  exact Reads.map (f := fun x => Mod.Header.mk h.name h.samples h.length h.played h.positions x) (reads_fixed .big .eightBit (by decide) 4 _ h8 (by omega))

/-- Violation: no pattern and no sample of any module is ever read: the number of channels is looked up with a text among bytes. -/
theorem C141_no_music (h : Mod.Header) (g : ModHeaderGood h) (bs : Bytes) : Fails Mod.file .key (modHeader h ++ bs) := by
  refine Reads.fails (C141_header h g) ?_
  have e : channelsOf h = Rd.fail .key := by
    rw [channelsOf, numChannels]
    simp [moduleType, find]
  show Fails (channelsOf h >>= _) _ _
  rw [e]
  intro data s hs k stop hp hst
  rfl

theorem le_foldl_max : ∀ (l : List Nat) (a : Nat), a ≤ l.foldl max a ∧ ∀ x ∈ l, x ≤ l.foldl max a
  | [], a => ⟨Nat.le_refl _, by simp⟩
  | x :: l, a => by
    obtain ⟨h1, h2⟩ := le_foldl_max l (max a x)
    rw [List.foldl_cons]
    refine ⟨by omega, fun y hy => ?_⟩
    rcases List.mem_cons.1 hy with rfl | hy
    · omega
    · exact h2 y hy

theorem foldl_max_mem : ∀ (l : List Nat) (a : Nat), l.foldl max a = a ∨ l.foldl max a ∈ l
  | [], a => .inl rfl
  | x :: l, a => by
    rw [List.foldl_cons]
    rcases foldl_max_mem l (max a x) with h | h
    · rw [h]
      rcases Nat.le_total a x with hx | hx
      · exact .inr (by rw [Nat.max_eq_right hx]; exact List.mem_cons_self)
      · exact .inl (Nat.max_eq_left hx)
    · exact .inr (List.mem_cons_of_mem _ h)

/-- **C141**: there are as many patterns as the song needs: all positions are below, and the last one is played. -/
theorem C141_pattern_count (positions : List Nat) (hp : positions ≠ []) :
    (∀ p ∈ positions, p < patternCount positions) ∧ patternCount positions - 1 ∈ positions := by
  rw [patternCount]
  refine ⟨fun p h => Nat.lt_succ_of_le ((le_foldl_max positions 0).2 p h), ?_⟩
  rw [Nat.add_sub_cancel]
  rcases foldl_max_mem positions 0 with h | h
  · rw [h]
    obtain ⟨x, l, rfl⟩ := List.exists_cons_of_ne_nil hp
    have := (le_foldl_max (x :: l) 0).2 x List.mem_cons_self
    rw [h] at this
    rw [Nat.le_zero.1 this]
    exact List.mem_cons_self
  · exact h

/-- The data of the samples that have some. -/
inductive SampleBytes : List Sample → List Bytes → Prop where
  | nil : SampleBytes [] []
  | none (s : Sample) (l bs) : s.count = 0 → SampleBytes l bs → SampleBytes (s :: l) bs
  | some (s : Sample) (b : Bytes) (l bs) : 0 < s.count → b.length = 2 * s.count → SampleBytes l bs → SampleBytes (s :: l) (b :: bs)

theorem reads_sample_data (l : List Sample) (bs : List Bytes) (h : SampleBytes l bs) : Reads (sampleData l) bs (bs.flatMap id) := by
  induction h with
  | nil => exact reads_pure _
  | none s l bs h _ ih =>
    rw [sampleData, if_pos h]
    exact ih
  | some s b l bs h hb _ ih =>
    rw [sampleData, if_neg (by omega), List.flatMap_cons]
    refine Reads.bind (reads_raw_n _ b hb (by omega)) ?_
    exact Reads.map (f := fun x => b :: x) ih

/-- **C141** (partial: what the code behind the lookup would do, see `C141_no_music`): all patterns, of 64 rows of 4 bytes for each channel, and all samples, of 2 bytes, are read. -/
theorem C141_music_partial (channels : Nat) (hc : 0 < channels) (h : Mod.Header) (m : Music) (hp : m.patterns.length = patternCount h.positions)
    (hl : ∀ p ∈ m.patterns, p.length = 64 * channels * 4) (hs : SampleBytes h.samples m.samples) :
    Reads (music channels h) m (m.patterns.flatMap id ++ m.samples.flatMap id) := by
  refine Reads.bind (reads_times_n _ id m.patterns _ hp.symm fun p hx => reads_raw_n _ p (hl p hx) (by omega)) ?_
  exact Reads.map (f := fun x => Music.mk m.patterns x) (reads_sample_data _ _ hs)

/-- The fine tune of a sample is a signed number of 4 bits. -/
def tuneOf (n : Nat) : Int := if n < 8 then n else (n : Int) - 16

/-- **C141**: fine tunes that are not negative are told right. -/
theorem C141_tune_partial (n : Nat) (h : n < 8) : fineTune n = .ok (tuneOf n) := by
  revert h
  revert n
  decide

/-- Violation: all negative fine tunes are told wrong: -8 as 8, the others one too low. -/
theorem C141_tune_wrong (n : Nat) (h : n < 16) (h8 : 8 ≤ n) : fineTune n = .ok (if n = 8 then 8 else tuneOf n - 1) := by
  revert h8
  revert h
  revert n
  decide

/-- **C141**: the types of modules that are accepted. -/
theorem C141_valid (t : Bytes) : valid t = true ↔ t ∈ ["M.K.", "M!K!", "M&K&", "RASP", "FLT4", "FLT8", "6CHN", "8CHN", "CD81", "OCTA", "FA04", "FA06", "FA08"].map
    (fun x => x.toUTF8.toList) := by
  have e : ["M.K.", "M!K!", "M&K&", "RASP", "FLT4", "FLT8", "6CHN", "8CHN", "CD81", "OCTA", "FA04", "FA06", "FA08"].map (fun x => x.toUTF8.toList) =
    moduleType.map fun x => match x.1 with | .bytes b => b | .text b => b := by decide +kernel
  rw [e]
  have : ∀ (l : List (Key × Nat)), (∀ x ∈ l, ∃ b, x.1 = Key.bytes b) →
      ((match find (.bytes t) l with | .ok _ => true | .error _ => false) = true ↔ t ∈ l.map fun x => match x.1 with | .bytes b => b | .text b => b) := by
    intro l
    induction l with
    | nil => intro _; simp [find]
    | cons x l ih =>
      intro h
      obtain ⟨b, hb⟩ := h x List.mem_cons_self
      obtain ⟨k, n⟩ := x
      simp only at hb
      subst hb
      rw [find, List.map_cons, List.mem_cons, ← ih fun y hy => h y (List.mem_cons_of_mem _ hy)]
      by_cases ht : t = b
      · simp [ht]
      · rw [if_neg (by simpa using ht)]
        simp [ht]
  exact this moduleType (by simp [moduleType])

/-- A module of one pattern and one sample of 4 bytes. -/
example : ModHeaderGood ⟨List.replicate 20 65, ⟨List.replicate 22 66, 2, 0, 64, 0, 1⟩ :: List.replicate 30 ⟨List.replicate 22 0, 0, 0, 0, 0, 0⟩, 1, 1, List.replicate 128 0,
    [0x4D, 0x2E, 0x4B, 0x2E]⟩ where
  name := rfl
  samples := ⟨rfl, fun s hs => by
    rcases List.mem_cons.1 hs with rfl | hs
    · exact ⟨rfl, by decide, by decide⟩
    · rw [List.eq_of_mem_replicate hs]
      exact ⟨rfl, by decide, by decide⟩⟩
  bytes := by decide
  positions := ⟨rfl, fun p hp => by rw [List.eq_of_mem_replicate hp]; decide⟩
  type := rfl

end
end Hachoir.Props
