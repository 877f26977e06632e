import Verif.Formats.Au
import Verif.Props.Records

/-!
# Sun/NeXT audio files (C116)
-/

namespace Hachoir.Props
open Hachoir Hachoir.Stream Hachoir.Field Hachoir.Formats Hachoir.Formats.Au Spec

/-- The bytes of a file: header, text, samples, and what follows. -/
def auBytes (dataSize codec rate channels : Nat) (info audio rest : Bytes) : Bytes :=
  [46, 115, 110, 100] ++ (beBytes 4 (24 + info.length) ++ (beBytes 4 dataSize ++ (beBytes 4 codec ++ (beBytes 4 rate ++
    (beBytes 4 channels ++ (info ++ (audio ++ rest)))))))

/-- What `extract` needs of a file. -/
def auPlace (k n : Nat) : Option (Nat × Nat) := if n = 0 then none else some (8 * k, n)

theorem read_au (dataSize codec rate channels : Nat) (info audio : Bytes) (s : InputStream) (rest : Bytes)
    (h1 : dataSize < 2 ^ 32) (h2 : codec < 2 ^ 32) (h3 : rate < 2 ^ 32) (h4 : channels < 2 ^ 32) (h5 : info.length ≤ 65535)
    (hs : stringInputStream (auBytes dataSize codec rate channels info audio rest) = .ok s) :
    readFile s (8 * (auBytes dataSize codec rate channels info audio rest).length) =
      .ok ⟨24 + info.length, dataSize, codec, rate, channels, auPlace 24 info.length,
        auPlace (24 + info.length) (min dataSize (audio ++ rest).length)⟩ ∧
    Au.valid s = .ok (channels = 1 || channels = 2) := by
  have hl : (auBytes dataSize codec rate channels info audio rest).length = 24 + info.length + (audio ++ rest).length := by
    simp only [auBytes, List.length_append, beBytes_length, List.length_cons, List.length_nil]
    omega
  rw [hl]
  generalize hd : auBytes dataSize codec rate channels info audio rest = data at *
  have hp : [[46, 115, 110, 100], beBytes 4 (24 + info.length), beBytes 4 dataSize, beBytes 4 codec, beBytes 4 rate,
      beBytes 4 channels, info ++ (audio ++ rest)].flatten <+: data.drop 0 := by
    rw [← hd]; exact ⟨[], by simp [auBytes]⟩
  have r0 := readBytes_prefix data s hs 0 [46, 115, 110, 100] (record_part _ 0 _ rfl _ (by simp) hp)
  have r1 := read_be data s hs 4 4 (24 + info.length) (by omega) (by omega) (record_part _ 1 _ rfl _ (by simp) hp) 32 rfl 32 rfl
  have r2 := read_be data s hs 4 8 dataSize (by omega) (by omega) (record_part _ 2 _ rfl _ (by simp [beBytes_length]) hp) 32 rfl 64 rfl
  have r3 := read_be data s hs 4 12 codec (by omega) (by omega) (record_part _ 3 _ rfl _ (by simp [beBytes_length]) hp) 32 rfl 96 rfl
  have r4 := read_be data s hs 4 16 rate (by omega) (by omega) (record_part _ 4 _ rfl _ (by simp [beBytes_length]) hp) 32 rfl 128 rfl
  have r5 := read_be data s hs 4 20 channels (by omega) (by omega) (record_part _ 5 _ rfl _ (by simp [beBytes_length]) hp) 32 rfl 160 rfl
  constructor
  · rw [readFile, r1]
    simp only [bind, Except.bind]
    rw [r2]
    simp only []
    rw [r3]
    simp only []
    rw [r4]
    simp only []
    rw [r5]
    simp only []
    by_cases hi : info.length = 0
    · rw [if_neg (by omega)]
      unfold auPlace
      rw [if_pos hi, hi, show (8 * (24 + 0 + (audio ++ rest).length) - 192) / 8 = (audio ++ rest).length by omega]
    · rw [if_pos (by omega), if_neg (by omega), if_neg (by omega)]
      unfold auPlace
      rw [if_neg hi, show (8 * (24 + info.length + (audio ++ rest).length) - 8 * (24 + info.length)) / 8 = (audio ++ rest).length by omega,
        show 24 + info.length - 24 = info.length by omega]
  · have r0' : readBytes s 0 4 = .ok [46, 115, 110, 100] := r0
    rw [Au.valid, r0']
    simp only [bind, Except.bind]
    rw [if_neg (by decide), r5]

/-- **C116**: a file with a known size of its samples is accepted (one or two channels); the samples are where they
are, and the content size is the size of the file without what follows. -/
theorem C116_file (codec rate channels : Nat) (info audio rest : Bytes) (s : InputStream)
    (h1 : audio.length < 2 ^ 32) (h0 : 0 < audio.length) (h2 : codec < 2 ^ 32) (h3 : rate < 2 ^ 32) (h4 : channels = 1 ∨ channels = 2)
    (h5 : info.length ≤ 65535)
    (hs : stringInputStream (auBytes audio.length codec rate channels info audio rest) = .ok s) :
    ∃ f, readFile s (8 * (auBytes audio.length codec rate channels info audio rest).length) = .ok f ∧ Au.valid s = .ok true ∧
      f.codec = codec ∧ f.rate = rate ∧ f.channels = channels ∧ f.audio = some (8 * (24 + info.length), audio.length) ∧
      f.info = (if info = [] then none else some (192, info.length)) ∧
      Au.contentSize f = 8 * (auBytes audio.length codec rate channels info audio []).length := by
  obtain ⟨r1, r2⟩ := read_au audio.length codec rate channels info audio s rest h1 h2 h3 (by omega) h5 hs
  refine ⟨_, r1, ?_, rfl, rfl, rfl, ?_, ?_, ?_⟩
  · rw [r2]
    rcases h4 with rfl | rfl <;> rfl
  · show auPlace (24 + info.length) (min audio.length (audio ++ rest).length) = _
    have e : min audio.length (audio ++ rest).length = audio.length := by rw [List.length_append]; omega
    unfold auPlace
    rw [e, if_neg (by omega)]
  · simp only [auPlace, List.length_eq_zero_iff]
  · simp only [Au.contentSize, auBytes, List.length_append, beBytes_length, List.length_cons, List.length_nil]
    omega

/-- The bits of a sample of each codec with samples of fixed size (Sun's `audio/au.h`). -/
def auBits : List (Nat × Nat) :=
  [(1, 8), (2, 8), (3, 16), (4, 24), (5, 32), (6, 32), (7, 64), (10, 8), (11, 16), (12, 24), (13, 32), (18, 16), (27, 8)]

/-- **C116**: the duration told is the number of bits of the samples by channels, bits per sample and rate: for all
lengths, rates, channels and codecs of fixed size. -/
theorem C116_duration (ok : Nat → Nat → Bool) (f : Au.File) (codec bits : Nat) (hc : (codec, bits) ∈ auBits) (hcodec : f.codec = codec)
    (hr : 1000 ≤ f.rate ∧ f.rate ≤ 192000) (hch : f.channels = 1 ∨ f.channels = 2) (a n : Nat) (ha : f.audio = some (a, n))
    (hok : ok (8 * n) (bits * f.channels * f.rate) = true) :
    extract ok f = ⟨some f.rate, some f.channels, some bits, some (bits * f.channels * f.rate), some (8 * n, bits * f.channels * f.rate)⟩ := by
  have hb : bitsPerSample codec = some bits ∧ 1 ≤ bits ∧ bits ≤ 64 := by
    have : ∀ p ∈ auBits, bitsPerSample p.1 = some p.2 ∧ 1 ≤ p.2 ∧ p.2 ≤ 64 := by decide
    exact this _ hc
  have hm1 : 1 ≤ bits * f.channels * f.rate := Nat.mul_pos (Nat.mul_pos hb.2.1 (by omega)) (by omega)
  have hm2 : bits * f.channels * f.rate ≤ 64 * 2 * 192000 := Nat.mul_le_mul (Nat.mul_le_mul hb.2.2 (by omega)) hr.2
  have hbr : inRange 1 (500 * 1024 * 1024) (bits * f.channels * f.rate) = some (bits * f.channels * f.rate) := by
    unfold inRange
    rw [if_pos ⟨hm1, by omega⟩]
  have h1 : inRange 1000 192000 f.rate = some f.rate := by unfold inRange; rw [if_pos hr]
  have h2 : inRange 1 8 f.channels = some f.channels := by unfold inRange; rw [if_pos (by omega)]
  unfold extract
  simp only [h1, h2, hcodec, hb.1, bitRate, hbr, ha, if_pos hok]

/-- **C116**: the duration of a file as written. -/
theorem C116_told (ok : Nat → Nat → Bool) (codec bits rate channels : Nat) (info audio rest : Bytes) (s : InputStream)
    (h1 : audio.length < 2 ^ 32) (h0 : 0 < audio.length) (hc : (codec, bits) ∈ auBits) (h3 : 1000 ≤ rate ∧ rate ≤ 192000)
    (h4 : channels = 1 ∨ channels = 2) (h5 : info.length ≤ 65535)
    (hs : stringInputStream (auBytes audio.length codec rate channels info audio rest) = .ok s)
    (hok : ok (8 * audio.length) (bits * channels * rate) = true) :
    ∃ f, readFile s (8 * (auBytes audio.length codec rate channels info audio rest).length) = .ok f ∧
      extract ok f = ⟨some rate, some channels, some bits, some (bits * channels * rate), some (8 * audio.length, bits * channels * rate)⟩ := by
  have hcl : codec < 2 ^ 32 := by
    have : ∀ p ∈ auBits, p.1 < 2 ^ 32 := by decide
    exact this _ hc
  obtain ⟨f, r, _, e1, e2, e3, e4, _, _⟩ := C116_file codec rate channels info audio rest s h1 h0 hcl (by omega) h4 h5 hs
  refine ⟨f, r, ?_⟩
  have := C116_duration ok f codec bits hc e1 (by rw [e2]; exact h3) (by rw [e3]; exact h4) _ _ e4 (by rw [e2, e3]; exact hok)
  rw [e2, e3] at this
  exact this

/-- Violation: the size 0xffffffff stands for "unknown"; the samples go up to the end of the file, but
the content size is more than 4 GB. -/
theorem C116_unknown (codec rate channels : Nat) (info audio : Bytes) (s : InputStream)
    (h1 : audio.length < 2 ^ 32 - 1) (h0 : 0 < audio.length) (h2 : codec < 2 ^ 32) (h3 : rate < 2 ^ 32) (h4 : channels = 1 ∨ channels = 2)
    (h5 : info.length ≤ 65535)
    (hs : stringInputStream (auBytes 0xffffffff codec rate channels info audio []) = .ok s) :
    ∃ f, readFile s (8 * (auBytes 0xffffffff codec rate channels info audio []).length) = .ok f ∧
      f.audio = some (8 * (24 + info.length), audio.length) ∧
      8 * (auBytes 0xffffffff codec rate channels info audio []).length < Au.contentSize f := by
  obtain ⟨r1, _⟩ := read_au 0xffffffff codec rate channels info audio s [] (by omega) h2 h3 (by omega) h5 hs
  refine ⟨_, r1, ?_, ?_⟩
  · show auPlace (24 + info.length) (min 0xffffffff (audio ++ []).length) = _
    have e : min 0xffffffff (audio ++ []).length = audio.length := by rw [List.append_nil]; omega
    unfold auPlace
    rw [e, if_neg (by omega)]
  · simp only [Au.contentSize, auBytes, List.length_append, beBytes_length, List.length_cons, List.length_nil]
    omega

/-- Violation: the format allows any number of channels, more than two are refused. -/
theorem C116_channels (dataSize codec rate channels : Nat) (info audio rest : Bytes) (s : InputStream)
    (h1 : dataSize < 2 ^ 32) (h2 : codec < 2 ^ 32) (h3 : rate < 2 ^ 32) (h4 : 2 < channels ∧ channels < 2 ^ 32) (h5 : info.length ≤ 65535)
    (hs : stringInputStream (auBytes dataSize codec rate channels info audio rest) = .ok s) : Au.valid s = .ok false := by
  rw [(read_au dataSize codec rate channels info audio s rest h1 h2 h3 h4.2 h5 hs).2]
  simp
  omega

/-- A file with a text, in stereo. -/
example : ∃ s, stringInputStream (auBytes 4 3 8000 2 [97, 0] [1, 2, 3, 4] [9]) = .ok s ∧ ([1, 2, 3, 4] : Bytes).length < 2 ^ 32 :=
  ⟨_, rfl, by decide⟩

example : ((3, 16) : Nat × Nat) ∈ auBits := by decide

end Hachoir.Props
