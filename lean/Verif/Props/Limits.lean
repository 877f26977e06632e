import Verif.Props.Au
import Verif.Props.Aiff
import Verif.Props.Gif
import Verif.Props.Bmp
import Verif.Props.Pcx
import Verif.Props.Cab
import Verif.Props.Tcpdump
import Verif.Props.Pe
import Verif.Props.Mod
import Verif.Props.Max3ds
import Verif.Props.Real
import Verif.Props.MpegTs

/-!
# Limits and flags of some formats

What is refused, and which bits and names decide.
-/

namespace Hachoir.Props
open Hachoir Hachoir.Stream Hachoir.Field Hachoir.Formats Spec

/-! ## Sun audio -/

/-- Violation: a file with a text of more than 65535 bytes before its samples is not read. -/
theorem C116_long_info (dataSize codec rate channels : Nat) (info audio rest : Bytes) (s : InputStream)
    (h1 : dataSize < 2 ^ 32) (h2 : codec < 2 ^ 32) (h3 : rate < 2 ^ 32) (h4 : channels < 2 ^ 32) (h5 : 65535 < info.length) (h6 : 24 + info.length < 2 ^ 32)
    (hs : stringInputStream (auBytes dataSize codec rate channels info audio rest) = .ok s) (size : Nat) : Au.readFile s size = .error .field := by
  generalize hd : auBytes dataSize codec rate channels info audio rest = data at *
  have hp : [[46, 115, 110, 100], beBytes 4 (24 + info.length), beBytes 4 dataSize, beBytes 4 codec, beBytes 4 rate,
      beBytes 4 channels, info ++ (audio ++ rest)].flatten <+: data.drop 0 := by
    rw [← hd]; exact ⟨[], by simp [auBytes]⟩
  have r1 := read_be data s hs 4 4 (24 + info.length) (by omega) (by omega) (record_part _ 1 _ rfl _ (by simp) hp) 32 rfl 32 rfl
  have r2 := read_be data s hs 4 8 dataSize (by omega) (by omega) (record_part _ 2 _ rfl _ (by simp [beBytes_length]) hp) 32 rfl 64 rfl
  have r3 := read_be data s hs 4 12 codec (by omega) (by omega) (record_part _ 3 _ rfl _ (by simp [beBytes_length]) hp) 32 rfl 96 rfl
  have r4 := read_be data s hs 4 16 rate (by omega) (by omega) (record_part _ 4 _ rfl _ (by simp [beBytes_length]) hp) 32 rfl 128 rfl
  have r5 := read_be data s hs 4 20 channels (by omega) (by omega) (record_part _ 5 _ rfl _ (by simp [beBytes_length]) hp) 32 rfl 160 rfl
  rw [Au.readFile, r1]
  simp only [bind, Except.bind]
  rw [r2]
  simp only []
  rw [r3]
  simp only []
  rw [r4]
  simp only []
  rw [r5]
  simp only []
  rw [if_pos (by omega), if_pos (by omega)]

/-! ## AIFF -/

/-- **C117**: a common chunk of odd size is read like that with its padding byte. -/
theorem C117_padding (s : InputStream) (addr n : Nat) : Aiff.readCommon s addr (2 * n + 1) = Aiff.readCommon s addr (2 * n + 2) := by
  rw [Aiff.readCommon, Aiff.readCommon, show 2 * n + 1 + (2 * n + 1) % 2 = 2 * n + 2 + (2 * n + 2) % 2 by omega]

/-! ## GIF -/

/-- **C118**: exactly the files with pictures of 1 to 6000 pixels in both directions are accepted. -/
theorem C118_valid (version : Bytes) (hv : version = [56, 55, 97] ∨ version = [56, 57, 97]) (c : Gif.Screen) (hc : ScreenGood c)
    (map : Option Bytes) (items : List Gif.Item) (rest : Bytes) (s : InputStream)
    (hs : stringInputStream (gifBytes version c map items rest) = .ok s) :
    Gif.valid s = .ok (decide (1 ≤ c.width ∧ c.width ≤ 6000 ∧ 1 ≤ c.height ∧ c.height ≤ 6000)) := by
  have hl : version.length = 3 := by rcases hv with rfl | rfl <;> rfl
  generalize hd : gifBytes version c map items rest = data at *
  have hp : [[71, 73, 70], version, screenBytes c, mapBytes map, gifItems items, rest].flatten <+: data.drop 0 := by
    rw [← hd]; exact ⟨[], by simp [gifBytes]⟩
  have r2 := read_screen hs c hc (record_part _ 2 _ rfl _ (by simp [hl]) hp)
  have h6 : [71, 73, 70] ++ version <+: data.drop 0 := by
    rw [← hd]; exact ⟨screenBytes c ++ (mapBytes map ++ (gifItems items ++ rest)), by simp [gifBytes]⟩
  have r0 := readBytes_prefix data s hs 0 ([71, 73, 70] ++ version) h6
  have r0' : readBytes s 0 6 = .ok ([71, 73, 70] ++ version) := by
    have e : ([71, 73, 70] ++ version : Bytes).length = 6 := by simp [hl]
    rw [e] at r0; exact r0
  rw [Gif.valid, r0']
  simp only [bind, Except.bind]
  rw [if_neg (by rcases hv with rfl | rfl <;> decide), r2]
  simp only []
  by_cases h0 : c.width = 0 ∨ c.height = 0
  · rw [if_pos h0, decide_eq_false (by omega)]
  · rw [if_neg h0]
    by_cases h1 : 6000 < c.width
    · rw [if_pos h1, decide_eq_false (by omega)]
    · rw [if_neg h1]
      by_cases h2 : 6000 < c.height
      · rw [if_pos h2, decide_eq_false (by omega)]
      · rw [if_neg h2, decide_eq_true (by omega)]

/-! ## BMP -/

/-- **C120**: headers of 12, 40 and 108 bytes are accepted, if there is one plane; others are an error. -/
theorem C120_valid (s : InputStream) (h : Bmp.Header) (next : Nat) (hb : readBytes s 0 2 = .ok [66, 77]) (hh : Bmp.readHeader s 112 = .ok (h, next)) :
    Bmp.valid s = if h.size = 12 ∨ h.size = 40 ∨ h.size = 108 then .ok (decide (h.planes = 1)) else .error .missingField := by
  rw [Bmp.valid, hb]
  simp only [bind, Except.bind]
  rw [if_neg (by decide), hh]
  simp only []
  by_cases e : h.size = 12 ∨ h.size = 40 ∨ h.size = 108
  · rw [if_neg (by omega), if_pos e]
  · rw [if_pos (by omega), if_neg e]

/-! ## PCX -/

/-- **C123**: a picture of 8 bits with no room for pixels before its colours is an error. -/
theorem C123_no_pixels (s : InputStream) (n : Nat) (hn : n ≤ 768) : Pcx.readTail s (8 * (128 + n)) 8 = .error .field := by
  rw [Pcx.readTail, if_pos rfl, if_pos (by omega)]

/-! ## Cabinets -/

/-- **C132**: names are taken for UTF-8 exactly if the bit 128 of the attributes says so. -/
theorem C132_name_charset (a : Nat) :
    Cab.nameCharset (splitLE [1, 1, 1, 2, 1, 1, 1, 8] a) = if a / 128 % 2 = 1 then .utf8 else .eightBit := by
  rw [Cab.nameCharset]
  have e : (splitLE [1, 1, 1, 2, 1, 1, 1, 8] a).getD 6 0 = a / 128 % 2 := by
    simp only [splitLE, List.getD_cons_succ, List.getD_cons_zero, Nat.div_div_eq_div_mul]
    norm_num
  rw [e]
  by_cases h : a / 128 % 2 = 1
  · rw [if_neg (by omega), if_pos h]
  · rw [if_pos (by omega), if_neg h]

/-! ## Network captures -/

/-- Violation: of the microseconds of a packet only a hundredth is told. -/
theorem C135_timestamp_wrong (p : Tcpdump.Packet) (k : Nat) (h : p.fraction = 100 * k) : Tcpdump.timestamp p = p.epoch * 1000000 + k := by
  rw [Tcpdump.timestamp, h, show 100 * k / 100 = k by omega, show 100 * k % 100 = 0 by omega]
  rfl

/-! ## Windows programs -/

theorem joinLE_bit : ∀ (n i : Nat) (vs : List Nat), Fit (List.replicate n 1) vs → i < n → joinLE (List.replicate n 1) vs / 2 ^ i % 2 = vs.getD i 0
  | n + 1, 0, v :: vs, h, _ => by
    rw [List.replicate_succ, joinLE, Nat.pow_zero, Nat.div_one, List.getD_cons_zero, Nat.pow_one]
    have : v < 2 ^ 1 := h.1
    omega
  | n + 1, i + 1, v :: vs, h, hi => by
    rw [List.replicate_succ, joinLE, List.getD_cons_succ, ← joinLE_bit n i vs h.2 (by omega), Nat.pow_one, Nat.pow_succ, Nat.mul_comm (2 ^ i), ← Nat.div_div_eq_div_mul]
    have : v < 2 ^ 1 := h.1
    congr 2
    omega
  | n + 1, i, [], h, _ => h.elim

/-- **C137**: a program is told to be a library exactly if the bit 0x2000 of its characteristics is set. -/
theorem C137_dll (h : Pe.Header) (g : Fit flags16 h.flags) : Pe.isDll h = decide (joinLE flags16 h.flags / 2 ^ 13 % 2 = 1) := by
  have e : joinLE flags16 h.flags / 2 ^ 13 % 2 = h.flags.getD 13 0 := joinLE_bit 16 13 h.flags g (by decide)
  rw [e, Pe.isDll, List.getD_eq_getElem?_getD]
  cases h.flags[13]? with
  | none => rfl
  | some v =>
    show (some v == some 1) = _
    by_cases hv : v = 1
    · subst hv; rfl
    · rw [decide_eq_false (by simpa using hv), beq_eq_false_iff_ne]
      simpa using hv

/-! ## Amiga modules -/

/-- **C141**: the number of channels of each type of module. -/
theorem C141_channels : ∀ x ∈ [("M.K.", 4), ("M!K!", 4), ("M&K&", 4), ("RASP", 4), ("FLT4", 4), ("FLT8", 8), ("6CHN", 6), ("8CHN", 8), ("CD81", 8), ("OCTA", 8),
    ("FA04", 4), ("FA06", 6), ("FA08", 8)], Mod.find (.bytes x.1.toUTF8.toList) Mod.moduleType = .ok x.2 := by decide +kernel

/-! ## 3D Studio -/

/-- **C142**: a chunk with a size below that of its header is an error. -/
theorem C142_small (type size : Nat) (ht : type < 65536) (h : size < 6) (fuel : Nat) :
    Fails (Max3ds.chunk (fuel + 1)) .parser (leBytes 2 type ++ (leBytes 4 size ++ [])) := by
  refine Reads.fails (reads_int_le 2 type (by decide) ht) ?_
  refine Reads.fails (reads_int_le 4 size (by decide) (by omega)) ?_
  rw [if_neg (by omega), if_pos h]
  exact fails_fail _

/-- **C142**: the first version counts; an empty one is none. -/
theorem C142_version (before after : List Max3ds.Chunk) (hb : ∀ c ∈ before, (∀ n, c ≠ .version n) ∧ c ≠ .empty 2) (n : Nat) :
    Max3ds.versionOf (before ++ .version n :: after) = some n ∧ Max3ds.versionOf (before ++ .empty 2 :: after) = none := by
  induction before with
  | nil => exact ⟨rfl, rfl⟩
  | cons c l ih =>
    obtain ⟨i1, i2⟩ := ih fun c hc => hb c (List.mem_cons_of_mem _ hc)
    obtain ⟨h1, h2⟩ := hb c List.mem_cons_self
    have e : ∀ l, Max3ds.versionOf (c :: l) = Max3ds.versionOf l := by
      intro l
      rw [Max3ds.versionOf.eq_def]
      split
      · next h => cases h
      · next h => cases h; exact absurd rfl (h1 _)
      · next h => cases h; exact absurd rfl h2
      · next h => cases h; rfl
    rw [List.cons_append, List.cons_append, e, e]
    exact ⟨i1, i2⟩

/-! ## RealAudio -/

/-- **C143**: rate and channels told are those of the header; files of version 3, which have none, are told to be of 8000 Hz and one channel. -/
theorem C143_audio_told (h3 : Real.Version3) (h4 : Real.Version4) :
    Real.sampleRateOf (.v3 h3) = 8000 ∧ Real.channelsOf (.v3 h3) = 1 ∧ Real.sampleRateOf (.v4 h4) = h4.sampleRate ∧ Real.channelsOf (.v4 h4) = h4.channels :=
  ⟨rfl, rfl, rfl, rfl⟩

/-! ## Transport streams -/

/-- **C144**: the packets that are accepted: with payload or adaptation field and no reserved number. -/
theorem C144_packet_valid (p : MpegTs.Packet) : MpegTs.packetValid p = true ↔
    (p.payload ≠ none ∨ p.adaptation ≠ none) ∧ p.pid < 0x2000 ∧ (p.pid < 2 ∨ 16 ≤ p.pid) := by
  simp only [MpegTs.packetValid, Bool.and_eq_true, Bool.or_eq_true, Bool.not_eq_true', Bool.and_eq_false_iff, decide_eq_false_iff_not, Option.isSome_iff_ne_none]
  constructor
  · rintro ⟨⟨h1, h2⟩, h3⟩
    exact ⟨h1, by omega, by omega⟩
  · rintro ⟨h1, h2, h3⟩
    exact ⟨⟨h1, by omega⟩, by omega⟩

/-- Violation: whether packets have time stamps before them is decided by the name of the file alone: a stream without a name is always taken to have them. -/
theorem C144_name : MpegTs.isM2ts none = true ∧ ∀ base : Bytes, MpegTs.isM2ts (some (base ++ ".m2ts".toUTF8.toList)) = true ∧
    MpegTs.isM2ts (some (base ++ ".mts".toUTF8.toList)) = true ∧ MpegTs.isM2ts (some (base ++ ".ts".toUTF8.toList)) = false := by
  rw [show ".m2ts".toUTF8.toList = [0x2E, 0x6D, 0x32, 0x74, 0x73] by decide +kernel, show ".mts".toUTF8.toList = [0x2E, 0x6D, 0x74, 0x73] by decide +kernel,
    show ".ts".toUTF8.toList = [0x2E, 0x74, 0x73] by decide +kernel]
  refine ⟨rfl, fun base => ⟨?_, ?_, ?_⟩⟩
  · rw [MpegTs.isM2ts, Bool.or_eq_true]
    exact .inl (List.isSuffixOf_iff_suffix.2 ⟨base, rfl⟩)
  · rw [MpegTs.isM2ts, Bool.or_eq_true]
    exact .inr (List.isSuffixOf_iff_suffix.2 ⟨base, rfl⟩)
  · rw [MpegTs.isM2ts, Bool.or_eq_false_iff, ← Bool.not_eq_true, ← Bool.not_eq_true, List.isSuffixOf_iff_suffix, List.isSuffixOf_iff_suffix]
    constructor
    · rintro ⟨t, ht⟩
      have := congrArg List.reverse ht
      simp at this
    · rintro ⟨t, ht⟩
      have := congrArg List.reverse ht
      simp at this

/-! ## Examples -/

/-- A text of 65536 bytes before the samples. -/
example : 65535 < (List.replicate 65536 (0 : UInt8)).length ∧ 24 + (List.replicate 65536 (0 : UInt8)).length < 2 ^ 32 := by
  rw [List.length_replicate]; omega

example : Fit flags16 [0, 1, 0, 0, 0, 0, 0, 0, 0, 0, 0, 0, 0, 1, 0, 0] := by simp [Fit, flags16]

example : Max3ds.versionOf [.empty 7, .version 3, .version 4] = some 3 := (C142_version [.empty 7] [.version 4] (by simp) 3).1

example : Cab.nameCharset (splitLE [1, 1, 1, 2, 1, 1, 1, 8] 0xA0) = .utf8 := C132_name_charset 0xA0

end Hachoir.Props
