import Verif.Formats.Png
import Verif.Core.CalendarLemmas
import Verif.Props.Records

/-!
# C99: PNG files
-/

namespace Hachoir.Props
open Hachoir Hachoir.Stream Hachoir.Formats Hachoir.Formats.Png Hachoir.Time Spec

/-! ## What the bytes of a file are -/

/-- A chunk. -/
structure PngChunk where
  tag : Bytes
  content : Bytes
  crc : Nat

/-- Chunks of less than 64 MiB. -/
def PngChunk.Good (c : PngChunk) : Prop := c.tag.length = 4 ∧ c.content.length + 12 ≤ 64 * 1024 * 1024 ∧ c.crc < 2 ^ 32

def PngChunk.bytes (c : PngChunk) : Bytes := [beBytes 4 c.content.length, c.tag, c.content, beBytes 4 c.crc].flatten

/-- The places of chunks, one behind the other from the byte `k` on. -/
def pngPlaces : Nat → List PngChunk → List Png.Chunk
  | _, [] => []
  | k, c :: cs => ⟨c.tag, 8 * k, 8 * (c.content.length + 12), 8 * (k + 8), c.content.length, c.crc⟩ ::
      pngPlaces (k + (c.content.length + 12)) cs

/-- The kinds of pictures and the numbers of values per pixel. -/
inductive ColorType
  | grey
  | rgb
  | palette
  | greyAlpha
  | rgbAlpha
  deriving DecidableEq

def ColorType.code : ColorType → Nat
  | .grey => 0
  | .rgb => 2
  | .palette => 3
  | .greyAlpha => 4
  | .rgbAlpha => 6

def ColorType.samples : ColorType → Nat
  | .grey => 1
  | .rgb => 3
  | .palette => 1
  | .greyAlpha => 2
  | .rgbAlpha => 4

/-- The content of a header. -/
def headerBytes (width height : Nat) (depth : UInt8) (type : ColorType) (compression filter interlace : UInt8) : Bytes :=
  [beBytes 4 width, beBytes 4 height, [depth], [UInt8.ofNat type.code], [compression], [filter], [interlace]].flatten

/-- The content of a time. -/
def timeBytes (d : Day) (hour minute second : Nat) : Bytes :=
  [beBytes 2 d.year, [UInt8.ofNat d.month], [UInt8.ofNat d.day], [UInt8.ofNat hour], [UInt8.ofNat minute], [UInt8.ofNat second]].flatten

/-! ## Chunks -/

theorem png_length (c : PngChunk) (h : c.Good) : c.bytes.length = c.content.length + 12 := by
  obtain ⟨h1, _, _⟩ := h
  unfold PngChunk.bytes
  simp only [List.flatten_cons, List.flatten_nil, List.append_nil, List.length_append, beBytes_length, h1]
  omega

theorem C99_chunk (data : Bytes) (s : InputStream) (hs : stringInputStream data = .ok s) (c : PngChunk) (h : c.Good)
    (k stop : Nat) (hp : c.bytes <+: data.drop k) (hstop : 8 * (k + (c.content.length + 12)) ≤ stop) :
    readChunk s (8 * k) stop = .ok ⟨c.tag, 8 * k, 8 * (c.content.length + 12), 8 * (k + 8), c.content.length, c.crc⟩ := by
  obtain ⟨h1, h2, h3⟩ := h
  unfold PngChunk.bytes at hp
  have p0 := record_part _ 0 _ rfl k (by simp) hp
  have p1 := record_part _ 1 _ rfl (k + 4) (by simp [beBytes_length]) hp
  have p3 := record_part _ 3 _ rfl (k + 8 + c.content.length) (by simp [beBytes_length, h1]; omega) hp
  have r0 := read_be data s hs 4 k c.content.length (by omega) (by omega) p0 32 rfl ((8 * k : Nat) : Int) rfl
  have r1 : readBytes s _ _ = _ := readBytes_prefix data s hs _ _ p1
  rw [h1] at r1
  have r3 := read_be data s hs 4 _ c.crc (by omega) (by omega) p3 32 rfl ((8 * k + 64 + c.content.length * 8 : Nat) : Int) (by
    push_cast; ring)
  unfold readChunk maxChunk
  rw [r0]
  simp only
  rw [if_neg (by omega), show 8 * k + 32 = 8 * (k + 4) by omega, r1]
  simp only
  rw [if_neg (by omega), r3]
  simp only [Except.ok.injEq, Png.Chunk.mk.injEq, true_and, and_true]
  omega

/-- The chunks of a file. -/
theorem C99_chunks (data : Bytes) (s : InputStream) (hs : stringInputStream data = .ok s) (cs : List PngChunk)
    (hg : ∀ c ∈ cs, c.Good) (k fuel : Nat) (hf : cs.length < fuel) (hp : cs.flatMap PngChunk.bytes <+: data.drop k) :
    readChunks s fuel (8 * k) (8 * (k + (cs.flatMap PngChunk.bytes).length)) = .ok (pngPlaces k cs) := by
  induction cs generalizing k fuel with
  | nil =>
    obtain ⟨f, rfl⟩ : ∃ f, fuel = f + 1 := ⟨fuel - 1, by omega⟩
    rw [readChunks, if_neg (by simp)]
    rfl
  | cons c cs ih =>
    simp only [List.length_cons] at hf
    obtain ⟨f, rfl⟩ : ∃ f, fuel = f + 1 := ⟨fuel - 1, by omega⟩
    rw [List.flatMap_cons] at hp ⊢
    have hc := hg c (by simp)
    have hl := png_length c hc
    rw [List.length_append, hl]
    rw [readChunks, if_pos (by omega), C99_chunk data s hs c hc k _ (prefix_left hp) (by omega)]
    simp only
    have hp2 := drop_prefix hp
    rw [hl] at hp2
    have := ih (fun q hq => hg q (by simp [hq])) _ f (by omega) hp2
    rw [show 8 * k + 8 * (c.content.length + 12) = 8 * (k + (c.content.length + 12)) by omega,
      show k + (c.content.length + 12 + (cs.flatMap PngChunk.bytes).length) = k + (c.content.length + 12) + (cs.flatMap PngChunk.bytes).length by
        omega, this]
    rfl

/-- A chunk of more than 64 MiB is refused. -/
theorem C99_too_big (data : Bytes) (s : InputStream) (hs : stringInputStream data = .ok s) (k n stop : Nat)
    (hn : 64 * 1024 * 1024 < n + 12) (hv : n < 2 ^ 32) (hp : beBytes 4 n <+: data.drop k) :
    readChunk s (8 * k) stop = .error .parser := by
  have r0 := read_be data s hs 4 k n (by omega) (by omega) hp 32 rfl ((8 * k : Nat) : Int) rfl
  unfold readChunk maxChunk
  rw [r0]
  simp only
  rw [if_pos hn]

/-! ## Header and time -/

/-- The header is read as written; the bits of a pixel are those of the kind of picture. -/
theorem C99_header (data : Bytes) (s : InputStream) (hs : stringInputStream data = .ok s) (k width height : Nat)
    (hw : width < 2 ^ 32) (hh : height < 2 ^ 32) (depth : UInt8) (type : ColorType) (compression filter interlace : UInt8)
    (hp : headerBytes width height depth type compression filter interlace <+: data.drop k) :
    ∃ h, readHeader s (8 * k) = .ok h ∧ h.width = width ∧ h.height = height ∧ h.depth = depth.toNat ∧
      (h.hasAlpha = true ↔ type = .greyAlpha ∨ type = .rgbAlpha) ∧ (h.hasPalette = true ↔ type = .palette) ∧
      (h.color = false ↔ type = .grey ∨ type = .greyAlpha) ∧
      h.compression = compression.toNat ∧ h.filter = filter.toNat ∧ h.interlace = interlace.toNat ∧
      bitsPerPixel h = type.samples * depth.toNat := by
  unfold headerBytes at hp
  have p0 := record_part _ 0 _ rfl k (by simp) hp
  have p1 := record_part _ 1 _ rfl (k + 4) (by simp [beBytes_length]) hp
  have p2 := record_part _ 2 _ rfl (k + 8) (by simp [beBytes_length]) hp
  have p3 := record_part _ 3 _ rfl (k + 9) (by simp [beBytes_length]) hp
  have p4 := record_part _ 4 _ rfl (k + 10) (by simp [beBytes_length]) hp
  have p5 := record_part _ 5 _ rfl (k + 11) (by simp [beBytes_length]) hp
  have p6 := record_part _ 6 _ rfl (k + 12) (by simp [beBytes_length]) hp
  have r0 := read_be data s hs 4 k width (by omega) (by omega) p0 32 rfl ((8 * k : Nat) : Int) rfl
  have r1 := read_be data s hs 4 (k + 4) height (by omega) (by omega) p1 32 rfl ((8 * k + 32 : Nat) : Int) (by push_cast; ring)
  have r2 := read_byte data s hs (k + 8) depth .big (by simp) p2 ((8 * k + 64 : Nat) : Int) (by push_cast; ring)
  have r4 := read_byte data s hs (k + 10) compression .big (by simp) p4 ((8 * k + 80 : Nat) : Int) (by push_cast; ring)
  have r5 := read_byte data s hs (k + 11) filter .big (by simp) p5 ((8 * k + 88 : Nat) : Int) (by push_cast; ring)
  have r6 := read_byte data s hs (k + 12) interlace .big (by simp) p6 ((8 * k + 96 : Nat) : Int) (by push_cast; ring)
  have b0 := readBits_mid data s hs (k + 9) 5 1 _ p3 (by simp) (by simp) ((8 * k + 77 : Nat) : Int) (by push_cast; ring)
  have b1 := readBits_mid data s hs (k + 9) 6 1 _ p3 (by simp) (by simp) ((8 * k + 78 : Nat) : Int) (by push_cast; ring)
  have b2 := readBits_mid data s hs (k + 9) 7 1 _ p3 (by simp) (by simp) ((8 * k + 79 : Nat) : Int) (by push_cast; ring)
  unfold readHeader
  simp only [bind, Except.bind, pure, Except.pure]
  rw [r0]; simp only
  rw [r1]; simp only
  rw [r2]; simp only
  rw [b0]; simp only
  rw [b1]; simp only
  rw [b2]; simp only
  rw [r4]; simp only
  rw [r5]; simp only
  rw [r6]; simp only
  refine ⟨_, rfl, rfl, rfl, rfl, ?_, ?_, ?_, rfl, rfl, rfl, ?_⟩
  · clear * -; simp only; cases type <;> decide
  · clear * -; simp only; cases type <;> decide
  · clear * -; simp only; cases type <;> decide
  · unfold bitsPerPixel
    simp only
    congr 1
    cases type <;> rfl

/-- Every time of a calendar day is read. -/
theorem C99_time (data : Bytes) (s : InputStream) (hs : stringInputStream data = .ok s) (k : Nat) (d : Day) (hd : d.Valid)
    (hy : d.year ≤ 9999) (hour minute second : Nat) (hh : hour < 24) (hm : minute < 60) (hsec : second < 60)
    (hp : timeBytes d hour minute second <+: data.drop k) :
    readTime s (8 * k) = .ok ⟨d.year, d.month, d.day, hour, minute, second, 0⟩ := by
  obtain ⟨d0, d1, d2, d3, d4⟩ := hd
  have hml : monthLength d.year d.month ≤ 31 := by unfold monthLength; (repeat' split) <;> omega
  unfold timeBytes at hp
  have p0 := record_part _ 0 _ rfl k (by simp) hp
  have p1 := record_part _ 1 _ rfl (k + 2) (by simp [beBytes_length]) hp
  have p2 := record_part _ 2 _ rfl (k + 3) (by simp [beBytes_length]) hp
  have p3 := record_part _ 3 _ rfl (k + 4) (by simp [beBytes_length]) hp
  have p4 := record_part _ 4 _ rfl (k + 5) (by simp [beBytes_length]) hp
  have p5 := record_part _ 5 _ rfl (k + 6) (by simp [beBytes_length]) hp
  have r0 := read_be data s hs 2 k d.year (by omega) (by omega) p0 16 rfl ((8 * k : Nat) : Int) rfl
  have r1 := read_byte data s hs (k + 2) _ .big (by simp) p1 ((8 * k + 16 : Nat) : Int) (by push_cast; ring)
  have r2 := read_byte data s hs (k + 3) _ .big (by simp) p2 ((8 * k + 24 : Nat) : Int) (by push_cast; ring)
  have r3 := read_byte data s hs (k + 4) _ .big (by simp) p3 ((8 * k + 32 : Nat) : Int) (by push_cast; ring)
  have r4 := read_byte data s hs (k + 5) _ .big (by simp) p4 ((8 * k + 40 : Nat) : Int) (by push_cast; ring)
  have r5 := read_byte data s hs (k + 6) _ .big (by simp) p5 ((8 * k + 48 : Nat) : Int) (by push_cast; ring)
  rw [UInt8.toNat_ofNat', Nat.mod_eq_of_lt (by omega)] at r1 r2 r3 r4 r5
  unfold readTime
  simp only [bind, Except.bind]
  rw [r0]; simp only
  rw [r1]; simp only
  rw [r2]; simp only
  rw [r3]; simp only
  rw [r4]; simp only
  rw [r5]; simp only
  unfold datetime
  rw [daysInMonth_eq _ _ d1 d2, if_neg (by omega), if_neg (by omega), if_neg (by omega), if_neg (by omega), if_neg (by omega),
    if_neg (by omega)]

/-! ## Metadata -/

/-- The name of the pixel format is right for pictures in colours. -/
theorem C99_format_partial (h : Header) (type : ColorType) (ht : type ≠ .grey ∧ type ≠ .greyAlpha)
    (ha : h.hasAlpha = true ↔ type = .greyAlpha ∨ type = .rgbAlpha) (hpal : h.hasPalette = true ↔ type = .palette)
    (colors : Option Nat) (transparency : Bool) :
    (pixelFormat h colors transparency).1 =
      match type with
      | .palette => if transparency then "Color index with transparency" else "Color index"
      | .rgbAlpha => "RGBA"
      | _ => "RGB" := by
  obtain ⟨w, ht', dp, al, co, pa, c, f, i⟩ := h
  simp only at ha hpal
  cases type <;> cases al <;> cases pa <;> cases transparency <;>
    first
      | rfl
      | exact absurd ht (by decide)
      | exact absurd ha (by decide)
      | exact absurd hpal (by decide)

/-- Without colours, it is still "RGB". -/
theorem C99_grey (h : Header) (colors : Option Nat) (transparency : Bool) (hpal : h.hasPalette = false) (_hc : h.color = false) :
    (pixelFormat h colors transparency).1 = if h.hasAlpha then "RGBA" else "RGB" := by
  unfold pixelFormat
  simp [hpal]

/-- The number of colours of a palette without transparency. -/
theorem C99_colors (h : Header) (n : Nat) (hn : 0 < n) (hpal : h.hasPalette = true) :
    (pixelFormat h (some (3 * n)) false).2 = some n := by
  obtain ⟨m, rfl⟩ : ∃ m, n = m + 1 := ⟨n - 1, by omega⟩
  have : 3 * (m + 1) / 3 = m + 1 := by omega
  unfold pixelFormat
  simp [hpal, this]

/-! ## Content size -/

/-- The size of the content is the end of the first mark behind the header. -/
theorem C99_content_size (data : Bytes) (s : InputStream) (hs : stringInputStream data = .ok s) (hmax : data.length ≤ 500 * 1024 * 1024)
    (k0 k : Nat) (hk : k0 ≤ k) (hp : [0, 0, 0, 0, 0x49, 0x45, 0x4e, 0x44, 0xae, 0x42, 0x60, 0x82] <+: data.drop k)
    (hfirst : ∀ j, k0 ≤ j → j < k → ¬ [0, 0, 0, 0, 0x49, 0x45, 0x4e, 0x44, 0xae, 0x42, 0x60, 0x82] <+: data.drop j) :
    contentSize s (8 * k0) = .ok (some ((8 * (k + 12) : Nat) : Int)) := by
  have hl := hp.length_le
  rw [List.length_drop] at hl
  simp only [List.length_cons, List.length_nil] at hl
  obtain ⟨r, hr, hm⟩ := _root_.Props.C05_searchBytes data endMark s hs (by simp [endMark]) k0 (some maxBits) data.length
    (by unfold maxBits; simp only; omega) (by omega)
  have hr' : searchBytes s endMark ((8 * k0 : Nat) : Int) (some (maxBits : Int)) = .ok r := hr
  unfold contentSize
  rw [hr']
  cases r with
  | none => exact absurd hp (hm k hk (by simp only [endMark, List.length_cons, List.length_nil]; omega))
  | some a =>
    simp only at hm
    obtain ⟨k', rfl, h1, h2, h3, h4⟩ := hm
    have : k' = k := by
      rcases Nat.lt_trichotomy k' k with h | h | h
      · exact absurd h3 (hfirst k' h1 h)
      · exact h
      · exact absurd hp (h4 k hk h)
    subst this
    exact congrArg (fun z => Except.ok (some z)) (by push_cast; ring)

theorem C99_no_end (data : Bytes) (s : InputStream) (hs : stringInputStream data = .ok s) (hmax : data.length ≤ 500 * 1024 * 1024)
    (k0 : Nat) (hk : k0 ≤ data.length)
    (hno : ∀ j, k0 ≤ j → ¬ [0, 0, 0, 0, 0x49, 0x45, 0x4e, 0x44, 0xae, 0x42, 0x60, 0x82] <+: data.drop j) :
    contentSize s (8 * k0) = .ok none := by
  obtain ⟨r, hr, hm⟩ := _root_.Props.C05_searchBytes data endMark s hs (by simp [endMark]) k0 (some maxBits) data.length
    (by unfold maxBits; simp only; omega) hk
  have hr' : searchBytes s endMark ((8 * k0 : Nat) : Int) (some (maxBits : Int)) = .ok r := hr
  unfold contentSize
  rw [hr']
  cases r with
  | none => rfl
  | some a =>
    obtain ⟨k', rfl, h1, h2, h3, h4⟩ := hm
    exact absurd h3 (hno k' h1)

/-! ## Examples -/

/-- A header, a text that contains the mark, and the end. -/
def sampleChunks : List PngChunk :=
  [⟨[0x49, 0x48, 0x44, 0x52], headerBytes 7 5 8 .rgbAlpha 0 0 0, 1⟩,
   ⟨[0x74, 0x45, 0x58, 0x74], [0x61, 0] ++ endMark, 2⟩, ⟨[0x49, 0x45, 0x4e, 0x44], [], 0xae426082⟩]

def samplePng : Bytes := [0x89, 0x50, 0x4e, 0x47, 0x0d, 0x0a, 0x1a, 0x0a] ++ sampleChunks.flatMap PngChunk.bytes

theorem sampleChunks_good : ∀ c ∈ sampleChunks, c.Good := by
  intro c hc
  simp only [sampleChunks, List.mem_cons, List.not_mem_nil, or_false] at hc
  rcases hc with rfl | rfl | rfl
  · exact ⟨by decide, by decide +kernel, by decide⟩
  · exact ⟨by decide, by decide +kernel, by decide⟩
  · exact ⟨by decide, by decide +kernel, by decide⟩

example (s : InputStream) (hs : stringInputStream samplePng = .ok s) :
    readChunks s 4 64 (8 * (8 + (sampleChunks.flatMap PngChunk.bytes).length)) = .ok (pngPlaces 8 sampleChunks) :=
  C99_chunks _ s hs sampleChunks sampleChunks_good 8 4 (by decide) (by decide +kernel)

example : (pngPlaces 8 sampleChunks).map (fun c => (c.addr / 8, c.size / 8)) = [(8, 25), (33, 26), (59, 12)] := by decide +kernel

/-- The mark inside of another chunk is taken for the end: 55 bytes instead of 71. -/
theorem C99_content_cut (s : InputStream) (hs : stringInputStream samplePng = .ok s) :
    contentSize s (8 * 33) = .ok (some ((8 * 55 : Nat) : Int)) ∧ samplePng.length = 71 := by
  refine ⟨C99_content_size _ s hs (by decide +kernel) 33 43 (by omega) (by decide +kernel) ?_, by decide +kernel⟩
  intro j h1 h2
  have : ∀ i : Fin 10, ¬ [0, 0, 0, 0, 0x49, 0x45, 0x4e, 0x44, 0xae, 0x42, 0x60, 0x82] <+: samplePng.drop (33 + i.val) := by
    decide +kernel
  have := this ⟨j - 33, by omega⟩
  rwa [show 33 + (j - 33) = j by omega] at this

example (s : InputStream) (hs : stringInputStream [0x07, 0xe8, 2, 29, 9, 41, 27] = .ok s) :
    readTime s 0 = .ok ⟨2024, 2, 29, 9, 41, 27, 0⟩ :=
  C99_time _ s hs 0 ⟨2024, 2, 29⟩ (by decide) (by decide) 9 41 27 (by omega) (by omega) (by omega) (by decide)

end Hachoir.Props
