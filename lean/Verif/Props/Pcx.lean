import Verif.Formats.Pcx
import Verif.Props.Bmp

/-!
# PCX and Targa pictures (C123, C124)
-/

namespace Hachoir.Props
open Hachoir Hachoir.Stream Hachoir.Field Hachoir.Formats Spec

/-- The bytes of colors, three each. -/
def colorBytes (cs : List (UInt8 × UInt8 × UInt8)) : Bytes := cs.flatMap fun c => [c.1, c.2.1, c.2.2]

/-- The numbers of colors. -/
def colorNumbers (cs : List (UInt8 × UInt8 × UInt8)) : List (List Nat) := cs.map fun c => [c.1.toNat, c.2.1.toNat, c.2.2.toNat]

theorem color_bytes_length (cs : List (UInt8 × UInt8 × UInt8)) : (colorBytes cs).length = 3 * cs.length := by
  induction cs with
  | nil => rfl
  | cons c cs ih => simp only [colorBytes, List.flatMap_cons, List.length_append, List.length_cons, List.length_nil] at *; omega

theorem read_colors {data : Bytes} {s : InputStream} (hs : stringInputStream data = .ok s) :
    ∀ (cs : List (UInt8 × UInt8 × UInt8)) (k : Nat), colorBytes cs <+: data.drop k → Pcx.readColors s (8 * k) cs.length = .ok (colorNumbers cs)
  | [], _, _ => rfl
  | (a, b, c) :: cs, k, hp => by
    have hp' : [[a], [b], [c], colorBytes cs].flatten <+: data.drop k := by simpa [colorBytes] using hp
    have r0 := read_byte data s hs k a .little (by simp) (record_part _ 0 _ rfl _ (by simp) hp') ((8 * k : Nat) : Int) (by omega)
    have r1 := read_byte data s hs (k + 1) b .little (by simp) (record_part _ 1 _ rfl _ (by simp) hp') ((8 * k + 8 : Nat) : Int) (by omega)
    have r2 := read_byte data s hs (k + 2) c .little (by simp) (record_part _ 2 _ rfl _ (by simp) hp') ((8 * k + 16 : Nat) : Int) (by omega)
    have ih := read_colors hs cs (k + 3) (record_part _ 3 _ rfl _ (by simp) hp')
    rw [List.length_cons, Pcx.readColors, r0]
    simp only [bind, Except.bind]
    rw [r1]
    simp only []
    rw [r2]
    simp only []
    rw [show 8 * k + 24 = 8 * (k + 3) by omega, ih]
    rfl

/-! ## PCX -/

/-- The header of a PCX picture. -/
structure PcxSpec where
  version : Nat
  compression : Nat
  bpp : Nat
  xmin : Nat
  ymin : Nat
  xmax : Nat
  ymax : Nat
  xDpi : Nat
  yDpi : Nat
  palette : List (UInt8 × UInt8 × UInt8)
  planes : Nat
  perLine : Nat
  mode : Nat
  filler : Bytes

structure PcxSpec.Good (p : PcxSpec) : Prop where
  version : p.version = 0 ∨ p.version = 2 ∨ p.version = 3 ∨ p.version = 4 ∨ p.version = 5
  compression : p.compression < 2 ^ 8
  bpp : p.bpp = 1 ∨ p.bpp = 2 ∨ p.bpp = 4 ∨ p.bpp = 8
  xmin : p.xmin < 2 ^ 16
  ymin : p.ymin < 2 ^ 16
  xmax : p.xmax < 2 ^ 16
  ymax : p.ymax < 2 ^ 16
  xDpi : p.xDpi < 2 ^ 16
  yDpi : p.yDpi < 2 ^ 16
  palette : p.palette.length = 16
  planes : p.planes < 2 ^ 8
  perLine : p.perLine < 2 ^ 16
  mode : p.mode < 2 ^ 16
  filler : p.filler.length = 58

def PcxSpec.header (p : PcxSpec) : List Bytes :=
  [leBytes 1 10, leBytes 1 p.version, leBytes 1 p.compression, leBytes 1 p.bpp, leBytes 2 p.xmin, leBytes 2 p.ymin, leBytes 2 p.xmax, leBytes 2 p.ymax,
    leBytes 2 p.xDpi, leBytes 2 p.yDpi, colorBytes p.palette, leBytes 1 0, leBytes 1 p.planes, leBytes 2 p.perLine, leBytes 2 p.mode, p.filler]

/-- A picture: the header and what follows. -/
def pcxBytes (p : PcxSpec) (tail : Bytes) : Bytes := (p.header ++ [tail]).flatten

theorem pcx_length (p : PcxSpec) (h : p.Good) (tail : Bytes) : (pcxBytes p tail).length = 128 + tail.length := by
  simp [pcxBytes, PcxSpec.header, leBytes_length, color_bytes_length, h.palette, h.filler]
  omega

/-- The file read from a picture. -/
def PcxSpec.file (p : PcxSpec) (data : Nat × Nat) (palette8 : Option (List (List Nat))) : Pcx.File :=
  ⟨10, p.version, p.compression, p.bpp, p.xmin, p.ymin, p.xmax, p.ymax, p.xDpi, p.yDpi, colorNumbers p.palette, p.planes, p.perLine, p.mode,
    data, palette8⟩

theorem read_pcx (p : PcxSpec) (h : p.Good) (tail : Bytes) (s : InputStream) (hs : stringInputStream (pcxBytes p tail) = .ok s) (total : Nat)
    (d : Nat × Nat) (c : Option (List (List Nat))) (ht : Pcx.readTail s total p.bpp = .ok (d, c)) :
    Pcx.valid s = .ok true ∧ Pcx.readFile s total = .ok (p.file d c) := by
  have hp : (p.header ++ [tail]).flatten <+: (pcxBytes p tail).drop 0 := List.prefix_refl _
  unfold PcxSpec.header at hp
  generalize pcxBytes p tail = data at hs hp
  obtain ⟨g1, g2, g3, g4, g5, g6, g7, g8, g9, g10, g11, g12, g13, g14⟩ := h
  have hc := color_bytes_length p.palette
  have r0 := read_le data s hs 1 0 10 (by omega) (by omega) (record_part _ 0 _ rfl _ (by simp) hp) 8 rfl 0 rfl
  have r1 := read_le data s hs 1 1 p.version (by omega) (by omega) (record_part _ 1 _ rfl _ (by simp [leBytes_length]) hp) 8 rfl 8 rfl
  have r2 := read_le data s hs 1 2 p.compression (by omega) (by omega) (record_part _ 2 _ rfl _ (by simp [leBytes_length]) hp) 8 rfl 16 rfl
  have r3 := read_le data s hs 1 3 p.bpp (by omega) (by omega) (record_part _ 3 _ rfl _ (by simp [leBytes_length]) hp) 8 rfl 24 rfl
  have r4 := read_le data s hs 2 4 p.xmin (by omega) (by omega) (record_part _ 4 _ rfl _ (by simp [leBytes_length]) hp) 16 rfl 32 rfl
  have r5 := read_le data s hs 2 6 p.ymin (by omega) (by omega) (record_part _ 5 _ rfl _ (by simp [leBytes_length]) hp) 16 rfl 48 rfl
  have r6 := read_le data s hs 2 8 p.xmax (by omega) (by omega) (record_part _ 6 _ rfl _ (by simp [leBytes_length]) hp) 16 rfl 64 rfl
  have r7 := read_le data s hs 2 10 p.ymax (by omega) (by omega) (record_part _ 7 _ rfl _ (by simp [leBytes_length]) hp) 16 rfl 80 rfl
  have r8 := read_le data s hs 2 12 p.xDpi (by omega) (by omega) (record_part _ 8 _ rfl _ (by simp [leBytes_length]) hp) 16 rfl 96 rfl
  have r9 := read_le data s hs 2 14 p.yDpi (by omega) (by omega) (record_part _ 9 _ rfl _ (by simp [leBytes_length]) hp) 16 rfl 112 rfl
  have r10 := read_colors hs p.palette 16 (record_part _ 10 _ rfl _ (by simp [leBytes_length]) hp)
  have r11 := read_le data s hs 1 64 0 (by omega) (by omega) (record_part _ 11 _ rfl _ (by simp [leBytes_length, hc, g10]) hp) 8 rfl 512 rfl
  have r12 := read_le data s hs 1 65 p.planes (by omega) (by omega) (record_part _ 12 _ rfl _ (by simp [leBytes_length, hc, g10]) hp) 8 rfl 520 rfl
  have r13 := read_le data s hs 2 66 p.perLine (by omega) (by omega) (record_part _ 13 _ rfl _ (by simp [leBytes_length, hc, g10]) hp) 16 rfl 528 rfl
  have r14 := read_le data s hs 2 68 p.mode (by omega) (by omega) (record_part _ 14 _ rfl _ (by simp [leBytes_length, hc, g10]) hp) 16 rfl 544 rfl
  rw [g10] at r10
  constructor
  · rw [Pcx.valid, r0]
    simp only [bind, Except.bind]
    rw [r1]
    simp only []
    rw [r3]
    simp only []
    rw [r11]
    simp only [Except.ok.injEq, decide_eq_true_eq]
    exact ⟨trivial, g1, by omega, trivial⟩
  · rw [Pcx.readFile, r0]
    simp only [bind, Except.bind]
    rw [r1]
    simp only []
    rw [r2]
    simp only []
    rw [r3]
    simp only []
    rw [r4]
    simp only []
    rw [r5]
    simp only []
    rw [r6]
    simp only []
    rw [r7]
    simp only []
    rw [r8]
    simp only []
    rw [r9]
    simp only []
    rw [show Pcx.readColors s 128 16 = _ from r10]
    simp only []
    rw [r12]
    simp only []
    rw [r13]
    simp only []
    rw [r14]
    simp only []
    rw [ht]
    rfl

/-- **C123**: every picture without palette behind the pixels is accepted and read back; the pixels are all bytes behind the header. -/
theorem C123_file (p : PcxSpec) (h : p.Good) (hb : p.bpp ≠ 8) (pixels : Bytes) (hpx : pixels ≠ []) (s : InputStream)
    (hs : stringInputStream (pcxBytes p pixels) = .ok s) :
    Pcx.valid s = .ok true ∧ Pcx.readFile s (8 * (pcxBytes p pixels).length) = .ok (p.file (1024, pixels.length) none) := by
  refine read_pcx p h pixels s hs _ _ _ ?_
  have := List.length_pos_of_ne_nil hpx
  rw [pcx_length p h, Pcx.readTail, if_neg hb, show (8 * (128 + pixels.length) - 1024) / 8 = pixels.length by omega, if_neg (by omega)]

/-- **C123**: of every picture of 8 bits, with 256 colors at the end, these colors are read. -/
theorem C123_palette (p : PcxSpec) (h : p.Good) (hb : p.bpp = 8) (pixels : Bytes) (hpx : pixels ≠ []) (cs : List (UInt8 × UInt8 × UInt8))
    (hc : cs.length = 256) (s : InputStream) (hs : stringInputStream (pcxBytes p (pixels ++ colorBytes cs)) = .ok s) :
    Pcx.valid s = .ok true ∧
    Pcx.readFile s (8 * (pcxBytes p (pixels ++ colorBytes cs)).length) = .ok (p.file (1024, pixels.length) (some (colorNumbers cs))) := by
  refine read_pcx p h _ s hs _ _ _ ?_
  have := List.length_pos_of_ne_nil hpx
  have hl := color_bytes_length cs
  have hd : colorBytes cs <+: (pcxBytes p (pixels ++ colorBytes cs)).drop (128 + pixels.length) := by
    have e : pcxBytes p (pixels ++ colorBytes cs) = pcxBytes p pixels ++ colorBytes cs := by simp [pcxBytes]
    rw [e, ← pcx_length p h, List.drop_left]
  have r := read_colors hs cs (128 + pixels.length) hd
  rw [hc] at r hl
  rw [pcx_length p h, List.length_append, hl, Pcx.readTail, if_pos hb,
    show (8 * (128 + (pixels.length + 3 * 256)) - 1024) / 8 = pixels.length + 768 by omega]
  rw [if_neg (by omega), Nat.add_sub_cancel, show 1024 + 8 * pixels.length = 8 * (128 + pixels.length) by omega, r]

/-- **C123**: width, height, resolution, bits and colors are told of a picture whose upper left corner is at (0, 0). -/
theorem C123_told (p : PcxSpec) (h : p.Good) (d : Nat × Nat) (c : Option (List (List Nat))) (hw : p.xmax < 20000) (hh : p.ymax < 20000)
    (hx0 : p.xmin = 0) (hy0 : p.ymin = 0) (hxd : 1 ≤ p.xDpi ∧ p.xDpi ≤ 10000) (hyd : 1 ≤ p.yDpi ∧ p.yDpi ≤ 10000) :
    Pcx.extract (p.file d c) = ⟨some (p.xmax - p.xmin + 1), some (p.ymax - p.ymin + 1), some p.xDpi, some p.yDpi, some p.bpp, some (2 ^ p.bpp)⟩ := by
  have hb := h.bpp
  have e1 : Bmp.told 20000 (1 + p.xmax) = some (p.xmax - p.xmin + 1) := by
    rw [Bmp.told, if_pos (by omega)]; exact congrArg some (by omega)
  have e2 : Bmp.told 20000 (1 + p.ymax) = some (p.ymax - p.ymin + 1) := by
    rw [Bmp.told, if_pos (by omega)]; exact congrArg some (by omega)
  have e3 : Bmp.told 10000 p.xDpi = some p.xDpi := if_pos hxd
  have e4 : Bmp.told 10000 p.yDpi = some p.yDpi := if_pos hyd
  have e5 : Bmp.told 256 p.bpp = some p.bpp := if_pos (by omega)
  have e6 : (if 1 ≤ p.bpp ∧ p.bpp ≤ 8 then Bmp.told (2 ^ 24) (2 ^ p.bpp) else none) = some (2 ^ p.bpp) := by
    rcases hb with hb | hb | hb | hb <;> rw [hb] <;> rfl
  show (⟨Bmp.told 20000 (1 + p.xmax), Bmp.told 20000 (1 + p.ymax), Bmp.told 10000 p.xDpi, Bmp.told 10000 p.yDpi, Bmp.told 256 p.bpp, _⟩ : Pcx.Told) = _
  rw [e1, e2, e3, e4, e5]
  exact congrArg _ e6

/-- Violation: of a picture whose upper left corner is elsewhere the width told is too large. -/
theorem C123_window (p : PcxSpec) (d : Nat × Nat) (c : Option (List (List Nat))) (hw : p.xmax < 20000) (hx : 0 < p.xmin)
    (hx' : p.xmin ≤ p.xmax) : (Pcx.extract (p.file d c)).width = some (p.xmax + 1) ∧ p.xmax + 1 ≠ p.xmax - p.xmin + 1 := by
  constructor
  · show Bmp.told 20000 (1 + p.xmax) = _
    rw [Bmp.told, if_pos (by omega)]
    exact congrArg some (by omega)
  · omega

/-- Violation: a picture of three planes of 8 bits has no palette, but the last 768 bytes of its pixels are taken as one, and
8 bits and 256 colors are told. -/
theorem C123_planes (p : PcxSpec) (h : p.Good) (hb : p.bpp = 8) (hpl : p.planes = 3) (pixels : Bytes) (hpx : pixels ≠ [])
    (cs : List (UInt8 × UInt8 × UInt8)) (hc : cs.length = 256) (s : InputStream)
    (hs : stringInputStream (pcxBytes p (pixels ++ colorBytes cs)) = .ok s) :
    ∃ f, Pcx.readFile s (8 * (pcxBytes p (pixels ++ colorBytes cs)).length) = .ok f ∧ f.planes = 3 ∧ f.palette8 = some (colorNumbers cs) ∧
      f.data.2 ≠ (pixels ++ colorBytes cs).length ∧ (Pcx.extract f).bits = some 8 ∧ (Pcx.extract f).colors = some 256 := by
  refine ⟨_, (C123_palette p h hb pixels hpx cs hc s hs).2, hpl, rfl, ?_, ?_, ?_⟩
  · show pixels.length ≠ _
    rw [List.length_append, color_bytes_length, hc]
    omega
  · show Bmp.told 256 p.bpp = _
    rw [hb]
    rfl
  · show (if 1 ≤ p.bpp ∧ p.bpp ≤ 8 then Bmp.told (2 ^ 24) (2 ^ p.bpp) else none) = _
    rw [hb]
    rfl

/-- Violation: the byte 12 that marks the colors is not a pixel, but is taken as the last byte of the pixels. -/
theorem C123_marker (p : PcxSpec) (h : p.Good) (hb : p.bpp = 8) (pixels : Bytes) (cs : List (UInt8 × UInt8 × UInt8)) (hc : cs.length = 256)
    (s : InputStream) (hs : stringInputStream (pcxBytes p ((pixels ++ [12]) ++ colorBytes cs)) = .ok s) :
    ∃ f, Pcx.readFile s (8 * (pcxBytes p ((pixels ++ [12]) ++ colorBytes cs)).length) = .ok f ∧ f.palette8 = some (colorNumbers cs) ∧
      f.data = (1024, pixels.length + 1) := by
  refine ⟨_, (C123_palette p h hb _ (by simp) cs hc s hs).2, rfl, ?_⟩
  show (1024, (pixels ++ [12]).length) = _
  rw [List.length_append]
  rfl

/-! ## Targa -/

structure TgaSpec where
  imageId : Bytes
  codec : Nat
  paletteOfs : Nat
  nbColor : Nat
  colorSize : Nat
  xMin : Nat
  yMin : Nat
  width : Nat
  height : Nat
  bpp : Nat
  alpha : Nat
  xFlip : Nat
  yFlip : Nat

structure TgaSpec.Good (p : TgaSpec) : Prop where
  imageId : p.imageId.length < 256
  codec : p.codec = 0 ∨ p.codec = 1 ∨ p.codec = 2 ∨ p.codec = 3 ∨ p.codec = 9 ∨ p.codec = 10 ∨ p.codec = 11
  paletteOfs : p.paletteOfs < 2 ^ 16
  nbColor : p.nbColor < 2 ^ 16
  colorSize : p.colorSize < 2 ^ 8
  xMin : p.xMin < 2 ^ 16
  yMin : p.yMin < 2 ^ 16
  width : p.width < 2 ^ 16
  height : p.height < 2 ^ 16
  bpp : p.bpp = 8 ∨ p.bpp = 15 ∨ p.bpp = 16 ∨ p.bpp = 24 ∨ p.bpp = 32
  alpha : p.alpha < 16
  xFlip : p.xFlip < 2
  yFlip : p.yFlip < 2

def TgaSpec.parts (p : TgaSpec) (paletteType : Nat) (tail : Bytes) : List Bytes :=
  [leBytes 1 p.imageId.length, leBytes 1 paletteType, leBytes 1 p.codec, leBytes 2 p.paletteOfs, leBytes 2 p.nbColor, leBytes 1 p.colorSize,
    leBytes 2 p.xMin, leBytes 2 p.yMin, leBytes 2 p.width, leBytes 2 p.height, leBytes 1 p.bpp, leBytes 1 (p.alpha + 16 * p.xFlip + 32 * p.yFlip),
    p.imageId, tail]

/-- A picture: the header, the name, and what follows: palette and pixels. -/
def tgaBytes (p : TgaSpec) (paletteType : Nat) (tail : Bytes) : Bytes := (p.parts paletteType tail).flatten

theorem tga_length (p : TgaSpec) (t : Nat) (tail : Bytes) : (tgaBytes p t tail).length = 18 + p.imageId.length + tail.length := by
  simp [tgaBytes, TgaSpec.parts, leBytes_length]
  omega

def TgaSpec.file (p : TgaSpec) (paletteType : Nat) (palette : Option (List (List Nat))) (raw : Option (Nat × Nat)) : Tga.File :=
  ⟨p.imageId.length, paletteType, p.codec, p.paletteOfs, p.nbColor, p.colorSize, p.xMin, p.yMin, p.width, p.height, p.bpp, p.alpha, p.xFlip, p.yFlip,
    if p.imageId = [] then none else some (144, p.imageId.length), palette, raw⟩

theorem read_tga (p : TgaSpec) (h : p.Good) (t : Nat) (ht : t = 0 ∨ t = 1) (tail : Bytes) (s : InputStream)
    (hs : stringInputStream (tgaBytes p t tail) = .ok s) (total : Nat) (c : Option (List (List Nat))) (stop : Nat)
    (hpal : Tga.readPalette s t p.bpp (8 * (18 + p.imageId.length)) = .ok (c, stop)) :
    Tga.valid s = .ok true ∧ Tga.readFile s total = .ok (p.file t c (if (total - stop) / 8 = 0 then none else some (stop, (total - stop) / 8))) := by
  have hp : (p.parts t tail).flatten <+: (tgaBytes p t tail).drop 0 := List.prefix_refl _
  unfold TgaSpec.parts at hp
  generalize tgaBytes p t tail = data at hs hp
  obtain ⟨g0, g1, g2, g3, g4, g5, g6, g7, g8, g9, g10, g11, g12⟩ := h
  obtain ⟨hl, hle⟩ := leBytes_spec 1 (p.alpha + 16 * p.xFlip + 32 * p.yFlip)
  have hv := hle (by omega)
  have pf := record_part _ 11 _ rfl 17 (by simp [leBytes_length]) hp
  have r0 := read_le data s hs 1 0 _ (by omega) g0 (record_part _ 0 _ rfl _ (by simp) hp) 8 rfl 0 rfl
  have r1 := read_le data s hs 1 1 t (by omega) (by omega) (record_part _ 1 _ rfl _ (by simp [leBytes_length]) hp) 8 rfl 8 rfl
  have r2 := read_le data s hs 1 2 p.codec (by omega) (by omega) (record_part _ 2 _ rfl _ (by simp [leBytes_length]) hp) 8 rfl 16 rfl
  have r3 := read_le data s hs 2 3 p.paletteOfs (by omega) (by omega) (record_part _ 3 _ rfl _ (by simp [leBytes_length]) hp) 16 rfl 24 rfl
  have r4 := read_le data s hs 2 5 p.nbColor (by omega) (by omega) (record_part _ 4 _ rfl _ (by simp [leBytes_length]) hp) 16 rfl 40 rfl
  have r5 := read_le data s hs 1 7 p.colorSize (by omega) (by omega) (record_part _ 5 _ rfl _ (by simp [leBytes_length]) hp) 8 rfl 56 rfl
  have r6 := read_le data s hs 2 8 p.xMin (by omega) (by omega) (record_part _ 6 _ rfl _ (by simp [leBytes_length]) hp) 16 rfl 64 rfl
  have r7 := read_le data s hs 2 10 p.yMin (by omega) (by omega) (record_part _ 7 _ rfl _ (by simp [leBytes_length]) hp) 16 rfl 80 rfl
  have r8 := read_le data s hs 2 12 p.width (by omega) (by omega) (record_part _ 8 _ rfl _ (by simp [leBytes_length]) hp) 16 rfl 96 rfl
  have r9 := read_le data s hs 2 14 p.height (by omega) (by omega) (record_part _ 9 _ rfl _ (by simp [leBytes_length]) hp) 16 rfl 112 rfl
  have r10 := read_le data s hs 1 16 p.bpp (by omega) (by omega) (record_part _ 10 _ rfl _ (by simp [leBytes_length]) hp) 8 rfl 128 rfl
  have r11 := readBits_in data s hs 17 0 4 _ pf (by rw [hl]; omega) (by rw [hl]; omega) 136 rfl
  have r12 := readBits_in data s hs 17 4 1 _ pf (by rw [hl]; omega) (by rw [hl]; omega) 140 rfl
  have r13 := readBits_in data s hs 17 5 1 _ pf (by rw [hl]; omega) (by rw [hl]; omega) 141 rfl
  rw [hv] at r11 r12 r13
  have e1 : (p.alpha + 16 * p.xFlip + 32 * p.yFlip) / 2 ^ 0 % 2 ^ 4 = p.alpha := by norm_num; omega
  have e2 : (p.alpha + 16 * p.xFlip + 32 * p.yFlip) / 2 ^ 4 % 2 ^ 1 = p.xFlip := by norm_num; omega
  have e3 : (p.alpha + 16 * p.xFlip + 32 * p.yFlip) / 2 ^ 5 % 2 ^ 1 = p.yFlip := by norm_num; omega
  rw [e1] at r11
  rw [e2] at r12
  rw [e3] at r13
  constructor
  · rw [Tga.valid, r2]
    simp only [bind, Except.bind]
    rw [r1]
    simp only []
    rw [r10]
    simp only [Except.ok.injEq, decide_eq_true_eq]
    exact ⟨g1, ht, g9⟩
  · rw [Tga.readFile, r0]
    simp only [bind, Except.bind]
    rw [r1]
    simp only []
    rw [r2]
    simp only []
    rw [r3]
    simp only []
    rw [r4]
    simp only []
    rw [r5]
    simp only []
    rw [r6]
    simp only []
    rw [r7]
    simp only []
    rw [r8]
    simp only []
    rw [r9]
    simp only []
    rw [r10]
    simp only []
    rw [r11]
    simp only []
    rw [r12]
    simp only []
    rw [r13]
    simp only []
    rw [show 144 + 8 * p.imageId.length = 8 * (18 + p.imageId.length) by omega, hpal]
    simp only [TgaSpec.file]
    have hid : (p.imageId.length = 0) = (p.imageId = []) := by simp
    simp only [hid]

/-- **C124**: every picture without palette is accepted, its header and name are read back, and the pixels are all bytes behind. -/
theorem C124_file_partial (p : TgaSpec) (h : p.Good) (pixels : Bytes) (hpx : pixels ≠ []) (s : InputStream)
    (hs : stringInputStream (tgaBytes p 0 pixels) = .ok s) :
    Tga.valid s = .ok true ∧
    Tga.readFile s (8 * (tgaBytes p 0 pixels).length) = .ok (p.file 0 none (some (8 * (18 + p.imageId.length), pixels.length))) := by
  have r := read_tga p h 0 (.inl rfl) pixels s hs (8 * (tgaBytes p 0 pixels).length) none _ (by rw [Tga.readPalette, if_neg (by decide)])
  have hl := List.length_pos_of_ne_nil hpx
  have hlen := tga_length p 0 pixels
  have e : (8 * (tgaBytes p 0 pixels).length - 8 * (18 + p.imageId.length)) / 8 = pixels.length := by omega
  rw [e, if_neg (by omega)] at r
  exact r

/-- **C124**: of every picture of 8 bits with a palette of 256 colors of three bytes the colors are read. -/
theorem C124_palette (p : TgaSpec) (h : p.Good) (hb : p.bpp = 8) (cs : List (UInt8 × UInt8 × UInt8)) (hc : cs.length = 256)
    (pixels : Bytes) (hpx : pixels ≠ []) (s : InputStream) (hs : stringInputStream (tgaBytes p 1 (colorBytes cs ++ pixels)) = .ok s) :
    Tga.valid s = .ok true ∧
    Tga.readFile s (8 * (tgaBytes p 1 (colorBytes cs ++ pixels)).length) =
      .ok (p.file 1 (some (colorNumbers cs)) (some (8 * (786 + p.imageId.length), pixels.length))) := by
  have hl := color_bytes_length cs
  rw [hc] at hl
  have hd : colorBytes cs <+: (tgaBytes p 1 (colorBytes cs ++ pixels)).drop (18 + p.imageId.length) := by
    have e : tgaBytes p 1 (colorBytes cs ++ pixels) = tgaBytes p 1 [] ++ (colorBytes cs ++ pixels) := by simp [tgaBytes, TgaSpec.parts]
    have el := tga_length p 1 []
    rw [List.length_nil, Nat.add_zero] at el
    rw [e, ← el, List.drop_left]
    exact List.prefix_append _ _
  have rc := read_colors hs cs (18 + p.imageId.length) hd
  rw [hc] at rc
  have hlen := tga_length p 1 (colorBytes cs ++ pixels)
  rw [List.length_append, hl] at hlen
  have hpp := List.length_pos_of_ne_nil hpx
  have r := read_tga p h 1 (.inr rfl) _ s hs (8 * (tgaBytes p 1 (colorBytes cs ++ pixels)).length) (some (colorNumbers cs)) (8 * (786 + p.imageId.length)) (by
    rw [Tga.readPalette, if_pos rfl, hb]
    rw [show (2 ^ 8 : Nat) = 256 from rfl]
    rw [rc]
    exact congrArg (fun n => Except.ok (some (colorNumbers cs), n)) (by omega))
  have e : (8 * (tgaBytes p 1 (colorBytes cs ++ pixels)).length - 8 * (786 + p.imageId.length)) / 8 = pixels.length := by omega
  rw [e, if_neg (by omega)] at r
  exact r

/-- Violation: a palette with fewer colors is taken to have 256; the pixels then start too late.  Here `nbColor` colors and the first pixels
are `cs`, and what is left of the pixels is shown. -/
theorem C124_small_palette (p : TgaSpec) (h : p.Good) (hb : p.bpp = 8) (own : List (UInt8 × UInt8 × UInt8)) (hn : p.nbColor = own.length)
    (hlt : own.length < 256) (others : List (UInt8 × UInt8 × UInt8)) (hc : (own ++ others).length = 256) (pixels : Bytes) (hpx : pixels ≠ [])
    (s : InputStream) (hs : stringInputStream (tgaBytes p 1 (colorBytes own ++ (colorBytes others ++ pixels))) = .ok s) :
    ∃ f, Tga.readFile s (8 * (tgaBytes p 1 (colorBytes own ++ (colorBytes others ++ pixels))).length) = .ok f ∧
      f.palette = some (colorNumbers (own ++ others)) ∧ f.raw = some (8 * (786 + p.imageId.length), pixels.length) ∧
      pixels.length < (colorBytes others ++ pixels).length := by
  have e : colorBytes own ++ (colorBytes others ++ pixels) = colorBytes (own ++ others) ++ pixels := by simp [colorBytes]
  rw [e] at hs ⊢
  refine ⟨_, (C124_palette p h hb (own ++ others) hc pixels hpx s hs).2, rfl, rfl, ?_⟩
  rw [List.length_append] at hc
  rw [List.length_append, color_bytes_length]
  omega

/-- **C124**: width, height, bits, colors and codec are told. -/
theorem C124_told (p : TgaSpec) (h : p.Good) (t : Nat) (c : Option (List (List Nat))) (r : Option (Nat × Nat)) (hw : 1 ≤ p.width ∧ p.width ≤ 20000)
    (hh : 1 ≤ p.height ∧ p.height ≤ 20000) :
    Tga.extract (p.file t c r) = ⟨some p.width, some p.height, some p.bpp, if p.nbColor = 0 then none else some p.nbColor, p.codec⟩ := by
  have hb := h.bpp
  have hn := h.nbColor
  have e1 : Bmp.told 20000 p.width = some p.width := if_pos hw
  have e2 : Bmp.told 20000 p.height = some p.height := if_pos hh
  have e3 : Bmp.told 256 p.bpp = some p.bpp := if_pos (by omega)
  have e4 : Bmp.told (2 ^ 24) p.nbColor = if p.nbColor = 0 then none else some p.nbColor := by
    unfold Bmp.told
    by_cases h0 : p.nbColor = 0
    · rw [if_neg (by omega), if_pos h0]
    · rw [if_pos (by omega), if_neg h0]
  show (⟨Bmp.told 20000 p.width, Bmp.told 20000 p.height, Bmp.told 256 p.bpp, Bmp.told (2 ^ 24) p.nbColor, p.codec⟩ : Tga.Told) = _
  rw [e1, e2, e3, e4]

/-! ## Examples -/

def samplePcx : PcxSpec := ⟨5, 1, 8, 0, 0, 319, 199, 72, 72, List.replicate 16 (1, 2, 3), 1, 320, 1, List.replicate 58 0⟩

example : samplePcx.Good :=
  ⟨by decide, by decide, by decide, by decide, by decide, by decide, by decide, by decide, by decide, rfl, by decide, by decide, by decide, rfl⟩

def sampleTga : TgaSpec := ⟨[65, 66], 2, 0, 0, 0, 0, 0, 10, 20, 24, 0, 0, 1⟩

example : sampleTga.Good :=
  ⟨by decide, by decide, by decide, by decide, by decide, by decide, by decide, by decide, by decide, by decide, by decide, by decide, by decide⟩

example : ∃ s, stringInputStream (tgaBytes sampleTga 0 [1, 2, 3]) = .ok s := ⟨_, rfl⟩

end Hachoir.Props
