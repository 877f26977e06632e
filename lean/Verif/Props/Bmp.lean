import Verif.Formats.Bmp
import Verif.Props.Records
import Verif.Props.StringField
import Verif.Props.Mbr

/-!
# Bitmaps (C120, C121)
-/

namespace Hachoir.Props
open Hachoir Hachoir.Stream Hachoir.Field Hachoir.Formats Hachoir.Formats.Bmp Spec

/-! ## Header -/

def words32 (ws : List Nat) : Bytes := ws.flatMap (leBytes 4)

/-- The fields of version 4. -/
def v4Bytes : Option (List Nat) → Bytes
  | none => []
  | some ws => words32 ws

/-- The header of version 3 or 4. -/
def bmpHeader (h : Bmp.Header) (x : Bmp.Header3) : Bytes :=
  leBytes 4 h.size ++ (leBytes 4 h.width ++ (leBytes 4 h.height ++ (leBytes 2 h.planes ++ (leBytes 2 h.bpp ++ (leBytes 4 x.compression ++
    (leBytes 4 x.imageSize ++ (leBytes 4 x.xDpi ++ (leBytes 4 x.yDpi ++ (leBytes 4 x.usedColors ++ (leBytes 4 x.important ++
      v4Bytes h.v4))))))))))

/-- Which values the fields of a header of version 3 (40 bytes) or 4 (108 bytes) may have. -/
structure BmpGood (h : Bmp.Header) (x : Bmp.Header3) : Prop where
  three : h.v3 = some x
  version : (h.size = 40 ∧ h.v4 = none) ∨ (h.size = 108 ∧ ∃ ws, h.v4 = some ws ∧ ws.length = 17 ∧ ∀ w ∈ ws, w < 2 ^ 32)
  width : h.width < 2 ^ 32
  height : h.height < 2 ^ 32
  planes : h.planes = 1
  bpp : h.bpp < 2 ^ 16
  compression : x.compression < 2 ^ 32
  imageSize : x.imageSize < 2 ^ 32
  xDpi : x.xDpi < 2 ^ 32
  yDpi : x.yDpi < 2 ^ 32
  used : x.usedColors < 2 ^ 32
  important : x.important < 2 ^ 32

theorem words32_length (ws : List Nat) : (words32 ws).length = 4 * ws.length := by
  induction ws with
  | nil => rfl
  | cons w ws ih => simp only [words32, List.flatMap_cons, List.length_append, leBytes_length, List.length_cons] at *; omega

theorem read_words {data : Bytes} {s : InputStream} (hs : stringInputStream data = .ok s) :
    ∀ (ws : List Nat) (k : Nat), (∀ w ∈ ws, w < 2 ^ 32) → words32 ws <+: data.drop k → readWords s (8 * k) ws.length = .ok ws
  | [], _, _, _ => rfl
  | w :: ws, k, h, hp => by
    have hp' : leBytes 4 w ++ words32 ws <+: data.drop k := hp
    have r := read_le data s hs 4 k w (by omega) (h w (by simp)) (prefix_left hp') 32 rfl ((8 * k : Nat) : Int) rfl
    have hd := drop_prefix (xs := leBytes 4 w) (ys := words32 ws) hp'
    rw [leBytes_length] at hd
    have ih := read_words hs ws (k + 4) (fun x hx => h x (by simp [hx])) hd
    rw [List.length_cons, readWords, r]
    simp only [bind, Except.bind]
    rw [show 8 * k + 32 = 8 * (k + 4) by omega, ih]

theorem bmp_header_length (h : Bmp.Header) (x : Bmp.Header3) (hg : BmpGood h x) : (bmpHeader h x).length = h.size := by
  rcases hg.version with ⟨h1, h2⟩ | ⟨h1, ws, h2, h3, _⟩
  · simp only [bmpHeader, h2, v4Bytes, List.length_append, leBytes_length, h1, List.length_nil]
  · simp only [bmpHeader, h2, v4Bytes, List.length_append, leBytes_length, h1, words32_length, h3]

theorem read_bmp_header {data : Bytes} {s : InputStream} (hs : stringInputStream data = .ok s) (h : Bmp.Header) (x : Bmp.Header3)
    (hg : BmpGood h x) (k : Nat) (hp : bmpHeader h x <+: data.drop k) :
    readHeader s (8 * k) = .ok (h, 8 * (k + h.size)) := by
  obtain ⟨size, width, height, planes, bpp, v3, v4⟩ := h
  obtain ⟨g1, g2, g3, g4, g5, g6, g7, g8, g9, g10, g11, g12⟩ := hg
  simp only at g1 g2 g3 g4 g5 g6
  subst g1
  have hp' : [leBytes 4 size, leBytes 4 width, leBytes 4 height, leBytes 2 planes, leBytes 2 bpp, leBytes 4 x.compression,
    leBytes 4 x.imageSize, leBytes 4 x.xDpi, leBytes 4 x.yDpi, leBytes 4 x.usedColors, leBytes 4 x.important,
      v4Bytes v4].flatten <+: data.drop k := by simpa [bmpHeader] using hp
  have hsz : size < 2 ^ 32 := by rcases g2 with ⟨h, _⟩ | ⟨h, _⟩ <;> omega
  have r0 := read_le data s hs 4 k size (by omega) hsz (record_part _ 0 _ rfl _ (by simp) hp') 32 rfl ((8 * k : Nat) : Int) (by omega)
  have r1 := read_le data s hs 4 (k + 4) width (by omega) g3 (record_part _ 1 _ rfl _ (by simp [leBytes_length]) hp') 32 rfl ((8 * k + 32 : Nat) : Int) (by omega)
  have r2 := read_le data s hs 4 (k + 8) height (by omega) g4 (record_part _ 2 _ rfl _ (by simp [leBytes_length]) hp') 32 rfl ((8 * k + 64 : Nat) : Int) (by omega)
  have r3 := read_le data s hs 2 (k + 12) planes (by omega) (by omega) (record_part _ 3 _ rfl _ (by simp [leBytes_length]) hp') 16 rfl ((8 * k + 96 : Nat) : Int) (by omega)
  have r4 := read_le data s hs 2 (k + 14) bpp (by omega) g6 (record_part _ 4 _ rfl _ (by simp [leBytes_length]) hp') 16 rfl ((8 * k + 112 : Nat) : Int) (by omega)
  have r5 := read_le data s hs 4 (k + 16) _ (by omega) g7 (record_part _ 5 _ rfl _ (by simp [leBytes_length]) hp') 32 rfl ((8 * k + 128 : Nat) : Int) (by omega)
  have r6 := read_le data s hs 4 (k + 20) _ (by omega) g8 (record_part _ 6 _ rfl _ (by simp [leBytes_length]) hp') 32 rfl ((8 * k + 128 + 32 : Nat) : Int) (by omega)
  have r7 := read_le data s hs 4 (k + 24) _ (by omega) g9 (record_part _ 7 _ rfl _ (by simp [leBytes_length]) hp') 32 rfl ((8 * k + 128 + 64 : Nat) : Int) (by omega)
  have r8 := read_le data s hs 4 (k + 28) _ (by omega) g10 (record_part _ 8 _ rfl _ (by simp [leBytes_length]) hp') 32 rfl ((8 * k + 128 + 96 : Nat) : Int) (by omega)
  have r9 := read_le data s hs 4 (k + 32) _ (by omega) g11 (record_part _ 9 _ rfl _ (by simp [leBytes_length]) hp') 32 rfl ((8 * k + 128 + 128 : Nat) : Int) (by omega)
  have r10 := read_le data s hs 4 (k + 36) _ (by omega) g12 (record_part _ 10 _ rfl _ (by simp [leBytes_length]) hp') 32 rfl ((8 * k + 128 + 160 : Nat) : Int) (by omega)
  have r11 := record_part _ 11 _ rfl (k + 40) (by simp [leBytes_length]) hp'
  have h3 : readHeader3 s (8 * k + 128) = .ok x := by
    rw [readHeader3, r5]
    simp only [bind, Except.bind]
    rw [r6]
    simp only []
    rw [r7]
    simp only []
    rw [r8]
    simp only []
    rw [r9]
    simp only []
    rw [r10]
  rw [readHeader, r0]
  simp only [bind, Except.bind]
  rw [r1]
  simp only []
  rw [r2]
  simp only []
  rw [r3]
  simp only []
  rw [r4]
  simp only []
  rw [readVersions]
  rcases g2 with ⟨rfl, rfl⟩ | ⟨rfl, ws, rfl, hl, hw⟩
  · rw [if_neg (by decide), h3]
    simp only []
    rw [if_pos (by decide)]
    exact congrArg (fun n => Except.ok ((⟨40, width, height, planes, bpp, some x, none⟩ : Bmp.Header), n)) (show 8 * k + 128 + 192 = 8 * (k + 40) by omega)
  · have rw_ := read_words hs ws (k + 40) hw r11
    rw [hl] at rw_
    rw [if_neg (by decide), h3]
    simp only []
    rw [if_neg (by decide), show 8 * k + 128 + 192 = 8 * (k + 40) by omega, rw_]
    exact congrArg (fun n => Except.ok ((⟨108, width, height, planes, bpp, some x, some ws⟩ : Bmp.Header), n)) (show 8 * k + 128 + 736 = 8 * (k + 108) by omega)

/-! ## Palette -/

/-- The bytes of colors. -/
def paletteBytes (cs : List (UInt8 × UInt8 × UInt8 × UInt8)) : Bytes := cs.flatMap fun c => [c.1, c.2.1, c.2.2.1, c.2.2.2]

theorem palette_length (cs : List (UInt8 × UInt8 × UInt8 × UInt8)) : (paletteBytes cs).length = 4 * cs.length := by
  induction cs with
  | nil => rfl
  | cons c cs ih => simp only [paletteBytes, List.flatMap_cons, List.length_append, List.length_cons, List.length_nil] at *; omega

theorem read_palette {data : Bytes} {s : InputStream} (hs : stringInputStream data = .ok s) :
    ∀ (cs : List (UInt8 × UInt8 × UInt8 × UInt8)) (k : Nat), paletteBytes cs <+: data.drop k →
      readPalette s (8 * k) cs.length = .ok (cs.map fun c => [c.1.toNat, c.2.1.toNat, c.2.2.1.toNat, c.2.2.2.toNat])
  | [], _, _ => rfl
  | (a, b, c, d) :: cs, k, hp => by
    have hp' : [[a], [b], [c], [d], paletteBytes cs].flatten <+: data.drop k := by simpa [paletteBytes] using hp
    have r0 := read_byte data s hs k a .little (by simp) (record_part _ 0 _ rfl _ (by simp) hp') ((8 * k : Nat) : Int) (by omega)
    have r1 := read_byte data s hs (k + 1) b .little (by simp) (record_part _ 1 _ rfl _ (by simp) hp') ((8 * k + 8 : Nat) : Int) (by omega)
    have r2 := read_byte data s hs (k + 2) c .little (by simp) (record_part _ 2 _ rfl _ (by simp) hp') ((8 * k + 16 : Nat) : Int) (by omega)
    have r3 := read_byte data s hs (k + 3) d .little (by simp) (record_part _ 3 _ rfl _ (by simp) hp') ((8 * k + 24 : Nat) : Int) (by omega)
    have ih := read_palette hs cs (k + 4) (record_part _ 4 _ rfl _ (by simp) hp')
    rw [List.length_cons, readPalette, r0]
    simp only [bind, Except.bind]
    rw [r1]
    simp only []
    rw [r2]
    simp only []
    rw [r3]
    simp only []
    rw [show 8 * k + 32 = 8 * (k + 4) by omega, ih]
    rfl

/-! ## Files -/

/-- A bitmap: its size, four bytes, where the pixels are, the header, the palette, a gap, and the pixels. -/
def bmpBytes (reserved : Bytes) (h : Bmp.Header) (x : Bmp.Header3) (cs : List (UInt8 × UInt8 × UInt8 × UInt8)) (gap image : Bytes) : Bytes :=
  [66, 77] ++ (leBytes 4 (14 + h.size + 4 * cs.length + gap.length + image.length) ++ (reserved ++ (leBytes 4 (14 + h.size + 4 * cs.length + gap.length) ++
    (bmpHeader h x ++ (paletteBytes cs ++ (gap ++ image))))))

theorem bmp_length (reserved : Bytes) (hr : reserved.length = 4) (h : Bmp.Header) (x : Bmp.Header3) (hg : BmpGood h x)
    (cs : List (UInt8 × UInt8 × UInt8 × UInt8)) (gap image : Bytes) :
    (bmpBytes reserved h x cs gap image).length = 14 + h.size + 4 * cs.length + gap.length + image.length := by
  simp only [bmpBytes, List.length_append, leBytes_length, hr, bmp_header_length h x hg, palette_length, List.length_cons, List.length_nil]
  omega

/-- **C120**: every bitmap of version 3 or 4 is accepted; header, palette and pixels are found at their places, whatever the gap before the
pixels and the bytes behind the file; the content size is the size of the file. -/
theorem C120_file (reserved : Bytes) (hr : reserved.length = 4) (h : Bmp.Header) (x : Bmp.Header3) (hg : BmpGood h x)
    (cs : List (UInt8 × UInt8 × UInt8 × UInt8)) (hc : cs.length = nbColor h) (gap image rest : Bytes)
    (hsize : (bmpBytes reserved h x cs gap image).length < 2 ^ 32) (s : InputStream)
    (hs : stringInputStream (bmpBytes reserved h x cs gap image ++ rest) = .ok s) (p : Bmp.Pixels)
    (hp : readImage s h (8 * (14 + h.size + 4 * cs.length + gap.length)) image.length = .ok p) :
    Bmp.valid s = .ok true ∧
    ∃ f, Bmp.readFile s (8 * (bmpBytes reserved h x cs gap image ++ rest).length) = .ok f ∧ f.header = h ∧
      f.palette = (cs.map fun c => [c.1.toNat, c.2.1.toNat, c.2.2.1.toNat, c.2.2.2.toNat]) ∧ f.pixels = p ∧
      contentSize f = 8 * (bmpBytes reserved h x cs gap image).length := by
  have hlen := bmp_length reserved hr h x hg cs gap image
  rw [hlen] at hsize
  rw [List.length_append, hlen]
  have hl := bmp_header_length h x hg
  have hpl := palette_length cs
  have hpr : [[66, 77], leBytes 4 (14 + h.size + 4 * cs.length + gap.length + image.length), reserved,
      leBytes 4 (14 + h.size + 4 * cs.length + gap.length), bmpHeader h x, paletteBytes cs, gap, image, rest].flatten <+:
      (bmpBytes reserved h x cs gap image ++ rest).drop 0 := ⟨[], by simp [bmpBytes]⟩
  generalize bmpBytes reserved h x cs gap image ++ rest = data at hs hpr
  have r0 : readBytes s 0 2 = .ok [66, 77] := readBytes_prefix data s hs 0 [66, 77] (record_part _ 0 _ rfl _ (by simp) hpr)
  have r1 := read_le data s hs 4 2 _ (by omega) (by omega) (record_part _ 1 _ rfl _ (by simp) hpr) 32 rfl 16 rfl
  have r2 := read_le data s hs 4 10 _ (by omega) (by omega) (record_part _ 3 _ rfl _ (by simp [leBytes_length, hr]) hpr) 32 rfl 80 rfl
  have r3 : readHeader s 112 = .ok (h, 8 * (14 + h.size)) :=
    read_bmp_header hs h x hg 14 (record_part _ 4 _ rfl _ (by simp [leBytes_length, hr]) hpr)
  have r4 := read_palette hs cs (14 + h.size) (record_part _ 5 _ rfl _ (by simp [leBytes_length, hr, hl]; omega) hpr)
  rw [hc] at r4
  constructor
  · rw [Bmp.valid, r0]
    simp only [bind, Except.bind]
    rw [if_neg (by decide), r3]
    simp only []
    rw [if_neg (by rcases hg.version with ⟨h1, _⟩ | ⟨h1, _⟩ <;> omega), hg.planes]
    rfl
  · rw [Bmp.readFile, r1]
    simp only [bind, Except.bind]
    rw [r2]
    simp only []
    rw [r3]
    simp only []
    rw [r4]
    simp only []
    rw [if_neg (by omega), if_neg (by omega),
      show min (14 + h.size + 4 * cs.length + gap.length + image.length - (14 + h.size + 4 * cs.length + gap.length))
        ((8 * (14 + h.size + 4 * cs.length + gap.length + image.length + rest.length) - 8 * (14 + h.size + 4 * cs.length + gap.length)) / 8) =
        image.length by omega, hp]
    exact ⟨_, rfl, rfl, rfl, rfl, Nat.mul_comm _ _⟩

/-- Violation: of a bitmap with the old header of 12 bytes (width, height, planes and bits of a pixel in 16 bits each) the width read is
`width + 65536 * height`. -/
theorem C120_core (start : Bytes) (hst : start.length = 14) (w h planes bpp : Nat) (hw : w < 2 ^ 16) (hh : h < 2 ^ 16) (hpl : planes < 2 ^ 16)
    (hb : bpp < 2 ^ 16) (a b : Nat) (ha : a < 2 ^ 16) (hb' : b < 2 ^ 16) (rest : Bytes) (s : InputStream)
    (hs : stringInputStream (start ++ (leBytes 4 12 ++ (leBytes 2 w ++ (leBytes 2 h ++ (leBytes 2 planes ++ (leBytes 2 bpp ++ (leBytes 2 a ++
      (leBytes 2 b ++ rest)))))))) = .ok s) :
    readHeader s 112 = .ok (⟨12, w + 65536 * h, planes + 65536 * bpp, a, b, none, none⟩, 240) := by
  have pair : ∀ u v, u < 2 ^ 16 → v < 2 ^ 16 → leBytes 2 u ++ leBytes 2 v = leBytes 4 (u + 65536 * v) := by
    intro u v hu hv
    simp only [leBytes, List.cons_append, List.nil_append, List.cons.injEq, and_true]
    refine ⟨?_, ?_, ?_, ?_⟩ <;> apply congrArg UInt8.ofNat <;> omega
  have hp : [start, leBytes 4 12, leBytes 4 (w + 65536 * h), leBytes 4 (planes + 65536 * bpp), leBytes 2 a, leBytes 2 b, rest].flatten <+:
      (start ++ (leBytes 4 12 ++ (leBytes 2 w ++ (leBytes 2 h ++ (leBytes 2 planes ++ (leBytes 2 bpp ++ (leBytes 2 a ++
      (leBytes 2 b ++ rest)))))))).drop 0 := by
    rw [← pair w h hw hh, ← pair planes bpp hpl hb]
    exact ⟨[], by simp⟩
  generalize start ++ (leBytes 4 12 ++ (leBytes 2 w ++ (leBytes 2 h ++ (leBytes 2 planes ++ (leBytes 2 bpp ++ (leBytes 2 a ++
      (leBytes 2 b ++ rest))))))) = data at hs hp
  have r0 := read_le data s hs 4 14 12 (by omega) (by omega) (record_part _ 1 _ rfl _ (by simp [hst]) hp) 32 rfl ((112 : Nat) : Int) rfl
  have r1 := read_le data s hs 4 18 _ (by omega) (by omega) (record_part _ 2 _ rfl _ (by simp [hst, leBytes_length]) hp) 32 rfl ((112 + 32 : Nat) : Int) rfl
  have r2 := read_le data s hs 4 22 _ (by omega) (by omega) (record_part _ 3 _ rfl _ (by simp [hst, leBytes_length]) hp) 32 rfl ((112 + 64 : Nat) : Int) rfl
  have r3 := read_le data s hs 2 26 a (by omega) (by omega) (record_part _ 4 _ rfl _ (by simp [hst, leBytes_length]) hp) 16 rfl ((112 + 96 : Nat) : Int) rfl
  have r4 := read_le data s hs 2 28 b (by omega) (by omega) (record_part _ 5 _ rfl _ (by simp [hst, leBytes_length]) hp) 16 rfl ((112 + 112 : Nat) : Int) rfl
  rw [readHeader, r0]
  simp only [bind, Except.bind]
  rw [r1]
  simp only []
  rw [r2]
  simp only []
  rw [r3]
  simp only []
  rw [r4]
  simp only []
  rfl

/-! ## Pixels -/

/-- A line: the pixels and zeros up to a multiple of four bytes. -/
def rowBytes (n : Nat) (row : List Nat) : Bytes :=
  row.flatMap (leBytes n) ++ List.replicate ((4 - n * row.length % 4) % 4) 0

/-- The pixels of a picture, bottom line first. -/
def pictureBytes (n : Nat) (pic : List (List Nat)) : Bytes := pic.reverse.flatMap (rowBytes n)

/-- How a pixel of `n` bytes is shown: the bytes of a color, or the number. -/
def shownPixel (n v : Nat) : List Nat := if n = 3 then [v % 256, v / 256 % 256, v / 65536 % 256] else [v]

/-- The class for pixels of `n` bytes. -/
def PixelClass (n : Nat) (cls : Bmp.Cls) : Prop := (n = 1 ∧ cls = .byte) ∨ (n = 3 ∧ cls = .rgb) ∨ (n = 4 ∧ cls = .word)

theorem class_bits {n : Nat} {cls : Bmp.Cls} (h : PixelClass n cls) : cls.bits = 8 * n := by
  rcases h with ⟨rfl, rfl⟩ | ⟨rfl, rfl⟩ | ⟨rfl, rfl⟩ <;> rfl

theorem read_pixel {data : Bytes} {s : InputStream} (hs : stringInputStream data = .ok s) {n : Nat} {cls : Bmp.Cls} (hn : PixelClass n cls)
    (v k : Nat) (hv : v < 2 ^ (8 * n)) (hp : leBytes n v <+: data.drop k) : readPixel s cls (8 * k) = .ok (shownPixel n v) := by
  rcases hn with ⟨rfl, rfl⟩ | ⟨rfl, rfl⟩ | ⟨rfl, rfl⟩
  · have r := read_le data s hs 1 k v (by omega) hv hp 8 rfl ((8 * k : Nat) : Int) rfl
    simp only [readPixel, Cls.bits, r, bind, Except.bind]
    rfl
  · have e : leBytes 3 v = leBytes 1 (v % 256) ++ (leBytes 1 (v / 256 % 256) ++ leBytes 1 (v / 65536 % 256)) := by
      simp only [leBytes, List.cons_append, List.nil_append, List.cons.injEq, and_true]
      refine ⟨?_, ?_, ?_⟩ <;> apply congrArg UInt8.ofNat <;> omega
    have hp' : [leBytes 1 (v % 256), leBytes 1 (v / 256 % 256), leBytes 1 (v / 65536 % 256)].flatten <+: data.drop k := by
      rw [e] at hp; simpa using hp
    have r0 := read_le data s hs 1 k _ (by omega) (by omega) (record_part _ 0 _ rfl _ (by simp) hp') 8 rfl ((8 * k : Nat) : Int) (by omega)
    have r1 := read_le data s hs 1 (k + 1) _ (by omega) (by omega) (record_part _ 1 _ rfl _ (by simp [leBytes_length]) hp') 8 rfl ((8 * k + 8 : Nat) : Int) (by omega)
    have r2 := read_le data s hs 1 (k + 2) _ (by omega) (by omega) (record_part _ 2 _ rfl _ (by simp [leBytes_length]) hp') 8 rfl ((8 * k + 16 : Nat) : Int) (by omega)
    simp only [readPixel, bind, Except.bind]
    rw [r0]
    simp only []
    rw [r1]
    simp only []
    rw [r2]
    rfl
  · have r := read_le data s hs 4 k v (by omega) hv hp 32 rfl ((8 * k : Nat) : Int) rfl
    simp only [readPixel, Cls.bits, r, bind, Except.bind]
    rfl

theorem read_pixels {data : Bytes} {s : InputStream} (hs : stringInputStream data = .ok s) {n : Nat} {cls : Bmp.Cls} (hn : PixelClass n cls) :
    ∀ (row : List Nat) (k : Nat), (∀ v ∈ row, v < 2 ^ (8 * n)) → row.flatMap (leBytes n) <+: data.drop k →
      readPixels s cls (8 * k) row.length = .ok (row.map (shownPixel n))
  | [], _, _, _ => rfl
  | v :: row, k, hv, hp => by
    have r := read_pixel hs hn v k (hv v (by simp)) (prefix_left (xs := leBytes n v) (ys := row.flatMap (leBytes n)) hp)
    have hd := drop_prefix (xs := leBytes n v) (ys := row.flatMap (leBytes n)) hp
    rw [leBytes_length] at hd
    have ih := read_pixels hs hn row (k + n) (fun x hx => hv x (by simp [hx])) hd
    rw [List.length_cons, readPixels, r]
    simp only [bind, Except.bind]
    rw [class_bits hn, show 8 * k + 8 * n = 8 * (k + n) by omega, ih]
    rfl

theorem row_flat_length (n : Nat) (row : List Nat) : (row.flatMap (leBytes n)).length = n * row.length := by
  induction row with
  | nil => rfl
  | cons v vs ih => rw [List.flatMap_cons, List.length_append, ih, leBytes_length, List.length_cons, Nat.mul_succ]; omega

theorem row_length {n : Nat} {cls : Bmp.Cls} (hn : PixelClass n cls) (row : List Nat) :
    8 * (rowBytes n row).length = lineSize row.length cls := by
  rw [rowBytes, List.length_append, row_flat_length, List.length_replicate, lineSize, class_bits hn]
  have e : row.length * (8 * n) = 8 * (n * row.length) := by ring
  rw [e]
  generalize n * row.length = m
  by_cases h : 8 * m % 32 = 0
  · rw [if_pos h]; omega
  · rw [if_neg h]; omega

/-- Lines with their numbers, bottom line first. -/
def rowNumbered : List (List (List Nat)) → List (Nat × List (List Nat))
  | [] => []
  | r :: rs => (rs.length, r) :: rowNumbered rs

theorem row_numbered_reverse (rows : List (List (List Nat))) : rowNumbered rows.reverse = (rows.mapIdx fun y r => (y, r)).reverse := by
  induction rows using List.reverseRecOn with
  | nil => rfl
  | append_singleton rs r ih => simp [rowNumbered, ih, List.mapIdx_append]

theorem read_lines {data : Bytes} {s : InputStream} (hs : stringInputStream data = .ok s) {n w : Nat} {cls : Bmp.Cls} (hn : PixelClass n cls) :
    ∀ (rows : List (List Nat)) (k : Nat), (∀ r ∈ rows, r.length = w ∧ ∀ v ∈ r, v < 2 ^ (8 * n)) → rows.flatMap (rowBytes n) <+: data.drop k →
      readLines s cls w (8 * k) rows.length = .ok (rowNumbered (rows.map fun r => r.map (shownPixel n)))
  | [], _, _, _ => rfl
  | r :: rows, k, hg, hp => by
    obtain ⟨g1, g2⟩ := hg r (by simp)
    have hpr : rowBytes n r <+: data.drop k := prefix_left (xs := rowBytes n r) (ys := rows.flatMap (rowBytes n)) hp
    have rr := read_pixels hs hn r k g2 (prefix_left hpr)
    have ih := read_lines hs hn rows (k + (rowBytes n r).length) (fun x hx => hg x (by simp [hx]))
      (drop_prefix (xs := rowBytes n r) (ys := rows.flatMap (rowBytes n)) hp)
    have hl := row_length hn r
    rw [g1] at rr hl
    rw [List.length_cons, readLines, rr]
    simp only [bind, Except.bind]
    rw [show 8 * k + lineSize w cls = 8 * (k + (rowBytes n r).length) by omega, ih]
    simp [rowNumbered]

/-- **C121**: the pixels of a picture of 8, 24 or 32 bits, uncompressed: `line[y]` is line `y` of the picture, counted from the top, pixel by
pixel; lines are padded to four bytes and stored from the bottom. -/
theorem C121_pixels {data : Bytes} {s : InputStream} (hs : stringInputStream data = .ok s) (n : Nat) (hn : n = 1 ∨ n = 3 ∨ n = 4)
    (h : Bmp.Header) (hb : h.bpp = 8 * n) (hcomp : ∀ x, h.v3 = some x → x.compression = 0 ∨ x.compression = 3)
    (pic : List (List Nat)) (hh : h.height = pic.length) (hpic : ∀ r ∈ pic, r.length = h.width ∧ ∀ v ∈ r, v < 2 ^ (8 * n))
    (extra : Bytes) (k : Nat) (hne : 0 < (pictureBytes n pic ++ extra).length) (hp : pictureBytes n pic <+: data.drop k) :
    readImage s h (8 * k) (pictureBytes n pic ++ extra).length =
      .ok (.lines (8 * k) (pictureBytes n pic ++ extra).length (pic.mapIdx fun y r => (y, r.map (shownPixel n))).reverse) := by
  obtain ⟨cls, hcls, hco⟩ : ∃ cls, PixelClass n cls ∧ clsOf h.bpp = some cls := by
    rcases hn with rfl | rfl | rfl
    · exact ⟨.byte, .inl ⟨rfl, rfl⟩, by rw [hb]; rfl⟩
    · exact ⟨.rgb, .inr (.inl ⟨rfl, rfl⟩), by rw [hb]; rfl⟩
    · exact ⟨.word, .inr (.inr ⟨rfl, rfl⟩), by rw [hb]; rfl⟩
  have hall : h.v3.all (fun x => x.compression = 0 ∨ x.compression = 3) = true := by
    cases hv : h.v3 with
    | none => rfl
    | some x => simpa using hcomp x hv
  have hlen : 8 * (pictureBytes n pic).length = h.height * lineSize h.width cls := by
    have key : ∀ rows : List (List Nat), (∀ r ∈ rows, r.length = h.width) →
        8 * (rows.flatMap (rowBytes n)).length = rows.length * lineSize h.width cls := by
      intro rows hr
      induction rows with
      | nil => simp
      | cons r rs ih =>
        have i := ih (fun x hx => hr x (by simp [hx]))
        have l := row_length hcls r
        rw [hr r (by simp)] at l
        rw [List.flatMap_cons, List.length_append, List.length_cons, Nat.add_mul, Nat.one_mul]
        omega
    rw [pictureBytes, key _ (fun r hr => (hpic r (by simpa using hr)).1), List.length_reverse, hh]
  have rl := read_lines hs (w := h.width) hcls pic.reverse k (fun r hr => hpic r (by simpa using hr)) hp
  rw [List.length_reverse, ← hh, List.map_reverse, row_numbered_reverse] at rl
  rw [readImage, if_neg (by omega), hall, if_pos rfl, hco]
  simp only []
  rw [if_neg (by rw [List.length_append]; omega), rl]
  simp only []
  congr 3
  exact List.ext_getElem (by simp) (by simp)

/-- Pixels of four bits, two in a byte, the left one in the high bits. -/
def nibbleBytes (ps : List (Nat × Nat)) : Bytes := ps.flatMap fun p => leBytes 1 (16 * p.1 + p.2)

/-- Violation: pixels of four bits are shown with left and right of each pair exchanged. -/
theorem C121_nibbles {data : Bytes} {s : InputStream} (hs : stringInputStream data = .ok s) :
    ∀ (ps : List (Nat × Nat)) (k : Nat), (∀ p ∈ ps, p.1 < 16 ∧ p.2 < 16) → nibbleBytes ps <+: data.drop k →
      readPixels s .nibble (8 * k) (2 * ps.length) = .ok (ps.flatMap fun p => [[p.2], [p.1]])
  | [], _, _, _ => rfl
  | (a, b) :: ps, k, h, hp => by
    obtain ⟨ha, hb⟩ := h (a, b) (by simp)
    simp only at ha hb
    have hp' : leBytes 1 (16 * a + b) ++ nibbleBytes ps <+: data.drop k := hp
    obtain ⟨hl, hle⟩ := leBytes_spec 1 (16 * a + b)
    have hv := hle (by omega)
    have p1 := prefix_left hp'
    have r0 := readBits_in data s hs k 0 4 _ p1 (by rw [hl]; omega) (by rw [hl]; omega) ((8 * k : Nat) : Int) (by omega)
    have r1 := readBits_in data s hs k 4 4 _ p1 (by rw [hl]) (by rw [hl]; omega) ((8 * k + 4 : Nat) : Int) (by omega)
    rw [hv] at r0 r1
    have e0 : (16 * a + b) / 2 ^ 0 % 2 ^ 4 = b := by norm_num; omega
    have e1 : (16 * a + b) / 2 ^ 4 % 2 ^ 4 = a := by norm_num; omega
    rw [e0] at r0
    rw [e1] at r1
    have hd := drop_prefix (xs := leBytes 1 (16 * a + b)) (ys := nibbleBytes ps) hp'
    rw [leBytes_length] at hd
    have ih := C121_nibbles hs ps (k + 1) (fun x hx => h x (by simp [hx])) hd
    rw [List.length_cons, show 2 * (ps.length + 1) = 2 * ps.length + 1 + 1 by omega, readPixels, readPixels]
    simp only [readPixel, Cls.bits, bind, Except.bind]
    rw [r0]
    simp only []
    rw [r1]
    simp only []
    rw [show 8 * k + 4 + 4 = 8 * (k + 1) by omega, ih]
    rfl

/-- Violation: of a pixel of 24 bits, stored as blue, green, red, the fields `red` and `blue` are exchanged. -/
theorem C121_colors (red green blue : Nat) (hr : red < 256) (hg : green < 256) (hb : blue < 256) :
    shownPixel 3 (blue + 256 * green + 65536 * red) = [blue, green, red] := by
  simp only [shownPixel, if_true, List.cons.injEq, and_true]
  omega

/-! ## Metadata -/

/-- **C120**: width, height, bits of a pixel, compression and version are told. -/
theorem C120_told (f : Bmp.File) (x : Bmp.Header3) (hg : BmpGood f.header x) (hw : 1 ≤ f.header.width ∧ f.header.width ≤ 20000)
    (hh : 1 ≤ f.header.height ∧ f.header.height ≤ 20000) (hb : 1 ≤ f.header.bpp ∧ f.header.bpp ≤ 32) :
    (Bmp.extract f).width = some f.header.width ∧ (Bmp.extract f).height = some f.header.height ∧
    (Bmp.extract f).bits = some f.header.bpp ∧ (Bmp.extract f).compression = some x.compression ∧
    (Bmp.extract f).version = some (if f.header.size = 108 then 4 else 3) ∧
    (f.header.bpp ≤ 8 → 0 < x.usedColors → x.usedColors ≤ 256 → (Bmp.extract f).colors = some (nbColor f.header)) := by
  have h3 := hg.three
  simp only [Bmp.extract, h3]
  refine ⟨if_pos hw, if_pos hh, if_pos ⟨hb.1, by omega⟩, trivial, ?_, ?_⟩
  · rcases hg.version with ⟨h1, h2⟩ | ⟨h1, ws, h2, _⟩
    · simp [formatVersion, h1, h2, h3]
    · simp [formatVersion, h1, h2]
  · intro h8 hu hu'
    rw [if_pos ⟨by omega, h8⟩, told, if_pos ⟨hu, by omega⟩, nbColor, if_pos ⟨by omega, h8⟩, h3]
    simp only []
    rw [if_pos (by omega)]

/-- Violation: the number of colors is not told when the palette is complete (0 colors used means all). -/
theorem C120_colors (f : Bmp.File) (x : Bmp.Header3) (hg : BmpGood f.header x) (hb : 1 ≤ f.header.bpp ∧ f.header.bpp ≤ 8) (hu : x.usedColors = 0) :
    nbColor f.header = 2 ^ f.header.bpp ∧ (Bmp.extract f).colors = none := by
  have h3 := hg.three
  constructor
  · rw [nbColor, if_pos ⟨hb.1, hb.2⟩, h3]
    simp only []
    rw [if_neg (fun h => h hu)]
  · simp only [Bmp.extract, h3]
    rw [if_pos ⟨by omega, hb.2⟩, hu]
    rfl

/-- Violation: the resolution is stored in pixels per metre but told as dots per inch, so that 72 dots per inch, stored as
2835, are told as 2835. -/
theorem C120_dpi (f : Bmp.File) (x : Bmp.Header3) (hg : BmpGood f.header x) (hx : x.xDpi = 2835) : (Bmp.extract f).xDpi = some 2835 := by
  simp only [Bmp.extract, hg.three, hx]
  rfl

/-! ## Examples -/

/-- A picture of 3 by 2 pixels. -/
def sampleHeader : Bmp.Header := ⟨40, 3, 2, 1, 24, some ⟨0, 24, 2835, 2835, 0, 0⟩, none⟩

example : BmpGood sampleHeader ⟨0, 24, 2835, 2835, 0, 0⟩ :=
  ⟨rfl, .inl ⟨rfl, rfl⟩, by decide, by decide, rfl, by decide, by decide, by decide, by decide, by decide, by decide, by decide⟩

example : ∃ s, stringInputStream (bmpBytes [0, 0, 0, 0] sampleHeader ⟨0, 24, 2835, 2835, 0, 0⟩ [] [] (pictureBytes 3 [[1, 2, 3], [4, 5, 0xff0000]])) = .ok s :=
  ⟨_, rfl⟩

example : pictureBytes 3 [[1, 2, 3], [4, 5, 0xff0000]] =
    [4, 0, 0, 5, 0, 0, 0, 0, 255, 0, 0, 0, 1, 0, 0, 2, 0, 0, 3, 0, 0, 0, 0, 0] := by decide

/-- A header of version 4 with a palette of two colors. -/
example : BmpGood ⟨108, 3, 2, 1, 8, some ⟨0, 24, 0, 0, 2, 0⟩, some (List.replicate 17 7)⟩ ⟨0, 24, 0, 0, 2, 0⟩ :=
  ⟨rfl, .inr ⟨rfl, _, rfl, rfl, by decide⟩, by decide, by decide, rfl, by decide, by decide, by decide, by decide, by decide, by decide, by decide⟩

example : nbColor ⟨108, 3, 2, 1, 8, some ⟨0, 24, 0, 0, 2, 0⟩, some (List.replicate 17 7)⟩ = 2 := by decide

end Hachoir.Props
