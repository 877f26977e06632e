import Verif.Formats.Blp
import Verif.Props.Asf
import Verif.Props.Cab
import Verif.Props.Keyring

/-!
# C192: pictures of games of Blizzard
-/

namespace Hachoir.Props
open Spec Hachoir Hachoir.Stream Hachoir.Field Hachoir.Formats Hachoir.Formats.Blp

/-! ## Blocks of colours -/

structure Rgb where
  red : Nat
  green : Nat
  blue : Nat

def RgbFits (c : Rgb) : Prop := c.red < 32 ∧ c.green < 64 ∧ c.blue < 32

/-- The number of a colour. -/
def rgbWord (c : Rgb) : Nat := 2048 * c.red + 32 * c.green + c.blue

def rgbList (c : Rgb) : List Nat := [c.red, c.green, c.blue]

/-- A number with these digits in base `2 ^ w`, lowest first. -/
def packUp (w : Nat) : List Nat → Nat
  | [] => 0
  | p :: ps => p + 2 ^ w * packUp w ps

theorem split_pack (w : Nat) : ∀ (ps : List Nat), (∀ p ∈ ps, p < 2 ^ w) → splitLE (List.replicate ps.length w) (packUp w ps) = ps
  | [], _ => rfl
  | p :: ps, h => by
    have hp := h p (by simp)
    rw [List.length_cons, List.replicate_succ, splitLE, packUp, Nat.add_mul_mod_self_left, Nat.mod_eq_of_lt hp,
      Nat.add_mul_div_left _ _ (Nat.two_pow_pos w), Nat.div_eq_of_lt hp, Nat.zero_add, split_pack w ps fun x hx => h x (by simp [hx])]

theorem pack_lt (w : Nat) : ∀ (ps : List Nat), (∀ p ∈ ps, p < 2 ^ w) → packUp w ps < 2 ^ (w * ps.length)
  | [], _ => by simp [packUp]
  | p :: ps, h => by
    have hp := h p (by simp)
    have ih := pack_lt w ps fun x hx => h x (by simp [hx])
    rw [packUp, List.length_cons, Nat.mul_succ, Nat.pow_add, Nat.mul_comm (2 ^ (w * ps.length))]
    calc p + 2 ^ w * packUp w ps < 2 ^ w + 2 ^ w * packUp w ps := by omega
      _ = 2 ^ w * (packUp w ps + 1) := by rw [Nat.mul_add, Nat.mul_one, Nat.add_comm]
      _ ≤ 2 ^ w * 2 ^ (w * ps.length) := Nat.mul_le_mul_left _ ih

theorem reads_packed (w n : Nat) (ps : List Nat) (hl : ps.length = 16) (hn : 0 < n) (hw : 16 * w = 8 * n) (h : ∀ p ∈ ps, p < 2 ^ w) :
    Reads (Rd.bits .little (List.replicate 16 w)) ps (leBytes n (packUp w ps)) := by
  have r := reads_bits_le (List.replicate 16 w) (leBytes n (packUp w ps)) (by rw [leBytes_length]; exact hn)
    (by rw [leBytes_length, List.sum_replicate]; exact hw)
  have e : 256 ^ n = 2 ^ (w * 16) := by rw [show 256 = 2 ^ 8 from rfl, ← Nat.pow_mul, ← hw, Nat.mul_comm]
  rw [(leBytes_spec n (packUp w ps)).2 (by rw [e, ← hl]; exact pack_lt w ps h)] at r
  refine r.of_eq ?_ rfl
  have := split_pack w ps h
  rwa [hl] at this

/-- Four colours, or three and a transparent one: the order of the numbers of both colours. -/
def fourColours (always : Bool) (c0 c1 : Rgb) : Prop := always = true ∨ rgbWord c1 < rgbWord c0

instance (always : Bool) (c0 c1 : Rgb) : Decidable (fourColours always c0 c1) := inferInstanceAs (Decidable (_ ∨ _))

theorem greater_word (c0 c1 : Rgb) (h0 : RgbFits c0) (h1 : RgbFits c1) : listGreater (rgbList c0) (rgbList c1) = decide (rgbWord c1 < rgbWord c0) := by
  obtain ⟨r0, g0, b0⟩ := c0
  obtain ⟨r1, g1, b1⟩ := c1
  obtain ⟨a, b, c⟩ := h0
  obtain ⟨d, e, f⟩ := h1
  simp only at a b c d e f
  simp only [rgbList, rgbWord, listGreater]
  by_cases hr : r0 = r1
  · rw [if_pos hr]
    by_cases hg : g0 = g1
    · rw [if_pos hg]
      by_cases hb : b0 = b1
      · rw [if_pos hb]; exact (decide_eq_false (by omega)).symm
      · rw [if_neg hb]; exact decide_eq_decide.2 (by omega)
    · rw [if_neg hg]; exact decide_eq_decide.2 (by omega)
  · rw [if_neg hr]; exact decide_eq_decide.2 (by omega)

/-- A pixel whose colour lies between both colours. -/
def blendOf (always : Bool) (c0 c1 : Rgb) (p : Nat) : Bool := decide (p = 2 ∨ (p = 3 ∧ fourColours always c0 c1))

/-- Eight bits for each part of a colour. -/
def fullColour (c : Rgb) : List Nat := [8 * c.red, 4 * c.green, 8 * c.blue]

/-- What a pixel with one of both colours, or a transparent one, has to be. -/
def pixelOf (c0 c1 : Rgb) (p : Nat) : Pixel := if p = 0 then .color (fullColour c0) else if p = 1 then .color (fullColour c1) else .transparent

theorem pixel_told (always : Bool) (c0 c1 : Rgb) (h0 : RgbFits c0) (h1 : RgbFits c1) (p : Nat) (hp : p < 4) :
    pixel (palette always (rgbList c0) (rgbList c1)) p = if blendOf always c0 c1 p then .error .type else .ok (pixelOf c0 c1 p) := by
  have full : ∀ c : Rgb, colorName ((rgbList c).map .int) [5, 6, 5] = .ok (fullColour c) := by
    intro c
    simp only [rgbList, List.map_cons, List.map_nil, colorName, shifted, fullColour]
    norm_num
    omega
  have hg := greater_word c0 c1 h0 h1
  have h4 : (listGreater (rgbList c0) (rgbList c1) || always) = decide (fourColours always c0 c1) := by
    rw [hg]
    cases always <;> simp [fourColours]
  rw [palette, h4]
  have c : p = 0 ∨ p = 1 ∨ p = 2 ∨ p = 3 := by omega
  rcases c with rfl | rfl | rfl | rfl
  · simp only [pixel, List.cons_append, List.getElem?_cons_zero, full]; simp [blendOf, pixelOf]
  · simp only [pixel, List.cons_append, List.getElem?_cons_succ, List.getElem?_cons_zero, full]; simp [blendOf, pixelOf]
  · by_cases f : fourColours always c0 c1
    · simp [f, pixel, blendOf, interpLists, rgbList, colorName, shifted]
    · simp [f, pixel, blendOf, interpLists, rgbList, colorName, shifted]
  · by_cases f : fourColours always c0 c1
    · simp [f, pixel, blendOf, interpLists, rgbList, colorName, shifted, List.range_succ]
    · simp [f, pixel, blendOf, interpLists, rgbList, pixelOf]

theorem pixels_told (always : Bool) (c0 c1 : Rgb) (h0 : RgbFits c0) (h1 : RgbFits c1) : ∀ (ps : List Nat), (∀ p ∈ ps, p < 4) →
    pixels (palette always (rgbList c0) (rgbList c1)) ps = (ps.takeWhile fun p => !blendOf always c0 c1 p).map (pixelOf c0 c1)
  | [], _ => rfl
  | p :: ps, h => by
    rw [pixels, pixel_told always c0 c1 h0 h1 p (h p (by simp)), List.takeWhile_cons]
    cases blendOf always c0 c1 p with
    | true => rfl
    | false =>
      have := pixels_told always c0 c1 h0 h1 ps fun x hx => h x (by simp [hx])
      simp [this]

theorem reads_rgb (c : Rgb) (h : RgbFits c) : Reads (Rd.bits .little [5, 6, 5]) (rgbList c).reverse (leBytes 2 (rgbWord c)) := by
  obtain ⟨r, g, b⟩ := c
  obtain ⟨h1, h2, h3⟩ := h
  simp only at h1 h2 h3
  refine (reads_bits_word [5, 6, 5] rfl _ (by simp only [rgbWord]; omega)).of_eq ?_ rfl
  simp only [splitLE, rgbWord, rgbList, List.reverse_cons, List.reverse_nil, List.nil_append, List.cons_append, List.cons.injEq, and_true]
  omega

/-- **C192** A block is read as written: both colours, and the pixels in front of the first one whose colour lies between them. The order of the colours as lists is that of
their numbers, as the format has it. Missing: the pixels from there on. -/
theorem C192_block_partial (always : Bool) (c0 c1 : Rgb) (ps : List Nat) (h0 : RgbFits c0) (h1 : RgbFits c1) (hl : ps.length = 16) (hp : ∀ p ∈ ps, p < 4) :
    Reads (dxt1 always) (rgbList c0, rgbList c1, (ps.takeWhile fun p => !blendOf always c0 c1 p).map (pixelOf c0 c1))
      (leBytes 2 (rgbWord c0) ++ (leBytes 2 (rgbWord c1) ++ leBytes 4 (packUp 2 ps))) := by
  rw [← pixels_told always c0 c1 h0 h1 ps hp]
  exact Reads.rbind (reads_rgb c0 h0) (Reads.rbind (reads_rgb c1 h1)
    (Reads.rmap (f := fun ps => (rgbList c0, rgbList c1, pixels (palette always (rgbList c0) (rgbList c1)) ps)) (reads_packed 2 4 ps hl (by omega) (by omega) hp)))

/-- **C192** A block whose pixels all have one of both colours, or are transparent, is read in full. -/
theorem C192_plain_block (always : Bool) (c0 c1 : Rgb) (ps : List Nat) (h0 : RgbFits c0) (h1 : RgbFits c1) (hl : ps.length = 16)
    (hp : ∀ p ∈ ps, p < 2 ∨ (p = 3 ∧ always = false ∧ rgbWord c0 ≤ rgbWord c1)) :
    Reads (dxt1 always) (rgbList c0, rgbList c1, ps.map (pixelOf c0 c1)) (leBytes 2 (rgbWord c0) ++ (leBytes 2 (rgbWord c1) ++ leBytes 4 (packUp 2 ps))) := by
  have h := C192_block_partial always c0 c1 ps h0 h1 hl fun p h => by have := hp p h; omega
  refine h.of_eq ?_ rfl
  congr 3
  rw [List.takeWhile_eq_self_iff]
  intro p h
  rcases hp p h with a | ⟨a, b, c⟩
  · simp [blendOf]; omega
  · subst a
    simp [blendOf, fourColours, b]; omega

example : Reads (dxt1 false) ([0, 0, 31], [31, 0, 0], [0, 1, 3, 0, 1, 0, 1, 0, 1, 0, 1, 0, 1, 0, 1, 3].map (pixelOf ⟨0, 0, 31⟩ ⟨31, 0, 0⟩))
    (leBytes 2 31 ++ (leBytes 2 63488 ++ leBytes 4 (packUp 2 [0, 1, 3, 0, 1, 0, 1, 0, 1, 0, 1, 0, 1, 0, 1, 3]))) :=
  C192_plain_block false ⟨0, 0, 31⟩ ⟨31, 0, 0⟩ _ (by simp [RgbFits]) (by simp [RgbFits]) rfl (by simp [rgbWord])

/-- **C192** The colour between two others is never told: a block of one such pixel at its start has no pixels. -/
theorem C192_no_between (c0 c1 : Rgb) (ps : List Nat) (h0 : RgbFits c0) (h1 : RgbFits c1) (always : Bool) (hp : ∀ p ∈ 2 :: ps, p < 4) :
    pixels (palette always (rgbList c0) (rgbList c1)) (2 :: ps) = [] := by
  rw [pixels_told always c0 c1 h0 h1 _ hp]
  simp [blendOf]

/-- **C192** The values of an alpha block: both, and those between them in equal steps; without 6 of them, 0 and 255. -/
def alphaOf (a0 a1 p : Nat) : Nat :=
  if p = 0 then a0 else if p = 1 then a1
  else if a1 < a0 then (a0 * (8 - p) + a1 * (p - 1)) / 7
  else if p < 6 then (a0 * (6 - p) + a1 * (p - 1)) / 5
  else if p = 6 then 0 else 255

theorem alpha_told (a0 a1 p : Nat) (hp : p < 8) : whole ((alphas a0 a1).getD p (.int 0)) = alphaOf a0 a1 p := by
  rw [alphas]
  have c : p = 0 ∨ p = 1 ∨ p = 2 ∨ p = 3 ∨ p = 4 ∨ p = 5 ∨ p = 6 ∨ p = 7 := by omega
  by_cases h : a1 < a0
  · rcases c with rfl | rfl | rfl | rfl | rfl | rfl | rfl | rfl <;> simp [h, alphaOf, interp, whole, List.range_succ]
  · rcases c with rfl | rfl | rfl | rfl | rfl | rfl | rfl | rfl <;> simp [h, alphaOf, interp, whole, List.range_succ]

/-- **C192** A block of alphas is read as written. -/
theorem C192_alpha (a0 a1 : Nat) (ps : List Nat) (h0 : a0 < 256) (h1 : a1 < 256) (hl : ps.length = 16) (hp : ∀ p ∈ ps, p < 8) :
    Reads dxt5Alpha (a0, a1, ps.map (alphaOf a0 a1)) (leBytes 1 a0 ++ (leBytes 1 a1 ++ leBytes 6 (packUp 3 ps))) := by
  have e : ps.map (alphaOf a0 a1) = ps.map fun p => whole ((alphas a0 a1).getD p (.int 0)) :=
    List.map_congr_left fun p h => (alpha_told a0 a1 p (hp p h)).symm
  rw [e]
  exact Reads.rbind (reads_int_le 1 a0 (by omega) (by omega)) (Reads.rbind (reads_int_le 1 a1 (by omega) (by omega))
    (Reads.rmap (f := fun ps : List Nat => (a0, a1, ps.map fun p => whole ((alphas a0 a1).getD p (.int 0)))) (reads_packed 3 6 ps hl (by omega) (by omega) hp)))

example : Reads dxt5Alpha (200, 4, (List.range 8 ++ List.range 8).map (alphaOf 200 4))
    (leBytes 1 200 ++ (leBytes 1 4 ++ leBytes 6 (packUp 3 (List.range 8 ++ List.range 8)))) :=
  C192_alpha 200 4 _ (by omega) (by omega) rfl (by decide)

/-! ## Pictures -/

/-- Pictures with these numbers, places and contents lie in a file, each behind the one before. -/
def MipsAt (data : Bytes) : Nat → List (Nat × Nat × Bytes) → Prop
  | _, [] => True
  | a, (_, offset, d) :: l => a ≤ offset ∧ 0 < offset ∧ d ≠ [] ∧ d <+: data.drop offset ∧ MipsAt data (offset + d.length) l

theorem at_fail_none {data : Bytes} {offset : Nat} {d : Bytes} (hd : d ≠ []) (hp : d <+: data.drop offset) : offset ≤ data.length := by
  have := hp.length_le
  rw [List.length_drop] at this
  have := List.length_pos_iff.2 hd
  omega

/-- **C192** All pictures of a file with JPEG compression are read as written. -/
theorem C192_jpeg (data : Bytes) (type width height : Nat) : ∀ (l : List (Nat × Nat × Bytes)) (a : Nat) (halved : Bool), MipsAt data a l →
    ∃ b, AtPlace data (mips 0 type width height halved (l.map fun x => (x.1, x.2.1, x.2.2.length))) (l.map fun x => .jpeg x.1 x.2.2) a b
  | [], a, _, _ => ⟨a, fun _ _ => rfl⟩
  | (i, offset, d) :: l, a, halved, ⟨h1, h2, h3, h4, h5⟩ => by
    obtain ⟨b, hb⟩ := C192_jpeg data type width height l _ true h5
    have hd := List.length_pos_iff.2 h3
    refine ⟨b, ?_⟩
    rw [List.map_cons, List.map_cons, mips, if_neg (by simp only; omega)]
    have r : Reads (mip 0 type width height halved i d.length) (.jpeg i d) d := by
      rw [mip, if_pos rfl]
      exact Reads.rmap (f := fun d => Mip.jpeg i d) (reads_raw_n d.length d rfl hd)
    exact AtPlace.bind (at_seek data a offset h1) (AtPlace.bind (r.at h4 (at_fail_none h3 h4)) (AtPlace.map (f := fun r => Mip.jpeg i d :: r) hb))

example : ∃ b, AtPlace [0, 7, 8, 0, 9] (mips 0 0 4 4 false [(0, 1, 2), (3, 4, 1)]) [.jpeg 0 [7, 8], .jpeg 3 [9]] 0 b :=
  C192_jpeg [0, 7, 8, 0, 9] 0 4 4 [(0, 1, [7, 8]), (3, 4, [9])] 0 false (by simp [MipsAt])

/-- **C192** Places or sizes of zero are passed over. -/
theorem C192_unused (compression type width height : Nat) (halved : Bool) (i offset size : Nat) (l : List (Nat × Nat × Nat)) (h : offset = 0 ∨ size = 0) :
    mips compression type width height halved ((i, offset, size) :: l) = mips compression type width height halved l := by
  rw [mips, if_pos h]

def GridFits (width height : Nat) (g : List (List Nat)) : Prop := g.length = height ∧ ∀ r ∈ g, r.length = width ∧ ∀ x ∈ r, x < 256

def gridBytes (g : List (List Nat)) : Bytes := g.flatMap fun r => r.flatMap (leBytes 1)

theorem reads_grid (width height : Nat) (g : List (List Nat)) (hw : 0 < width) (h : GridFits width height g) : Reads (grid width height) g (gridBytes g) := by
  obtain ⟨rfl, h⟩ := h
  refine reads_list (row width) _ g fun r hr => ?_
  obtain ⟨h1, h2⟩ := h r hr
  rw [row, if_neg (by omega), ← h1]
  exact reads_list _ _ r fun x hx => reads_int_le 1 x (by omega) (by have := h2 x hx; omega)

/-- The bytes of a picture without compression. -/
def rowsBytes (g : List (List Nat)) (alpha : Option (List (List Nat))) : Bytes := gridBytes g ++ (alpha.map gridBytes).getD []

theorem reads_rows (type width height i size : Nat) (g : List (List Nat)) (alpha : Option (List (List Nat))) (hw : 0 < width) (hg : GridFits width height g)
    (ha : ∀ a, alpha = some a → GridFits width height a) (ht : alpha.isSome = decide (type = 3 ∨ type = 4)) :
    Reads (mip 1 type width height false i size) (.rows i g alpha) (rowsBytes g alpha) := by
  rw [mip, if_neg (by omega), if_pos rfl, if_neg (by simp)]
  refine Reads.rbind (reads_grid width height g hw hg) ?_
  cases alpha with
  | none =>
    rw [if_neg (by simpa using ht.symm)]
    exact reads_rpure _
  | some a =>
    rw [if_pos (by simpa using ht.symm)]
    exact Reads.rmap (f := fun a => Mip.rows i g (some a)) (reads_grid width height a hw (ha a rfl))

/-- **C192** The first picture of a file without compression is read as written, and the picture behind it raises an error: its width and height are no longer integers. -/
theorem C192_second (data : Bytes) (type width height i offset size : Nat) (g : List (List Nat)) (alpha : Option (List (List Nat))) (hw : 0 < width)
    (hg : GridFits width height g) (ha : ∀ a, alpha = some a → GridFits width height a) (ht : alpha.isSome = decide (type = 3 ∨ type = 4))
    (a : Nat) (h1 : a ≤ offset) (h2 : 0 < offset) (h3 : 0 < size) (hl : offset ≤ data.length) (hp : rowsBytes g alpha <+: data.drop offset) :
    AtPlace data (mips 1 type width height false [(i, offset, size)]) [.rows i g alpha] a (offset + (rowsBytes g alpha).length) ∧
    ∀ (j place n : Nat) (l : List (Nat × Nat × Nat)) (s : InputStream), stringInputStream data = .ok s → 0 < n → offset + (rowsBytes g alpha).length ≤ place →
      0 < place → mips 1 type width height false ((i, offset, size) :: (j, place, n) :: l) s (8 * data.length) (8 * a) = .error .type := by
  have r := (reads_rows type width height i size g alpha hw hg ha ht).at hp hl
  constructor
  · rw [mips, if_neg (by omega)]
    exact AtPlace.bind (at_seek data a offset h1) (AtPlace.bind r (AtPlace.map (f := fun r => Mip.rows i g alpha :: r) (fun _ _ => rfl)))
  · intro j place n l s hs hn hpl hp0
    rw [mips, if_neg (by omega), Rd.bind, at_seek data a offset h1 s hs]
    simp only [Rd.bind]
    rw [r s hs]
    simp only
    rw [mips, if_neg (by omega), Rd.bind, at_seek data _ place hpl s hs]
    simp only [Rd.bind, mip]
    rfl

example : AtPlace [9, 1, 2] (mips 1 5 2 1 false [(0, 1, 2)]) [.rows 0 [[1, 2]] none] 0 3 :=
  (C192_second [9, 1, 2] 5 2 1 0 1 2 [[1, 2]] none (by omega) (by simp [GridFits]) (by simp) (by simp) 0 (by omega) (by omega) (by omega) (by simp) (by decide)).1

end Hachoir.Props
