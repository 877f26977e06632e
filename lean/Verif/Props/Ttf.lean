import Verif.Formats.Ttf
import Verif.Props.Cab
import Verif.Props.Packed
import Verif.Props.Bplist
import Verif.Props.TtfNames
import Mathlib.Tactic.Linarith
import Mathlib.Tactic.NormNum

/-!
# C163: TrueType fonts
-/

namespace Hachoir.Props
open Hachoir Hachoir.Stream Hachoir.Field Hachoir.Formats Hachoir.Formats.Ttf Hachoir.Human Spec

/-! ## Numbers -/

/-- Numbers that fit into these sizes. -/
def BigFit : List Nat → List Nat → Prop
  | w :: ws, v :: vs => 0 < w ∧ v < 256 ^ w ∧ BigFit ws vs
  | [], [] => True
  | _, _ => False

/-- Big endian numbers of these sizes. -/
def bigBytes : List Nat → List Nat → Bytes
  | w :: ws, v :: vs => beBytes w v ++ bigBytes ws vs
  | _, _ => []

theorem big_length : ∀ (ws vs : List Nat), BigFit ws vs → (bigBytes ws vs).length = ws.sum
  | [], [], _ => rfl
  | w :: ws, v :: vs, h => by rw [bigBytes, List.length_append, beBytes_length, big_length ws vs h.2.2, List.sum_cons]
  | [], _ :: _, h => h.elim
  | _ :: _, [], h => h.elim

theorem reads_big : ∀ (ws vs : List Nat), BigFit ws vs → Reads (Ttf.numbers ws) vs (bigBytes ws vs)
  | [], [], _ => reads_rpure _
  | w :: ws, v :: vs, h => Reads.rbind (reads_int_be w v h.1 h.2.1) (Reads.rmap (f := fun l => v :: l) (reads_big ws vs h.2.2))
  | [], _ :: _, h => h.elim
  | _ :: _, [], h => h.elim

/-! ## Font header -/

/-- The widths of the flags and of the style. -/
def flagWidths : List Nat := [1, 1, 1, 1, 1, 1, 1, 1, 1, 1, 1, 1, 1, 1, 2]
def styleWidths : List Nat := [1, 1, 1, 1, 1, 1, 1, 9]

/-- A font header that can be written. -/
structure TtfHeadGood (h : Ttf.Head) : Prop where
  versions : BigFit [2, 2, 2, 2, 4] h.versions
  flags : Fit flagWidths h.flags
  em : 16 ≤ h.em ∧ h.em ≤ 16384
  dates : BigFit [4, 4, 4, 4, 2, 2, 2, 2] h.dates
  style : Fit styleWidths h.style
  last : BigFit [2, 2, 2, 2] h.last

/-- Its bytes. -/
def ttfHead (h : Ttf.Head) : Bytes :=
  bigBytes [2, 2, 2, 2, 4] h.versions ++ ([0x5F, 0x0F, 0x3C, 0xF5] ++ (beBytes 2 (joinBE flagWidths h.flags) ++ (beBytes 2 h.em ++
    (bigBytes [4, 4, 4, 4, 2, 2, 2, 2] h.dates ++ (beBytes 2 (joinBE styleWidths h.style) ++ bigBytes [2, 2, 2, 2] h.last)))))

/-- **C163.** The font header is read: 54 bytes. -/
theorem C163_head (h : Ttf.Head) (g : TtfHeadGood h) : Reads Ttf.head h (ttfHead h) ∧ (ttfHead h).length = 54 := by
  constructor
  · refine Reads.bind (reads_big _ _ g.versions) ?_
    refine Reads.bind (reads_raw_n 4 [0x5F, 0x0F, 0x3C, 0xF5] rfl (by omega)) ?_
    rw [head2, if_neg (by simp)]
    refine Reads.bind (reads_packed_be 2 flagWidths _ (by decide) rfl g.flags) ?_
    refine Reads.bind (reads_int_be 2 _ (by omega) (by have := g.em; omega)) ?_
    rw [head3, if_neg (by simpa using g.em)]
    refine Reads.bind (reads_big _ _ g.dates) ?_
    refine Reads.bind (reads_packed_be 2 styleWidths _ (by decide) rfl g.style) ?_
    exact Reads.map (f := fun v => Ttf.Head.mk h.versions h.flags h.em h.dates h.style v) (reads_big _ _ g.last)
  · simp only [ttfHead, List.length_append, beBytes_length, big_length _ _ g.versions, big_length _ _ g.dates, big_length _ _ g.last]
    rfl

theorem mid_slice (a b c : Bytes) (n m : Nat) (ha : a.length = n) (hb : b.length = m) : ((a ++ (b ++ c)).drop n).take m = b := by
  subst ha hb
  rw [List.drop_left, List.take_left]

/-- **C163.** The dates told are the low halves of the numbers at 20 and at 28, the smallest size and the direction are the numbers at 46 and 48. -/
theorem C163_head_numbers (h : Ttf.Head) (g : TtfHeadGood h) :
    h.created = Spec.ofBytesBE (((ttfHead h).drop 20).take 8) % 2 ^ 32 ∧ h.modified = Spec.ofBytesBE (((ttfHead h).drop 28).take 8) % 2 ^ 32 ∧
    h.lowest = Spec.ofBytesBE (((ttfHead h).drop 46).take 2) ∧ h.direction = Spec.ofBytesBE (((ttfHead h).drop 48).take 2) := by
  have hl := big_length _ _ g.versions
  match h, g with
  | ⟨vs, fs, em, [d0, d1, d2, d3, b0, b1, b2, b3], st, [l0, l1, l2, l3]⟩, g =>
    have hd := g.dates
    have hlast := g.last
    simp only [BigFit] at hd hlast
    simp only at hl
    have one : ∀ n x, x < 256 ^ n → Spec.ofBytesBE (beBytes n x) = x := by
      intro n x hx
      rw [beBytes, ofBytesBE_reverse]
      exact (leBytes_spec n x).2 hx
    have two : ∀ x y, x < 256 ^ 4 → y < 256 ^ 4 → Spec.ofBytesBE (beBytes 4 x ++ beBytes 4 y) % 2 ^ 32 = y := by
      intro x y hx hy
      rw [ofBytesBE_append, beBytes_length, one 4 x hx, one 4 y hy]
      omega
    refine ⟨?_, ?_, ?_, ?_⟩
    · rw [show ttfHead ⟨vs, fs, em, [d0, d1, d2, d3, b0, b1, b2, b3], st, [l0, l1, l2, l3]⟩ =
        (bigBytes [2, 2, 2, 2, 4] vs ++ ([0x5F, 0x0F, 0x3C, 0xF5] ++ (beBytes 2 (joinBE flagWidths fs) ++ beBytes 2 em))) ++ ((beBytes 4 d0 ++ beBytes 4 d1) ++
        (bigBytes [4, 4, 2, 2, 2, 2] [d2, d3, b0, b1, b2, b3] ++ (beBytes 2 (joinBE styleWidths st) ++ bigBytes [2, 2, 2, 2] [l0, l1, l2, l3]))) by
        simp only [ttfHead, bigBytes, List.append_assoc, List.append_nil]]
      rw [mid_slice _ _ _ 20 8 (by simp [beBytes_length, hl]) (by simp [beBytes_length]), two d0 d1 hd.2.1 hd.2.2.2.1]
      rfl
    · rw [show ttfHead ⟨vs, fs, em, [d0, d1, d2, d3, b0, b1, b2, b3], st, [l0, l1, l2, l3]⟩ =
        (bigBytes [2, 2, 2, 2, 4] vs ++ ([0x5F, 0x0F, 0x3C, 0xF5] ++ (beBytes 2 (joinBE flagWidths fs) ++ (beBytes 2 em ++ (beBytes 4 d0 ++ beBytes 4 d1))))) ++
        ((beBytes 4 d2 ++ beBytes 4 d3) ++ (bigBytes [2, 2, 2, 2] [b0, b1, b2, b3] ++ (beBytes 2 (joinBE styleWidths st) ++ bigBytes [2, 2, 2, 2] [l0, l1, l2, l3]))) by
        simp only [ttfHead, bigBytes, List.append_assoc, List.append_nil]]
      rw [mid_slice _ _ _ 28 8 (by simp [beBytes_length, hl]) (by simp [beBytes_length]), two d2 d3 hd.2.2.2.2.2.1 hd.2.2.2.2.2.2.2.1]
      rfl
    · rw [show ttfHead ⟨vs, fs, em, [d0, d1, d2, d3, b0, b1, b2, b3], st, [l0, l1, l2, l3]⟩ =
        (bigBytes [2, 2, 2, 2, 4] vs ++ ([0x5F, 0x0F, 0x3C, 0xF5] ++ (beBytes 2 (joinBE flagWidths fs) ++ (beBytes 2 em ++
        (bigBytes [4, 4, 4, 4, 2, 2, 2, 2] [d0, d1, d2, d3, b0, b1, b2, b3] ++ beBytes 2 (joinBE styleWidths st)))))) ++
        (beBytes 2 l0 ++ bigBytes [2, 2, 2] [l1, l2, l3]) by
        simp only [ttfHead, bigBytes, List.append_assoc, List.append_nil]]
      rw [mid_slice _ _ _ 46 2 (by simp [beBytes_length, hl, bigBytes]) (by simp [beBytes_length]), one 2 l0 hlast.2.1]
      rfl
    · rw [show ttfHead ⟨vs, fs, em, [d0, d1, d2, d3, b0, b1, b2, b3], st, [l0, l1, l2, l3]⟩ =
        (bigBytes [2, 2, 2, 2, 4] vs ++ ([0x5F, 0x0F, 0x3C, 0xF5] ++ (beBytes 2 (joinBE flagWidths fs) ++ (beBytes 2 em ++
        (bigBytes [4, 4, 4, 4, 2, 2, 2, 2] [d0, d1, d2, d3, b0, b1, b2, b3] ++ (beBytes 2 (joinBE styleWidths st) ++ beBytes 2 l0)))))) ++
        (beBytes 2 l1 ++ bigBytes [2, 2] [l2, l3]) by
        simp only [ttfHead, bigBytes, List.append_assoc, List.append_nil]]
      rw [mid_slice _ _ _ 48 2 (by simp [beBytes_length, hl, bigBytes]) (by simp [beBytes_length]), one 2 l1 hlast.2.2.2.1]
      rfl

/-- The style of OpenType: bold is bit 0, italic bit 1. -/
def StyleOf (n : Nat) (bold italic : Bool) : Prop := (bold = true ↔ n % 2 = 1) ∧ (italic = true ↔ n / 2 % 2 = 1)

/-- **C163** (disagreement): the bits are read from the wrong end: a style with any of the defined bits 0 to 6 is told as neither bold nor italic. -/
theorem C163_style_wrong (h : Ttf.Head) (g : Fit styleWidths h.style) (n : Nat) (hn : joinBE styleWidths h.style = n) (hu : n < 128) : h.bold = false ∧ h.italic = false := by
  unfold Head.bold Head.italic
  match h, g with
  | ⟨_, _, _, _, [a, b, c, d, e, f, x, y], _⟩, g =>
    simp only [Fit, styleWidths] at g
    simp only [joinBE, styleWidths, List.sum_cons, List.sum_nil] at hn
    simp only [List.getD_cons_zero, List.getD_cons_succ]
    norm_num at hn
    constructor <;> simp <;> omega

/-- What a bold font is told as. -/
theorem C163_bold_wrong : ∃ h : Ttf.Head, TtfHeadGood h ∧ StyleOf (joinBE styleWidths h.style) true false ∧ h.bold = false := by
  refine ⟨⟨[1, 0, 1, 0, 0], [0, 0, 0, 0, 0, 0, 0, 0, 0, 0, 0, 0, 0, 0, 0], 1000, [0, 0, 0, 0, 0, 0, 0, 0], [0, 0, 0, 0, 0, 0, 0, 1], [8, 0, 0, 0]⟩, ?_, ?_, rfl⟩
  · exact ⟨by simp [BigFit], by simp [Fit, flagWidths], by decide, by simp [BigFit], by simp [Fit, styleWidths], by simp [BigFit]⟩
  · unfold StyleOf; decide

/-! ## Versions and the maximum profile -/

/-- **C163.** A version whose minor part has only decimal digits (OpenType: `0x00005000` is 0.5) has the value that is written. -/
theorem C163_version (major minor : Nat) (h : ∀ d ∈ hexDigits minor, d < 10) :
    Ttf.version major minor = some ((major : ℚ) + decimalOf (hexDigits minor) / 10 ^ (hexDigits minor).length) := by
  have : (hexDigits minor).span (· < 10) = (hexDigits minor, []) := by
    rw [List.span_eq_takeWhile_dropWhile, List.takeWhile_eq_self_iff.2 (by simpa using h), List.dropWhile_eq_nil_iff.2 (by simpa using h)]
  rw [Ttf.version, this]

theorem version_one : Ttf.version 1 0 = some 1 := by
  rw [C163_version 1 0 (by decide)]
  norm_num [hexDigits, decimalOf]

theorem version_two : Ttf.version 2 0 = some 2 := by
  rw [C163_version 2 0 (by decide)]
  norm_num [hexDigits, decimalOf]

theorem hex_5000 : hexDigits 0x5000 = [5, 0, 0, 0] := by decide +kernel

theorem version_half (n : Nat) : Ttf.version n 0x5000 = some ((n : ℚ) + 1 / 2) := by
  rw [C163_version n 0x5000 (by rw [hex_5000]; decide), hex_5000]
  norm_num [decimalOf]

/-- The limits of version 1. -/
def limitWidths : List Nat := [2, 2, 2, 2, 2, 2, 2, 2, 2, 2, 2, 2, 2]

/-- **C163.** The number of glyphs is read in both versions, and the limits in version 1. -/
theorem C163_maxp (n : Nat) (hn : n < 65536) (ls : List Nat) (hl : BigFit limitWidths ls) :
    Reads Ttf.maxp (n, none) (beBytes 2 0 ++ (beBytes 2 0x5000 ++ beBytes 2 n)) ∧
    Reads Ttf.maxp (n, some ls) (beBytes 2 1 ++ (beBytes 2 0 ++ (beBytes 2 n ++ bigBytes limitWidths ls))) := by
  constructor
  · refine Reads.bind (reads_int_be 2 0 (by omega) (by omega)) ?_
    refine Reads.bind (reads_int_be 2 0x5000 (by omega) (by omega)) ?_
    have := Reads.bind (f := fun n => maxp3 n (Ttf.version 0 0x5000)) (reads_int_be 2 n (by omega) (by omega)) (v := n) (ys := []) (w := (n, none)) ?_
    · exact Reads.of_eq this rfl (List.append_nil _)
    · rw [version_half, maxp3, if_neg (by norm_num)]
      exact reads_pure _
  · refine Reads.bind (reads_int_be 2 1 (by omega) (by omega)) ?_
    refine Reads.bind (reads_int_be 2 0 (by omega) (by omega)) ?_
    refine Reads.bind (reads_int_be 2 n (by omega) (by omega)) ?_
    rw [version_one, maxp3, if_pos (le_refl _)]
    exact Reads.map (f := fun v => (n, some v)) (reads_big _ _ hl)

/-! ## PostScript -/

/-- A fixed number of OpenType: signed. -/
def fixedSpec (whole fraction : Nat) : ℚ := (if whole < 32768 then (whole : ℚ) else whole - 65536) + fraction / 65536

/-- **C163.** An angle that is not negative is told right; (disagreement) one that is negative, as all of fonts leaning right, is told 65536 degrees greater. -/
theorem C163_angle_wrong (whole fraction : Nat) :
    (whole < 32768 → Ttf.fixed whole fraction = fixedSpec whole fraction) ∧ (32768 ≤ whole → Ttf.fixed whole fraction = fixedSpec whole fraction + 65536) := by
  constructor <;> intro h
  · rw [Ttf.fixed, fixedSpec, if_pos h]
  · rw [Ttf.fixed, fixedSpec, if_neg (by omega)]
    ring

/-- The names of the glyphs with an index of at least 258 are numbered in the order of the glyphs, from `k`. -/
def GlyphsInOrder : Nat → List Nat → Prop
  | _, [] => True
  | k, i :: r => if i < 258 then GlyphsInOrder k r else i = 258 + k ∧ GlyphsInOrder (k + 1) r

/-- OpenType: the name of a glyph with an index of at least 258 is the one with this number in the list. -/
def glyphSpec (names : List Bytes) : Nat → List Nat → List (Nat × Bytes)
  | _, [] => []
  | gid, i :: r => if i < 258 then glyphSpec names (gid + 1) r else (gid, names.getD (i - 258) []) :: glyphSpec names (gid + 1) r

def pascalBytes (b : Bytes) : Bytes := UInt8.ofNat b.length :: b

theorem reads_glyph_names (names : List Bytes) (hb : ∀ b ∈ names, b.length < 256) : ∀ (is : List Nat) (gid k : Nat), GlyphsInOrder k is → (is.filter (258 ≤ ·)).length + k = names.length →
    Reads (Ttf.glyphNames gid is) (glyphSpec names gid is) ((names.drop k).flatMap pascalBytes)
  | [], gid, k, _, hn => by
    rw [List.drop_eq_nil_of_le (by simp at hn; omega)]
    exact reads_pure _
  | i :: is, gid, k, ho, hn => by
    rw [Ttf.glyphNames, glyphSpec]
    rw [GlyphsInOrder] at ho
    by_cases hi : i < 258
    · rw [if_pos hi, if_pos hi]
      rw [if_pos hi] at ho
      exact reads_glyph_names names hb is (gid + 1) k ho (by rw [List.filter_cons_of_neg (by simpa using hi)] at hn; exact hn)
    · rw [if_neg hi, if_neg hi]
      rw [if_neg hi] at ho
      obtain ⟨rfl, ho⟩ := ho
      rw [List.filter_cons_of_pos (by simp), List.length_cons] at hn
      have hk : k < names.length := by omega
      rw [show 258 + k - 258 = k by omega, show names.getD k [] = names[k] by simp [hk], List.drop_eq_getElem_cons hk, List.flatMap_cons]
      refine Reads.bind (reads_pascal8 .big (by decide) .eightBit (by decide) names[k] (hb _ (List.getElem_mem _))) ?_
      exact Reads.map (f := fun v => (gid, names[k]) :: v) (reads_glyph_names names hb is (gid + 1) (k + 1) ho (by omega))

/-- The bytes of the table up to the names. -/
def postBytes (major minor whole fraction : Nat) (position thickness : Int) (memory : List Nat) : Bytes :=
  bigBytes [2, 2] [major, minor] ++ (bigBytes [2, 2] [whole, fraction] ++ (beBytes 2 (position % (256 ^ 2 : Nat)).toNat ++ (beBytes 2 (thickness % (256 ^ 2 : Nat)).toNat ++
    bigBytes [4, 4, 4, 4, 4] memory)))

theorem reads_post (major minor whole fraction : Nat) (hm : major < 65536 ∧ minor < 65536) (ha : whole < 65536 ∧ fraction < 65536) (position thickness : Int)
    (hp : -32768 ≤ position ∧ position < 32768) (ht : -32768 ≤ thickness ∧ thickness < 32768) (memory : List Nat) (hmem : BigFit [4, 4, 4, 4, 4] memory)
    (names : Option (List Nat × List (Nat × Bytes))) (bs : Bytes) (hn : Reads (Ttf.postNames (Ttf.version major minor)) names bs) :
    Reads Ttf.post ⟨Ttf.fixed whole fraction, [position, thickness], memory, names⟩ (postBytes major minor whole fraction position thickness memory ++ bs) := by
  refine Reads.of_eq (Reads.bind (reads_big [2, 2] [major, minor] (by simp [BigFit]; omega)) (Reads.bind (reads_big [2, 2] [whole, fraction] (by simp [BigFit]; omega))
    (Reads.bind (reads_signed_be 2 position (by omega) (by omega) (by omega)) (Reads.bind (reads_signed_be 2 thickness (by omega) (by omega) (by omega))
      (Reads.bind (reads_big _ memory hmem) (Reads.map (f := fun v => Post.mk (Ttf.fixed whole fraction) [position, thickness] memory v) hn)))))) rfl ?_
  simp only [postBytes, List.append_assoc]

/-- **C163.** The PostScript table of version 2 with names that are numbered in the order of the glyphs.  (Missing: names in another order or used by several glyphs,
`C163_glyphs_wrong`; negative angles, `C163_angle_wrong`.) -/
theorem C163_post_partial (whole fraction : Nat) (ha : whole < 32768 ∧ fraction < 65536) (position thickness : Int)
    (hp : -32768 ≤ position ∧ position < 32768) (ht : -32768 ≤ thickness ∧ thickness < 32768) (memory : List Nat) (hmem : BigFit [4, 4, 4, 4, 4] memory)
    (is : List Nat) (hi : ∀ i ∈ is, i < 65536) (hl : 0 < is.length ∧ is.length < 65536) (ho : GlyphsInOrder 0 is) (names : List Bytes) (hb : ∀ b ∈ names, b.length < 256)
    (hn : (is.filter (258 ≤ ·)).length = names.length) :
    Reads Ttf.post ⟨fixedSpec whole fraction, [position, thickness], memory, some (is, glyphSpec names 0 is)⟩
      (postBytes 2 0 whole fraction position thickness memory ++ (beBytes 2 is.length ++ (is.flatMap (beBytes 2) ++ names.flatMap pascalBytes))) := by
  rw [← (C163_angle_wrong whole fraction).1 ha.1]
  refine reads_post 2 0 whole fraction (by omega) (by omega) position thickness hp ht memory hmem _ _ ?_
  rw [version_two, postNames, if_pos rfl]
  refine Reads.bind (reads_int_be 2 _ (by omega) (by omega)) ?_
  rw [postIndices, if_neg (by omega)]
  refine Reads.bind (reads_times (Rd.int 2 .big) (beBytes 2) is fun i hm => reads_int_be 2 i (by omega) (by have := hi i hm; omega)) ?_
  exact Reads.map (f := fun v => some (is, v)) (reads_glyph_names names hb is 0 0 ho (by omega))

/-- **C163** (disagreement): two glyphs whose names are in the other order are told with each other's name. -/
theorem C163_glyphs_wrong (a b : Bytes) (ha : a.length < 256) (hb : b.length < 256) :
    glyphSpec [a, b] 0 [259, 258] = [(0, b), (1, a)] ∧ Reads (Ttf.glyphNames 0 [259, 258]) [(0, a), (1, b)] ([a, b].flatMap pascalBytes) := by
  refine ⟨rfl, ?_⟩
  rw [Ttf.glyphNames, if_neg (by omega), List.flatMap_cons]
  refine Reads.bind (reads_pascal8 .big (by decide) .eightBit (by decide) a ha) ?_
  refine Reads.map (f := fun v => (0, a) :: v) ?_
  rw [Ttf.glyphNames, if_neg (by omega), List.flatMap_cons]
  refine Reads.bind (reads_pascal8 .big (by decide) .eightBit (by decide) b hb) ?_
  exact Reads.map (f := fun v => (1, b) :: v) (reads_pure _)

/-- **C163** (disagreement): the offsets of a table of version 2.5 are not read. -/
theorem C163_offsets_wrong : Ttf.postNames (Ttf.version 2 0x5000) = pure none := by
  rw [version_half, postNames, if_neg (by norm_num)]

/-! ## Variations -/

def axisBytes (x : Axis) : Bytes := x.tag ++ (bigBytes [2, 2, 2, 2, 2, 2] x.values ++ (beBytes 2 (joinBE [15, 1] x.flags) ++ beBytes 2 x.name))

def AxisGood (x : Axis) : Prop := x.tag.length = 4 ∧ BigFit [2, 2, 2, 2, 2, 2] x.values ∧ Fit [15, 1] x.flags ∧ x.name < 65536

theorem reads_tag (t : Bytes) (h : t.length = 4) : Reads Ttf.tag t t := reads_fixed .big .eightBit (by decide) 4 t h (by decide)

theorem reads_axis (x : Axis) (h : AxisGood x) : Reads Ttf.axis x (axisBytes x) := by
  obtain ⟨h1, h2, h3, h4⟩ := h
  refine Reads.bind (reads_tag x.tag h1) ?_
  refine Reads.bind (reads_big _ _ h2) ?_
  refine Reads.bind (reads_packed_be 2 _ _ (by decide) rfl h3) ?_
  exact Reads.map (f := fun v => Axis.mk x.tag x.values x.flags v) (reads_int_be 2 _ (by omega) (by omega))

def coordinateBytes (p : Nat × Nat) : Bytes := beBytes 2 p.1 ++ beBytes 2 p.2

theorem reads_coordinate (p : Nat × Nat) (h : p.1 < 65536 ∧ p.2 < 65536) : Reads Ttf.coordinate p (coordinateBytes p) :=
  Reads.bind (reads_int_be 2 _ (by omega) (by omega)) (Reads.map (f := fun v => (p.1, v)) (reads_int_be 2 _ (by omega) (by omega)))

/-- An instance without the name for PostScript. -/
def instanceBytes (x : Ttf.Instance) : Bytes := beBytes 2 x.name ++ (beBytes 2 0 ++ x.coordinates.flatMap coordinateBytes)

def InstanceGood (axes : Nat) (x : Ttf.Instance) : Prop := x.name < 65536 ∧ x.coordinates.length = axes ∧ (∀ p ∈ x.coordinates, p.1 < 65536 ∧ p.2 < 65536) ∧ x.postScript = none

theorem reads_instance (axes : Nat) (x : Ttf.Instance) (h : InstanceGood axes x) (has : Bool) (ps : Option Nat) (bs : Bytes) (hps : Reads (Ttf.postScriptName has) ps bs) :
    Reads (Ttf.«instance» axes has) { x with postScript := ps } (instanceBytes x ++ bs) := by
  obtain ⟨h1, rfl, h3, -⟩ := h
  refine Reads.of_eq (Reads.bind (reads_int_be 2 _ (by omega) (by omega)) (Reads.bind (reads_int_be 2 0 (by omega) (by omega))
    (Reads.bind (reads_times Ttf.coordinate coordinateBytes x.coordinates fun p hp => reads_coordinate p (h3 p hp)) (Reads.map (f := fun v => Ttf.Instance.mk x.name x.coordinates v) hps)))) rfl ?_
  simp only [instanceBytes, List.append_assoc]

/-- **C163.** The axes and the instances of a font with variations, when the instances have no PostScript names and there are at least two axes.
(Missing: one axis, `C163_one_axis_wrong`; PostScript names, `C163_postscript_wrong`.) -/
theorem C163_variations_partial (gap : Bytes) (axes : List Axis) (is : List Ttf.Instance) (hg : gap.length < 65536 - 16) (ha : ∀ x ∈ axes, AxisGood x) (hn : 2 ≤ axes.length ∧ 4 * axes.length + 4 < 65536)
    (hi : ∀ x ∈ is, InstanceGood axes.length x) (hin : is.length < 65536) :
    Reads Ttf.fvar (axes, is) (bigBytes [2, 2, 2, 2, 2, 2, 2, 2] [1, 0, 16 + gap.length, 2, axes.length, 20, is.length, 4 * axes.length + 4] ++
      (gap ++ (axes.flatMap axisBytes ++ is.flatMap instanceBytes))) := by
  refine Reads.bind (reads_big _ _ (by simp [BigFit]; omega)) ?_
  show Reads (fvar2 (16 + gap.length) axes.length is.length (4 * axes.length + 4)) _ _
  refine Reads.bind (reads_raw_or gap _ (by omega)) ?_
  refine Reads.bind (reads_times Ttf.axis axisBytes axes fun x hx => reads_axis x (ha x hx)) ?_
  refine Reads.map (f := fun v => (axes, v)) (reads_times _ instanceBytes is fun x hx => ?_)
  have h := hi x hx
  have hps : x.postScript = none := h.2.2.2
  rw [decide_eq_false (by omega)]
  refine Reads.of_eq (reads_instance axes.length x h false none [] (reads_pure _)) ?_ (List.append_nil _)
  cases x
  simp only at hps
  rw [hps]

/-- **C163** (disagreement): with one axis and no PostScript names, as in most fonts with variations, the first two bytes of the next record are told as the PostScript name. -/
theorem C163_one_axis_wrong (x : Ttf.Instance) (h : InstanceGood 1 x) (next : Nat) (hn : next < 65536) :
    Reads (Ttf.«instance» 1 (decide (4 * 1 + 4 = 2 * 1 + 6))) { x with postScript := some next } (instanceBytes x ++ beBytes 2 next) := by
  rw [decide_eq_true (by omega)]
  exact reads_instance 1 x h true (some next) _ (Reads.map (f := some) (reads_int_be 2 _ (by omega) (by omega)))

/-- **C163** (disagreement): PostScript names are not read, so that the next record is read two bytes too early. -/
theorem C163_postscript_wrong (axes : Nat) (ha : 0 < axes) (x : Ttf.Instance) (h : InstanceGood axes x) :
    Reads (Ttf.«instance» axes (decide (4 * axes + 6 = 2 * axes + 6))) x (instanceBytes x) := by
  rw [decide_eq_false (by omega)]
  refine Reads.of_eq (reads_instance axes x h false none [] (reads_pure _)) ?_ (List.append_nil _)
  have hps : x.postScript = none := h.2.2.2
  cases x
  simp only at hps
  rw [hps]

/-! ## Whole fonts -/

def ttfEntry (x : Ttf.Entry) : Bytes := x.tag ++ (beBytes 4 x.checksum ++ (beBytes 4 x.offset ++ beBytes 4 x.size))

def TtfEntryGood (x : Ttf.Entry) : Prop := x.tag.length = 4 ∧ x.checksum < 2 ^ 32 ∧ x.offset < 2 ^ 32 ∧ x.size < 2 ^ 32

theorem reads_ttf_entry (x : Ttf.Entry) (h : TtfEntryGood x) : Reads Ttf.entry x (ttfEntry x) := by
  obtain ⟨h1, h2, h3, h4⟩ := h
  refine Reads.bind (reads_tag x.tag h1) ?_
  refine Reads.bind (reads_int_be 4 _ (by omega) (by omega)) ?_
  refine Reads.bind (reads_int_be 4 _ (by omega) (by omega)) ?_
  exact Reads.map (f := fun v => Ttf.Entry.mk x.tag x.checksum x.offset v) (reads_int_be 4 _ (by omega) (by omega))

/-- The beginning of a font: version, number of tables, three values for searching, and the tables. -/
def ttfStart (major minor : Nat) (search : List Nat) (es : List Ttf.Entry) : Bytes :=
  bigBytes [2, 2, 2, 2, 2, 2] ([major, minor, es.length] ++ search) ++ es.flatMap ttfEntry

/-- What OpenType tells a table to be. -/
inductive TtfTable (data : Bytes) (x : Ttf.Entry) : Ttf.Table → Prop
  | head (h : Ttf.Head) (g : TtfHeadGood h) (tag : x.tag = asc "head") (at' : ttfHead h <+: data.drop x.offset) (room : 54 ≤ x.size) : TtfTable data x (.head h)
  | names (pool : Nat) (hs : List NameHeader) (tag : x.tag = asc "name") (hp : pool < 65536) (hn : hs.length ≤ 300) (hf : ∀ h ∈ hs, NameFits h)
      (at' : namesStart pool hs <+: data.drop x.offset) (room : 6 + 12 * hs.length ≤ x.size) : TtfTable data x (.names ⟨pool, hs, Ttf.slots x.size pool hs⟩)
  | maxp (n : Nat) (ls : List Nat) (tag : x.tag = asc "maxp") (hn : n < 65536) (hl : BigFit limitWidths ls)
      (at' : beBytes 2 1 ++ (beBytes 2 0 ++ (beBytes 2 n ++ bigBytes limitWidths ls)) <+: data.drop x.offset) (room : 32 ≤ x.size) : TtfTable data x (.maxp (n, some ls))
  | data (tag : x.tag ∉ [asc "head", asc "name", asc "maxp", asc "post", asc "fvar", asc "DSIG", asc "GSUB", asc "avar", asc "cmap", asc "hhea", asc "OS/2"]) :
      TtfTable data x (.data ((data.drop x.offset).take x.size))

theorem at_fields {α : Type} {data : Bytes} {r : Rd α} {v : α} {a n : Nat} (f : α → Ttf.Table) (h : AtPlace data (Rd.within n r) v a (a + n)) :
    AtPlace data (Ttf.fields n f r) (f v) a (a + n) := by
  intro s hs
  rw [Ttf.fields, h s hs]

theorem fields_total {α : Type} (n : Nat) (f : α → Ttf.Table) (r : Rd α) (s : InputStream) (stop addr : Nat) : ∃ t, Ttf.fields n f r s stop addr = .ok (t, addr + 8 * n) := by
  rw [Ttf.fields, Rd.within]
  cases r s (addr + 8 * n) addr with
  | error e => exact ⟨_, rfl⟩
  | ok p => exact ⟨_, rfl⟩

theorem content_total (tag : Bytes) (n : Nat) (hn : 0 < n) (s : InputStream) (stop addr : Nat) : ∃ t, Ttf.content tag n s stop addr = .ok (t, addr + 8 * n) := by
  unfold Ttf.content
  rw [if_neg (by omega)]
  by_cases h1 : tag = asc "head"
  · rw [if_pos h1]; exact fields_total ..
  rw [if_neg h1]
  by_cases h2 : tag = asc "name"
  · rw [if_pos h2]; exact fields_total ..
  rw [if_neg h2]
  by_cases h3 : tag = asc "maxp"
  · rw [if_pos h3]; exact fields_total ..
  rw [if_neg h3]
  by_cases h4 : tag = asc "post"
  · rw [if_pos h4]; exact fields_total ..
  rw [if_neg h4]
  by_cases h5 : tag = asc "fvar"
  · rw [if_pos h5]; exact fields_total ..
  rw [if_neg h5]
  by_cases h6 : tag ∈ [asc "DSIG", asc "GSUB", asc "avar", asc "cmap", asc "hhea", asc "OS/2"]
  · rw [if_pos h6]; exact fields_total ..
  · rw [if_neg h6]; exact fields_total ..

theorem at_ttf_content (data : Bytes) (x : Ttf.Entry) (t : Ttf.Table) (hx : 0 < x.size) (hin : x.offset + x.size ≤ data.length) (h : TtfTable data x t) :
    AtPlace data (Ttf.content x.tag x.size) t x.offset (x.offset + x.size) := by
  have d1 : asc "name" ≠ asc "head" := by decide +kernel
  have d2 : asc "maxp" ≠ asc "head" := by decide +kernel
  have d3 : asc "maxp" ≠ asc "name" := by decide +kernel
  rw [Ttf.content, if_neg (by omega)]
  cases h with
  | head h g tag at' room =>
    rw [if_pos tag]
    exact at_fields _ ((C163_head h g).1.within_at at' (by rw [(C163_head h g).2]; exact room))
  | names pool hs tag hp hn hf at' room =>
    rw [if_neg (by rw [tag]; exact d1), if_pos tag]
    refine at_fields _ ((C164_records x.size pool hp hs hn hf).within_at at' ?_)
    have : ∀ l : List NameHeader, (l.flatMap nameBytes).length = 12 * l.length := by
      intro l
      induction l with
      | nil => rfl
      | cons y l ih => rw [List.flatMap_cons, List.length_append, ih, nameBytes]; simp only [List.length_append, beBytes_length, List.length_cons]; omega
    rw [namesStart]
    simp only [List.length_append, beBytes_length, this]
    omega
  | maxp n ls tag hn hl at' room =>
    rw [if_neg (by rw [tag]; exact d2), if_neg (by rw [tag]; exact d3), if_pos tag]
    refine at_fields _ ((C163_maxp n hn ls hl).2.within_at at' ?_)
    simp only [List.length_append, beBytes_length, big_length _ _ hl]
    exact room
  | data tag =>
    simp only [List.mem_cons, List.not_mem_nil, or_false, not_or] at tag
    obtain ⟨t1, t2, t3, t4, t5, t6, t7, t8, t9, t10, t11⟩ := tag
    rw [if_neg t1, if_neg t2, if_neg t3, if_neg t4, if_neg t5, if_neg (by simp [t6, t7, t8, t9, t10, t11])]
    have hlen : ((data.drop x.offset).take x.size).length = x.size := by
      rw [List.length_take, List.length_drop]; omega
    exact at_fields _ ((reads_raw_n x.size _ hlen (by omega)).within_at (List.take_prefix _ _) (by omega))

/-- **C163.** All tables of a font are found, whatever their order in the file and the bytes between them, and each has the content it should have: a table that cannot be read does not
matter to the others. -/
theorem C163_file (data : Bytes) (s : InputStream) (hs : stringInputStream data = .ok s) (major minor : Nat) (search : List Nat) (es : List Ttf.Entry)
    (hv : BigFit [2, 2, 2, 2, 2, 2] ([major, minor, es.length] ++ search)) (hg : ∀ x ∈ es, TtfEntryGood x) (hstart : ttfStart major minor search es <+: data)
    (ht : ∀ x ∈ es, 0 < x.size ∧ (ttfStart major minor search es).length ≤ x.offset ∧ x.offset + x.size ≤ data.length)
    (hd : es.Pairwise fun x y => x.offset + x.size ≤ y.offset ∨ y.offset + y.size ≤ x.offset) :
    ∃ found stop, Ttf.file s (8 * data.length) 0 = .ok (([major, minor, es.length] ++ search, es, found), stop) ∧ (found.map (·.1)).Perm es ∧
      found.Pairwise (fun x y => x.1.offset ≤ y.1.offset) ∧ ∀ p ∈ found, ∀ t, TtfTable data p.1 t → p.2 = t := by
  set l := es.mergeSort (fun a b => decide (a.offset ≤ b.offset)) with hl
  have hperm : l.Perm es := List.mergeSort_perm _ _
  have hsort : l.Pairwise fun f g => f.offset ≤ g.offset := by
    have := List.pairwise_mergeSort (le := fun f g : Ttf.Entry => decide (f.offset ≤ g.offset)) (by intro a b c h1 h2; simp at *; omega)
      (by intro a b; simp; omega) es
    simpa using this
  have hdis : l.Pairwise fun f g => f.offset + f.size ≤ g.offset ∨ g.offset + g.size ≤ f.offset :=
    (List.Perm.pairwise_iff (R := fun f g : Ttf.Entry => f.offset + f.size ≤ g.offset ∨ g.offset + g.size ≤ f.offset) (fun {a b} h => h.symm) hperm).2 hd
  have hval : ∀ x : Ttf.Entry, ∃ t, 0 < x.size → Ttf.content x.tag x.size s (8 * data.length) (8 * x.offset) = .ok (t, 8 * x.offset + 8 * x.size) := fun x => by
    by_cases hx : 0 < x.size
    · obtain ⟨t, e⟩ := content_total x.tag x.size hx s (8 * data.length) (8 * x.offset)
      exact ⟨t, fun _ => e⟩
    · exact ⟨.empty, fun h => absurd h hx⟩
  choose val hval using hval
  have hsame : ∀ s', stringInputStream data = .ok s' → s' = s := fun s' h => by
    rw [hs] at h
    exact (Except.ok.inj h).symm
  obtain ⟨b, hb⟩ := at_sorted data Ttf.body (·.offset) (·.size) (fun x => (x, val x)) l (ttfStart major minor search es).length hsort hdis fun x hx => by
    obtain ⟨h1, h2, h3⟩ := ht x (hperm.mem_iff.1 hx)
    refine ⟨h2, h1, AtPlace.map (f := fun t => (x, t)) fun s' hs' => ?_⟩
    rw [hsame s' hs', hval x h1, Nat.mul_add]
  have hh : Reads Ttf.start ([major, minor, es.length] ++ search, es) (ttfStart major minor search es) := by
    refine Reads.bind (reads_big _ _ hv) ?_
    show Reads (Ttf.start2 _) _ _
    exact Reads.map (f := fun v => ([major, minor, es.length] ++ search, v)) (reads_times Ttf.entry ttfEntry es fun x hx => reads_ttf_entry x (hg x hx))
  have h0 := hh.at (data := data) (a := 0) (by simpa using hstart) (by omega)
  rw [Nat.zero_add] at h0
  have hf : AtPlace data Ttf.file ([major, minor, es.length] ++ search, es, l.map fun x => (x, val x)) 0 b :=
    AtPlace.bind h0 (AtPlace.map (f := fun v => ([major, minor, es.length] ++ search, es, v)) hb)
  refine ⟨_, _, hf s hs, ?_, ?_, ?_⟩
  · rw [List.map_map, show ((fun p : Ttf.Entry × Ttf.Table => p.1) ∘ fun x => (x, val x)) = id from rfl, List.map_id]
    exact hperm
  · rw [List.pairwise_map]
    exact hsort
  · intro p hp t htab
    obtain ⟨x, hx, rfl⟩ := List.mem_map.1 hp
    obtain ⟨h1, h2, h3⟩ := ht x (hperm.mem_iff.1 hx)
    have := at_ttf_content data x t h1 h3 htab s hs
    rw [hval x h1] at this
    simp only [Except.ok.injEq, Prod.mk.injEq] at this
    exact this.1

/-- **C163.** The files accepted: TrueType 1.0 or OpenType (`OTTO`), with 3 to 30 tables. -/
theorem C163_valid (major minor n : Nat) (search : List Nat) :
    Ttf.valid ([major, minor, n] ++ search) = true ↔ ((major = 1 ∧ minor = 0) ∨ (beBytes 2 major = asc "OT" ∧ beBytes 2 minor = asc "TO" ∧ major < 65536 ∧ minor < 65536)) ∧ 3 ≤ n ∧ n ≤ 30 := by
  have key : ∀ v : Nat, ∀ a b : UInt8, beBytes 2 v = [a, b] ∧ v < 65536 ↔ v = 256 * a.toNat + b.toNat := by
    intro v a b
    have e : beBytes 2 v = [UInt8.ofNat (v / 256 % 256), UInt8.ofNat (v % 256)] := by
      simp [beBytes, leBytes]
    rw [e]
    simp only [List.cons.injEq, and_true]
    have ha := a.toNat_lt
    have hb := b.toNat_lt
    constructor
    · rintro ⟨⟨rfl, rfl⟩, h⟩
      simp only [UInt8.toNat_ofNat']
      omega
    · intro h
      refine ⟨⟨?_, ?_⟩, by omega⟩
      · apply UInt8.toNat_inj.1
        simp only [UInt8.toNat_ofNat']
        omega
      · apply UInt8.toNat_inj.1
        simp only [UInt8.toNat_ofNat']
        omega
  have e1 : asc "OT" = [0x4F, 0x54] := by decide +kernel
  have e2 : asc "TO" = [0x54, 0x4F] := by decide +kernel
  have k1 := key major 0x4F 0x54
  have k2 := key minor 0x54 0x4F
  rw [e1, e2]
  have : (beBytes 2 major = [0x4F, 0x54] ∧ beBytes 2 minor = [0x54, 0x4F] ∧ major < 65536 ∧ minor < 65536) ↔ (major = 0x4F54 ∧ minor = 0x544F) := by
    constructor
    · rintro ⟨a, b, c, d⟩
      exact ⟨k1.1 ⟨a, c⟩, k2.1 ⟨b, d⟩⟩
    · rintro ⟨a, b⟩
      obtain ⟨c, d⟩ := k1.2 a
      obtain ⟨e, f⟩ := k2.2 b
      exact ⟨c, e, d, f⟩
  rw [this]
  simp [Ttf.valid, and_assoc]

/-! ## Examples -/

example : TtfEntryGood ⟨asc "glyf", 1, 28, 3⟩ := by unfold TtfEntryGood; decide +kernel

example : BigFit [2, 2, 2, 2, 2, 2] ([1, 0, 1] ++ [16, 0, 0]) := by simp [BigFit]

example : ttfStart 1 0 [16, 0, 0] [⟨asc "glyf", 1, 28, 3⟩] <+: (ttfStart 1 0 [16, 0, 0] [⟨asc "glyf", 1, 28, 3⟩] ++ [7, 8, 9]) ∧
    (ttfStart 1 0 [16, 0, 0] [⟨asc "glyf", 1, 28, 3⟩]).length = 28 := ⟨List.prefix_append _ _, by decide +kernel⟩

example : GlyphsInOrder 0 [0, 258, 3, 259] ∧ ([0, 258, 3, 259].filter (258 ≤ ·)).length = 2 ∧ glyphSpec [asc "a", asc "b"] 0 [0, 258, 3, 259] = [(1, asc "a"), (3, asc "b")] :=
  ⟨by simp [GlyphsInOrder], rfl, rfl⟩

example : AxisGood ⟨asc "wght", [100, 0, 400, 0, 900, 0], [0, 1], 256⟩ := ⟨by decide +kernel, by simp [BigFit], by simp [Fit], by decide⟩

example : InstanceGood 2 ⟨2, [(400, 0), (100, 0)], none⟩ := by unfold InstanceGood; decide

end Hachoir.Props
