import Verif.Formats.Ico
import Verif.Props.Bmp

/-!
# Icons and cursors (C122)
-/

namespace Hachoir.Props
open Hachoir Hachoir.Stream Hachoir.Field Hachoir.Formats Hachoir.Formats.Ico Spec

/-- An icon with its content. -/
structure IcoItem where
  width : Nat
  height : Nat
  colors : Nat
  reserved : Nat
  planes : Nat
  bpp : Nat
  info : Ico.Info
  palette : List (UInt8 × UInt8 × UInt8 × UInt8)
  pixels : Bytes

/-- The bytes of the content of an icon. -/
def IcoItem.size (i : IcoItem) : Nat := 40 + 4 * i.palette.length + i.pixels.length

/-- The header of an icon whose content is at byte `offset`. -/
def IcoItem.icon (i : IcoItem) (offset : Nat) : Ico.Icon := ⟨i.width, i.height, i.colors, i.reserved, i.planes, i.bpp, i.size, offset⟩

/-- The headers of icons, one behind the other from byte `offset` on. -/
def iconsFrom (offset : Nat) : List IcoItem → List Ico.Icon
  | [] => []
  | i :: is => i.icon offset :: iconsFrom (offset + i.size) is

/-- Where the parts of the icons are. -/
def datasFrom (offset : Nat) : List IcoItem → List Ico.Data
  | [] => []
  | i :: is =>
    ⟨8 * offset, i.info, i.palette.map fun c => [c.1.toNat, c.2.1.toNat, c.2.2.1.toNat, c.2.2.2.toNat],
      (8 * (offset + 40 + 4 * i.palette.length), i.pixels.length)⟩ :: datasFrom (offset + i.size) is

structure IconGood (i : Ico.Icon) : Prop where
  width : i.width < 2 ^ 8
  height : i.height < 2 ^ 8
  colors : i.colors < 2 ^ 8
  reserved : i.reserved < 2 ^ 8
  planes : i.planes < 2 ^ 16
  bpp : i.bpp < 2 ^ 16
  size : i.size < 2 ^ 32
  offset : i.offset < 2 ^ 32

structure DibGood (i : Ico.Info) : Prop where
  three : i.dims.length = 3
  dims : ∀ w ∈ i.dims, w < 2 ^ 32
  planes : i.planes < 2 ^ 16
  bpp : i.bpp < 2 ^ 16
  six : i.more.length = 6
  more : ∀ w ∈ i.more, w < 2 ^ 32

/-- The palette has 256 colors if the pixels have 8 bits, otherwise as many as the header tells. -/
structure IcoItem.Good (i : IcoItem) : Prop where
  width : i.width < 2 ^ 8
  height : i.height < 2 ^ 8
  colors : i.colors < 2 ^ 8
  reserved : i.reserved < 2 ^ 8
  planes : i.planes < 2 ^ 16
  bpp : i.bpp < 2 ^ 16
  info : DibGood i.info
  palette : i.palette.length = if i.bpp = 8 then 256 else i.colors
  pixels : i.pixels ≠ []

def iconBytes (i : Ico.Icon) : Bytes :=
  leBytes 1 i.width ++ (leBytes 1 i.height ++ (leBytes 1 i.colors ++ (leBytes 1 i.reserved ++ (leBytes 2 i.planes ++ (leBytes 2 i.bpp ++
    (leBytes 4 i.size ++ leBytes 4 i.offset))))))

def dibBytes (i : Ico.Info) : Bytes := words32 i.dims ++ (leBytes 2 i.planes ++ (leBytes 2 i.bpp ++ words32 i.more))

def IcoItem.content (i : IcoItem) : Bytes := dibBytes i.info ++ (paletteBytes i.palette ++ i.pixels)

/-- A file: type 1 for icons, 2 for cursors. -/
def icoBytes (type : Nat) (is : List IcoItem) : Bytes :=
  leBytes 2 0 ++ (leBytes 2 type ++ (leBytes 2 is.length ++ ((iconsFrom (6 + 16 * is.length) is).flatMap iconBytes ++ is.flatMap IcoItem.content)))

theorem icon_length (i : Ico.Icon) : (iconBytes i).length = 16 := by simp [iconBytes, leBytes_length]

theorem dib_length (i : Ico.Info) (h : DibGood i) : (dibBytes i).length = 40 := by
  simp only [dibBytes, List.length_append, words32_length, h.three, h.six, leBytes_length]

theorem content_length (i : IcoItem) (h : i.Good) : i.content.length = i.size := by
  simp only [IcoItem.content, List.length_append, dib_length _ h.info, palette_length, IcoItem.size]
  omega

theorem read_icon {data : Bytes} {s : InputStream} (hs : stringInputStream data = .ok s) (i : Ico.Icon) (hg : IconGood i) (k : Nat)
    (hp : iconBytes i <+: data.drop k) : readIcon s (8 * k) = .ok i := by
  obtain ⟨width, height, colors, reserved, planes, bpp, size, offset⟩ := i
  obtain ⟨g1, g2, g3, g4, g5, g6, g7, g8⟩ := hg
  simp only at g1 g2 g3 g4 g5 g6 g7 g8
  have hp' : [leBytes 1 width, leBytes 1 height, leBytes 1 colors, leBytes 1 reserved, leBytes 2 planes, leBytes 2 bpp, leBytes 4 size,
      leBytes 4 offset].flatten <+: data.drop k := by simpa [iconBytes] using hp
  have r0 := read_le data s hs 1 k width (by omega) g1 (record_part _ 0 _ rfl _ (by simp) hp') 8 rfl ((8 * k : Nat) : Int) (by omega)
  have r1 := read_le data s hs 1 (k + 1) height (by omega) g2 (record_part _ 1 _ rfl _ (by simp [leBytes_length]) hp') 8 rfl ((8 * k + 8 : Nat) : Int) (by omega)
  have r2 := read_le data s hs 1 (k + 2) colors (by omega) g3 (record_part _ 2 _ rfl _ (by simp [leBytes_length]) hp') 8 rfl ((8 * k + 16 : Nat) : Int) (by omega)
  have r3 := read_le data s hs 1 (k + 3) reserved (by omega) g4 (record_part _ 3 _ rfl _ (by simp [leBytes_length]) hp') 8 rfl ((8 * k + 24 : Nat) : Int) (by omega)
  have r4 := read_le data s hs 2 (k + 4) planes (by omega) g5 (record_part _ 4 _ rfl _ (by simp [leBytes_length]) hp') 16 rfl ((8 * k + 32 : Nat) : Int) (by omega)
  have r5 := read_le data s hs 2 (k + 6) bpp (by omega) g6 (record_part _ 5 _ rfl _ (by simp [leBytes_length]) hp') 16 rfl ((8 * k + 48 : Nat) : Int) (by omega)
  have r6 := read_le data s hs 4 (k + 8) size (by omega) g7 (record_part _ 6 _ rfl _ (by simp [leBytes_length]) hp') 32 rfl ((8 * k + 64 : Nat) : Int) (by omega)
  have r7 := read_le data s hs 4 (k + 12) offset (by omega) g8 (record_part _ 7 _ rfl _ (by simp [leBytes_length]) hp') 32 rfl ((8 * k + 96 : Nat) : Int) (by omega)
  rw [readIcon, r0]
  simp only [bind, Except.bind]
  rw [r1]
  simp only []
  rw [r2]
  simp only []
  rw [r3]
  simp only []
  rw [r4]
  simp only []
  rw [r5]
  simp only []
  rw [r6]
  simp only []
  rw [r7]

theorem read_icons {data : Bytes} {s : InputStream} (hs : stringInputStream data = .ok s) :
    ∀ (is : List Ico.Icon) (k : Nat), (∀ i ∈ is, IconGood i) → is.flatMap iconBytes <+: data.drop k → readIcons s (8 * k) is.length = .ok is
  | [], _, _, _ => rfl
  | i :: is, k, h, hp => by
    have hp' : iconBytes i ++ is.flatMap iconBytes <+: data.drop k := hp
    have r := read_icon hs i (h i (by simp)) k (prefix_left hp')
    have hd := drop_prefix (xs := iconBytes i) (ys := is.flatMap iconBytes) hp'
    rw [icon_length] at hd
    have ih := read_icons hs is (k + 16) (fun x hx => h x (by simp [hx])) hd
    rw [List.length_cons, readIcons, r]
    simp only [bind, Except.bind]
    rw [show 8 * k + 128 = 8 * (k + 16) by omega, ih]

theorem read_dib {data : Bytes} {s : InputStream} (hs : stringInputStream data = .ok s) (i : Ico.Info) (hg : DibGood i) (k : Nat)
    (hp : dibBytes i <+: data.drop k) : readInfo s (8 * k) = .ok i := by
  obtain ⟨dims, planes, bpp, more⟩ := i
  obtain ⟨g1, g2, g3, g4, g5, g6⟩ := hg
  simp only at g1 g2 g3 g4 g5 g6
  have hl := words32_length dims
  have hp' : [words32 dims, leBytes 2 planes, leBytes 2 bpp, words32 more].flatten <+: data.drop k := by simpa [dibBytes] using hp
  have r0 := read_words hs dims k g2 (record_part _ 0 _ rfl _ (by simp) hp')
  have r1 := read_le data s hs 2 (k + 12) planes (by omega) g3 (record_part _ 1 _ rfl _ (by simp [hl, g1]) hp') 16 rfl ((8 * k + 96 : Nat) : Int) (by omega)
  have r2 := read_le data s hs 2 (k + 14) bpp (by omega) g4 (record_part _ 2 _ rfl _ (by simp [hl, g1, leBytes_length]) hp') 16 rfl ((8 * k + 112 : Nat) : Int) (by omega)
  have r3 := read_words hs more (k + 16) g6 (record_part _ 3 _ rfl _ (by simp [hl, g1, leBytes_length]) hp')
  rw [g1] at r0
  rw [g5] at r3
  rw [readInfo, r0]
  simp only [bind, Except.bind]
  rw [r1]
  simp only []
  rw [r2]
  simp only []
  rw [show 8 * k + 128 = 8 * (k + 16) by omega, r3]

theorem read_datas {data : Bytes} {s : InputStream} (hs : stringInputStream data = .ok s) :
    ∀ (is : List IcoItem) (k : Nat), (∀ i ∈ is, i.Good) → is.flatMap IcoItem.content <+: data.drop k →
      readDatas s (8 * k) (iconsFrom k is) = .ok (datasFrom k is)
  | [], _, _, _ => rfl
  | i :: is, k, h, hp => by
    have g := h i (by simp)
    have hp' : i.content ++ is.flatMap IcoItem.content <+: data.drop k := hp
    have hd := drop_prefix (xs := i.content) (ys := is.flatMap IcoItem.content) hp'
    rw [content_length i g] at hd
    have ih := read_datas hs is (k + i.size) (fun x hx => h x (by simp [hx])) hd
    have hpc : [dibBytes i.info, paletteBytes i.palette, i.pixels].flatten <+: data.drop k := by
      have := prefix_left (xs := i.content) (ys := is.flatMap IcoItem.content) hp'
      simpa [IcoItem.content] using this
    have r0 := read_dib hs i.info g.info k (record_part _ 0 _ rfl _ (by simp) hpc)
    have r1 := read_palette hs i.palette (k + 40) (record_part _ 1 _ rfl _ (by simp [dib_length _ g.info]) hpc)
    have hpal : paletteSize (i.icon k) = i.palette.length := by rw [g.palette]; rfl
    have hpx := List.length_pos_of_ne_nil g.pixels
    have rd : readData s (i.icon k) (8 * k) = .ok ⟨8 * k, i.info, i.palette.map fun c => [c.1.toNat, c.2.1.toNat, c.2.2.1.toNat, c.2.2.2.toNat],
        (8 * (k + 40 + 4 * i.palette.length), i.pixels.length)⟩ := by
      have hsz : (i.icon k).size = 40 + 4 * i.palette.length + i.pixels.length := rfl
      rw [readData, r0]
      simp only [bind, Except.bind]
      rw [hpal, show 8 * k + 320 = 8 * (k + 40) by omega, r1]
      simp only []
      rw [hsz, if_neg (by omega), show 8 * (k + 40) + 32 * i.palette.length = 8 * (k + 40 + 4 * i.palette.length) by omega,
        Nat.add_sub_cancel_left]
    rw [iconsFrom, readDatas, if_neg (by show ¬ k * 8 ≠ 8 * k; omega)]
    simp only [bind, Except.bind]
    rw [rd]
    simp only []
    rw [show 8 * k + 8 * (i.icon k).size = 8 * (k + i.size) by show 8 * k + 8 * i.size = _; omega, ih]
    rfl

theorem icons_count (is : List IcoItem) : ∀ k, (iconsFrom k is).length = is.length := by
  induction is with
  | nil => intro k; rfl
  | cons i is ih => intro k; rw [iconsFrom, List.length_cons, ih, List.length_cons]

theorem icons_flat_length (is : List Ico.Icon) : (is.flatMap iconBytes).length = 16 * is.length := by
  induction is with
  | nil => rfl
  | cons i is ih => rw [List.flatMap_cons, List.length_append, icon_length, ih, List.length_cons]; omega

theorem contents_length : ∀ (is : List IcoItem), (∀ i ∈ is, i.Good) → (is.flatMap IcoItem.content).length = (is.map IcoItem.size).sum
  | [], _ => rfl
  | i :: is, h => by
    rw [List.flatMap_cons, List.length_append, content_length i (h i (by simp)), contents_length is (fun x hx => h x (by simp [hx]))]
    rfl

theorem icons_good : ∀ (is : List IcoItem) (k : Nat), (∀ i ∈ is, i.Good) → k + (is.map IcoItem.size).sum < 2 ^ 32 → ∀ x ∈ iconsFrom k is, IconGood x
  | [], _, _, _, _, hx => by simp [iconsFrom] at hx
  | i :: is, k, h, hk, x, hx => by
    have g := h i (by simp)
    rw [List.map_cons, List.sum_cons] at hk
    rw [iconsFrom, List.mem_cons] at hx
    rcases hx with rfl | hx
    · exact ⟨g.width, g.height, g.colors, g.reserved, g.planes, g.bpp, by show i.size < _; omega, by show k < _; omega⟩
    · exact icons_good is (k + i.size) (fun y hy => h y (by simp [hy])) (by omega) x hx

theorem ico_length (type : Nat) (is : List IcoItem) (h : ∀ i ∈ is, i.Good) :
    (icoBytes type is).length = 6 + 16 * is.length + (is.map IcoItem.size).sum := by
  simp only [icoBytes, List.length_append, leBytes_length, icons_flat_length, icons_count, contents_length is h]
  omega

theorem last_data : ∀ (is : List IcoItem) (k : Nat), is ≠ [] →
    (match (datasFrom k is).getLast? with | none => none | some d => some (d.pixels.1 + 8 * d.pixels.2)) = some (8 * (k + (is.map IcoItem.size).sum))
  | [], _, h => absurd rfl h
  | [i], k, _ => by
    simp only [datasFrom, List.getLast?_singleton, List.map_cons, List.map_nil, List.sum_cons, List.sum_nil, IcoItem.size]
    exact congrArg some (by omega)
  | i :: j :: is, k, _ => by
    have ih := last_data (j :: is) (k + i.size) (by simp)
    rw [datasFrom, show datasFrom (k + i.size) (j :: is) = _ :: _ from rfl, List.getLast?_cons_cons]
    rw [show datasFrom (k + i.size) (j :: is) = _ :: _ from rfl] at ih
    rw [ih]
    simp only [List.map_cons, List.sum_cons]
    exact congrArg some (by omega)

/-- **C122**: the headers and contents of all icons of a file are found at their places; the content size is the size of the file; and it is
accepted if and only if all its headers are. -/
theorem C122_file (type : Nat) (ht : type = 1 ∨ type = 2) (is : List IcoItem) (hn : is.length < 2 ^ 16) (h : ∀ i ∈ is, i.Good)
    (hsize : (icoBytes type is).length < 2 ^ 32) (rest : Bytes) (s : InputStream) (hs : stringInputStream (icoBytes type is ++ rest) = .ok s) :
    Ico.readFile s = .ok ⟨0, type, iconsFrom (6 + 16 * is.length) is, datasFrom (6 + 16 * is.length) is⟩ ∧
    Ico.valid s = .ok ((iconsFrom (6 + 16 * is.length) is).all isValid) ∧
    (is ≠ [] → Ico.contentSize ⟨0, type, iconsFrom (6 + 16 * is.length) is, datasFrom (6 + 16 * is.length) is⟩ = some (8 * (icoBytes type is).length)) := by
  have hlen := ico_length type is h
  rw [hlen] at hsize ⊢
  have hpr : [leBytes 2 0, leBytes 2 type, leBytes 2 is.length, (iconsFrom (6 + 16 * is.length) is).flatMap iconBytes, is.flatMap IcoItem.content,
      rest].flatten <+: (icoBytes type is ++ rest).drop 0 := ⟨[], by simp [icoBytes]⟩
  generalize icoBytes type is ++ rest = data at hs hpr
  have hc := icons_count is (6 + 16 * is.length)
  have r0 := read_le data s hs 2 0 0 (by omega) (by omega) (record_part _ 0 _ rfl _ (by simp) hpr) 16 rfl 0 rfl
  have r1 := read_le data s hs 2 2 type (by omega) (by omega) (record_part _ 1 _ rfl _ (by simp [leBytes_length]) hpr) 16 rfl 16 rfl
  have r2 := read_le data s hs 2 4 is.length (by omega) (by omega) (record_part _ 2 _ rfl _ (by simp [leBytes_length]) hpr) 16 rfl 32 rfl
  have r3 := read_icons hs (iconsFrom (6 + 16 * is.length) is) 6 (icons_good is _ h hsize)
    (record_part _ 3 _ rfl _ (by simp [leBytes_length]) hpr)
  have r4 := read_datas hs is (6 + 16 * is.length) h (record_part _ 4 _ rfl _ (by simp [leBytes_length, icons_flat_length, hc, -List.length_flatMap]; omega) hpr)
  rw [hc] at r3
  refine ⟨?_, ?_, ?_⟩
  · rw [Ico.readFile, r0]
    simp only [bind, Except.bind]
    rw [r1]
    simp only []
    rw [r2]
    simp only []
    rw [show (48 : Nat) = 8 * 6 from rfl, r3]
    simp only []
    rw [show 8 * 6 + 128 * is.length = 8 * (6 + 16 * is.length) by omega, r4]
  · rw [Ico.valid, r0]
    simp only [bind, Except.bind]
    rw [if_neg (by simp), r1]
    simp only []
    rw [if_neg (by omega), r2]
    simp only []
    rw [show (48 : Nat) = 8 * 6 from rfl, r3]
  · intro hne
    exact last_data is (6 + 16 * is.length) hne

/-- **C122**: icons of 16 colors or of 8, 24 or 32 bits in one plane are accepted. -/
theorem C122_valid (i : Ico.Icon) (hp : i.planes = 1) (h : (i.colors = 16 ∧ i.bpp = 4) ∨ (i.colors = 0 ∧ (i.bpp = 8 ∨ i.bpp = 24 ∨ i.bpp = 32))) :
    isValid i = true := by
  unfold isValid
  rcases h with ⟨h1, h2⟩ | ⟨h1, h2⟩
  · rw [if_neg (by omega), if_pos h1, if_pos ⟨.inl h2, hp⟩]
  · rw [if_pos h1, if_pos ⟨h2, hp⟩]

/-- Violation: monochrome icons, with 2 colors, are refused. -/
theorem C122_monochrome (i : Ico.Icon) (h : i.colors = 2) : isValid i = false := by
  unfold isValid
  rw [if_neg (by omega), if_neg (by omega)]

/-- Violation: of cursors the fields `planes` and `bpp` are the place of the hot spot; cursors with the hot spot elsewhere than at a few places
are refused. -/
theorem C122_cursor (i : Ico.Icon) (h : 5 ≤ i.planes) : isValid i = false := by
  unfold isValid
  by_cases h0 : i.colors = 0
  · rw [if_pos h0, if_neg (by omega), if_neg (by omega)]
    simp only [decide_eq_false_iff_not]
    omega
  · rw [if_neg h0]
    by_cases h1 : i.colors = 16
    · rw [if_pos h1, if_neg (by omega)]
      simp only [decide_eq_false_iff_not]
      omega
    · rw [if_neg h1]

/-- **C122**: width, height, colors and bits of a pixel of every icon are told, in order. -/
theorem C122_told (type : Nat) (is : List IcoItem) (h : ∀ i ∈ is, i.Good) (k j : Nat) (i : IcoItem) (hj : is[j]? = some i)
    (hw : 0 < i.width) (hh : 0 < i.height) (hb : i.bpp = 8 ∨ i.bpp = 24 ∨ i.bpp = 32 ∨ (i.bpp = 4 ∧ i.colors = 16)) :
    (Ico.extract ⟨0, type, iconsFrom k is, datasFrom k is⟩)[j]? = some ⟨some i.width, some i.height, if i.colors = 0 then none else some i.colors,
      some i.bpp, i.info.more[0]?⟩ := by
  have key : ∀ (is : List IcoItem) (k j : Nat), is[j]? = some i → ∃ o d, (iconsFrom k is)[j]? = some (i.icon o) ∧ (datasFrom k is)[j]? = some d ∧ d.info = i.info := by
    intro is
    induction is with
    | nil => intro k j hj; simp at hj
    | cons x xs ih =>
      intro k j hj
      cases j with
      | zero =>
        simp only [List.getElem?_cons_zero, Option.some.injEq] at hj
        subst hj
        exact ⟨k, _, rfl, rfl, rfl⟩
      | succ j =>
        rw [List.getElem?_cons_succ] at hj
        obtain ⟨o, d, a, b, c⟩ := ih (k + x.size) j hj
        exact ⟨o, d, by rw [iconsFrom, List.getElem?_cons_succ, a], by rw [datasFrom, List.getElem?_cons_succ, b], c⟩
  obtain ⟨o, d, a, b, c⟩ := key is k j hj
  have g := h i (List.mem_of_getElem? hj)
  have g1 := g.width
  have g2 := g.height
  have g3 := g.colors
  simp only [Ico.extract, List.getElem?_mapIdx, a, b, Option.map_some, Option.bind_some, c]
  have e1 : Bmp.told 20000 (i.icon o).width = some i.width := if_pos ⟨hw, show i.width ≤ 20000 by omega⟩
  have e2 : Bmp.told 20000 (i.icon o).height = some i.height := if_pos ⟨hh, show i.height ≤ 20000 by omega⟩
  have e3 : Bmp.told (2 ^ 24) (i.icon o).colors = if i.colors = 0 then none else some i.colors := by
    show Bmp.told (2 ^ 24) i.colors = _
    unfold Bmp.told
    by_cases h0 : i.colors = 0
    · rw [if_neg (by omega), if_pos h0]
    · rw [if_pos (by omega), if_neg h0]
  have e4 : Bmp.told 256 (bitsOf (i.icon o)) = some i.bpp := by
    have hb' : bitsOf (i.icon o) = i.bpp := by
      show (if i.colors ≠ 0 then (if i.bpp = 0 then _ else i.bpp) else if i.bpp = 0 then 8 else i.bpp) = i.bpp
      have h0 : i.bpp ≠ 0 := by omega
      simp only [h0, if_false, ite_self]
    rw [hb']
    exact if_pos (by omega)
  rw [e1, e2, e3, e4]

/-- Violation: the width of an icon of 256 pixels, stored as 0, is not told. -/
theorem C122_big (i : Ico.Icon) (h : i.width = 0) (f : Ico.File) (hf : f.icons = [i]) : (Ico.extract f).map (·.width) = [none] := by
  simp [Ico.extract, hf, h, Bmp.told]

/-! ## Examples -/

def sampleIco : IcoItem := ⟨16, 16, 0, 0, 1, 24, ⟨[40, 16, 32], 1, 24, [0, 832, 0, 0, 0, 0]⟩, [], List.replicate 832 7⟩

example : sampleIco.Good where
  width := by decide
  height := by decide
  colors := by decide
  reserved := by decide
  planes := by decide
  bpp := by decide
  info := ⟨rfl, by decide, by decide, by decide, rfl, by decide⟩
  palette := rfl
  pixels := List.ne_nil_of_length_pos (by show 0 < (List.replicate 832 (7 : UInt8)).length; rw [List.length_replicate]; decide)

example : isValid (sampleIco.icon 22) = true := by decide

end Hachoir.Props
