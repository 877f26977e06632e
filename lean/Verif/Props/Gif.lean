import Verif.Formats.Gif
import Verif.Props.Records
import Verif.Props.StringField
import Verif.Props.Mbr

/-!
# GIF files (C118, C119)
-/

namespace Hachoir.Props
open Hachoir Hachoir.Stream Hachoir.Field Hachoir.Formats Hachoir.Formats.Gif Spec

/-! ## Blocks -/

/-- Blocks with their sizes before, and a 0. -/
def gifBlocks : List Bytes → Bytes
  | [] => leBytes 1 0
  | b :: bs => leBytes 1 b.length ++ (b ++ gifBlocks bs)

/-- Blocks have 1 to 255 bytes. -/
def BlocksGood (bs : List Bytes) : Prop := ∀ b ∈ bs, 0 < b.length ∧ b.length < 256

theorem read_blocks {data : Bytes} {s : InputStream} (hs : stringInputStream data = .ok s) :
    ∀ (bs : List Bytes) (fuel k : Nat), bs.length < fuel → BlocksGood bs → gifBlocks bs <+: data.drop k →
      Gif.readBlocks s fuel (8 * k) = .ok (bs, 8 * (k + (gifBlocks bs).length))
  | _, 0, _, hf, _, _ => by omega
  | [], fuel + 1, k, _, _, hp => by
    have r := read_le data s hs 1 k 0 (by omega) (by omega) hp 8 rfl ((8 * k : Nat) : Int) (by omega)
    rw [Gif.readBlocks, r]
    simp only [if_true, gifBlocks, leBytes_length]
    exact congrArg (fun x => Except.ok ([], x)) (by omega)
  | b :: bs, fuel + 1, k, hf, hg, hp => by
    obtain ⟨g1, g2⟩ := hg b (by simp)
    have hp' : [leBytes 1 b.length, b, gifBlocks bs].flatten <+: data.drop k := by simpa [gifBlocks] using hp
    have r := read_le data s hs 1 k b.length (by omega) (by omega) (record_part _ 0 _ rfl _ (by simp) hp') 8 rfl ((8 * k : Nat) : Int) (by omega)
    have r2 := readBytes_prefix data s hs (k + 1) b (record_part _ 1 _ rfl _ (by simp [leBytes_length]) hp')
    have ih := read_blocks hs bs fuel (k + 1 + b.length) (by simp only [List.length_cons] at hf; omega) (fun x hx => hg x (by simp [hx]))
      (record_part _ 2 _ rfl _ (by simp [leBytes_length]; omega) hp')
    rw [Gif.readBlocks, r]
    simp only []
    rw [if_neg (by omega), show ((8 * k + 8 : Nat) : Int) = ((8 * (k + 1) : Nat) : Int) by omega, r2]
    simp only []
    rw [show 8 * k + 8 + 8 * b.length = 8 * (k + 1 + b.length) by omega, ih]
    simp only [gifBlocks, List.length_append, leBytes_length]
    exact congrArg (fun x => Except.ok (b :: bs, x)) (by omega)

/-! ## Items -/

/-- A color map is written if the flag is set. -/
def mapBytes : Option Bytes → Bytes
  | none => []
  | some b => b

/-- The bytes of an extension behind its code. -/
def gifBody : Gif.Item → Bytes
  | .control transp input disposal delay index =>
    leBytes 1 4 ++ (leBytes 1 (transp + 2 * input + 4 * disposal) ++ (leBytes 2 delay ++ (leBytes 1 index ++ leBytes 1 0)))
  | .comments blocks => gifBlocks blocks
  | .application name blocks => leBytes 1 name.length ++ (name ++ gifBlocks blocks)
  | .text size left top width height cellWidth cellHeight fg bg blocks =>
    leBytes 1 size ++ (leBytes 2 left ++ (leBytes 2 top ++ (leBytes 2 width ++ (leBytes 2 height ++ (leBytes 1 cellWidth ++
      (leBytes 1 cellHeight ++ (leBytes 1 fg ++ (leBytes 1 bg ++ gifBlocks blocks))))))))
  | .other _ blocks => gifBlocks blocks
  | .image left top width height mapSize sort interlaced hasMap map minCode blocks =>
    leBytes 2 left ++ (leBytes 2 top ++ (leBytes 2 width ++ (leBytes 2 height ++
      (leBytes 1 (mapSize + 32 * sort + 64 * interlaced + 128 * hasMap) ++ (mapBytes map ++ (leBytes 1 minCode ++ gifBlocks blocks))))))

/-- The code of an extension. -/
def gifCode : Gif.Item → Nat
  | .control _ _ _ _ _ => 0xf9
  | .comments _ => 0xfe
  | .application _ _ => 0xff
  | .text _ _ _ _ _ _ _ _ _ _ => 1
  | .other code _ => code
  | .image _ _ _ _ _ _ _ _ _ _ _ => 0

/-- The bytes of an item: "!" and the code, or ",". -/
def gifItem (x : Gif.Item) : Bytes :=
  match x with
  | .image _ _ _ _ _ _ _ _ _ _ _ => leBytes 1 44 ++ gifBody x
  | _ => leBytes 1 33 ++ (leBytes 1 (gifCode x) ++ gifBody x)

/-- A color map of `2 ^ (n + 1)` colors, if the flag is set. -/
def MapGood (has n : Nat) : Option Bytes → Prop
  | none => has = 0
  | some b => has = 1 ∧ b.length = 3 * 2 ^ (n + 1)

/-- Which values the fields may have. -/
def ItemGood : Gif.Item → Prop
  | .control transp input disposal delay index => transp < 2 ∧ input < 2 ∧ disposal < 8 ∧ delay < 2 ^ 16 ∧ index < 2 ^ 8
  | .comments blocks => BlocksGood blocks
  | .application name blocks => name.length < 256 ∧ BlocksGood blocks
  | .text size left top width height cellWidth cellHeight fg bg blocks =>
    size < 2 ^ 8 ∧ left < 2 ^ 16 ∧ top < 2 ^ 16 ∧ width < 2 ^ 16 ∧ height < 2 ^ 16 ∧ cellWidth < 2 ^ 8 ∧ cellHeight < 2 ^ 8 ∧
      fg < 2 ^ 8 ∧ bg < 2 ^ 8 ∧ BlocksGood blocks
  | .other code blocks => code < 2 ^ 8 ∧ code ≠ 0xf9 ∧ code ≠ 0xfe ∧ code ≠ 0xff ∧ code ≠ 1 ∧ BlocksGood blocks
  | .image left top width height mapSize sort interlaced hasMap map minCode blocks =>
    left < 2 ^ 16 ∧ top < 2 ^ 16 ∧ width < 2 ^ 16 ∧ height < 2 ^ 16 ∧ mapSize < 8 ∧ sort < 2 ∧ interlaced < 2 ∧ hasMap < 2 ∧
      MapGood hasMap mapSize map ∧ minCode < 2 ^ 8 ∧ BlocksGood blocks

/-- The number of blocks of an item. -/
def blockCount : Gif.Item → Nat
  | .control _ _ _ _ _ => 0
  | .comments blocks => blocks.length
  | .application _ blocks => blocks.length
  | .text _ _ _ _ _ _ _ _ _ blocks => blocks.length
  | .other _ blocks => blocks.length
  | .image _ _ _ _ _ _ _ _ _ _ blocks => blocks.length

theorem read_map {data : Bytes} {s : InputStream} (hs : stringInputStream data = .ok s) (k has n : Nat) (map : Option Bytes)
    (hm : MapGood has n map) (hp : mapBytes map <+: data.drop k) :
    readMap s has n (8 * k) = .ok (map, 8 * (k + (mapBytes map).length)) := by
  cases map with
  | none =>
    rw [readMap, if_neg (by simp only [MapGood] at hm; omega)]
    rfl
  | some b =>
    simp only [MapGood] at hm
    have r := readBytes_prefix data s hs k b hp
    rw [hm.2] at r
    rw [readMap, if_pos (by omega), r]
    simp only [mapBytes]
    exact congrArg (fun x => Except.ok (some b, x)) (by rw [hm.2]; ring)

theorem read_control {data : Bytes} {s : InputStream} (hs : stringInputStream data = .ok s) (k transp input disposal delay index : Nat)
    (h1 : transp < 2) (h2 : input < 2) (h3 : disposal < 8) (h4 : delay < 2 ^ 16) (h5 : index < 2 ^ 8)
    (hp : gifBody (.control transp input disposal delay index) <+: data.drop k) :
    readControl s (8 * k) = .ok (.control transp input disposal delay index, 8 * (k + 6)) := by
  have hp' : [leBytes 1 4, leBytes 1 (transp + 2 * input + 4 * disposal), leBytes 2 delay, leBytes 1 index, leBytes 1 0].flatten <+: data.drop k := by
    simpa [gifBody] using hp
  obtain ⟨hl, hle⟩ := leBytes_spec 1 (transp + 2 * input + 4 * disposal)
  have hv := hle (by omega)
  have p1 := record_part _ 1 _ rfl (k + 1) (by simp [leBytes_length]) hp'
  have r0 := read_le data s hs 1 k 4 (by omega) (by omega) (record_part _ 0 _ rfl _ (by simp) hp') 8 rfl ((8 * k : Nat) : Int) (by omega)
  have r1 := readBits_in data s hs (k + 1) 0 1 _ p1 (by rw [hl]; omega) (by rw [hl]; omega) ((8 * k + 8 : Nat) : Int) (by omega)
  have r2 := readBits_in data s hs (k + 1) 1 1 _ p1 (by rw [hl]; omega) (by rw [hl]; omega) ((8 * k + 9 : Nat) : Int) (by omega)
  have r3 := readBits_in data s hs (k + 1) 2 3 _ p1 (by rw [hl]; omega) (by rw [hl]; omega) ((8 * k + 10 : Nat) : Int) (by omega)
  have r4 := read_le data s hs 2 (k + 2) delay (by omega) (by omega) (record_part _ 2 _ rfl _ (by simp [leBytes_length]) hp') 16 rfl
    ((8 * k + 16 : Nat) : Int) (by omega)
  have r5 := read_le data s hs 1 (k + 4) index (by omega) (by omega) (record_part _ 3 _ rfl _ (by simp [leBytes_length]) hp') 8 rfl
    ((8 * k + 32 : Nat) : Int) (by omega)
  have r6 := read_le data s hs 1 (k + 5) 0 (by omega) (by omega) (record_part _ 4 _ rfl _ (by simp [leBytes_length]) hp') 8 rfl
    ((8 * k + 40 : Nat) : Int) (by omega)
  rw [hv] at r1 r2 r3
  have e1 : (transp + 2 * input + 4 * disposal) / 2 ^ 0 % 2 ^ 1 = transp := by norm_num; omega
  have e2 : (transp + 2 * input + 4 * disposal) / 2 ^ 1 % 2 ^ 1 = input := by norm_num; omega
  have e3 : (transp + 2 * input + 4 * disposal) / 2 ^ 2 % 2 ^ 3 = disposal := by norm_num; omega
  rw [e1] at r1
  rw [e2] at r2
  rw [e3] at r3
  rw [readControl, r0]
  simp only [bind, Except.bind]
  rw [r1]
  simp only []
  rw [r2]
  simp only []
  rw [r3]
  simp only []
  rw [if_neg (by decide), r4]
  simp only []
  rw [r5]
  simp only []
  rw [r6]
  rfl

theorem read_text_ext {data : Bytes} {s : InputStream} (hs : stringInputStream data = .ok s) (m k size left top width height cw ch fg bg : Nat)
    (blocks : List Bytes) (hm : blocks.length < m) (hg : ItemGood (.text size left top width height cw ch fg bg blocks))
    (hp : gifBody (.text size left top width height cw ch fg bg blocks) <+: data.drop k) :
    Gif.readText s m (8 * k) = .ok (.text size left top width height cw ch fg bg blocks,
      8 * (k + (gifBody (.text size left top width height cw ch fg bg blocks)).length)) := by
  obtain ⟨g0, g1, g2, g3, g4, g5, g6, g7, g8, g9⟩ := hg
  have hp' : [leBytes 1 size, leBytes 2 left, leBytes 2 top, leBytes 2 width, leBytes 2 height, leBytes 1 cw, leBytes 1 ch, leBytes 1 fg,
      leBytes 1 bg, gifBlocks blocks].flatten <+: data.drop k := by simpa [gifBody] using hp
  have r0 := read_le data s hs 1 k size (by omega) (by omega) (record_part _ 0 _ rfl _ (by simp) hp') 8 rfl ((8 * k : Nat) : Int) (by omega)
  have r1 := read_le data s hs 2 (k + 1) left (by omega) (by omega) (record_part _ 1 _ rfl _ (by simp [leBytes_length]) hp') 16 rfl
    ((8 * k + 8 : Nat) : Int) (by omega)
  have r2 := read_le data s hs 2 (k + 3) top (by omega) (by omega) (record_part _ 2 _ rfl _ (by simp [leBytes_length]) hp') 16 rfl
    ((8 * k + 24 : Nat) : Int) (by omega)
  have r3 := read_le data s hs 2 (k + 5) width (by omega) (by omega) (record_part _ 3 _ rfl _ (by simp [leBytes_length]) hp') 16 rfl
    ((8 * k + 40 : Nat) : Int) (by omega)
  have r4 := read_le data s hs 2 (k + 7) height (by omega) (by omega) (record_part _ 4 _ rfl _ (by simp [leBytes_length]) hp') 16 rfl
    ((8 * k + 56 : Nat) : Int) (by omega)
  have r5 := read_le data s hs 1 (k + 9) cw (by omega) (by omega) (record_part _ 5 _ rfl _ (by simp [leBytes_length]) hp') 8 rfl
    ((8 * k + 72 : Nat) : Int) (by omega)
  have r6 := read_le data s hs 1 (k + 10) ch (by omega) (by omega) (record_part _ 6 _ rfl _ (by simp [leBytes_length]) hp') 8 rfl
    ((8 * k + 80 : Nat) : Int) (by omega)
  have r7 := read_le data s hs 1 (k + 11) fg (by omega) (by omega) (record_part _ 7 _ rfl _ (by simp [leBytes_length]) hp') 8 rfl
    ((8 * k + 88 : Nat) : Int) (by omega)
  have r8 := read_le data s hs 1 (k + 12) bg (by omega) (by omega) (record_part _ 8 _ rfl _ (by simp [leBytes_length]) hp') 8 rfl
    ((8 * k + 96 : Nat) : Int) (by omega)
  have r9 := read_blocks hs blocks m (k + 13) hm g9 (record_part _ 9 _ rfl _ (by simp [leBytes_length]) hp')
  rw [Gif.readText, r0]
  simp only [bind, Except.bind]
  rw [r1]
  simp only []
  rw [r2]
  simp only []
  rw [r3]
  simp only []
  rw [r4]
  simp only []
  rw [r5]
  simp only []
  rw [r6]
  simp only []
  rw [r7]
  simp only []
  rw [r8]
  simp only []
  rw [show 8 * k + 104 = 8 * (k + 13) by omega, r9]
  simp only [gifBody, List.length_append, leBytes_length]
  exact congrArg (fun x => Except.ok (_, x)) (by omega)

theorem read_image {data : Bytes} {s : InputStream} (hs : stringInputStream data = .ok s)
    (m k left top width height mapSize sort interlaced hasMap : Nat) (map : Option Bytes) (minCode : Nat) (blocks : List Bytes)
    (hm : blocks.length < m) (hg : ItemGood (.image left top width height mapSize sort interlaced hasMap map minCode blocks))
    (hp : gifBody (.image left top width height mapSize sort interlaced hasMap map minCode blocks) <+: data.drop k) :
    Gif.readImage s m (8 * k) = .ok (.image left top width height mapSize sort interlaced hasMap map minCode blocks,
      8 * (k + (gifBody (.image left top width height mapSize sort interlaced hasMap map minCode blocks)).length)) := by
  obtain ⟨g0, g1, g2, g3, g4, g5, g6, g7, g8, g9, g10⟩ := hg
  have hp' : [leBytes 2 left, leBytes 2 top, leBytes 2 width, leBytes 2 height,
      leBytes 1 (mapSize + 32 * sort + 64 * interlaced + 128 * hasMap), mapBytes map, leBytes 1 minCode, gifBlocks blocks].flatten <+: data.drop k := by
    simpa [gifBody] using hp
  obtain ⟨hl, hle⟩ := leBytes_spec 1 (mapSize + 32 * sort + 64 * interlaced + 128 * hasMap)
  have hv := hle (by omega)
  have p4 := record_part _ 4 _ rfl (k + 8) (by simp [leBytes_length]) hp'
  have r0 := read_le data s hs 2 k left (by omega) (by omega) (record_part _ 0 _ rfl _ (by simp) hp') 16 rfl ((8 * k : Nat) : Int) (by omega)
  have r1 := read_le data s hs 2 (k + 2) top (by omega) (by omega) (record_part _ 1 _ rfl _ (by simp [leBytes_length]) hp') 16 rfl
    ((8 * k + 16 : Nat) : Int) (by omega)
  have r2 := read_le data s hs 2 (k + 4) width (by omega) (by omega) (record_part _ 2 _ rfl _ (by simp [leBytes_length]) hp') 16 rfl
    ((8 * k + 32 : Nat) : Int) (by omega)
  have r3 := read_le data s hs 2 (k + 6) height (by omega) (by omega) (record_part _ 3 _ rfl _ (by simp [leBytes_length]) hp') 16 rfl
    ((8 * k + 48 : Nat) : Int) (by omega)
  have r4 := readBits_in data s hs (k + 8) 0 3 _ p4 (by rw [hl]; omega) (by rw [hl]; omega) ((8 * k + 64 : Nat) : Int) (by omega)
  have r5 := readBits_in data s hs (k + 8) 5 1 _ p4 (by rw [hl]; omega) (by rw [hl]; omega) ((8 * k + 69 : Nat) : Int) (by omega)
  have r6 := readBits_in data s hs (k + 8) 6 1 _ p4 (by rw [hl]; omega) (by rw [hl]; omega) ((8 * k + 70 : Nat) : Int) (by omega)
  have r7 := readBits_in data s hs (k + 8) 7 1 _ p4 (by rw [hl]) (by rw [hl]; omega) ((8 * k + 71 : Nat) : Int) (by omega)
  have r8 := read_map hs (k + 9) hasMap mapSize map g8 (record_part _ 5 _ rfl _ (by simp [leBytes_length]) hp')
  have r9 := read_le data s hs 1 (k + 9 + (mapBytes map).length) minCode (by omega) (by omega)
    (record_part _ 6 _ rfl _ (by simp [leBytes_length]; omega) hp') 8 rfl
    ((8 * (k + 9 + (mapBytes map).length) : Nat) : Int) (by omega)
  have r10 := read_blocks hs blocks m (k + 9 + (mapBytes map).length + 1) hm g10 (record_part _ 7 _ rfl _ (by simp [leBytes_length]; omega) hp')
  rw [hv] at r4 r5 r6 r7
  have e4 : (mapSize + 32 * sort + 64 * interlaced + 128 * hasMap) / 2 ^ 0 % 2 ^ 3 = mapSize := by norm_num; omega
  have e5 : (mapSize + 32 * sort + 64 * interlaced + 128 * hasMap) / 2 ^ 5 % 2 ^ 1 = sort := by norm_num; omega
  have e6 : (mapSize + 32 * sort + 64 * interlaced + 128 * hasMap) / 2 ^ 6 % 2 ^ 1 = interlaced := by norm_num; omega
  have e7 : (mapSize + 32 * sort + 64 * interlaced + 128 * hasMap) / 2 ^ 7 % 2 ^ 1 = hasMap := by norm_num; omega
  rw [e4] at r4
  rw [e5] at r5
  rw [e6] at r6
  rw [e7] at r7
  rw [Gif.readImage, r0]
  simp only [bind, Except.bind]
  rw [r1]
  simp only []
  rw [r2]
  simp only []
  rw [r3]
  simp only []
  rw [r4]
  simp only []
  rw [r5]
  simp only []
  rw [r6]
  simp only []
  rw [r7]
  simp only []
  rw [show 8 * k + 72 = 8 * (k + 9) by omega, r8]
  simp only []
  rw [r9]
  simp only []
  rw [show 8 * (k + 9 + (mapBytes map).length) + 8 = 8 * (k + 9 + (mapBytes map).length + 1) by omega, r10]
  simp only [gifBody, List.length_append, leBytes_length]
  exact congrArg (fun x => Except.ok (_, x)) (by omega)

/-- Is the item an image? -/
def isImage : Gif.Item → Bool
  | .image _ _ _ _ _ _ _ _ _ _ _ => true
  | _ => false

theorem read_extension {data : Bytes} {s : InputStream} (hs : stringInputStream data = .ok s) (m k : Nat) (x : Gif.Item) (hx : isImage x = false)
    (hg : ItemGood x) (hm : blockCount x < m) (hp : gifBody x <+: data.drop k) :
    readExtension s m (8 * k) (gifCode x) = .ok (x, 8 * (k + (gifBody x).length)) := by
  cases x with
  | image => simp [isImage] at hx
  | control transp input disposal delay index =>
    obtain ⟨h1, h2, h3, h4, h5⟩ := hg
    have r := read_control hs k transp input disposal delay index h1 h2 h3 h4 h5 hp
    rw [gifCode, readExtension, if_pos rfl, r]
    simp only [gifBody, List.length_append, leBytes_length]
  | comments blocks =>
    have r := read_blocks hs blocks m k hm hg hp
    rw [gifCode, readExtension, if_neg (by decide), if_pos rfl, r]
    rfl
  | application name blocks =>
    obtain ⟨h1, h2⟩ := hg
    have hp' : [leBytes 1 name.length, name, gifBlocks blocks].flatten <+: data.drop k := by simpa [gifBody] using hp
    have r0 := read_le data s hs 1 k name.length (by omega) (by omega) (record_part _ 0 _ rfl _ (by simp) hp') 8 rfl ((8 * k : Nat) : Int) (by omega)
    have r1 := readBytes_prefix data s hs (k + 1) name (record_part _ 1 _ rfl _ (by simp [leBytes_length]) hp')
    have r2 := read_blocks hs blocks m (k + 1 + name.length) hm h2 (record_part _ 2 _ rfl _ (by simp [leBytes_length]; omega) hp')
    rw [gifCode, readExtension, if_neg (by decide), if_neg (by decide), if_pos rfl, readName, r0]
    simp only [bind, Except.bind]
    rw [show ((8 * k + 8 : Nat) : Int) = ((8 * (k + 1) : Nat) : Int) by omega, r1]
    simp only []
    rw [show 8 * k + 8 + 8 * name.length = 8 * (k + 1 + name.length) by omega, r2]
    simp only [gifBody, List.length_append, leBytes_length]
    exact congrArg (fun x => Except.ok (_, x)) (by omega)
  | text size left top width height cw ch fg bg blocks =>
    rw [gifCode, readExtension, if_neg (by decide), if_neg (by decide), if_neg (by decide), if_pos rfl]
    exact read_text_ext hs m k size left top width height cw ch fg bg blocks hm hg hp
  | other code blocks =>
    obtain ⟨h1, h2, h3, h4, h5, h6⟩ := hg
    have r := read_blocks hs blocks m k hm h6 hp
    rw [gifCode, readExtension, if_neg h2, if_neg h3, if_neg h4, if_neg h5, r]
    rfl

theorem code_lt (x : Gif.Item) (hg : ItemGood x) : gifCode x < 256 := by
  cases x with
  | other code blocks => exact hg.1
  | control => exact (by decide : 0xf9 < 256)
  | comments => exact (by decide : 0xfe < 256)
  | application => exact (by decide : 0xff < 256)
  | text => exact (by decide : 1 < 256)
  | image => exact (by decide : 0 < 256)

/-- The bytes of items, and ";". -/
def gifItems : List Gif.Item → Bytes
  | [] => leBytes 1 59
  | x :: xs => gifItem x ++ gifItems xs

/-- Where the items are: behind their "!" or ",". -/
def gifPlaces (k : Nat) : List Gif.Item → List (Nat × Gif.Item)
  | [] => []
  | x :: xs => (8 * (k + 1), x) :: gifPlaces (k + (gifItem x).length) xs

/-- **C118**: all items, images and extensions of every kind, are read back and found at their places. -/
theorem C118_items {data : Bytes} {s : InputStream} (hs : stringInputStream data = .ok s) (m : Nat) :
    ∀ (xs : List Gif.Item) (fuel k : Nat), xs.length < fuel → (∀ x ∈ xs, ItemGood x ∧ blockCount x < m) → gifItems xs <+: data.drop k →
      Gif.readItems s m fuel (8 * k) = .ok (gifPlaces k xs, 8 * (k + (gifItems xs).length))
  | _, 0, _, hf, _, _ => by omega
  | [], fuel + 1, k, _, _, hp => by
    have r := read_le data s hs 1 k 59 (by omega) (by omega) hp 8 rfl ((8 * k : Nat) : Int) (by omega)
    rw [Gif.readItems, r]
    simp only []
    rw [if_neg (by decide), if_neg (by decide), if_pos trivial]
    simp only [gifItems, leBytes_length, gifPlaces]
    exact congrArg (fun x => Except.ok (_, x)) (by omega)
  | x :: xs, fuel + 1, k, hf, hg, hp => by
    obtain ⟨g1, g2⟩ := hg x (by simp)
    have ih := C118_items hs m xs fuel (k + (gifItem x).length) (by simp only [List.length_cons] at hf; omega)
      (fun y hy => hg y (by simp [hy])) (drop_prefix (xs := gifItem x) (ys := gifItems xs) hp)
    have hpx : gifItem x <+: data.drop k := prefix_left hp
    cases hi : isImage x with
    | false =>
      have e : gifItem x = leBytes 1 33 ++ (leBytes 1 (gifCode x) ++ gifBody x) := by
        cases x <;> first | rfl | simp [isImage] at hi
      have el : (gifItem x).length = 2 + (gifBody x).length := by
        rw [e]; simp only [List.length_append, leBytes_length]; omega
      rw [e] at hpx
      have hp' : [leBytes 1 33, leBytes 1 (gifCode x), gifBody x].flatten <+: data.drop k := by simpa using hpx
      have r0 := read_le data s hs 1 k 33 (by omega) (by omega) (record_part _ 0 _ rfl _ (by simp) hp') 8 rfl ((8 * k : Nat) : Int) (by omega)
      have r1 := read_le data s hs 1 (k + 1) (gifCode x) (by omega) (code_lt x g1) (record_part _ 1 _ rfl _ (by simp [leBytes_length]) hp') 8 rfl
        ((8 * k + 8 : Nat) : Int) (by omega)
      have r2 := read_extension hs m (k + 2) x hi g1 g2 (record_part _ 2 _ rfl _ (by simp [leBytes_length]) hp')
      rw [Gif.readItems, r0]
      simp only []
      rw [if_pos trivial, r1]
      simp only []
      rw [show 8 * k + 16 = 8 * (k + 2) by omega, r2]
      simp only []
      rw [show k + 2 + (gifBody x).length = k + (gifItem x).length by omega, ih]
      simp only [gifItems, List.length_append, gifPlaces, show 8 * k + 8 = 8 * (k + 1) by omega, Nat.add_assoc]
    | true =>
      have e : gifItem x = leBytes 1 44 ++ gifBody x := by
        cases x <;> first | rfl | simp [isImage] at hi
      have el : (gifItem x).length = 1 + (gifBody x).length := by
        rw [e]; simp only [List.length_append, leBytes_length]
      rw [e] at hpx
      have hp' : [leBytes 1 44, gifBody x].flatten <+: data.drop k := by simpa using hpx
      have r0 := read_le data s hs 1 k 44 (by omega) (by omega) (record_part _ 0 _ rfl _ (by simp) hp') 8 rfl ((8 * k : Nat) : Int) (by omega)
      have r2 : readImage s m (8 * (k + 1)) = .ok (x, 8 * (k + 1 + (gifBody x).length)) := by
        have pb := record_part _ 1 _ rfl (k + 1) (by simp [leBytes_length]) hp'
        cases x with
        | image left top width height mapSize sort interlaced hasMap map minCode blocks =>
          exact read_image hs m (k + 1) left top width height mapSize sort interlaced hasMap map minCode blocks g2 g1 pb
        | _ => simp [isImage] at hi
      rw [Gif.readItems, r0]
      simp only []
      rw [if_neg (by decide), if_pos trivial, show 8 * k + 8 = 8 * (k + 1) by omega, r2]
      simp only []
      rw [show k + 1 + (gifBody x).length = k + (gifItem x).length by omega, ih]
      simp only [gifItems, List.length_append, gifPlaces, Nat.add_assoc]

/-! ## Files -/

/-- Which values the fields of the screen may have. -/
structure ScreenGood (c : Gif.Screen) : Prop where
  width : c.width < 2 ^ 16
  height : c.height < 2 ^ 16
  mapSize : c.mapSize < 8
  sort : c.sort < 2
  colorRes : c.colorRes < 8
  hasMap : c.hasMap < 2
  background : c.background < 2 ^ 8
  aspect : c.aspect < 2 ^ 8

def screenBytes (c : Gif.Screen) : Bytes :=
  leBytes 2 c.width ++ (leBytes 2 c.height ++ (leBytes 1 (c.mapSize + 8 * c.sort + 16 * c.colorRes + 128 * c.hasMap) ++
    (leBytes 1 c.background ++ leBytes 1 c.aspect)))

/-- The bytes of a file: `GIF`, the version, the screen, the colors, the items and ";", and what follows. -/
def gifBytes (version : Bytes) (c : Gif.Screen) (map : Option Bytes) (items : List Gif.Item) (rest : Bytes) : Bytes :=
  [71, 73, 70] ++ (version ++ (screenBytes c ++ (mapBytes map ++ (gifItems items ++ rest))))

theorem read_screen {data : Bytes} {s : InputStream} (hs : stringInputStream data = .ok s) (c : Gif.Screen) (hc : ScreenGood c)
    (hp : screenBytes c <+: data.drop 6) : readScreen s = .ok c := by
  obtain ⟨width, height, mapSize, sort, colorRes, hasMap, background, aspect⟩ := c
  obtain ⟨h1, h2, h3, h4, h5, h6, h7, h8⟩ := hc
  simp only at h1 h2 h3 h4 h5 h6 h7 h8
  have hp' : [leBytes 2 width, leBytes 2 height, leBytes 1 (mapSize + 8 * sort + 16 * colorRes + 128 * hasMap), leBytes 1 background,
      leBytes 1 aspect].flatten <+: data.drop 6 := by simpa [screenBytes] using hp
  obtain ⟨hl, hle⟩ := leBytes_spec 1 (mapSize + 8 * sort + 16 * colorRes + 128 * hasMap)
  have hv := hle (by omega)
  have p2 := record_part _ 2 _ rfl 10 (by simp [leBytes_length]) hp'
  have r0 := read_le data s hs 2 6 width (by omega) (by omega) (record_part _ 0 _ rfl _ (by simp) hp') 16 rfl 48 rfl
  have r1 := read_le data s hs 2 8 height (by omega) (by omega) (record_part _ 1 _ rfl _ (by simp [leBytes_length]) hp') 16 rfl 64 rfl
  have r2 := readBits_in data s hs 10 0 3 _ p2 (by rw [hl]; omega) (by rw [hl]; omega) 80 rfl
  have r3 := readBits_in data s hs 10 3 1 _ p2 (by rw [hl]; omega) (by rw [hl]; omega) 83 rfl
  have r4 := readBits_in data s hs 10 4 3 _ p2 (by rw [hl]; omega) (by rw [hl]; omega) 84 rfl
  have r5 := readBits_in data s hs 10 7 1 _ p2 (by rw [hl]) (by rw [hl]; omega) 87 rfl
  have r6 := read_le data s hs 1 11 background (by omega) (by omega) (record_part _ 3 _ rfl _ (by simp [leBytes_length]) hp') 8 rfl 88 rfl
  have r7 := read_le data s hs 1 12 aspect (by omega) (by omega) (record_part _ 4 _ rfl _ (by simp [leBytes_length]) hp') 8 rfl 96 rfl
  rw [hv] at r2 r3 r4 r5
  have e2 : (mapSize + 8 * sort + 16 * colorRes + 128 * hasMap) / 2 ^ 0 % 2 ^ 3 = mapSize := by norm_num; omega
  have e3 : (mapSize + 8 * sort + 16 * colorRes + 128 * hasMap) / 2 ^ 3 % 2 ^ 1 = sort := by norm_num; omega
  have e4 : (mapSize + 8 * sort + 16 * colorRes + 128 * hasMap) / 2 ^ 4 % 2 ^ 3 = colorRes := by norm_num; omega
  have e5 : (mapSize + 8 * sort + 16 * colorRes + 128 * hasMap) / 2 ^ 7 % 2 ^ 1 = hasMap := by norm_num; omega
  rw [e2] at r2
  rw [e3] at r3
  rw [e4] at r4
  rw [e5] at r5
  rw [readScreen, r0]
  simp only [bind, Except.bind]
  rw [r1]
  simp only []
  rw [r2]
  simp only []
  rw [r3]
  simp only []
  rw [r4]
  simp only []
  rw [r5]
  simp only []
  rw [r6]
  simp only []
  rw [r7]

theorem screen_length (c : Gif.Screen) : (screenBytes c).length = 7 := by
  simp [screenBytes, leBytes_length]

/-- **C118**: every GIF file of up to 6000 by 6000 pixels is accepted and read back: screen, colors, and all items at their
places; it ends behind its ";". -/
theorem C118_file_partial (version : Bytes) (hv : version = [56, 55, 97] ∨ version = [56, 57, 97]) (c : Gif.Screen) (hc : ScreenGood c)
    (map : Option Bytes) (hmap : MapGood c.hasMap c.mapSize map) (items : List Gif.Item) (m fuel : Nat)
    (hi : ∀ x ∈ items, ItemGood x ∧ blockCount x < m) (hf : items.length < fuel) (rest : Bytes) (s : InputStream)
    (hs : stringInputStream (gifBytes version c map items rest) = .ok s)
    (hw : 0 < c.width ∧ c.width ≤ 6000) (hh : 0 < c.height ∧ c.height ≤ 6000) :
    Gif.valid s = .ok true ∧
    Gif.readFile s m fuel = .ok ⟨version, c, map, gifPlaces (13 + (mapBytes map).length) items, 8 * (gifBytes version c map items []).length⟩ := by
  have hl : version.length = 3 := by rcases hv with rfl | rfl <;> rfl
  have hlen : (gifBytes version c map items []).length = 13 + (mapBytes map).length + (gifItems items).length := by
    simp only [gifBytes, List.length_append, hl, screen_length, List.length_cons, List.length_nil]
    omega
  rw [hlen]
  generalize hd : gifBytes version c map items rest = data at *
  have hp : [[71, 73, 70], version, screenBytes c, mapBytes map, gifItems items, rest].flatten <+: data.drop 0 := by
    rw [← hd]; exact ⟨[], by simp [gifBytes]⟩
  have r1 := readBytes_prefix data s hs 3 version (record_part _ 1 _ rfl _ (by simp) hp)
  have r2 := read_screen hs c hc (record_part _ 2 _ rfl _ (by simp [hl]) hp)
  have r3 := read_map hs 13 c.hasMap c.mapSize map hmap (record_part _ 3 _ rfl _ (by simp [hl, screen_length]) hp)
  have r4 := C118_items hs m items fuel (13 + (mapBytes map).length) hf hi
    (record_part _ 4 _ rfl _ (by simp [hl, screen_length]; omega) hp)
  constructor
  · have h6 : [71, 73, 70] ++ version <+: data.drop 0 := by
      rw [← hd]; exact ⟨screenBytes c ++ (mapBytes map ++ (gifItems items ++ rest)), by simp [gifBytes]⟩
    have r0 := readBytes_prefix data s hs 0 ([71, 73, 70] ++ version) h6
    have r0' : readBytes s 0 6 = .ok ([71, 73, 70] ++ version) := by
      have e : ([71, 73, 70] ++ version : Bytes).length = 6 := by simp [hl]
      rw [e] at r0; exact r0
    rw [Gif.valid, r0']
    simp only [bind, Except.bind]
    rw [if_neg (by rcases hv with rfl | rfl <;> decide), r2]
    simp only []
    rw [if_neg (by omega), if_neg (by omega), if_neg (by omega)]
  · rw [hl] at r1
    have r1' : readBytes s 24 3 = .ok version := r1
    have r3' : readMap s c.hasMap c.mapSize 104 = .ok (map, 8 * (13 + (mapBytes map).length)) := r3
    rw [Gif.readFile, r1']
    simp only [bind, Except.bind]
    rw [r2]
    simp only []
    rw [r3']
    simp only []
    rw [r4]

/-- Violation: a picture wider than 6000 pixels is refused. -/
theorem C118_wide (version : Bytes) (hv : version = [56, 55, 97] ∨ version = [56, 57, 97]) (c : Gif.Screen) (hc : ScreenGood c)
    (map : Option Bytes) (items : List Gif.Item) (rest : Bytes) (s : InputStream)
    (hs : stringInputStream (gifBytes version c map items rest) = .ok s) (hw : 6000 < c.width) : Gif.valid s = .ok false := by
  have hl : version.length = 3 := by rcases hv with rfl | rfl <;> rfl
  generalize hd : gifBytes version c map items rest = data at *
  have hp : [[71, 73, 70], version, screenBytes c, mapBytes map, gifItems items, rest].flatten <+: data.drop 0 := by
    rw [← hd]; exact ⟨[], by simp [gifBytes]⟩
  have r2 := read_screen hs c hc (record_part _ 2 _ rfl _ (by simp [hl]) hp)
  have h6 : [71, 73, 70] ++ version <+: data.drop 0 := by
    rw [← hd]; exact ⟨screenBytes c ++ (mapBytes map ++ (gifItems items ++ rest)), by simp [gifBytes]⟩
  have r0 := readBytes_prefix data s hs 0 ([71, 73, 70] ++ version) h6
  have r0' : readBytes s 0 6 = .ok ([71, 73, 70] ++ version) := by
    have e : ([71, 73, 70] ++ version : Bytes).length = 6 := by simp [hl]
    rw [e] at r0; exact r0
  rw [Gif.valid, r0']
  simp only [bind, Except.bind]
  rw [if_neg (by rcases hv with rfl | rfl <;> decide), r2]
  simp only []
  by_cases h0 : c.width = 0 ∨ c.height = 0
  · rw [if_pos h0]
  · rw [if_neg h0, if_pos hw]

/-- **C118**: how often an animation is repeated. -/
theorem C118_loop (n : Nat) (hn : n < 2 ^ 16) (before after : List Bytes) (hb : ∀ b ∈ before, b.length ≠ 3) :
    loopCount (.application [78, 69, 84, 83, 67, 65, 80, 69, 50, 46, 48] (before ++ (1 :: leBytes 2 n) :: after)) = some n := by
  have hfind : (before ++ (1 :: leBytes 2 n) :: after).find? (fun b => b.length = 3) = some (1 :: leBytes 2 n) := by
    rw [List.find?_append, List.find?_eq_none.2 (by simpa using hb)]
    simp [leBytes_length]
  obtain ⟨hl, hle⟩ := leBytes_spec 2 n
  have hv := hle (by omega)
  match hx : leBytes 2 n with
  | [] => rw [hx] at hl; simp at hl
  | [_] => rw [hx] at hl; simp at hl
  | _ :: _ :: _ :: _ => rw [hx] at hl; simp at hl
  | [a, b] =>
    rw [hx] at hfind hv
    simp only [loopCount, if_true]
    rw [hfind]
    simp only [if_true, Option.some.injEq]
    rw [← hv]
    simp [ofBytesLE]

/-! ## Content size -/

/-- **C119**: if the first "\0;" behind the first image is at the end of the file's last item, the content size is the size
of the file. -/
theorem C119_size_partial (data : Bytes) (s : InputStream) (hs : stringInputStream data = .ok s) (k n : Nat) (hk : k ≤ n) (hn0 : 0 < n)
    (hn : [0, 59] <+: data.drop n) (hfirst : ∀ j, k ≤ j → j < n → ¬ [0, 59] <+: data.drop j) (hfar : n + 2 ≤ k + 104857600) :
    contentSize s (8 * k) = .ok (some ((8 * (n + 2) : Nat) : Int)) := by
  have hlen := hn.length_le
  simp only [List.length_cons, List.length_nil, List.length_drop] at hlen
  obtain ⟨r, hr, hspec⟩ := _root_.Props.C05_searchBytes data [0, 59] s hs (by simp) k (some (8 * k + 100 * 1024 * 1024 * 8)) _ rfl (by omega)
  have hr' : searchBytes s [0, 59] ((8 * k : Nat) : Int) (some ((8 * k + 100 * 1024 * 1024 * 8 : Nat) : Int)) = .ok r := hr
  unfold contentSize
  rw [hr']
  cases r with
  | none =>
    exact absurd hn (hspec n hk (by simp only [List.length_cons, List.length_nil]; omega))
  | some a =>
    obtain ⟨i, rfl, h1, h2, h3, h4⟩ := hspec
    have hi : i = n := by
      rcases Nat.lt_trichotomy i n with h | h | h
      · exact absurd h3 (hfirst i h1 h)
      · exact h
      · exact absurd hn (h4 n hk h)
    subst hi
    simp only []
    rw [if_pos (by omega)]
    exact congrArg (fun x => Except.ok (some x)) (by push_cast; ring)

/-- Where the first image ends. -/
def firstEnd (k : Nat) : List Gif.Item → Option Nat
  | [] => none
  | x :: xs => if isImage x then some (k + (gifItem x).length) else firstEnd (k + (gifItem x).length) xs

theorem first_end_last (x : Gif.Item) (hx : isImage x = true) : ∀ (before : List Gif.Item) (k : Nat), (∀ y ∈ before, isImage y = false) →
    firstEnd k (before ++ [x]) = some (k + (gifItems (before ++ [x])).length - 1)
  | [], k, _ => by
    rw [List.nil_append, firstEnd, if_pos hx]
    simp only [gifItems, List.length_append, leBytes_length]
    exact congrArg some (by omega)
  | y :: ys, k, h => by
    rw [List.cons_append, firstEnd, h y (by simp), if_neg (by decide), first_end_last x hx ys _ (fun z hz => h z (by simp [hz]))]
    simp only [gifItems, List.length_append]
    exact congrArg some (by omega)

/-- Violation: the search starts behind the 0 at the end of the first image, so that of a file whose only
image is its last item, with nothing behind, no content size is found. -/
theorem C119_single (version : Bytes) (hv : version.length = 3) (c : Gif.Screen) (map : Option Bytes) (before : List Gif.Item)
    (hb : ∀ y ∈ before, isImage y = false) (x : Gif.Item) (hx : isImage x = true) (s : InputStream)
    (hs : stringInputStream (gifBytes version c map (before ++ [x]) []) = .ok s) :
    ∃ e, firstEnd (13 + (mapBytes map).length) (before ++ [x]) = some e ∧ contentSize s (8 * e) = .ok none := by
  refine ⟨_, first_end_last x hx before _ hb, ?_⟩
  have hlen : (gifBytes version c map (before ++ [x]) []).length = 13 + (mapBytes map).length + (gifItems (before ++ [x])).length := by
    simp only [gifBytes, List.length_append, hv, screen_length, List.length_cons, List.length_nil]
    omega
  rw [← hlen]
  generalize hd : gifBytes version c map (before ++ [x]) [] = data at *
  have hpos : 0 < data.length := by rw [← hd]; simp [gifBytes]
  obtain ⟨k, hk⟩ : ∃ k, data.length = k + 1 := ⟨data.length - 1, by omega⟩
  obtain ⟨r, hr, hspec⟩ := _root_.Props.C05_searchBytes data [0, 59] s hs (by simp) k (some (8 * k + 100 * 1024 * 1024 * 8)) _ rfl (by omega)
  have hr' : searchBytes s [0, 59] ((8 * k : Nat) : Int) (some ((8 * k + 100 * 1024 * 1024 * 8 : Nat) : Int)) = .ok r := hr
  rw [hk, Nat.add_sub_cancel]
  unfold contentSize
  rw [hr']
  cases r with
  | none => rfl
  | some a =>
    obtain ⟨i, rfl, h1, h2, h3, h4⟩ := hspec
    have := h3.length_le
    simp only [List.length_cons, List.length_nil, List.length_drop] at this
    omega

/-! ## Metadata -/

/-- The texts of the comments of a file, block by block. -/
def commentBlocks : List Gif.Item → List (List Bytes)
  | [] => []
  | .comments blocks :: xs => blocks :: commentBlocks xs
  | _ :: xs => commentBlocks xs

theorem placed_items (k : Nat) : ∀ xs, (gifPlaces k xs).map (·.2) = xs := by
  intro xs
  induction xs generalizing k with
  | nil => rfl
  | cons x xs ih => simp only [gifPlaces, List.map_cons, ih]

theorem comments_told (decode : Bytes → List Char) (k : Nat) (xs : List Gif.Item) :
    ((gifPlaces k xs).flatMap fun i => itemComments decode i.2) =
      (commentBlocks xs).flatMap fun bs => (bs.map fun b => stripText Gif.isStrip (decode b)) ++ [[]] := by
  induction xs generalizing k with
  | nil => rfl
  | cons x xs ih =>
    rw [gifPlaces, List.flatMap_cons, ih]
    cases x <;> simp [itemComments, commentBlocks]

/-- **C119**: of a file are told: width, height, the bits of a pixel and the number of colors of its map, the version, and all its
comments, in order. -/
theorem C119_told (decode : Bytes → List Char) (version : Bytes) (c : Gif.Screen) (map : Option Bytes) (hc : c.hasMap = 1)
    (hm : MapGood c.hasMap c.mapSize map) (items : List Gif.Item) (k stop : Nat) :
    (extract decode ⟨version, c, map, gifPlaces k items, stop⟩).width = c.width ∧
    (extract decode ⟨version, c, map, gifPlaces k items, stop⟩).height = c.height ∧
    3 * (extract decode ⟨version, c, map, gifPlaces k items, stop⟩).colors = (mapBytes map).length ∧
    2 ^ (extract decode ⟨version, c, map, gifPlaces k items, stop⟩).bits = (extract decode ⟨version, c, map, gifPlaces k items, stop⟩).colors ∧
    (extract decode ⟨version, c, map, gifPlaces k items, stop⟩).comments =
      (commentBlocks items).flatMap fun bs => (bs.map fun b => stripText Gif.isStrip (decode b)) ++ [[]] := by
  refine ⟨rfl, rfl, ?_, rfl, comments_told decode k items⟩
  cases map with
  | none => simp only [MapGood] at hm; omega
  | some b =>
    simp only [MapGood] at hm
    show 3 * 2 ^ (1 + c.mapSize) = b.length
    rw [hm.2, Nat.add_comm]

/-- Violation: a comment of 256 to 510 bytes, which has to be in two blocks, is told as two comments. -/
theorem C119_long_comment (decode : Bytes → List Char) (a b : Bytes)
    (version : Bytes) (c : Gif.Screen) (map : Option Bytes) (k stop : Nat) :
    (extract decode ⟨version, c, map, gifPlaces k [.comments [a, b]], stop⟩).comments =
      [stripText Gif.isStrip (decode a), stripText Gif.isStrip (decode b), []] := by
  show ((gifPlaces k [.comments [a, b]]).flatMap fun i => itemComments decode i.2) = _
  rw [comments_told]
  rfl

theorem named_bracket (items : List Gif.Item) : ∀ before, ∀ p ∈ named before items, ∃ l, p.1 = l ++ [']'] := by
  induction items with
  | nil => intro before p hp; simp [named] at hp
  | cons x xs ih =>
    intro before p hp
    rw [named, List.mem_cons] at hp
    rcases hp with rfl | hp
    · exact ⟨(baseName x).toList ++ ('[' :: (toString (before.countP fun y => baseName y = baseName x)).toList), by simp⟩
    · exact ih _ p hp

/-- Violation: transparency is never told, whatever the items are. -/
theorem C119_transparency (decode : Bytes → List Char) (f : Gif.File) : (extract decode f).transparent = false := by
  show transparent (f.items.map (·.2)) = false
  unfold transparent
  have h : (named [] (f.items.map (·.2))).find? (fun p => p.1 = "graphic_ctl".toList) = none := by
    rw [List.find?_eq_none]
    intro p hp
    obtain ⟨l, hl⟩ := named_bracket _ _ p hp
    simp only [decide_eq_true_eq]
    intro h
    rw [hl] at h
    have := congrArg List.getLast? h
    simp at this
  rw [h]

/-! ## Examples -/

/-- A file with colors, a control block, a comment, a text, an application, another extension and two images, one of them with colors of
its own. -/
def sampleGif : List Gif.Item :=
  [.control 1 0 2 10 3, .comments [[72, 105], [33]], .text 12 0 0 5 5 1 1 0 1 [[65]], .application [78, 69, 84, 83, 67, 65, 80, 69, 50, 46, 48] [[1, 0, 0]],
   .other 0x21 [[1, 2, 3]], .image 0 0 2 1 0 0 0 0 none 2 [[68, 1]], .image 0 0 2 1 0 0 1 1 (some [0, 0, 0, 255, 255, 255]) 2 [[68, 1], [7]]]

example : ∀ x ∈ sampleGif, blockCount x < 3 := by decide

example : ∀ x ∈ sampleGif, ItemGood x := by
  simp [sampleGif, ItemGood, BlocksGood, MapGood]

example : ScreenGood ⟨2, 1, 0, 0, 7, 1, 0, 0⟩ ∧ MapGood 1 0 (some [0, 0, 0, 255, 255, 255]) :=
  ⟨⟨by decide, by decide, by decide, by decide, by decide, by decide, by decide, by decide⟩, rfl, rfl⟩

example : ∃ s, stringInputStream (gifBytes [56, 57, 97] ⟨2, 1, 0, 0, 7, 1, 0, 0⟩ (some [0, 0, 0, 255, 255, 255]) sampleGif [1, 2]) = .ok s :=
  ⟨_, rfl⟩

/-- The end of a file with an extension behind the image. -/
example : [0, 59] <+: ([0, 33, 254, 0, 59] : Bytes).drop 3 ∧ ∀ j, 1 ≤ j → j < 3 → ¬ [0, 59] <+: ([0, 33, 254, 0, 59] : Bytes).drop j := by
  refine ⟨by decide, fun j h1 h2 => ?_⟩
  rcases (by omega : j = 1 ∨ j = 2) with rfl | rfl <;> decide

end Hachoir.Props
