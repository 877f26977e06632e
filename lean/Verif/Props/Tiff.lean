import Verif.Formats.Tiff
import Verif.Props.Exif

/-!
# C149: images of TIFF files
-/

namespace Hachoir.Props
open Hachoir Hachoir.Stream Spec Hachoir.Formats Hachoir.Formats.Exif Hachoir.Formats.Tiff

/-- A tag tells exactly these numbers. -/
def TiffTells (es : Entries) (tag : Nat) (ns : List Nat) : Prop :=
  ∃ type, (tag, type, some (.items (ns.map fun (n : Nat) => Item.int (n : Int)))) ∈ es ∧
    ∀ x ∈ es, x.1 = tag → x = (tag, type, some (.items (ns.map fun (n : Nat) => Item.int (n : Int))))

/-- A directory tells a picture of pieces: offsets and bytes (TIFF 6.0: StripOffsets and StripByteCounts, or TileOffsets and TileByteCounts). -/
structure HasPicture (data : Bytes) (es : Entries) (pieces : List (Nat × Bytes)) : Prop where
  some : pieces ≠ []
  tags : ∃ a b c, (a, b, c) ∈ [(0x0111, 0x0117, 0x0144), (0x0144, 0x0145, 0x0111)] ∧ TiffTells es a (pieces.map (·.1)) ∧
    TiffTells es b (pieces.map (·.2.length)) ∧ ∀ x ∈ es, x.1 ≠ c
  there : ∀ p ∈ pieces, p.2 ≠ [] ∧ p.2 <+: data.drop p.1

theorem last_tells (es : Entries) (tag : Nat) (ns : List Nat) (h : TiffTells es tag ns) :
    lastEntry .ifd tag es = some (some (.items (ns.map fun (n : Nat) => Item.int (n : Int)))) := by
  obtain ⟨type, hm, hu⟩ := h
  rw [lastEntry, if_pos rfl]
  cases hf : es.reverse.find? fun x => x.1 == tag with
  | none =>
    rw [List.find?_eq_none] at hf
    exact absurd (beq_self_eq_true tag) (hf _ (List.mem_reverse.2 hm))
  | some x =>
    have h1 := List.find?_some hf
    have h2 := List.mem_reverse.1 (List.mem_of_find?_eq_some hf)
    rw [hu x h2 (by simpa using h1)]
    rfl

theorem last_absent (es : Entries) (kind : DirKind) (tag : Nat) (h : ∀ x ∈ es, x.1 ≠ tag) : lastEntry kind tag es = none := by
  rw [lastEntry]
  split
  · rw [List.find?_eq_none.2]
    · rfl
    · intro x hx
      simpa using h x (List.mem_reverse.1 hx)
  · rfl

theorem numbers_told (ns : List Nat) : numbers (some (.items (ns.map fun (n : Nat) => Item.int (n : Int)))) = .ok (ns.map fun (n : Nat) => (n : Int)) := by
  rw [numbers]
  exact (itemOffsets_ok _ _).2 (by simp)

theorem zipped_told (pieces : List (Nat × Bytes)) :
    zipped (some (some (.items ((pieces.map (·.1)).map fun (n : Nat) => Item.int (n : Int))))) (some (some (.items ((pieces.map (·.2.length)).map fun (n : Nat) => Item.int (n : Int))))) =
      .ok (pieces.map fun p => ((p.1 : Int), (p.2.length : Int))) := by
  rw [zipped]
  simp only [numbers_told]
  congr 1
  induction pieces with
  | nil => rfl
  | cons p ps ih => simp only [List.map_cons, List.zip_cons_cons, ih]

theorem zipped_absent (x : Option (Option Value)) : zipped none x = .ok [] := rfl

theorem strips_told (data : Bytes) (es : Entries) (pieces : List (Nat × Bytes))
    (h : HasPicture data es pieces) : getStrips .ifd es = .ok (pieces.map fun p => ((p.1 : Int), (p.2.length : Int))) := by
  obtain ⟨a, b, c, hm, ha, hb, hc⟩ := h.tags
  simp only [List.mem_cons, Prod.mk.injEq, List.not_mem_nil, or_false] at hm
  rw [getStrips]
  rcases hm with ⟨rfl, rfl, rfl⟩ | ⟨rfl, rfl, rfl⟩
  · rw [last_tells es _ _ ha, last_tells es _ _ hb, last_absent es _ _ hc, zipped_told, zipped_absent]
    simp
  · rw [last_tells es _ _ ha, last_tells es _ _ hb, last_absent es _ _ hc, zipped_told, zipped_absent]
    simp

theorem foldl_min_le : ∀ (xs : List Int) (x : Int), xs.foldl min x ≤ x ∧ ∀ y ∈ xs, xs.foldl min x ≤ y
  | [], x => ⟨le_refl x, by simp⟩
  | z :: xs, x => by
    obtain ⟨h1, h2⟩ := foldl_min_le xs (min x z)
    refine ⟨le_trans h1 (min_le_left x z), fun y hy => ?_⟩
    rcases List.mem_cons.1 hy with rfl | hy
    · exact le_trans h1 (min_le_right x y)
    · exact h2 y hy

theorem foldl_min_nonneg : ∀ (xs : List Int) (x : Int), 0 ≤ x → (∀ y ∈ xs, 0 ≤ y) → 0 ≤ xs.foldl min x
  | [], _, h, _ => h
  | z :: xs, x, h, hx => foldl_min_nonneg xs (min x z) (le_min h (hx z (by simp))) fun y hy => hx y (by simp [hy])

theorem strips_read (data : Bytes) (s : InputStream) (hs : stringInputStream data = .ok s) (start : Int) :
    ∀ pieces : List (Nat × Bytes), (∀ p ∈ pieces, p.2 ≠ [] ∧ p.2 <+: data.drop p.1) → (∀ p ∈ pieces, start ≤ (p.1 : Int)) →
      strips s start (pieces.map fun p => ((p.1 : Int), (p.2.length : Int))) = .ok (pieces.map (·.2))
  | [], _, _ => rfl
  | p :: ps, h, h2 => by
    obtain ⟨h0, hp⟩ := h p (by simp)
    have hl := List.length_pos_iff.2 h0
    have h3 := h2 p (by simp)
    have hb := readBytes_prefix data s hs p.1 p.2 hp
    rw [List.map_cons, strips, strip]
    simp only []
    rw [if_neg (by omega), if_neg (by omega), show (8 : Int) * (p.1 : Int) = ((8 * p.1 : Nat) : Int) by omega, Int.toNat_natCast, hb]
    simp only []
    rw [strips_read data s hs start ps (fun q hq => h q (by simp [hq])) fun q hq => h2 q (by simp [hq])]
    rfl

/-- **C149**: the picture of a directory has all its strips or tiles, in their order and as they are in the file, wherever they are. -/
theorem C149_image (data : Bytes) (s : InputStream) (hs : stringInputStream data = .ok s) (es : Entries) (pieces : List (Nat × Bytes))
    (h : HasPicture data es pieces) : image s .ifd es = .ok (pieces.map (·.2)) := by
  rw [image, strips_told data es pieces h]
  simp only []
  cases hp : pieces with
  | nil => exact absurd hp h.some
  | cons p ps =>
    simp only [List.map_cons, firstByte]
    have h1 := foldl_min_le ((ps.map fun p => ((p.1 : Int), (p.2.length : Int))).map (·.1)) (p.1 : Int)
    have h2 := foldl_min_nonneg ((ps.map fun p => ((p.1 : Int), (p.2.length : Int))).map (·.1)) (p.1 : Int) (by omega) (by
      intro y hy
      simp only [List.map_map, List.mem_map, Function.comp_def] at hy
      obtain ⟨q, _, rfl⟩ := hy
      omega)
    rw [if_neg (by omega)]
    have := strips_read data s hs (((ps.map fun p => ((p.1 : Int), (p.2.length : Int))).map (·.1)).foldl min (p.1 : Int)) pieces h.there (by
      intro q hq
      rw [hp] at hq
      rcases List.mem_cons.1 hq with rfl | hq
      · exact h1.1
      · refine h1.2 _ ?_
        simp only [List.map_map, List.mem_map, Function.comp_def]
        exact ⟨q, hq, rfl⟩)
    rw [hp] at this
    simpa using this

/-- Directories with pictures, and the pictures. -/
def Pictured (data : Bytes) (dirs : List (Int × DirKind × Dir)) (pictures : List (List (Nat × Bytes))) : Prop :=
  List.Forall₂ (fun d p => d.2.1 = .ifd ∧ HasPicture data d.2.2.entries p) dirs pictures

theorem images_before (data : Bytes) (s : InputStream) (hs : stringInputStream data = .ok s) (dirs : List (Int × DirKind × Dir))
    (pictures : List (List (Nat × Bytes))) (h : Pictured data dirs pictures) (rest : List (Int × DirKind × Dir)) :
    images s (dirs ++ rest) = (pictures.map (fun p => p.map (·.2)) ++ (images s rest).1, (images s rest).2) := by
  induction h with
  | nil => simp
  | @cons d p ds ps h _ ih =>
    obtain ⟨o, k, dir⟩ := d
    obtain ⟨rfl, hp⟩ := h
    rw [List.cons_append, images, C149_image data s hs _ _ hp]
    simp only []
    rw [ih]
    rfl

/-- **C149**: if every directory has a picture, all pictures are there. -/
theorem C149_images_partial (data : Bytes) (s : InputStream) (hs : stringInputStream data = .ok s) (dirs : List (Int × DirKind × Dir))
    (pictures : List (List (Nat × Bytes))) (h : Pictured data dirs pictures) :
    images s dirs = (pictures.map (fun p => p.map (·.2)), none) := by
  have := images_before data s hs dirs pictures h []
  simpa [images] using this

/-- Violation: behind a directory without a picture (that of EXIF data, for one) no picture is read. -/
theorem C149_lost (data : Bytes) (s : InputStream) (hs : stringInputStream data = .ok s) (dirs : List (Int × DirKind × Dir))
    (pictures : List (List (Nat × Bytes))) (h : Pictured data dirs pictures) (o : Int) (k : DirKind) (d : Dir)
    (hd : k ≠ .ifd ∨ ∀ x ∈ d.entries, x.1 ≠ 0x0111 ∧ x.1 ≠ 0x0144) (rest : List (Int × DirKind × Dir)) :
    images s (dirs ++ (o, k, d) :: rest) = (pictures.map (fun p => p.map (·.2)), some .value) := by
  have hl : ∀ tag, tag = 0x0111 ∨ tag = 0x0144 → lastEntry k tag d.entries = none := by
    intro tag ht
    rcases hd with hk | hd
    · rw [lastEntry, if_neg hk]
    · exact last_absent _ _ _ fun x hx => by
        rcases ht with rfl | rfl
        · exact (hd x hx).1
        · exact (hd x hx).2
  rw [images_before data s hs dirs pictures h, images, image, getStrips, hl _ (.inl rfl), hl _ (.inr rfl), zipped_absent, zipped_absent]
  simp [firstByte]

/-- **C149** for whole files: if all directories that can be reached have pictures, these are the pictures of the file. -/
theorem C149_file_partial (data : Bytes) (s : InputStream) (hs : stringInputStream data = .ok s) (n first : Nat)
    (e : Endian) (mark version o : Bytes) (hm : e = .little ∧ mark = [73, 73] ∨ e = .big ∧ mark = [77, 77])
    (hv : version.length = 2) (ho : o.length = 4) (hn : numberIn e o = some first) (hp : (mark ++ (version ++ o)) <+: data)
    (dirs : List (Int × DirKind × Dir)) (hw : walk s e 0 n [((first : Int), .ifd)] = (dirs, some (.ok ())))
    (pictures : List (List (Nat × Bytes))) (h : Pictured data dirs pictures) :
    tiffFile s n = .ok (dirs, pictures.map fun p => p.map (·.2)) := by
  have ht := C86_header data s hs n 0 first e mark version o hm hv ho hn (by simpa using hp)
  rw [show ((8 * 0 : Nat) : Int) = 0 from rfl, hw] at ht
  rw [tiffFile, ht]
  simp only []
  rw [C149_images_partial data s hs dirs pictures h]

/-- **C149**: a directory with strips and tiles: the strips come first. -/
theorem C149_both (es : Entries) (strips tiles : List (Nat × Bytes)) (h1 : TiffTells es 0x0111 (strips.map (·.1))) (h2 : TiffTells es 0x0117 (strips.map (·.2.length)))
    (h3 : TiffTells es 0x0144 (tiles.map (·.1))) (h4 : TiffTells es 0x0145 (tiles.map (·.2.length))) :
    getStrips .ifd es = .ok ((strips ++ tiles).map fun p => ((p.1 : Int), (p.2.length : Int))) := by
  rw [getStrips, last_tells es _ _ h1, last_tells es _ _ h2, last_tells es _ _ h3, last_tells es _ _ h4, zipped_told, zipped_told, List.map_append]

/-- Violation: a picture with an empty strip is not read, nor are the pictures behind it. -/
theorem C149_empty (data : Bytes) (s : InputStream) (hs : stringInputStream data = .ok s) (dirs : List (Int × DirKind × Dir))
    (pictures : List (List (Nat × Bytes))) (h : Pictured data dirs pictures) (o : Int) (d : Dir) (offset : Nat)
    (hd : getStrips .ifd d.entries = .ok [((offset : Int), 0)]) (rest : List (Int × DirKind × Dir)) :
    images s (dirs ++ (o, .ifd, d) :: rest) = (pictures.map (fun p => p.map (·.2)), some .field) := by
  rw [images_before data s hs dirs pictures h, images, image, hd]
  simp only [List.map_cons, List.map_nil, firstByte, List.foldl_nil]
  rw [if_neg (by omega), strips, strip, if_neg (by omega), if_pos (by omega)]
  simp

/-- Violation: an error in the directories leaves no picture, though there are directories with pictures. -/
theorem C149_broken (s : InputStream) (n : Nat) (dirs : List (Int × DirKind × Dir)) (r : Option (Except PyErr Unit)) (hr : r ≠ some (.ok ()))
    (h : tiff s n 0 = .ok (dirs, r)) : tiffFile s n = .ok (dirs, []) := by
  rw [tiffFile, h]
  match r, hr with
  | none, _ => rfl
  | some (.error e), _ => rfl
  | some (.ok ()), h => exact absurd rfl h

/-- A file of two pictures, the first of two strips, the second in the directory that the first one tells as the next. -/
def twoPictures : Bytes :=
  [73, 73, 42, 0, 8, 0, 0, 0,
   2, 0, 17, 1, 3, 0, 2, 0, 0, 0, 68, 0, 70, 0, 23, 1, 3, 0, 2, 0, 0, 0, 2, 0, 3, 0, 38, 0, 0, 0,
   2, 0, 17, 1, 4, 0, 1, 0, 0, 0, 69, 0, 0, 0, 23, 1, 4, 0, 1, 0, 0, 0, 2, 0, 0, 0, 0, 0, 0, 0,
   1, 2, 3, 4, 5]

def twoPicturesDirs : List (Int × DirKind × Dir) :=
  [(8, .ifd, ⟨[(273, 3, some (.items [.int 68, .int 70])), (279, 3, some (.items [.int 2, .int 3]))], 38⟩),
   (38, .ifd, ⟨[(273, 4, some (.items [.int 69])), (279, 4, some (.items [.int 2]))], 0⟩)]

theorem two_pictured : Pictured twoPictures twoPicturesDirs [[(68, [1, 2]), (70, [3, 4, 5])], [(69, [2, 3])]] := by
  refine .cons ⟨rfl, by simp, ⟨0x0111, 0x0117, 0x0144, by simp, ⟨3, by simp, by simp⟩, ⟨3, by simp, by simp⟩, by simp⟩, ?_⟩
    (.cons ⟨rfl, by simp, ⟨0x0111, 0x0117, 0x0144, by simp, ⟨4, by simp, by simp⟩, ⟨4, by simp, by simp⟩, by simp⟩, ?_⟩ .nil)
  · simp [twoPictures]
  · simp [twoPictures]

example : ∃ s, stringInputStream twoPictures = .ok s ∧ tiffFile s 2 = .ok (twoPicturesDirs, [[[1, 2], [3, 4, 5]], [[2, 3]]]) := by
  obtain ⟨s, hs, hw⟩ : ∃ s, stringInputStream twoPictures = .ok s ∧ walk s .little 0 2 [((8 : Nat), .ifd)] = (twoPicturesDirs, some (.ok ())) :=
    ⟨_, rfl, by decide +kernel⟩
  exact ⟨s, hs, C149_file_partial twoPictures s hs 2 8 .little [73, 73] [42, 0] [8, 0, 0, 0] (.inl ⟨rfl, rfl⟩) rfl rfl rfl ⟨twoPictures.drop 8, rfl⟩
    _ hw _ two_pictured⟩

/-- With the directory of EXIF data between the pictures the second one is lost. -/
example : ∃ s, stringInputStream twoPictures = .ok s ∧
    images s (twoPicturesDirs.take 1 ++ (20, .exif, ⟨[(0x9000, 7, some (.bytes [48, 50, 50, 48]))], 0⟩) :: twoPicturesDirs.drop 1) =
      ([[[1, 2], [3, 4, 5]]], some .value) := by
  obtain ⟨s, hs⟩ : ∃ s, stringInputStream twoPictures = .ok s := ⟨_, rfl⟩
  refine ⟨s, hs, ?_⟩
  cases two_pictured with
  | cons h _ => exact C149_lost twoPictures s hs _ _ (.cons h .nil) 20 .exif _ (.inl (by decide)) _

end Hachoir.Props
