import Verif.Formats.Laf
import Verif.Props.Asf
import Verif.Props.Keyring

/-!
# C178: fonts of LucasArts games
-/

namespace Hachoir.Props
open Hachoir Hachoir.Stream Hachoir.Field Hachoir.Formats Hachoir.Formats.Laf Spec _root_.Props

/-! ### Specification -/

def lafInfo (i : Info) : Bytes := leBytes 4 i.offset ++ (leBytes 1 i.logical ++ (numsBytes [1, 1, 1] i.unknown ++ (leBytes 4 i.width ++ leBytes 4 i.height)))

def LafInfoFits (i : Info) : Prop := i.offset < 2 ^ 32 ∧ i.logical < 256 ∧ NumsFit [1, 1, 1] i.unknown ∧ i.width < 2 ^ 32 ∧ i.height < 2 ^ 32

/-- A picture of this size, with at least one point. -/
def LafPicture (i : Info) (b : List (List Nat)) : Prop := b.length = i.height ∧ b ≠ [] ∧ ∀ line ∈ b, line.length = i.width ∧ line ≠ [] ∧ ∀ p ∈ line, p < 256

/-- The pictures have the sizes told. -/
def LafPictures : List Info → List (List (List Nat)) → Prop
  | [], [] => True
  | i :: is, b :: bs => LafPicture i b ∧ LafPictures is bs
  | _, _ => False

/-- The points of a picture, line by line. -/
def lafPoints (b : List (List Nat)) : Bytes := b.flatMap fun line => line.flatMap (leBytes 1)

def lafBytes (f : Font) : Bytes :=
  leBytes 4 f.chars.length ++ (leBytes 4 f.size ++ (leBytes 4 f.maxWidth ++ (leBytes 4 f.minWidth ++ (numsBytes [4, 4] f.unknown ++ (leBytes 4 f.first ++ (leBytes 4 f.last ++
    (f.codes.flatMap (leBytes 2) ++ (f.chars.flatMap lafInfo ++ f.bitmaps.flatMap lafPoints))))))))

structure LafFits (f : Font) : Prop where
  count : f.chars ≠ [] ∧ f.chars.length < 2 ^ 32
  sizes : f.size < 2 ^ 32 ∧ f.maxWidth < 2 ^ 32 ∧ f.minWidth < 2 ^ 32
  unknown : NumsFit [4, 4] f.unknown
  range : f.first < 2 ^ 32 ∧ f.last < 2 ^ 32
  codes : f.codes.length = f.chars.length ∧ ∀ c ∈ f.codes, c < 65536
  chars : ∀ i ∈ f.chars, LafInfoFits i
  pictures : LafPictures f.chars f.bitmaps

/-! ### Proofs -/

theorem reads_laf_info (i : Info) (h : LafInfoFits i) : Reads info i (lafInfo i) := by
  obtain ⟨h1, h2, h3, h4, h5⟩ := h
  exact Reads.bind (reads_int_le 4 i.offset (by decide) (by omega)) (Reads.bind (reads_int_le 1 i.logical (by decide) (by omega)) (Reads.bind (reads_numbers _ i.unknown h3)
    (Reads.bind (reads_int_le 4 i.width (by decide) (by omega)) (Reads.map (f := fun h => (⟨i.offset, i.logical, i.unknown, i.width, h⟩ : Info)) (reads_int_le 4 i.height (by decide) (by omega))))))

theorem reads_vector {α : Type} (r : Rd α) (enc : α → Bytes) (l : List α) (n : Nat) (hn : l.length = n) (h0 : l ≠ []) (h : ∀ x ∈ l, Reads r x (enc x)) : Reads (Laf.vector r n) l (l.flatMap enc) := by
  subst hn
  rw [Laf.vector, if_neg (by simpa using h0)]
  exact reads_list r enc l h

theorem reads_laf_picture (i : Info) (b : List (List Nat)) (h : LafPicture i b) : Reads (bitmap i) b (lafPoints b) := by
  obtain ⟨h1, h2, h3⟩ := h
  rw [bitmap, if_neg (by rw [← h1]; simpa using h2), ← h1]
  exact reads_list _ (fun line => line.flatMap (leBytes 1)) b fun line hl => by
    obtain ⟨l1, l2, l3⟩ := h3 line hl
    exact reads_vector _ (leBytes 1) line i.width l1 l2 fun p hp => reads_int_le 1 p (by decide) (l3 p hp)

theorem reads_laf_pictures : ∀ (is : List Info) (bs : List (List (List Nat))), LafPictures is bs → Reads (Rd.each bitmap is) bs (bs.flatMap lafPoints)
  | [], [], _ => reads_rpure _
  | i :: is, b :: bs, h => by
    rw [List.flatMap_cons]
    exact Reads.rbind (reads_laf_picture i b h.1) (Reads.rmap (f := fun as => b :: as) (reads_laf_pictures is bs h.2))
  | [], _ :: _, h => h.elim
  | _ :: _, [], h => h.elim

/-- **C178**: a font is read as it was written: the codes, the sizes of the characters, and every point of their pictures, if none is empty. -/
theorem C178_font (f : Font) (h : LafFits f) : Reads font f (lafBytes f) := by
  obtain ⟨⟨h1, h1'⟩, ⟨h2, h3, h4⟩, h5, ⟨h6, h7⟩, ⟨h8, h9⟩, h10, h11⟩ := h
  have h0 := List.length_pos_of_ne_nil h1
  exact Reads.bind (reads_int_le 4 f.chars.length (by decide) (by omega)) (Reads.bind (reads_int_le 4 f.size (by decide) (by omega)) (Reads.bind (reads_int_le 4 f.maxWidth (by decide) (by omega))
    (Reads.bind (reads_int_le 4 f.minWidth (by decide) (by omega)) (Reads.bind (reads_numbers _ f.unknown h5) (Reads.bind (reads_int_le 4 f.first (by decide) (by omega))
      (Reads.bind (reads_int_le 4 f.last (by decide) (by omega)) (Reads.bind (reads_vector _ (leBytes 2) f.codes _ h8 (by intro e; rw [e] at h8; simp at h8; omega) fun c hc => reads_int_le 2 c (by decide) (h9 c hc))
        (Reads.bind (reads_vector info lafInfo f.chars _ rfl h1 fun i hi => reads_laf_info i (h10 i hi))
          (Reads.map (f := fun bs => (⟨f.size, f.maxWidth, f.minWidth, f.unknown, f.first, f.last, f.codes, f.chars, bs⟩ : Font)) (reads_laf_pictures f.chars f.bitmaps h11))))))))))

/-- **C178** (disagreement): a character without points, such as a blank, ends the reading with an error, whatever follows. -/
theorem C178_blank (i : Info) (is : List Info) (h : i.width = 0 ∨ i.height = 0) : ∃ e, ∀ (s : InputStream) (stop k : Nat), Rd.each bitmap (i :: is) s stop k = .error e := by
  by_cases h0 : i.height = 0
  · refine ⟨.stopIteration, fun s stop k => ?_⟩
    show Rd.bind (bitmap i) _ s stop k = _
    rw [Rd.bind, bitmap, if_pos h0]
    rfl
  · refine ⟨.parser, fun s stop k => ?_⟩
    have hw : i.width = 0 := by omega
    obtain ⟨n, hn⟩ : ∃ n, i.height = n + 1 := ⟨i.height - 1, by omega⟩
    show Rd.bind (bitmap i) _ s stop k = _
    rw [Rd.bind, bitmap, if_neg h0, hw, hn]
    rfl

/-- **C178** (disagreement): the place of a picture that is told is not looked at: the pictures are read one behind the other whatever it is. -/
theorem C178_offset (i : Info) (o : Nat) : bitmap { i with offset := o } = bitmap i := rfl

/-- **C178**: fonts of the characters from 0 to 255, with the first at the beginning, are taken. -/
theorem C178_valid (f : Font) : Laf.valid f = true ↔ f.chars.length = 256 ∧ f.first = 0 ∧ f.last = 255 ∧ f.codes.head? = some 0 ∧ f.chars.head?.map (·.offset) = some 0 := by
  simp [Laf.valid, and_assoc]

/-! ### Example -/

def tinyFont : Font := ⟨5, 2, 1, [0, 0], 65, 66, [65, 66], [⟨0, 2, [0, 0, 0], 2, 2⟩, ⟨4, 1, [0, 0, 0], 1, 1⟩], [[[0, 1], [1, 0]], [[3]]]⟩

example : Reads font tinyFont (lafBytes tinyFont) :=
  C178_font tinyFont {
    count := by simp [tinyFont]
    sizes := by simp [tinyFont]
    unknown := by simp [tinyFont, NumsFit]
    range := by simp [tinyFont]
    codes := by simp [tinyFont]
    chars := by simp [tinyFont, LafInfoFits, NumsFit]
    pictures := by simp [tinyFont, LafPictures, LafPicture] }

end Hachoir.Props
