import Verif.Formats.Mp4
import Verif.Props.JavaPool

/-!
# C93: atoms of MP4 files
-/

set_option linter.unusedVariables false

namespace Hachoir.Props
open Hachoir Hachoir.Stream Hachoir.Formats Hachoir.Formats.Mp4 Spec

/-! ### Specification -/

/-- The header of an atom with `n` bytes of content: a size of four bytes, one of eight bytes, or
none if it is the last atom; then the GUID of a `uuid` atom.  The sizes count the header. -/
inductive HeaderBytes : Bool → Bytes → Nat → Bytes → Prop where
  | short (last : Bool) (tag size : Bytes) (n : Nat) (ht : tag.length = 4) (hu : tag ≠ latin "uuid") (hs : Big 4 (8 + n) size) :
      HeaderBytes last tag n (size ++ tag)
  | long (last : Bool) (tag one size : Bytes) (n : Nat) (ht : tag.length = 4) (hu : tag ≠ latin "uuid") (h1 : Big 4 1 one)
      (hs : Big 8 (16 + n) size) : HeaderBytes last tag n (one ++ (tag ++ size))
  | rest (tag zero : Bytes) (n : Nat) (ht : tag.length = 4) (hu : tag ≠ latin "uuid") (h0 : Big 4 0 zero) :
      HeaderBytes true tag n (zero ++ tag)
  | shortId (last : Bool) (id size : Bytes) (n : Nat) (hi : id.length = 16) (hs : Big 4 (24 + n) size) :
      HeaderBytes last (latin "uuid") n (size ++ (latin "uuid" ++ id))
  | longId (last : Bool) (id one size : Bytes) (n : Nat) (hi : id.length = 16) (h1 : Big 4 1 one) (hs : Big 8 (32 + n) size) :
      HeaderBytes last (latin "uuid") n (one ++ (latin "uuid" ++ (size ++ id)))
  | restId (id zero : Bytes) (n : Nat) (hi : id.length = 16) (h0 : Big 4 0 zero) :
      HeaderBytes true (latin "uuid") n (zero ++ (latin "uuid" ++ id))

/-- The content of an atom that has some. -/
def kindOfTag (tag : Bytes) : Content := contentOf tag (tag == latin "uuid")

/-- Atoms one behind the other from byte `k` on. -/
inductive AtomBytes : Nat → Nat → List Atom → Bytes → Prop where
  | nil (d k : Nat) : AtomBytes d k [] []
  | empty (d k : Nat) (tag head : Bytes) (rest : List Atom) (bs : Bytes) (hh : HeaderBytes (bs == []) tag 0 head)
      (hr : AtomBytes d (k + head.length) rest bs) :
      AtomBytes d k (⟨d, tag, 8 * k, 8 * head.length, 0, .nothing⟩ :: rest) (head ++ bs)
  | plain (d k : Nat) (tag head body : Bytes) (rest : List Atom) (bs : Bytes) (hh : HeaderBytes (bs == []) tag body.length head)
      (hb : body ≠ []) (hc : kindOfTag tag ≠ .atoms) (hr : AtomBytes d (k + head.length + body.length) rest bs) :
      AtomBytes d k (⟨d, tag, 8 * k, 8 * head.length, 8 * body.length, kindOfTag tag⟩ :: rest) (head ++ (body ++ bs))
  | list (d k : Nat) (tag head body : Bytes) (inner rest : List Atom) (bs : Bytes) (hh : HeaderBytes (bs == []) tag body.length head)
      (hb : body ≠ []) (hc : kindOfTag tag = .atoms) (hi : AtomBytes (d + 1) (k + head.length) inner body)
      (hr : AtomBytes d (k + head.length + body.length) rest bs) :
      AtomBytes d k (⟨d, tag, 8 * k, 8 * head.length, 8 * body.length, .atoms⟩ :: (inner ++ rest)) (head ++ (body ++ bs))

/-! ### Headers -/

theorem latin_uuid_length : (latin "uuid").length = 4 := rfl

theorem readHeader_eq (data : Bytes) (s : InputStream) (hs : stringInputStream data = .ok s) (k n stop : Nat) (last : Bool) (tag head : Bytes)
    (hh : HeaderBytes last tag n head) (hp : head <+: data.drop k) (hroom : 8 * (k + head.length + n) ≤ stop)
    (hlast : last = true → stop = 8 * (k + head.length + n)) :
    readHeader s (8 * k) stop = .ok (tag, tag == latin "uuid", 8 * head.length, n) ∧ 0 < head.length := by
  have htag : ∀ (a : Bytes) (j : Nat), a.length = 4 → a <+: data.drop j → ∀ ad : Int, ad = (8 * j : Nat) → readBytes s ad 4 = .ok a := by
    intro a j ha hpa ad had
    have := readBytes_prefix data s hs j a hpa
    rw [ha] at this
    rw [had]; exact this
  cases hh with
  | short _ _ size _ ht hu hsz =>
    have hp2 := drop_prefix hp
    rw [hsz.1] at hp2
    have hl : (size ++ tag).length = 8 := by rw [List.length_append, hsz.1, ht]
    rw [hl] at hroom ⊢
    refine ⟨?_, by omega⟩
    have r1 := read_big data s hs k 4 _ size hsz (by omega) (prefix_left hp) 32 rfl ((8 * k : Nat) : Int) rfl
    have r2 := htag tag (k + 4) ht hp2 (((8 * k : Nat) : Int) + 32) (by push_cast; ring)
    have e : readHead s (8 * k) stop = .ok (tag, 64, n) := by
      rw [readHead, if_neg (by omega), r1]
      simp only
      rw [r2]
      simp only
      rw [if_neg (by omega), if_neg (by omega)]
      congr 3
      push_cast; omega
    rw [readHeader, e]
    simp only [if_neg hu]
    rw [beq_false_of_ne hu]
  | long _ _ one size _ ht hu h1 hsz =>
    have hp2 := drop_prefix hp
    rw [h1.1] at hp2
    have hp3 := drop_prefix hp2
    rw [ht] at hp3
    have hl : (one ++ (tag ++ size)).length = 16 := by rw [List.length_append, List.length_append, h1.1, ht, hsz.1]
    rw [hl] at hroom ⊢
    refine ⟨?_, by omega⟩
    have r1 := read_big data s hs k 4 _ one h1 (by omega) (prefix_left hp) 32 rfl ((8 * k : Nat) : Int) rfl
    have r2 := htag tag (k + 4) ht (prefix_left hp2) (((8 * k : Nat) : Int) + 32) (by push_cast; ring)
    have r3 := read_big data s hs (k + 4 + 4) 8 _ size hsz (by omega) hp3 64 rfl (((8 * k : Nat) : Int) + 64) (by push_cast; ring)
    have e : readHead s (8 * k) stop = .ok (tag, 128, n) := by
      rw [readHead, if_neg (by omega), r1]
      simp only
      rw [r2]
      simp only
      rw [if_pos trivial, if_neg (by omega), r3]
      simp only
      congr 3
      push_cast; omega
    rw [readHeader, e]
    simp only [if_neg hu]
    rw [beq_false_of_ne hu]
  | rest _ zero _ ht hu h0 =>
    have hp2 := drop_prefix hp
    rw [h0.1] at hp2
    have hl : (zero ++ tag).length = 8 := by rw [List.length_append, h0.1, ht]
    rw [hl] at hroom hlast ⊢
    refine ⟨?_, by omega⟩
    have r1 := read_big data s hs k 4 _ zero h0 (by omega) (prefix_left hp) 32 rfl ((8 * k : Nat) : Int) rfl
    have r2 := htag tag (k + 4) ht hp2 (((8 * k : Nat) : Int) + 32) (by push_cast; ring)
    have hst := hlast rfl
    have e : readHead s (8 * k) stop = .ok (tag, 64, n) := by
      rw [readHead, if_neg (by omega), r1]
      simp only
      rw [r2]
      simp only
      rw [if_neg (by omega), if_pos trivial]
      congr 3
      subst hst
      push_cast; omega
    rw [readHeader, e]
    simp only [if_neg hu]
    rw [beq_false_of_ne hu]
  | shortId _ id size _ hi hsz =>
    have hp2 := drop_prefix hp
    rw [hsz.1] at hp2
    have hl : (size ++ (latin "uuid" ++ id)).length = 24 := by
      rw [List.length_append, List.length_append, hsz.1, latin_uuid_length, hi]
    rw [hl] at hroom ⊢
    refine ⟨?_, by omega⟩
    have r1 := read_big data s hs k 4 _ size hsz (by omega) (prefix_left hp) 32 rfl ((8 * k : Nat) : Int) rfl
    have r2 := htag _ (k + 4) latin_uuid_length (prefix_left hp2) (((8 * k : Nat) : Int) + 32) (by push_cast; ring)
    have e : readHead s (8 * k) stop = .ok (latin "uuid", 64, n + 16) := by
      rw [readHead, if_neg (by omega), r1]
      simp only
      rw [r2]
      simp only
      rw [if_neg (by omega), if_neg (by omega)]
      congr 3
      push_cast; omega
    rw [readHeader, e]
    simp only [if_true]
    rw [if_neg (by omega)]
    simp
  | longId _ id one size _ hi h1 hsz =>
    have hp2 := drop_prefix hp
    rw [h1.1] at hp2
    have hp3 := drop_prefix hp2
    rw [latin_uuid_length] at hp3
    have hl : (one ++ (latin "uuid" ++ (size ++ id))).length = 32 := by
      rw [List.length_append, List.length_append, List.length_append, h1.1, latin_uuid_length, hsz.1, hi]
    rw [hl] at hroom ⊢
    refine ⟨?_, by omega⟩
    have r1 := read_big data s hs k 4 _ one h1 (by omega) (prefix_left hp) 32 rfl ((8 * k : Nat) : Int) rfl
    have r2 := htag _ (k + 4) latin_uuid_length (prefix_left hp2) (((8 * k : Nat) : Int) + 32) (by push_cast; ring)
    have r3 := read_big data s hs (k + 4 + 4) 8 _ size hsz (by omega) (prefix_left hp3) 64 rfl (((8 * k : Nat) : Int) + 64) (by push_cast; ring)
    have e : readHead s (8 * k) stop = .ok (latin "uuid", 128, n + 16) := by
      rw [readHead, if_neg (by omega), r1]
      simp only
      rw [r2]
      simp only
      rw [if_pos trivial, if_neg (by omega), r3]
      simp only
      congr 3
      push_cast; omega
    rw [readHeader, e]
    simp only [if_true]
    rw [if_neg (by omega)]
    simp
  | restId id zero _ hi h0 =>
    have hp2 := drop_prefix hp
    rw [h0.1] at hp2
    have hl : (zero ++ (latin "uuid" ++ id)).length = 24 := by
      rw [List.length_append, List.length_append, h0.1, latin_uuid_length, hi]
    rw [hl] at hroom hlast ⊢
    refine ⟨?_, by omega⟩
    have r1 := read_big data s hs k 4 _ zero h0 (by omega) (prefix_left hp) 32 rfl ((8 * k : Nat) : Int) rfl
    have r2 := htag _ (k + 4) latin_uuid_length (prefix_left hp2) (((8 * k : Nat) : Int) + 32) (by push_cast; ring)
    have hst := hlast rfl
    have e : readHead s (8 * k) stop = .ok (latin "uuid", 64, n + 16) := by
      rw [readHead, if_neg (by omega), r1]
      simp only
      rw [r2]
      simp only
      rw [if_neg (by omega), if_pos trivial]
      congr 3
      subst hst
      push_cast; omega
    rw [readHeader, e]
    simp only [if_true]
    rw [if_neg (by omega)]
    simp

/-! ### The property -/

/-- C93: all atoms are found with tags, places, sizes and nesting. -/
theorem C93_atoms (data : Bytes) (s : InputStream) (hs : stringInputStream data = .ok s) {d k : Nat} {atoms : List Atom} {bs : Bytes}
    (h : AtomBytes d k atoms bs) : ∀ fuel : Nat, bs <+: data.drop k → bs.length < fuel →
    readAtoms s fuel d (8 * k) (8 * (k + bs.length)) = .ok atoms := by
  induction h with
  | nil d k =>
    intro fuel _ hfu
    obtain ⟨fuel, rfl⟩ : ∃ m, fuel = m + 1 := ⟨fuel - 1, by omega⟩
    rw [readAtoms, if_neg (by simp)]
  | empty d k tag head rest bs hh hr ih =>
    intro fuel hp hfu
    obtain ⟨fuel, rfl⟩ : ∃ m, fuel = m + 1 := ⟨fuel - 1, by omega⟩
    rw [List.length_append] at hfu ⊢
    obtain ⟨r, h0⟩ := readHeader_eq data s hs k 0 (8 * (k + (head.length + bs.length))) _ tag head hh (prefix_left hp) (by omega)
      (by intro hl; rw [beq_iff_eq] at hl; subst hl; simp)
    have g := ih fuel (drop_prefix hp) (by omega)
    rw [readAtoms, if_pos (by omega), r]
    simp only
    rw [if_neg (by simp), show 8 * k + 8 * head.length = 8 * (k + head.length) by ring,
      show k + (head.length + bs.length) = k + head.length + bs.length by ring, g]
  | plain d k tag head body rest bs hh hb hc hr ih =>
    intro fuel hp hfu
    obtain ⟨fuel, rfl⟩ : ∃ m, fuel = m + 1 := ⟨fuel - 1, by omega⟩
    rw [List.length_append, List.length_append] at hfu ⊢
    have hbl : 0 < body.length := List.length_pos_iff.2 hb
    obtain ⟨r, h0⟩ := readHeader_eq data s hs k body.length (8 * (k + (head.length + (body.length + bs.length)))) _ tag head hh
      (prefix_left hp) (by omega) (by intro hl; rw [beq_iff_eq] at hl; subst hl; simp; omega)
    have g := ih fuel (drop_prefix (drop_prefix hp)) (by omega)
    rw [readAtoms, if_pos (by omega), r]
    simp only [Int.toNat_natCast]
    have hc' : ¬ contentOf tag (tag == latin "uuid") = .atoms := hc
    rw [if_pos (by omega), if_neg (by omega), if_neg hc']
    simp only
    rw [show 8 * k + 8 * head.length + body.length * 8 = 8 * (k + head.length + body.length) by ring,
      show k + (head.length + (body.length + bs.length)) = k + head.length + body.length + bs.length by ring, g,
      Nat.mul_comm body.length 8]
    rfl
  | list d k tag head body inner rest bs hh hb hc hi hr ih1 ih2 =>
    intro fuel hp hfu
    obtain ⟨fuel, rfl⟩ : ∃ m, fuel = m + 1 := ⟨fuel - 1, by omega⟩
    rw [List.length_append, List.length_append] at hfu ⊢
    have hbl : 0 < body.length := List.length_pos_iff.2 hb
    obtain ⟨r, h0⟩ := readHeader_eq data s hs k body.length (8 * (k + (head.length + (body.length + bs.length)))) _ tag head hh
      (prefix_left hp) (by omega) (by intro hl; rw [beq_iff_eq] at hl; subst hl; simp; omega)
    have g1 := ih1 fuel (prefix_left (drop_prefix hp)) (by omega)
    have g2 := ih2 fuel (drop_prefix (drop_prefix hp)) (by omega)
    have hc' : contentOf tag (tag == latin "uuid") = .atoms := hc
    rw [readAtoms, if_pos (by omega), r]
    simp only [Int.toNat_natCast]
    rw [if_pos (by omega), if_neg (by omega), if_pos hc',
      show 8 * k + 8 * head.length + body.length * 8 = 8 * (k + head.length + body.length) by ring,
      show 8 * k + 8 * head.length = 8 * (k + head.length) by ring, g1]
    simp only
    rw [show k + (head.length + (body.length + bs.length)) = k + head.length + body.length + bs.length by ring, g2, hc',
      Nat.mul_comm body.length 8]

/-- C93: the boxes of ISO/IEC 14496-12 that contain boxes, but for `mvex`, are read as atoms; media
data and free space are not. -/
theorem C93_containers :
    (∀ t ∈ ["moov", "trak", "tref", "edts", "mdia", "minf", "dinf", "stbl", "moof", "traf", "mfra", "udta"], kindOfTag (latin t) = .atoms) ∧
    (∀ t ∈ ["mdat", "free", "skip", "uuid"], kindOfTag (latin t) = .raw) := by
  decide +kernel

/-! ### Example -/

/-- `moov` with a `free` of three bytes inside, then the rest of the file as `mdat`. -/
def sampleMovie : Bytes :=
  [0, 0, 0, 19, 109, 111, 111, 118, 0, 0, 0, 11, 102, 114, 101, 101, 1, 2, 3, 0, 0, 0, 0, 109, 100, 97, 116, 7, 7]

example : AtomBytes 0 0 [⟨0, latin "moov", 0, 64, 88, .atoms⟩, ⟨1, latin "free", 64, 64, 24, .raw⟩, ⟨0, latin "mdat", 152, 64, 16, .raw⟩]
    sampleMovie :=
  .list 0 0 (latin "moov") [0, 0, 0, 19, 109, 111, 111, 118] [0, 0, 0, 11, 102, 114, 101, 101, 1, 2, 3] [_] [_]
    [0, 0, 0, 0, 109, 100, 97, 116, 7, 7] (.short _ _ [0, 0, 0, 19] _ rfl (by decide) ⟨rfl, by decide⟩) (by simp) (by decide +kernel)
    (.plain 1 8 (latin "free") [0, 0, 0, 11, 102, 114, 101, 101] [1, 2, 3] [] [] (.short _ _ [0, 0, 0, 11] _ rfl (by decide) ⟨rfl, by decide⟩)
      (by simp) (by decide +kernel) (.nil _ _))
    (.plain 0 19 (latin "mdat") [0, 0, 0, 0, 109, 100, 97, 116] [7, 7] [] [] (.rest _ [0, 0, 0, 0] _ rfl (by decide) ⟨rfl, by decide⟩)
      (by simp) (by decide +kernel) (.nil _ _))

end Hachoir.Props
