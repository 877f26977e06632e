import Verif.Formats.Mkv
import Verif.Props.PrefixInt
import Verif.Props.JavaPool
import Verif.Props.Float

/-!
# C96: elements and blocks of Matroska files
-/

set_option linter.unusedVariables false

namespace Hachoir.Props
open Hachoir Hachoir.Stream Hachoir.Formats Hachoir.Formats.Mkv Spec

/-! ### Specification -/

/-- A number of variable length: as many zeros as bytes follow, a one, the number. -/
def VintBytes (v : Nat) (bs : Bytes) : Prop :=
  ∃ h xs, xs.length ≤ 7 ∧ h < 2 ^ (7 - xs.length) ∧ bs = UInt8.ofNat (2 ^ (7 - xs.length) + h) :: xs ∧
    v = h * 256 ^ xs.length + ofBytesBE xs

/-- An identifier is the number with its marker; a count is not all ones, which means unknown; a
difference is stored with an offset. -/
def IdBytes (id : Nat) (bs : Bytes) : Prop := (∃ v, VintBytes v bs) ∧ id = ofBytesBE bs
def CountBytes (n : Nat) (bs : Bytes) : Prop := VintBytes n bs ∧ n ≠ 2 ^ (7 * bs.length) - 1
def UnknownBytes (bs : Bytes) : Prop := VintBytes (2 ^ (7 * bs.length) - 1) bs
def DiffBytes (d : Int) (bs : Bytes) : Prop := ∃ v, CountBytes v bs ∧ d = (v : Int) - (2 ^ (7 * bs.length - 1) - 1)

/-- The name of an identifier, and the dictionary for the elements inside. -/
inductive Named (schema : Schema) (dict id : Nat) : String → Option Nat → Prop where
  | listed (name : String) (child : Option Nat) (h : schema dict id = some (name, child)) : Named schema dict id name child
  | crc (h : schema dict id = none) (hi : id = 0xbf) : Named schema dict id "CRC-32[]" none
  | void (h : schema dict id = none) (hi : id = 0xec) : Named schema dict id "Void[]" none
  | slot (h : schema dict id = none) (hi : id = 0x1b538667) : Named schema dict id "SignatureSlot[]" (some signatureDict)
  | unknown (h : schema dict id = none) (hi : id ≠ 0xbf ∧ id ≠ 0xec ∧ id ≠ 0x1b538667) : Named schema dict id "Unknown[]" none

/-- Elements one behind the other from byte `k` on.  The length of the last one of level 0 may be
unknown. -/
inductive ElemBytes (schema : Schema) : Nat → Nat → Nat → List Elem → Bytes → Prop where
  | nil (d dict k : Nat) : ElemBytes schema d dict k [] []
  | leaf (d dict k id : Nat) (name : String) (idb szb body : Bytes) (rest : List Elem) (bs : Bytes) (hi : IdBytes id idb)
      (hz : CountBytes body.length szb) (hn : Named schema dict id name none)
      (hr : ElemBytes schema d dict (k + (idb.length + szb.length + body.length)) rest bs) :
      ElemBytes schema d dict k
        (⟨d, id, name, 8 * k, 8 * (idb.length + szb.length), 8 * (idb.length + szb.length + body.length)⟩ :: rest)
        (idb ++ (szb ++ (body ++ bs)))
  | master (d dict k id : Nat) (name : String) (child : Nat) (idb szb body : Bytes) (inner rest : List Elem) (bs : Bytes)
      (hi : IdBytes id idb) (hz : CountBytes body.length szb) (hn : Named schema dict id name (some child))
      (hb : ElemBytes schema (d + 1) child (k + (idb.length + szb.length)) inner body)
      (hr : ElemBytes schema d dict (k + (idb.length + szb.length + body.length)) rest bs) :
      ElemBytes schema d dict k
        (⟨d, id, name, 8 * k, 8 * (idb.length + szb.length), 8 * (idb.length + szb.length + body.length)⟩ :: (inner ++ rest))
        (idb ++ (szb ++ (body ++ bs)))
  | openLeaf (dict k id : Nat) (name : String) (idb szb body : Bytes) (hi : IdBytes id idb) (hz : UnknownBytes szb)
      (hn : Named schema dict id name none) :
      ElemBytes schema 0 dict k
        [⟨0, id, name, 8 * k, 8 * (idb.length + szb.length), 8 * (idb.length + szb.length + body.length)⟩] (idb ++ (szb ++ body))
  | openMaster (dict k id : Nat) (name : String) (child : Nat) (idb szb body : Bytes) (inner : List Elem) (hi : IdBytes id idb)
      (hz : UnknownBytes szb) (hn : Named schema dict id name (some child))
      (hb : ElemBytes schema 1 child (k + (idb.length + szb.length)) inner body) :
      ElemBytes schema 0 dict k
        (⟨0, id, name, 8 * k, 8 * (idb.length + szb.length), 8 * (idb.length + szb.length + body.length)⟩ :: inner)
        (idb ++ (szb ++ body))

/-- A file: the header with its elements, then elements of level 0. -/
inductive MkvBytes (schema : Schema) : List Elem → Bytes → Prop where
  | mk (id : Nat) (name : String) (child : Nat) (idb szb body : Bytes) (inner rest : List Elem) (bs : Bytes)
      (hi : IdBytes id idb) (hz : CountBytes body.length szb) (hn : Named schema headerDict id name (some child))
      (hb : ElemBytes schema 1 child (idb.length + szb.length) inner body)
      (hr : ElemBytes schema 0 levelDict (idb.length + szb.length + body.length) rest bs) :
      MkvBytes schema (⟨0, id, name, 0, 8 * (idb.length + szb.length), 8 * (idb.length + szb.length + body.length)⟩ :: (inner ++ rest))
        (idb ++ (szb ++ (body ++ bs)))

/-- Places of frames one behind the other. -/
def framePlaces : Nat → List Bytes → List (Nat × Nat)
  | _, [] => []
  | k, f :: fs => (8 * k, 8 * f.length) :: framePlaces (k + f.length) fs

/-- Differences between the sizes of frames. -/
inductive DiffsBytes : Nat → List Bytes → Bytes → Prop where
  | nil (n : Nat) : DiffsBytes n [] []
  | cons (n : Nat) (f : Bytes) (fs : List Bytes) (d bs : Bytes) (hd : DiffBytes ((f.length : Int) - n) d)
      (h : DiffsBytes f.length fs bs) : DiffsBytes n (f :: fs) (d ++ bs)

/-- The sizes in front of the frames: for Xiph and EBML those of all frames but the last. -/
inductive LaceBytes : Nat → List Bytes → Bytes → Prop where
  | xiph (fs : List Bytes) (last : Bytes) : LaceBytes 0 (fs ++ [last]) (fs.flatMap fun f => xiphBytes f.length)
  | fixed (m : Nat) (fs : List Bytes) (h0 : fs ≠ []) (h : ∀ f ∈ fs, f.length = m) : LaceBytes 1 fs []
  | ebml (f : Bytes) (fs : List Bytes) (last size diffs : Bytes) (hs : CountBytes f.length size) (hd : DiffsBytes f.length fs diffs) :
      LaceBytes 2 ((f :: fs) ++ [last]) (size ++ diffs)

/-! ### Numbers -/

theorem vint_length {v : Nat} {bs : Bytes} (h : VintBytes v bs) : 0 < bs.length := by
  obtain ⟨h, xs, _, _, rfl, _⟩ := h
  simp

theorem read_vint (data : Bytes) (s : InputStream) (hs : stringInputStream data = .ok s) (k v : Nat) (bs : Bytes) (h : VintBytes v bs)
    (hp : bs <+: data.drop k) (ad : Int) (had : ad = ((8 * k : Nat) : Int)) :
    rawIntSize s .big ad = .ok (8 * bs.length) ∧ readInteger s ad false (8 * bs.length) .big = .ok ((ofBytesBE bs : Nat) : Int) ∧
    mkvUnsigned s .big ad = .ok (if v = 2 ^ (7 * bs.length) - 1 then none else some (v : Int), 8 * bs.length) ∧
    mkvSigned s .big ad = .ok (if v = 2 ^ (7 * bs.length) - 1 then none else some ((v : Int) - (2 ^ (7 * bs.length - 1) - 1)), 8 * bs.length) := by
  subst had
  have hlen := vint_length h
  have h2 := read_unsigned data s hs .big k (ofBytesBE bs) bs (List.length_pos_iff.1 hlen) (by simp [numberIn]) hp _ rfl _ rfl
  obtain ⟨h, xs, hn, hh, rfl, rfl⟩ := h
  obtain ⟨h3, h4⟩ := C55_matroska data s hs k h xs hn hh hp
  obtain ⟨bs, hd, hx⟩ := cons_of_prefix hp
  have h1 := rawIntSize_eq data s hs k xs.length h hn hh _ bs hd (mkvHead_byte xs.length h hn hh)
  rw [List.length_cons] at *
  refine ⟨h1, h2, h3, ?_⟩
  rw [h4, show 7 * (xs.length + 1) - 1 = 7 * xs.length + 6 by omega]

/-! ### Elements -/

theorem lookUp_eq {schema : Schema} {dict id : Nat} {name : String} {child : Option Nat} (h : Named schema dict id name child) :
    lookUp schema dict id = (name, child) := by
  unfold lookUp
  cases h with
  | listed _ _ h => rw [h]
  | crc h hi => rw [h]; simp [hi]
  | void h hi => rw [h]; simp [hi]
  | slot h hi => rw [h]; simp [hi]
  | unknown h hi => rw [h]; simp [hi]

theorem elem_counted (data : Bytes) (s : InputStream) (hs : stringInputStream data = .ok s) (schema : Schema) (d dict k id n stop : Nat)
    (name : String) (child : Option Nat) (idb szb : Bytes) (hi : IdBytes id idb) (hz : CountBytes n szb)
    (hn : Named schema dict id name child) (hp : idb ++ szb <+: data.drop k) (hroom : 8 * (k + (idb.length + szb.length + n)) ≤ stop) :
    readElem s schema d dict (8 * k) stop =
      .ok (⟨d, id, name, 8 * k, 8 * (idb.length + szb.length), 8 * (idb.length + szb.length + n)⟩, child) := by
  obtain ⟨⟨v, hv⟩, rfl⟩ := hi
  obtain ⟨r1, r2, _, _⟩ := read_vint data s hs k v idb hv (prefix_left hp) _ rfl
  obtain ⟨_, _, r3, _⟩ := read_vint data s hs (k + idb.length) n szb hz.1 (drop_prefix hp) ((8 * k + 8 * idb.length : Nat) : Int) (by push_cast; ring)
  unfold readElem
  rw [r1]
  simp only
  rw [r2]
  simp only
  rw [r3, if_neg hz.2]
  simp only [Int.toNat_natCast]
  rw [lookUp_eq hn]
  simp only
  rw [if_neg (by omega)]
  congr 3 <;> ring

theorem elem_open (data : Bytes) (s : InputStream) (hs : stringInputStream data = .ok s) (schema : Schema) (dict k id n stop : Nat)
    (name : String) (child : Option Nat) (idb szb : Bytes) (hi : IdBytes id idb) (hz : UnknownBytes szb)
    (hn : Named schema dict id name child) (hp : idb ++ szb <+: data.drop k) (hroom : stop = 8 * (k + (idb.length + szb.length + n))) :
    readElem s schema 0 dict (8 * k) stop =
      .ok (⟨0, id, name, 8 * k, 8 * (idb.length + szb.length), 8 * (idb.length + szb.length + n)⟩, child) := by
  obtain ⟨⟨v, hv⟩, rfl⟩ := hi
  obtain ⟨r1, r2, _, _⟩ := read_vint data s hs k v idb hv (prefix_left hp) _ rfl
  obtain ⟨_, _, r3, _⟩ := read_vint data s hs (k + idb.length) _ szb hz (drop_prefix hp) ((8 * k + 8 * idb.length : Nat) : Int) (by push_cast; ring)
  unfold readElem
  rw [r1]
  simp only
  rw [r2]
  simp only
  rw [r3, if_pos rfl]
  simp only [Int.toNat_natCast]
  rw [lookUp_eq hn]
  simp only
  rw [if_neg (by simp), if_neg (by omega)]
  congr 3
  · ring
  · omega

/-- C96: an element of unknown size inside of another one is refused, though such clusters are usual in live streams. -/
theorem C96_open_inside (data : Bytes) (s : InputStream) (hs : stringInputStream data = .ok s) (schema : Schema)
    (depth dict k id stop : Nat) (hd : 0 < depth) (idb szb : Bytes) (hi : IdBytes id idb) (hz : UnknownBytes szb)
    (hp : idb ++ szb <+: data.drop k) : readElem s schema depth dict (8 * k) stop = .error .parser := by
  obtain ⟨⟨v, hv⟩, rfl⟩ := hi
  obtain ⟨r1, r2, _, _⟩ := read_vint data s hs k v idb hv (prefix_left hp) _ rfl
  obtain ⟨_, _, r3, _⟩ := read_vint data s hs (k + idb.length) _ szb hz (drop_prefix hp) ((8 * k + 8 * idb.length : Nat) : Int) (by push_cast; ring)
  unfold readElem
  rw [r1]
  simp only
  rw [r2]
  simp only
  rw [r3, if_pos rfl]
  simp only
  rw [if_pos (by omega)]

theorem id_length {id : Nat} {bs : Bytes} (h : IdBytes id bs) : 0 < bs.length := by
  obtain ⟨⟨v, hv⟩, _⟩ := h
  exact vint_length hv

/-- C96: the elements that are inside of some bytes are read, with those inside of them. -/
theorem C96_elements (data : Bytes) (s : InputStream) (hs : stringInputStream data = .ok s) (schema : Schema) {d dict k : Nat}
    {els : List Elem} {bs : Bytes} (h : ElemBytes schema d dict k els bs) :
    ∀ fuel, bs <+: data.drop k → bs.length < fuel → readElems s schema fuel d dict (8 * k) (8 * (k + bs.length)) = .ok els := by
  induction h with
  | nil d dict k =>
    intro fuel hp hfu
    obtain ⟨fuel, rfl⟩ : ∃ m, fuel = m + 1 := ⟨fuel - 1, by omega⟩
    rw [readElems, if_neg (by simp)]
  | leaf d dict k id name idb szb body rest bs hi hz hn hr ih =>
    intro fuel hp hfu
    obtain ⟨fuel, rfl⟩ : ∃ m, fuel = m + 1 := ⟨fuel - 1, by omega⟩
    have hil := id_length hi
    have hlen : (idb ++ (szb ++ (body ++ bs))).length = idb.length + szb.length + body.length + bs.length := by
      simp only [List.length_append]; omega
    rw [hlen] at hfu ⊢
    have p1 : idb ++ szb <+: data.drop k := prefix_left (ys := body ++ bs) (by simpa using hp)
    have p3 : bs <+: data.drop (k + (idb.length + szb.length + body.length)) := by
      have := drop_prefix (drop_prefix (drop_prefix hp))
      rwa [Nat.add_assoc, Nat.add_assoc, ← Nat.add_assoc idb.length] at this
    have g := ih fuel p3 (by omega)
    rw [readElems, if_pos (by omega), elem_counted data s hs schema d dict k id body.length _ name none idb szb hi hz hn p1 (by omega)]
    simp only
    rw [show 8 * k + 8 * (idb.length + szb.length + body.length) = 8 * (k + (idb.length + szb.length + body.length)) by ring,
      show k + (idb.length + szb.length + body.length + bs.length) = k + (idb.length + szb.length + body.length) + bs.length by ring, g]
    rfl
  | master d dict k id name child idb szb body inner rest bs hi hz hn hb hr ihb ih =>
    intro fuel hp hfu
    obtain ⟨fuel, rfl⟩ : ∃ m, fuel = m + 1 := ⟨fuel - 1, by omega⟩
    have hil := id_length hi
    have hlen : (idb ++ (szb ++ (body ++ bs))).length = idb.length + szb.length + body.length + bs.length := by
      simp only [List.length_append]; omega
    rw [hlen] at hfu ⊢
    have p1 : idb ++ szb <+: data.drop k := prefix_left (ys := body ++ bs) (by simpa using hp)
    have p2 : body ++ bs <+: data.drop (k + (idb.length + szb.length)) := by
      have := drop_prefix (drop_prefix hp)
      rwa [Nat.add_assoc] at this
    have p3 : bs <+: data.drop (k + (idb.length + szb.length + body.length)) := by
      have := drop_prefix p2
      rwa [Nat.add_assoc] at this
    have gb := ihb fuel (prefix_left p2) (by omega)
    have g := ih fuel p3 (by omega)
    rw [readElems, if_pos (by omega), elem_counted data s hs schema d dict k id body.length _ name (some child) idb szb hi hz hn p1 (by omega)]
    simp only
    rw [show 8 * k + 8 * (idb.length + szb.length) = 8 * (k + (idb.length + szb.length)) by ring,
      show 8 * k + 8 * (idb.length + szb.length + body.length) = 8 * (k + (idb.length + szb.length) + body.length) by ring, gb]
    simp only
    rw [show k + (idb.length + szb.length) + body.length = k + (idb.length + szb.length + body.length) by ring,
      show k + (idb.length + szb.length + body.length + bs.length) = k + (idb.length + szb.length + body.length) + bs.length by ring, g]
  | openLeaf dict k id name idb szb body hi hz hn =>
    intro fuel hp hfu
    obtain ⟨fuel, rfl⟩ : ∃ m, fuel = m + 1 := ⟨fuel - 1, by omega⟩
    have hil := id_length hi
    have hlen : (idb ++ (szb ++ body)).length = idb.length + szb.length + body.length := by
      simp only [List.length_append]; omega
    rw [hlen] at hfu ⊢
    obtain ⟨fuel, rfl⟩ : ∃ m, fuel = m + 1 := ⟨fuel - 1, by omega⟩
    have p1 : idb ++ szb <+: data.drop k := prefix_left (ys := body) (by simpa using hp)
    rw [readElems, if_pos (by omega), elem_open data s hs schema dict k id body.length _ name none idb szb hi hz hn p1 rfl]
    simp only
    rw [show 8 * k + 8 * (idb.length + szb.length + body.length) = 8 * (k + (idb.length + szb.length + body.length)) by ring,
      readElems, if_neg (by omega)]
    rfl
  | openMaster dict k id name child idb szb body inner hi hz hn hb ihb =>
    intro fuel hp hfu
    obtain ⟨fuel, rfl⟩ : ∃ m, fuel = m + 1 := ⟨fuel - 1, by omega⟩
    have hil := id_length hi
    have hlen : (idb ++ (szb ++ body)).length = idb.length + szb.length + body.length := by
      simp only [List.length_append]; omega
    rw [hlen] at hfu ⊢
    have p1 : idb ++ szb <+: data.drop k := prefix_left (ys := body) (by simpa using hp)
    have p2 : body <+: data.drop (k + (idb.length + szb.length)) := by
      have := drop_prefix (drop_prefix hp)
      rwa [Nat.add_assoc] at this
    have gb := ihb fuel p2 (by omega)
    have ge : readElems s schema fuel 0 dict (8 * (k + (idb.length + szb.length) + body.length)) (8 * (k + (idb.length + szb.length) + body.length)) = .ok [] := by
      obtain ⟨fuel, rfl⟩ : ∃ m, fuel = m + 1 := ⟨fuel - 1, by omega⟩
      rw [readElems, if_neg (by omega)]
    rw [readElems, if_pos (by omega), elem_open data s hs schema dict k id body.length _ name (some child) idb szb hi hz hn p1 rfl]
    simp only
    rw [show 8 * k + 8 * (idb.length + szb.length) = 8 * (k + (idb.length + szb.length)) by ring,
      show 8 * k + 8 * (idb.length + szb.length + body.length) = 8 * (k + (idb.length + szb.length) + body.length) by ring, gb]
    simp only
    rw [show k + (idb.length + szb.length + body.length) = k + (idb.length + szb.length) + body.length by ring, ge]
    simp

/-- C96: the elements of a file. -/
theorem C96_file (data : Bytes) (s : InputStream) (hs : stringInputStream data = .ok s) (schema : Schema) (els : List Elem)
    (h : MkvBytes schema els data) (fuel : Nat) (hfu : data.length < fuel) :
    readFile s schema fuel (8 * data.length) = .ok els := by
  obtain ⟨id, name, child, idb, szb, body, inner, rest, bs, hi, hz, hn, hb, hr⟩ := h
  have hil := id_length hi
  have hlen : (idb ++ (szb ++ (body ++ bs))).length = idb.length + szb.length + body.length + bs.length := by
    simp only [List.length_append]; omega
  have p0 : idb ++ (szb ++ (body ++ bs)) <+: (idb ++ (szb ++ (body ++ bs))).drop 0 := by rw [List.drop_zero]
  have p1 : idb ++ szb <+: (idb ++ (szb ++ (body ++ bs))).drop 0 := prefix_left (ys := body ++ bs) (by simp)
  have p2 : body ++ bs <+: (idb ++ (szb ++ (body ++ bs))).drop (idb.length + szb.length) := by
    have := drop_prefix (drop_prefix p0)
    rwa [Nat.zero_add] at this
  have p3 := drop_prefix p2
  have gb := C96_elements _ s hs schema hb fuel (prefix_left p2) (by omega)
  have g := C96_elements _ s hs schema hr fuel p3 (by omega)
  have e := elem_counted _ s hs schema 0 headerDict 0 id body.length (8 * (idb ++ (szb ++ (body ++ bs))).length) name (some child) idb szb
    hi hz hn p1 (by omega)
  rw [Nat.mul_zero] at e
  rw [readFile, e]
  simp only
  rw [gb]
  simp only
  rw [hlen, g]

/-! ### Blocks -/

theorem framesOf_eq (last : Bytes) (hl : last ≠ []) : ∀ (fs : List Bytes) (k : Nat), (∀ f ∈ fs, f ≠ []) →
    framesOf (8 * (k + (fs ++ [last]).flatten.length)) (8 * k) (fs.map fun f => (f.length : Int)) = .ok (framePlaces k (fs ++ [last])) := by
  have h0 : 0 < last.length := List.length_pos_iff.2 hl
  intro fs
  induction fs with
  | nil =>
    intro k hf
    simp only [List.map_nil, framesOf, List.nil_append, List.flatten_cons, List.flatten_nil, List.append_nil, framePlaces]
    rw [if_neg (by omega)]
    congr 3
    omega
  | cons f fs ih =>
    intro k hf
    have h1 : 0 < f.length := List.length_pos_iff.2 (hf f (by simp))
    have g := ih (k + f.length) (fun x hx => hf x (by simp [hx]))
    rw [List.map_cons, framesOf, List.cons_append, List.flatten_cons, List.length_append, framePlaces]
    rw [if_neg (by omega), Int.toNat_natCast, if_neg (by omega), show 8 * k + f.length * 8 = 8 * (k + f.length) by ring,
      show k + (f.length + (fs ++ [last]).flatten.length) = k + f.length + (fs ++ [last]).flatten.length by ring, g]
    simp only
    rw [Nat.mul_comm f.length 8]

theorem xiphSizes_eq (data : Bytes) (s : InputStream) (hs : stringInputStream data = .ok s) (fuel : Nat) (hfu : data.length < fuel) :
    ∀ (fs : List Bytes) (k : Nat), (fs.flatMap fun f => xiphBytes f.length) <+: data.drop k →
      xiphSizes s fuel fs.length (8 * k) =
        .ok (fs.map fun f => (f.length : Int), 8 * (k + (fs.flatMap fun f => xiphBytes f.length).length)) := by
  intro fs
  induction fs with
  | nil => intro k hp; simp [xiphSizes]
  | cons f fs ih =>
    intro k hp
    rw [List.flatMap_cons] at hp ⊢
    have hx := C55_xiph data s hs none f.length k fuel hfu (by simp) (prefix_left hp)
    have hl : (xiphBytes f.length).length = f.length / 255 + 1 := by simp [xiphBytes]
    have p := drop_prefix hp
    rw [hl] at p
    have g := ih _ p
    rw [List.length_cons, xiphSizes, hx]
    simp only
    rw [show 8 * k + 8 * (f.length / 255 + 1) = 8 * (k + (f.length / 255 + 1)) by ring, g]
    simp only [List.map_cons, List.length_append, hl]
    rw [Nat.add_assoc k]

theorem ebmlDiffs_eq (data : Bytes) (s : InputStream) (hs : stringInputStream data = .ok s) {n : Nat} {fs : List Bytes} {bs : Bytes}
    (h : DiffsBytes n fs bs) : ∀ k : Nat, bs <+: data.drop k →
      ebmlDiffs s fs.length n (8 * k) = .ok (fs.map fun f => (f.length : Int), 8 * (k + bs.length)) := by
  induction h with
  | nil n => intro k hp; simp [ebmlDiffs]
  | cons n f fs d bs hd h ih =>
    intro k hp
    obtain ⟨v, hv, hd⟩ := hd
    obtain ⟨_, _, _, r⟩ := read_vint data s hs k v d hv.1 (prefix_left hp) _ rfl
    have g := ih _ (drop_prefix hp)
    rw [List.length_cons, ebmlDiffs, r, if_neg hv.2, ← hd]
    simp only
    rw [show (n : Int) + ((f.length : Int) - n) = f.length by ring, show 8 * k + 8 * d.length = 8 * (k + d.length) by ring, g]
    simp only [List.map_cons, List.length_append]
    rw [Nat.add_assoc k]

theorem framePlaces_fixed (m : Nat) : ∀ (fs : List Bytes) (k : Nat), (∀ f ∈ fs, f.length = m) →
    framePlaces k fs = (List.range fs.length).map fun i => (8 * k + i * (m * 8), m * 8) := by
  intro fs
  induction fs with
  | nil => intro k h; rfl
  | cons f fs ih =>
    intro k h
    have h1 := h f (by simp)
    rw [framePlaces, ih (k + f.length) (fun x hx => h x (by simp [hx])), h1, List.length_cons, List.range_succ_eq_map, List.map_cons,
      List.map_map]
    congr 1
    · simp only [Nat.zero_mul, Nat.add_zero, Nat.mul_comm m 8]
    · apply List.map_congr_left
      intro i _
      simp only [Function.comp_apply, Prod.mk.injEq, and_true, Nat.succ_eq_add_one]
      ring

theorem flatten_fixed (m : Nat) : ∀ fs : List Bytes, (∀ f ∈ fs, f.length = m) → fs.flatten.length = fs.length * m := by
  intro fs
  induction fs with
  | nil => intro h; simp
  | cons f fs ih =>
    intro h
    rw [List.flatten_cons, List.length_append, ih (fun x hx => h x (by simp [hx])), h f (by simp), List.length_cons]
    ring

/-- C96: the frames of a lace are found, for all ways to store their sizes. -/
theorem C96_lace (data : Bytes) (s : InputStream) (hs : stringInputStream data = .ok s) (fuel : Nat) (hfu : data.length < fuel) (k kind : Nat)
    (fs : List Bytes) (head : Bytes) (h : LaceBytes kind fs head) (hne : ∀ f ∈ fs, f ≠ []) (hp : head ++ fs.flatten <+: data.drop k) :
    readLace s fuel kind (fs.length - 1) (8 * k) (8 * (head ++ fs.flatten).length) = .ok (framePlaces (k + head.length) fs) := by
  cases h with
  | xiph fs last =>
    have r := xiphSizes_eq data s hs fuel hfu fs k (prefix_left hp)
    have g := framesOf_eq last (hne last (by simp)) fs (k + (fs.flatMap fun f => xiphBytes f.length).length) (fun f hf => hne f (by simp [hf]))
    rw [readLace, if_pos rfl, show (fs ++ [last]).length - 1 = fs.length by simp, r]
    simp only
    rw [List.length_append, show 8 * k + 8 * ((fs.flatMap fun f => xiphBytes f.length).length + (fs ++ [last]).flatten.length)
      = 8 * (k + (fs.flatMap fun f => xiphBytes f.length).length + (fs ++ [last]).flatten.length) by ring, g]
  | fixed m fs h0 h =>
    have hpos : 0 < fs.length := List.length_pos_iff.2 h0
    have hm : 0 < m := by
      obtain ⟨f, hf⟩ := List.exists_mem_of_ne_nil fs h0
      rw [← h f hf]
      exact List.length_pos_iff.2 (hne f hf)
    rw [readLace, if_neg (by omega), if_pos rfl]
    simp only [List.nil_append, List.length_nil, Nat.add_zero]
    rw [flatten_fixed m fs h, show fs.length - 1 + 1 = fs.length by omega, Nat.mul_div_cancel_left _ (by omega),
      Nat.mul_div_cancel_left _ hpos, if_neg (by omega), framePlaces_fixed m fs k h]
  | ebml f fs last size diffs hsz hd =>
    have p : size ++ (diffs ++ ((f :: fs) ++ [last]).flatten) <+: data.drop k := by simpa using hp
    obtain ⟨_, _, r, _⟩ := read_vint data s hs k f.length size hsz.1 (prefix_left p) _ rfl
    have r2 := ebmlDiffs_eq data s hs hd _ (prefix_left (drop_prefix p))
    have g := framesOf_eq last (hne last (by simp)) (f :: fs) (k + size.length + diffs.length) (fun x hx => hne x (by
      rw [List.mem_append]; exact Or.inl hx))
    rw [readLace, if_neg (by omega), if_neg (by omega), r, if_neg hsz.2]
    simp only
    rw [show ((f :: fs) ++ [last]).length - 1 - 1 = fs.length by simp, show 8 * k + 8 * size.length = 8 * (k + size.length) by ring, r2]
    simp only
    rw [List.map_cons] at g
    rw [show 8 * k + 8 * ((size ++ diffs) ++ ((f :: fs) ++ [last]).flatten).length
      = 8 * (k + size.length + diffs.length + ((f :: fs) ++ [last]).flatten.length) by simp only [List.length_append]; ring, g]
    rw [List.length_append, Nat.add_assoc k]

theorem framesOf_length (stop : Nat) : ∀ (sizes : List Int) (addr : Nat) (l : List (Nat × Nat)), framesOf stop addr sizes = .ok l →
    l.length = sizes.length + 1 := by
  intro sizes
  induction sizes with
  | nil =>
    intro addr l h
    rw [framesOf] at h
    split at h
    · cases h
    · cases h; rfl
  | cons n sizes ih =>
    intro addr l h
    rw [framesOf] at h
    split at h
    · cases h
    · split at h
      · cases h
      · cases hr : framesOf stop (addr + n.toNat * 8) sizes with
        | error e => rw [hr] at h; cases h
        | ok l' =>
          rw [hr] at h
          cases h
          rw [List.length_cons, ih _ _ hr, List.length_cons]

/-- C96: a lace of the kind EBML with a single frame is never read as one frame. -/
theorem C96_single (s : InputStream) (fuel addr size : Nat) (l : List (Nat × Nat)) (h : readLace s fuel 2 0 addr size = .ok l) :
    2 ≤ l.length := by
  rw [readLace, if_neg (by omega), if_neg (by omega)] at h
  split at h
  · cases h
  · split at h
    · cases h
    · split at h
      · cases h
      · have := framesOf_length _ _ _ _ h
        rw [List.length_cons] at this
        omega

/-- C96: a block with lacing: track, time code and frames. -/
theorem C96_block (data : Bytes) (s : InputStream) (hs : stringInputStream data = .ok s) (fuel : Nat) (hfu : data.length < fuel)
    (k track time kind : Nat) (tb timeb : Bytes) (flags count : UInt8) (fs : List Bytes) (head : Bytes) (ht : CountBytes track tb)
    (htime : Big 2 time timeb) (hk : flags.toNat / 2 % 4 = kind + 1) (h : LaceBytes kind fs head) (hne : ∀ f ∈ fs, f ≠ [])
    (hc : count.toNat = fs.length - 1) (hp : tb ++ (timeb ++ ([flags, count] ++ (head ++ fs.flatten))) <+: data.drop k) :
    readBlock s fuel (8 * k) (8 * (tb ++ (timeb ++ ([flags, count] ++ (head ++ fs.flatten)))).length) =
      .ok (some (track : Int), twosComplement 16 time, framePlaces (k + tb.length + 4 + head.length) fs) := by
  have p1 := drop_prefix hp
  have p2 := drop_prefix p1
  rw [htime.1] at p2
  have p3 := drop_prefix p2
  obtain ⟨_, _, r1, _⟩ := read_vint data s hs k track tb ht.1 (prefix_left hp) _ rfl
  have r2 := read_big_signed data s hs _ 2 time timeb htime (by omega) (prefix_left p1) 16 rfl ((8 * k + 8 * tb.length : Nat) : Int) (by push_cast; ring)
  have p4 : [flags] <+: data.drop (k + tb.length + 2) := prefix_left (ys := [count]) (prefix_left (xs := [flags] ++ [count]) p2)
  have p5 : [count] <+: data.drop (k + tb.length + 2 + 1) := drop_prefix (xs := [flags]) (prefix_left (xs := [flags] ++ [count]) p2)
  have r3 := readBits_mid data s hs _ 5 2 [flags] p4 (by simp) (by simp) ((8 * k + 8 * tb.length + 21 : Nat) : Int) (by push_cast; ring)
  have r4 := read_big data s hs _ 1 _ [count] (big_byte count) (by omega) p5 8 rfl ((8 * k + 8 * tb.length + 24 : Nat) : Int) (by push_cast; ring)
  have e3 : ofBytesBE [flags] / 2 ^ (8 * [flags].length - 5 - 2) % 2 ^ 2 = kind + 1 := by
    rw [show ofBytesBE [flags] = flags.toNat by simp [ofBytesBE]]; simp only [List.length_singleton]; omega
  rw [e3] at r3
  have g := C96_lace data s hs fuel hfu _ kind fs head h hne p3
  rw [readBlock, r1, if_neg ht.2]
  simp only
  rw [r2]
  simp only
  rw [r3]
  simp only
  rw [if_pos (by omega), r4]
  simp only
  rw [Nat.add_sub_cancel, hc]
  have hl : (tb ++ (timeb ++ ([flags, count] ++ (head ++ fs.flatten)))).length = tb.length + 4 + (head ++ fs.flatten).length := by
    rw [List.length_append, List.length_append, List.length_append, htime.1]; simp only [List.length_cons, List.length_nil]; omega
  rw [show ([flags, count] : Bytes).length = 2 from rfl] at g
  rw [hl, show 8 * k + 8 * tb.length + 32 = 8 * (k + tb.length + 2 + 2) by ring,
    show 8 * (tb.length + 4 + (head ++ fs.flatten).length) - 8 * tb.length - 32 = 8 * (head ++ fs.flatten).length by omega, g]

/-! ### Examples -/

/-- Some identifiers. -/
def someIds : Schema
  | 0, 0x1a45dfa3 => some ("EBML[]", some 3)
  | 1, 0x18538067 => some ("Segment[]", some 4)
  | 3, 0x4286 => some ("EBMLVersion", none)
  | _, _ => none

/-- A header with a version, and a segment of unknown length with a void element of one byte. -/
def sampleMkv : Bytes :=
  [0x1a, 0x45, 0xdf, 0xa3, 0x84, 0x42, 0x86, 0x81, 1, 0x18, 0x53, 0x80, 0x67, 0x01, 0xff, 0xff, 0xff, 0xff, 0xff, 0xff, 0xff, 0xec, 0x81, 0]

theorem vint_small (v : Nat) (hv : v < 127) : CountBytes v [UInt8.ofNat (128 + v)] :=
  ⟨⟨v, [], by simp, by simp; omega, rfl, by simp [ofBytesBE]⟩, by simp; omega⟩

example : MkvBytes someIds [⟨0, 0x1a45dfa3, "EBML[]", 0, 40, 72⟩, ⟨1, 0x4286, "EBMLVersion", 40, 24, 32⟩,
    ⟨0, 0x18538067, "Segment[]", 72, 96, 120⟩, ⟨1, 0xec, "Void[]", 168, 16, 24⟩] sampleMkv :=
  .mk 0x1a45dfa3 "EBML[]" 3 [0x1a, 0x45, 0xdf, 0xa3] [0x84] [0x42, 0x86, 0x81, 1] [⟨1, 0x4286, "EBMLVersion", 40, 24, 32⟩]
    [⟨0, 0x18538067, "Segment[]", 72, 96, 120⟩, ⟨1, 0xec, "Void[]", 168, 16, 24⟩]
    [0x18, 0x53, 0x80, 0x67, 0x01, 0xff, 0xff, 0xff, 0xff, 0xff, 0xff, 0xff, 0xec, 0x81, 0]
    ⟨⟨_, 10, [0x45, 0xdf, 0xa3], by decide, by decide, rfl, rfl⟩, by decide⟩ (vint_small 4 (by omega)) (.listed _ _ rfl)
    (.leaf 1 3 5 0x4286 "EBMLVersion" [0x42, 0x86] [0x81] [1] [] [] ⟨⟨_, 2, [0x86], by decide, by decide, rfl, rfl⟩, by decide⟩
      (vint_small 1 (by omega)) (.listed _ _ rfl) (.nil 1 3 9))
    (.openMaster 1 9 0x18538067 "Segment[]" 4 [0x18, 0x53, 0x80, 0x67] [0x01, 0xff, 0xff, 0xff, 0xff, 0xff, 0xff, 0xff] [0xec, 0x81, 0]
      [⟨1, 0xec, "Void[]", 168, 16, 24⟩]
      ⟨⟨_, 8, [0x53, 0x80, 0x67], by decide, by decide, rfl, rfl⟩, by decide⟩
      ⟨0, [0xff, 0xff, 0xff, 0xff, 0xff, 0xff, 0xff], by decide, by decide, rfl, by decide⟩ (.listed _ _ rfl)
      (.leaf 1 4 21 0xec "Void[]" [0xec] [0x81] [0] [] [] ⟨⟨_, 108, [], by decide, by decide, rfl, rfl⟩, by decide⟩
        (vint_small 1 (by omega)) (.void rfl rfl) (.nil 1 4 24)))

/-- Frames of two, three and one bytes: the size 2 and the difference 1. -/
example : LaceBytes 2 [[1, 2], [3, 4, 5], [6]] [0x82, 0xc0] :=
  .ebml [1, 2] [[3, 4, 5]] [6] [0x82] [0xc0] (vint_small 2 (by omega))
    (.cons 2 [3, 4, 5] [] [0xc0] [] ⟨64, vint_small 64 (by omega), by decide⟩ (.nil 3))

/-- A cluster of unknown size. -/
example (s : InputStream) (hs : stringInputStream [0x1f, 0x43, 0xb6, 0x75, 0xff] = .ok s) :
    readElem s someIds 1 1 0 400 = .error .parser :=
  C96_open_inside _ s hs someIds 1 1 0 0x1f43b675 400 (by omega) [0x1f, 0x43, 0xb6, 0x75] [0xff]
    ⟨⟨_, 15, [0x43, 0xb6, 0x75], by decide, by decide, rfl, rfl⟩, by decide⟩ ⟨127, [], by decide, by decide, rfl, by decide⟩ (List.prefix_refl _)

end Hachoir.Props
