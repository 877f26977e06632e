import Verif.Formats.Asn1
import Verif.Props.Bencode
import Verif.Props.PrefixInt
import Verif.Props.VarInt

/-!
# C78: ASN.1 data are read as the objects they encode

The specification `AsnBytes` says which bytes encode an object (X.690, definite lengths, any
form of the length, tags up to 30).
-/

set_option linter.unusedVariables false

namespace Hachoir.Props
open Hachoir Hachoir.Stream Hachoir.Formats Spec

/-! ### Specification -/

/-- Definite lengths: one byte, or the number of bytes and these bytes. -/
inductive LengthBytes : Nat → Bytes → Prop where
  | short (v : Nat) (h : v < 128) : LengthBytes v [UInt8.ofNat v]
  | long (xs : Bytes) (h1 : xs ≠ []) (h2 : xs.length ≤ 8) :
      LengthBytes (ofBytesBE xs) (UInt8.ofNat (128 + xs.length) :: xs)

/-- Contents that are not empty, by class, form (1 for constructed) and tag. -/
inductive LeafBytes : Nat → Nat → Nat → AsnLeaf → Bytes → Prop where
  | bool (form : Nat) (b : UInt8) : LeafBytes 0 form 1 (.bool b.toNat) [b]
  | int (form key : Nat) (xs : Bytes) (hk : key = 2 ∨ key = 10) (h1 : xs ≠ []) (h2 : xs.length ≤ 2048) :
      LeafBytes 0 form key (.int (twosComplement (8 * xs.length) (ofBytesBE xs))) xs
  | bits (form : Nat) (padding : UInt8) (xs : Bytes) :
      LeafBytes 0 form 3 (.bits padding.toNat (if xs = [] then none else some xs)) (padding :: xs)
  | octets (form : Nat) (xs : Bytes) (h1 : xs ≠ []) : LeafBytes 0 form 4 (.octets xs) xs
  | oid (form : Nat) (first : UInt8) (arcs : List (List Nat)) (h : ∀ ds ∈ arcs, Digits ds ∧ ds.length ≤ 8) :
      LeafBytes 0 form 6 (.oid first.toNat (arcs.map (ofDigitsBE 128))) (first :: arcs.flatMap groups)
  | ascii (form key : Nat) (xs : Bytes) (hk : key = 9 ∨ 18 ≤ key ∧ key ≤ 29) (h1 : xs ≠ []) :
      LeafBytes 0 form key (.text .ascii xs) xs
  | utf8 (form : Nat) (xs : Bytes) (h1 : xs ≠ []) : LeafBytes 0 form 12 (.text .utf8 xs) xs
  | bmp (form : Nat) (xs : Bytes) (h1 : xs ≠ []) : LeafBytes 0 form 30 (.text .utf16 xs) xs
  | raw (form key : Nat) (xs : Bytes)
      (hk : key = 0 ∨ key = 5 ∨ key = 7 ∨ key = 8 ∨ key = 11 ∨ 13 ≤ key ∧ key ≤ 15) (h1 : xs ≠ []) :
      LeafBytes 0 form key (.raw xs) xs
  | other (cls key : Nat) (xs : Bytes) (hc : cls ≠ 0) (h1 : xs ≠ []) :
      LeafBytes cls 0 key (.text .ascii xs) xs

/-- The first byte of an object. -/
def asnTag (cls form key : Nat) : UInt8 := UInt8.ofNat (64 * cls + 32 * form + key)

/-- Possible classes, forms and tags. -/
def TagOk (cls form key : Nat) : Prop := cls < 4 ∧ form < 2 ∧ key ≤ 30

mutual
/-- The bytes of an object: tag, length, content. -/
inductive AsnBytes : Asn → Bytes → Prop where
  | empty (cls form key : Nat) (lb : Bytes) (h1 : TagOk cls form key) (h2 : LengthBytes 0 lb) :
      AsnBytes (.leaf cls form key .empty) (asnTag cls form key :: lb)
  | leaf (cls form key : Nat) (v : AsnLeaf) (lb xs : Bytes) (h1 : TagOk cls form key)
      (h2 : LengthBytes xs.length lb) (h3 : LeafBytes cls form key v xs) :
      AsnBytes (.leaf cls form key v) (asnTag cls form key :: (lb ++ xs))
  | seq (cls form key : Nat) (l : Asns) (lb xs : Bytes) (h1 : TagOk cls form key)
      (hk : cls = 0 ∧ key = 16 ∨ cls ≠ 0 ∧ form = 1) (h2 : LengthBytes xs.length lb) (h3 : xs ≠ [])
      (h4 : AsnsBytes l xs) : AsnBytes (.seq cls form key l) (asnTag cls form key :: (lb ++ xs))
  | set (form : Nat) (l : Asns) (lb xs : Bytes) (h1 : TagOk 0 form 17)
      (h2 : LengthBytes xs.length lb) (h3 : xs ≠ []) (h4 : AsnsBytes l xs) :
      AsnBytes (.set 0 form 17 l) (asnTag 0 form 17 :: (lb ++ xs))
inductive AsnsBytes : Asns → Bytes → Prop where
  | nil : AsnsBytes .nil []
  | cons (o : Asn) (l : Asns) (bs cs : Bytes) (h1 : AsnBytes o bs) (h2 : AsnsBytes l cs) :
      AsnsBytes (.cons o l) (bs ++ cs)
end

mutual
/-- No set has more than one member. -/
def SmallSets : Asn → Prop
  | .leaf _ _ _ _ => True
  | .seq _ _ _ l => AllSmall l
  | .set _ _ _ .nil => True
  | .set _ _ _ (.cons o .nil) => SmallSets o
  | .set _ _ _ (.cons _ (.cons _ _)) => False
def AllSmall : Asns → Prop
  | .nil => True
  | .cons o l => SmallSets o ∧ AllSmall l
end

/-! ### Reading -/

theorem lengthBytes_ne (v : Nat) (bs : Bytes) (h : LengthBytes v bs) : bs ≠ [] := by
  cases h <;> simp

theorem asnInteger_length (data : Bytes) (s : InputStream) (hs : stringInputStream data = .ok s)
    (k v : Nat) (bs : Bytes) (h : LengthBytes v bs) (hp : bs <+: data.drop k) :
    asnInteger s (8 * k : Nat) = .ok (v, 8 * bs.length) := by
  obtain ⟨h1, h2, _⟩ := C55_asn1 data s hs k
  cases h with
  | short v hv => rw [h1 v hv hp]; rfl
  | long xs g1 g2 =>
    rw [h2 xs (List.length_pos_iff.2 g1) g2 hp]
    rfl

theorem asnTag_bits (cls form key : Nat) (h : TagOk cls form key) :
    (asnTag cls form key).toNat / 64 = cls ∧ (asnTag cls form key).toNat / 32 % 2 = form ∧
      (asnTag cls form key).toNat % 32 = key := by
  obtain ⟨h1, h2, h3⟩ := h
  have : (asnTag cls form key).toNat = 64 * cls + 32 * form + key := by
    unfold asnTag
    rw [UInt8.toNat_ofNat', Nat.mod_eq_of_lt (by omega)]
  rw [this]
  omega

theorem asnHeader_eq (data : Bytes) (s : InputStream) (hs : stringInputStream data = .ok s)
    (k cls form key v : Nat) (lb : Bytes) (h : TagOk cls form key) (hl : LengthBytes v lb)
    (hp : (asnTag cls form key :: lb) <+: data.drop k) (hd : AsnHandler) (hh : asnHandler cls form key = .ok hd) :
    asnHeader s (8 * k : Nat) = .ok (cls, form, key, hd, v, 8 + 8 * lb.length) := by
  obtain ⟨t1, t2, t3⟩ := asnTag_bits cls form key h
  obtain ⟨h1, h2, h3⟩ := h
  obtain ⟨bs, hdr, hx⟩ := cons_of_prefix hp
  have hd1 := drop_succ_of_cons data k _ bs hdr
  have hlt := (asnTag cls form key).toNat_lt
  unfold asnHeader
  rw [readBits_high data s hs k 0 2 (by omega) (by omega) _ (by omega), hdr]
  simp only
  rw [readBits_high data s hs k 2 1 (by omega) (by omega) _ (by push_cast; omega), hdr]
  simp only
  rw [readBits_high data s hs k 3 5 (by omega) (by omega) _ (by push_cast; omega), hdr]
  simp only [Nat.reduceSub, Nat.reducePow, Nat.div_one, t2, t3]
  rw [show (asnTag cls form key).toNat / 64 % 4 = cls by omega,
    show key &&& 31 = key by rw [Nat.and_two_pow_sub_one_eq_mod key 5]; omega, hh]
  simp only
  rw [addr_succ, asnInteger_length data s hs (k + 1) v lb hl (by rw [hd1]; exact hx)]

theorem oidItems_eq (data : Bytes) (s : InputStream) (hs : stringInputStream data = .ok s)
    (arcs : List (List Nat)) (h : ∀ ds ∈ arcs, Digits ds ∧ ds.length ≤ 8) (n k : Nat) (hn : arcs.length < n)
    (hp : arcs.flatMap groups <+: data.drop k) :
    oidItems s n (8 * k : Nat) ((8 * (arcs.flatMap groups).length : Nat) : Int) =
      .ok (arcs.map (ofDigitsBE 128)) := by
  induction arcs generalizing n k with
  | nil =>
    cases n with
    | zero => simp at hn
    | succ n => rw [oidItems, if_pos (by simp)]; rfl
  | cons ds arcs ih =>
    cases n with
    | zero => simp at hn
    | succ n =>
      rw [List.flatMap_cons] at hp ⊢
      obtain ⟨hd, hl⟩ := h ds (by simp)
      have hpos : 0 < (groups ds).length := by
        rw [length_groups]; exact List.length_pos_iff.2 hd.1
      have h1 : oidInteger s (8 * k : Nat) = .ok (ofDigitsBE 128 ds, 8 * ds.length) :=
        ((C54_oid data s hs k).1 _ _).2 ⟨ds, ⟨hd, hl, prefix_left hp⟩, rfl, rfl⟩
      rw [oidItems, if_neg (by rw [List.length_append]; omega), h1]
      simp only
      have h2 := ih (fun x hx => h x (by simp [hx])) n (k + ds.length) (by simpa using hn)
        (by have := drop_prefix hp; rwa [length_groups] at this)
      rw [show ((8 * k : Nat) : Int) + ((8 * ds.length : Nat) : Int) = ((8 * (k + ds.length) : Nat) : Int) by
          push_cast; ring,
        show ((8 * (groups ds ++ arcs.flatMap groups).length : Nat) : Int) - ((8 * ds.length : Nat) : Int) =
          ((8 * (arcs.flatMap groups).length : Nat) : Int) by
          rw [List.length_append, length_groups]; push_cast; ring, h2]
      rfl

theorem arcs_length (arcs : List (List Nat)) (h : ∀ ds ∈ arcs, Digits ds ∧ ds.length ≤ 8) :
    arcs.length ≤ (arcs.flatMap groups).length := by
  induction arcs with
  | nil => simp
  | cons ds arcs ih =>
    have := ih (fun x hx => h x (by simp [hx]))
    have hpos : 0 < (groups ds).length := by
      rw [length_groups]; exact List.length_pos_iff.2 (h ds (by simp)).1.1
    rw [List.flatMap_cons, List.length_append, List.length_cons]
    omega

theorem readInteger_bytes (data : Bytes) (s : InputStream) (hs : stringInputStream data = .ok s)
    (k : Nat) (xs : Bytes) (h1 : xs ≠ []) (hp : xs <+: data.drop k) :
    readInteger s (8 * k : Nat) true (xs.length * 8) .big =
      .ok (twosComplement (8 * xs.length) (ofBytesBE xs)) := by
  have hpos := List.length_pos_iff.2 h1
  obtain ⟨ht, hl⟩ := take_of_prefix hp
  unfold readInteger
  rw [Nat.mul_comm xs.length 8, readBits_bytes_big data s hs k xs.length hpos, if_pos hl, ht]
  simp only [if_true]
  rw [if_neg (by omega)]
  unfold twosComplement
  rw [Nat.one_shiftLeft, Nat.one_shiftLeft]
  by_cases h : ofBytesBE xs < 2 ^ (8 * xs.length - 1)
  · rw [if_neg (by omega), if_pos h]
  · rw [if_pos (by omega), if_neg h]
    congr 2

/-- The handler of a content, and what it makes of it. -/
theorem asnLeaf_eq (data : Bytes) (s : InputStream) (hs : stringInputStream data = .ok s)
    (cls form key : Nat) (v : AsnLeaf) (xs : Bytes) (h : LeafBytes cls form key v xs) (ht : TagOk cls form key)
    (n k : Nat) (hn : xs.length < n) (hp : xs <+: data.drop k) :
    xs ≠ [] ∧ ∃ hd, asnHandler cls form key = .ok hd ∧ hd ≠ .seq ∧ hd ≠ .set ∧
      asnLeaf s n hd (8 * k : Nat) xs.length = .ok v := by
  cases h with
  | bool form b =>
    refine ⟨by simp, .bool, rfl, by simp, by simp, ?_⟩
    obtain ⟨bs, hdr, hx⟩ := cons_of_prefix hp
    unfold asnLeaf
    simp only [List.length_singleton, ne_eq, not_true_eq_false, if_false]
    rw [readBits_byte data s hs k .big (by simp), hdr]
  | int form key xs hk h1 h2 =>
    refine ⟨h1, .int, ?_, by simp, by simp, ?_⟩
    · rcases hk with rfl | rfl <;> rfl
    · unfold asnLeaf
      simp only
      rw [if_neg (by omega), readInteger_bytes data s hs k xs h1 hp]
  | bits form padding xs =>
    refine ⟨by simp, .bits, rfl, by simp, by simp, ?_⟩
    obtain ⟨bs, hdr, hx⟩ := cons_of_prefix hp
    have hd1 := drop_succ_of_cons data k _ bs hdr
    unfold asnLeaf
    simp only
    rw [readBits_byte data s hs k .big (by simp), hdr]
    simp only [List.length_cons]
    by_cases hx0 : xs = []
    · subst hx0
      simp
    · have := List.length_pos_iff.2 hx0
      rw [if_pos (by omega), addr_succ, Nat.add_sub_cancel,
        readBytes_prefix data s hs (k + 1) xs (by rw [hd1]; exact hx), if_neg hx0]
  | octets form xs h1 =>
    refine ⟨h1, .octets, rfl, by simp, by simp, ?_⟩
    unfold asnLeaf
    simp only
    rw [readBytes_prefix data s hs k xs hp]
  | oid form first arcs h =>
    refine ⟨by simp, .oid, rfl, by simp, by simp, ?_⟩
    obtain ⟨bs, hdr, hx⟩ := cons_of_prefix hp
    have hd1 := drop_succ_of_cons data k _ bs hdr
    have hlen := arcs_length arcs h
    unfold asnLeaf
    simp only
    rw [readBits_byte data s hs k .big (by simp), hdr]
    simp only [List.length_cons] at hn ⊢
    rw [addr_succ, show (((arcs.flatMap groups).length + 1 : Nat) : Int) * 8 - 8 =
      ((8 * (arcs.flatMap groups).length : Nat) : Int) by push_cast; ring,
      oidItems_eq data s hs arcs h n (k + 1) (by omega) (by rw [hd1]; exact hx)]
  | ascii form key xs hk h1 =>
    refine ⟨h1, .text .ascii, ?_, by simp, by simp, ?_⟩
    · have : ∀ key : Fin 31, (key.val = 9 ∨ 18 ≤ key.val ∧ key.val ≤ 29) →
          asnHandler 0 0 key.val = .ok (.text .ascii) := by decide +kernel
      exact this ⟨key, by omega⟩ hk
    · unfold asnLeaf
      simp only
      rw [readBytes_prefix data s hs k xs hp]
  | utf8 form xs h1 =>
    refine ⟨h1, .text .utf8, rfl, by simp, by simp, ?_⟩
    unfold asnLeaf
    simp only
    rw [readBytes_prefix data s hs k xs hp]
  | bmp form xs h1 =>
    refine ⟨h1, .text .utf16, rfl, by simp, by simp, ?_⟩
    unfold asnLeaf
    simp only
    rw [readBytes_prefix data s hs k xs hp]
  | raw form key xs hk h1 =>
    refine ⟨h1, .raw, ?_, by simp, by simp, ?_⟩
    · have : ∀ key : Fin 31, (key.val = 0 ∨ key.val = 5 ∨ key.val = 7 ∨ key.val = 8 ∨ key.val = 11 ∨
          13 ≤ key.val ∧ key.val ≤ 15) → asnHandler 0 0 key.val = .ok .raw := by decide +kernel
      exact this ⟨key, by omega⟩ hk
    · unfold asnLeaf
      simp only
      rw [readBytes_prefix data s hs k xs hp]
  | other cls key xs hc h1 =>
    refine ⟨h1, .text .ascii, ?_, by simp, by simp, ?_⟩
    · unfold asnHandler
      rw [if_neg hc, if_neg (by decide)]
    · unfold asnLeaf
      simp only
      rw [readBytes_prefix data s hs k xs hp]

theorem asnBytes_pos (o : Asn) (bs : Bytes) (h : AsnBytes o bs) : 0 < bs.length := by
  cases h <;> simp

theorem addr_add (a b : Nat) : ((8 * a : Nat) : Int) + ((8 + 8 * b : Nat) : Int) = ((8 * (a + 1 + b) : Nat) : Int) := by
  push_cast; ring

theorem asn_eq (data : Bytes) (s : InputStream) (hs : stringInputStream data = .ok s) (n : Nat) :
    (∀ o bs k, AsnBytes o bs → SmallSets o → bs.length < n → bs <+: data.drop k →
      asnObject s n (8 * k : Nat) = .ok (o, 8 * bs.length)) ∧
    (∀ l bs k, AsnsBytes l bs → AllSmall l → bs.length + 1 < n → bs <+: data.drop k →
      asnItems s n (8 * k : Nat) ((8 * bs.length : Nat) : Int) = .ok l) := by
  induction n with
  | zero => exact ⟨fun o bs k _ _ h => by omega, fun l bs k _ _ h => by omega⟩
  | succ n ih =>
    obtain ⟨ih1, ih2⟩ := ih
    constructor
    · intro o bs k h hsm hn hp
      cases h with
      | empty cls form key lb h1 h2 =>
        obtain ⟨hd, hh⟩ : ∃ hd, asnHandler cls form key = .ok hd := by
          obtain ⟨_, _, h3⟩ := h1
          unfold asnHandler
          split
          · rw [if_neg (by omega)]; exact ⟨_, rfl⟩
          · split <;> exact ⟨_, rfl⟩
        rw [asnObject, asnHeader_eq data s hs k cls form key 0 lb h1 h2 hp hd hh]
        simp only [if_true, Except.ok.injEq, Prod.mk.injEq, true_and, List.length_cons]
        omega
      | leaf cls form key v lb xs h1 h2 h3 =>
        simp only [List.length_cons, List.length_append] at hn
        have hp1 : (asnTag cls form key :: lb) <+: data.drop k := prefix_left (ys := xs) (by simpa using hp)
        have hp2 : xs <+: data.drop (k + (asnTag cls form key :: lb).length) :=
          drop_prefix (xs := asnTag cls form key :: lb) (by simpa using hp)
        rw [show k + (asnTag cls form key :: lb).length = k + 1 + lb.length by
          rw [List.length_cons]; omega] at hp2
        obtain ⟨hne, hd, hh, hq, ht, hv⟩ := asnLeaf_eq data s hs cls form key v xs h3 h1 n _ (by omega) hp2
        have hpos := List.length_pos_iff.2 hne
        rw [asnObject, asnHeader_eq data s hs k cls form key xs.length lb h1 h2 hp1 hd hh]
        simp only
        rw [if_neg (by omega), addr_add]
        cases hd with
        | seq => exact absurd rfl hq
        | set => exact absurd rfl ht
        | _ =>
          simp only [hv, Except.ok.injEq, Prod.mk.injEq, true_and, List.length_cons, List.length_append]
          omega
      | seq cls form key l lb xs h1 hk h2 h3 h4 =>
        simp only [List.length_cons, List.length_append] at hn
        rw [SmallSets] at hsm
        have hlb := List.length_pos_iff.2 (lengthBytes_ne _ _ h2)
        have hp1 : (asnTag cls form key :: lb) <+: data.drop k := prefix_left (ys := xs) (by simpa using hp)
        have hp2 : xs <+: data.drop (k + (asnTag cls form key :: lb).length) :=
          drop_prefix (xs := asnTag cls form key :: lb) (by simpa using hp)
        rw [show k + (asnTag cls form key :: lb).length = k + 1 + lb.length by
          rw [List.length_cons]; omega] at hp2
        have hh : asnHandler cls form key = .ok .seq := by
          unfold asnHandler
          rcases hk with ⟨rfl, rfl⟩ | ⟨hc, rfl⟩
          · rfl
          · rw [if_neg hc, if_pos rfl]
        have hpos := List.length_pos_iff.2 h3
        rw [asnObject, asnHeader_eq data s hs k cls form key xs.length lb h1 h2 hp1 _ hh]
        simp only
        rw [if_neg (by omega), addr_add, Nat.mul_comm xs.length 8, ih2 l xs _ h4 hsm (by omega) hp2]
        simp only [Except.ok.injEq, Prod.mk.injEq, true_and, List.length_cons, List.length_append]
        omega
      | set form l lb xs h1 h2 h3 h4 =>
        simp only [List.length_cons, List.length_append] at hn
        have hp1 : (asnTag 0 form 17 :: lb) <+: data.drop k := prefix_left (ys := xs) (by simpa using hp)
        have hp2 : xs <+: data.drop (k + (asnTag 0 form 17 :: lb).length) :=
          drop_prefix (xs := asnTag 0 form 17 :: lb) (by simpa using hp)
        rw [show k + (asnTag 0 form 17 :: lb).length = k + 1 + lb.length by
          rw [List.length_cons]; omega] at hp2
        have hpos := List.length_pos_iff.2 h3
        rw [asnObject, asnHeader_eq data s hs k 0 form 17 xs.length lb h1 h2 hp1 .set rfl]
        simp only
        rw [if_neg (by omega), addr_add]
        cases h4 with
        | nil => exact absurd rfl h3
        | cons o l bs cs g1 g2 =>
          cases g2 with
          | nil =>
            rw [SmallSets] at hsm
            simp only [List.append_nil] at *
            rw [ih1 o bs _ g1 hsm (by omega) hp2]
            simp only [Except.ok.injEq, Prod.mk.injEq, true_and, List.length_cons, List.length_append]
            omega
          | cons o2 l2 cs1 cs2 g3 g4 =>
            rw [SmallSets] at hsm
            exact hsm.elim
    · intro l bs k h hsm hn hp
      cases h with
      | nil => rw [asnItems, if_pos (by simp)]
      | cons o l bs cs h1 h2 =>
        rw [AllSmall] at hsm
        rw [List.length_append] at hn
        have hpos := asnBytes_pos o bs h1
        rw [asnItems, if_neg (by rw [List.length_append]; omega), ih1 o bs k h1 hsm.1 (by omega) (prefix_left hp)]
        simp only
        rw [show ((8 * k : Nat) : Int) + ((8 * bs.length : Nat) : Int) = ((8 * (k + bs.length) : Nat) : Int) by
            push_cast; ring,
          show ((8 * (bs ++ cs).length : Nat) : Int) - ((8 * bs.length : Nat) : Int) = ((8 * cs.length : Nat) : Int) by
            rw [List.length_append]; push_cast; ring, ih2 l cs _ h2 hsm.2 (by omega) (drop_prefix hp)]

/-! ### Theorems -/

/-- C78: the bytes of an object are read as this object, with every object inside it, and the
field covers exactly these bytes, whatever stands before and behind.  Missing: sets of two and
more members. -/
theorem C78_objects_partial (data : Bytes) (s : InputStream) (hs : stringInputStream data = .ok s) (n k : Nat)
    (hn : data.length < n) (o : Asn) (bs : Bytes) (h : AsnBytes o bs) (hsm : SmallSets o)
    (hp : bs <+: data.drop k) : asnObject s n (8 * k : Nat) = .ok (o, 8 * bs.length) := by
  have := hp.length_le
  rw [List.length_drop] at this
  exact (asn_eq data s hs n).1 o bs k h hsm (by omega) hp

/-- A certificate's name: a sequence of a set of a sequence of an object identifier (2.5.4.3) and a
text, with a length in long form, behind another byte. -/
example : ∃ s, stringInputStream
    [0, 0x30, 0x81, 14, 0x31, 12, 0x30, 10, 6, 3, 0x55, 4, 3, 0x0c, 3, 0x66, 0x6f, 0x6f] = .ok s ∧
    asnObject s 19 ((8 * 1 : Nat) : Int) =
      .ok (.seq 0 1 16 (.cons (.set 0 1 17 (.cons (.seq 0 1 16 (.cons (.leaf 0 0 6 (.oid 0x55 [4, 3]))
        (.cons (.leaf 0 0 12 (.text .utf8 [0x66, 0x6f, 0x6f])) .nil))) .nil)) .nil), 136) := by
  refine ⟨_, rfl, ?_⟩
  have hoid := LeafBytes.oid 0 0x55 [[4], [3]] (by unfold Spec.Digits; decide)
  have h1 := AsnBytes.leaf 0 0 6 _ [3] [0x55, 4, 3] (by unfold TagOk; decide) (.short 3 (by decide)) hoid
  have h2 := AsnBytes.leaf 0 0 12 _ [3] [0x66, 0x6f, 0x6f] (by unfold TagOk; decide) (.short 3 (by decide))
    (.utf8 0 _ (by decide))
  have h3 := AsnBytes.seq 0 1 16 _ [10] [6, 3, 0x55, 4, 3, 0x0c, 3, 0x66, 0x6f, 0x6f] (by unfold TagOk; decide)
    (.inl ⟨rfl, rfl⟩) (.short 10 (by decide)) (by simp) (.cons _ _ _ _ h1 (.cons _ _ _ _ h2 .nil))
  have h4 := AsnBytes.set 1 _ [12] [0x30, 10, 6, 3, 0x55, 4, 3, 0x0c, 3, 0x66, 0x6f, 0x6f] (by unfold TagOk; decide)
    (.short 12 (by decide)) (by simp) (.cons _ _ _ _ h3 .nil)
  have h5 := AsnBytes.seq 0 1 16 _ [0x81, 14] [0x31, 12, 0x30, 10, 6, 3, 0x55, 4, 3, 0x0c, 3, 0x66, 0x6f, 0x6f]
    (by unfold TagOk; decide) (.inl ⟨rfl, rfl⟩) (.long [14] (by decide) (by decide)) (by simp)
    (.cons _ _ _ _ h4 .nil)
  exact C78_objects_partial
    [0, 0x30, 0x81, 14, 0x31, 12, 0x30, 10, 6, 3, 0x55, 4, 3, 0x0c, 3, 0x66, 0x6f, 0x6f] _ rfl 19 1 (by decide)
    _ _ h5 (by simp [SmallSets, AllSmall]) ⟨[], rfl⟩

/-- C78 (disagreement): of a set of two members only the first is read. -/
theorem C78_set :
    ∃ bs s, AsnBytes (.set 0 1 17 (.cons (.leaf 0 0 1 (.bool 255)) (.cons (.leaf 0 0 2 (.int 5)) .nil))) bs ∧
      stringInputStream bs = .ok s ∧
      asnObject s 9 ((8 * 0 : Nat) : Int) = .ok (.set 0 1 17 (.cons (.leaf 0 0 1 (.bool 255)) .nil), 64) := by
  refine ⟨[0x31, 6, 1, 1, 255, 2, 1, 5], _, ?_, rfl, by decide +kernel⟩
  have h1 := AsnBytes.leaf 0 0 1 _ [1] [255] (by unfold TagOk; decide) (.short 1 (by decide)) (.bool 0 255)
  have h2 := AsnBytes.leaf 0 0 2 _ [1] [5] (by unfold TagOk; decide) (.short 1 (by decide))
    (.int 0 2 [5] (.inl rfl) (by decide) (by decide))
  exact AsnBytes.set 1 _ [6] [1, 1, 255, 2, 1, 5] (by unfold TagOk; decide) (.short 6 (by decide))
    (by simp) (.cons _ _ _ _ h1 (.cons _ _ _ _ h2 .nil))

/-- C78 (disagreement): tags above 30 are refused in the universal class only.  The object with
the context tag 33, one byte long, is read as an object with tag 31 and 33 bytes. -/
theorem C78_bigTag :
    ∃ s, stringInputStream ([0x9f, 33, 1, 7] ++ List.replicate 40 0) = .ok s ∧
      asnObject s 9 ((8 * 0 : Nat) : Int) =
        .ok (.leaf 2 0 31 (.text .ascii ([1, 7] ++ List.replicate 31 0)), 280) ∧
      ∃ t, stringInputStream ([0x1f, 33, 1, 7] ++ List.replicate 40 0) = .ok t ∧
        asnObject t 9 ((8 * 0 : Nat) : Int) = .error .parser := by
  refine ⟨_, rfl, ?_, _, rfl, ?_⟩ <;> decide +kernel

end Hachoir.Props
