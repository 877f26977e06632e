import Verif.Formats.Jpeg
import Verif.Props.JavaPool

/-!
# C94: chunks and image data of JPEG files
-/

set_option linter.unusedVariables false

namespace Hachoir.Props
open Hachoir Hachoir.Stream Hachoir.Formats Hachoir.Formats.Jpeg Spec

/-! ### Specification -/

/-- Entropy coded data: a byte FF is followed by 00. -/
inductive EntropyBytes : Bytes → Prop where
  | nil : EntropyBytes []
  | byte (b : UInt8) (bs : Bytes) (hb : b ≠ 0xff) (h : EntropyBytes bs) : EntropyBytes (b :: bs)
  | stuffed (bs : Bytes) (h : EntropyBytes bs) : EntropyBytes (0xff :: 0 :: bs)

/-- The markers with a number: start of a frame (all from C0 to CF but the tables C4 and CC and the
extension C8), start and end of the image, start of a scan, restarts. -/
def startsFrame (t : UInt8) : Bool := 0xc0 ≤ t && t ≤ 0xcf && t != 0xc4 && t != 0xc8 && t != 0xcc
def startsOrEnds (t : UInt8) : Bool := t == 0xd8 || t == 0xd9
def restarts (t : UInt8) : Bool := 0xd0 ≤ t && t ≤ 0xd7

/-- The rest of a file from byte `k` on, behind the chunk of a frame or not. -/
inductive JpegBytes : Bool → Nat → List Part → Bytes → Prop where
  | nil (frame : Bool) (k : Nat) : JpegBytes frame k [] []
  | bare (frame : Bool) (k : Nat) (t : UInt8) (ps : List Part) (bs : Bytes) (ht : startsOrEnds t = true)
      (hr : JpegBytes frame (k + 2) ps bs) : JpegBytes frame k (.chunk t.toNat (8 * k) 16 :: ps) ([0xff, t] ++ bs)
  | segment (frame : Bool) (k : Nat) (t : UInt8) (len content : Bytes) (ps : List Part) (bs : Bytes)
      (ht : startsOrEnds t = false ∧ restarts t = false ∧ t ≠ 0xda ∧ t ≠ 0) (hl : Big 2 (content.length + 2) len)
      (hf : startsFrame t = true → content ≠ []) (hx : t = 0xe1 → 6 ≤ content.length)
      (hr : JpegBytes (frame || startsFrame t) (k + (4 + content.length)) ps bs) :
      JpegBytes frame k (.chunk t.toNat (8 * k) (8 * (4 + content.length)) :: ps) ([0xff, t] ++ (len ++ (content ++ bs)))
  | scan (k : Nat) (len content ent : Bytes) (ps : List Part) (bs : Bytes)
      (hl : Big 2 (content.length + 2) len) (hc : content ≠ []) (he : EntropyBytes ent) (hn : ent ≠ [])
      (hr : JpegBytes true (k + (4 + content.length) + ent.length) ps bs) :
      JpegBytes true k (.chunk 0xda (8 * k) (8 * (4 + content.length)) ::
        .image (8 * (k + (4 + content.length))) (8 * ent.length) :: ps) ([0xff, 0xda] ++ (len ++ (content ++ (ent ++ bs))))
  | restart (frame : Bool) (k : Nat) (t : UInt8) (ent : Bytes) (ps : List Part) (bs : Bytes) (ht : restarts t = true)
      (he : EntropyBytes ent) (hn : ent ≠ []) (hr : JpegBytes frame (k + 2 + ent.length) ps bs) :
      JpegBytes frame k (.chunk t.toNat (8 * k) 16 :: .image (8 * (k + 2)) (8 * ent.length) :: ps) ([0xff, t] ++ (ent ++ bs))

/-! ### Markers -/

theorem uint8_all {P : UInt8 → Prop} (h : ∀ n : Fin 256, P (UInt8.ofNat n.val)) (t : UInt8) : P t := by
  have := h ⟨t.toNat, t.toNat_lt⟩
  simpa using this

theorem isFrame_eq (t : UInt8) : isFrame t.toNat = startsFrame t := by
  revert t; apply uint8_all; decide +kernel

theorem isRestart_eq (t : UInt8) : isRestart t.toNat = restarts t := by
  revert t; apply uint8_all; decide +kernel

theorem isBare_eq (t : UInt8) : isBare t.toNat = (startsOrEnds t || restarts t) := by
  revert t; apply uint8_all; decide +kernel

theorem bare_frame (t : UInt8) (h : startsOrEnds t = true ∨ restarts t = true ∨ t = 0xda) : startsFrame t = false ∧ t ≠ 0 := by
  revert t; apply uint8_all; decide +kernel

theorem bare_other (t : UInt8) (h : startsOrEnds t = true) : restarts t = false ∧ t ≠ 0xda ∧ t ≠ 0xe1 := by
  revert t; apply uint8_all; decide +kernel

theorem restart_other (t : UInt8) (h : restarts t = true) : t ≠ 0xe1 ∧ t ≠ 0xda := by
  revert t; apply uint8_all; decide +kernel

theorem jpeg_next {frame : Bool} {k : Nat} {ps : List Part} {bs : Bytes} (h : JpegBytes frame k ps bs) :
    bs = [] ∨ ∃ t rest, t ≠ 0 ∧ bs = 0xff :: t :: rest := by
  cases h with
  | nil => exact Or.inl rfl
  | bare _ _ t ps bs ht hr => exact Or.inr ⟨t, bs, (bare_frame t (Or.inl ht)).2, rfl⟩
  | segment _ _ t len content ps bs ht hl hf hx hr => exact Or.inr ⟨t, _, ht.2.2.2, rfl⟩
  | scan _ len content ent ps bs hl hc he hn hr => exact Or.inr ⟨0xda, _, by decide, rfl⟩
  | restart _ _ t ent ps bs ht he hn hr => exact Or.inr ⟨t, _, (bare_frame t (Or.inr (Or.inl ht))).2, rfl⟩

/-! ### Image data -/

theorem search_found (data : Bytes) (s : InputStream) (hs : stringInputStream data = .ok s) (b : UInt8) (k : Nat) (rest : Bytes)
    (h : data.drop k = b :: rest) (m : Nat) (hm : 8 * data.length ≤ m) :
    searchBytes s [b] ((8 * k : Nat) : Int) (some (m : Int)) = .ok (some ((8 * k : Nat) : Int)) := by
  have hk : k < data.length := by
    have := congrArg List.length h
    rw [List.length_drop, List.length_cons] at this
    omega
  obtain ⟨r, hr, hmatch⟩ := _root_.Props.C05_searchBytes data [b] s hs (by simp) k (some m) data.length (by simp only; omega) (by omega)
  have hr' : searchBytes s [b] ((8 * k : Nat) : Int) (some (m : Int)) = .ok r := hr
  have hp : [b] <+: data.drop k := by rw [h]; exact ⟨rest, rfl⟩
  rw [hr']
  cases r with
  | none => exact (hmatch k (by omega) (by simp only [List.length_singleton]; omega) hp).elim
  | some a =>
    obtain ⟨p, rfl, h1, h2, h3, h4⟩ := hmatch
    have : p = k := by
      rcases Nat.lt_or_eq_of_le h1 with hlt | heq
      · exact (h4 k (by omega) hlt hp).elim
      · exact heq.symm
    subst this; push_cast; rfl

theorem search_skip (data : Bytes) (s : InputStream) (hs : stringInputStream data = .ok s) (b c : UInt8) (k : Nat) (rest : Bytes)
    (h : data.drop k = c :: rest) (hne : c ≠ b) (m : Nat) (hm : 8 * data.length ≤ m) :
    searchBytes s [b] ((8 * k : Nat) : Int) (some (m : Int)) = searchBytes s [b] ((8 * (k + 1) : Nat) : Int) (some (m : Int)) := by
  have hk : k < data.length := by
    have := congrArg List.length h
    rw [List.length_drop, List.length_cons] at this
    omega
  obtain ⟨r, hr, hm1⟩ := _root_.Props.C05_searchBytes data [b] s hs (by simp) k (some m) data.length (by simp only; omega) (by omega)
  obtain ⟨r', hr', hm2⟩ := _root_.Props.C05_searchBytes data [b] s hs (by simp) (k + 1) (some m) data.length (by simp only; omega) (by omega)
  have e1 : searchBytes s [b] ((8 * k : Nat) : Int) (some (m : Int)) = .ok r := hr
  have e2 : searchBytes s [b] ((8 * (k + 1) : Nat) : Int) (some (m : Int)) = .ok r' := hr'
  have hno : ¬ [b] <+: data.drop k := by
    rw [h]
    rintro ⟨t, ht⟩
    simp only [List.singleton_append, List.cons.injEq] at ht
    exact hne ht.1.symm
  rw [e1, e2]
  cases r with
  | none =>
    cases r' with
    | none => rfl
    | some a =>
      obtain ⟨p, rfl, h1, h2, h3, h4⟩ := hm2
      exact (hm1 p (by omega) h2 h3).elim
  | some a =>
    obtain ⟨p, rfl, h1, h2, h3, h4⟩ := hm1
    have hpk : k + 1 ≤ p := by
      rcases Nat.lt_or_eq_of_le h1 with hlt | heq
      · exact hlt
      · subst heq; exact (hno h3).elim
    cases r' with
    | none => exact (hm2 p hpk h2 h3).elim
    | some a =>
      obtain ⟨q, rfl, g1, g2, g3, g4⟩ := hm2
      have : p = q := by
        rcases Nat.lt_trichotomy p q with hh | hh | hh
        · exact (g4 p hpk hh h3).elim
        · exact hh
        · exact (h4 q (by omega) hh g3).elim
      rw [this]

theorem search_end (data : Bytes) (s : InputStream) (hs : stringInputStream data = .ok s) (b : UInt8) (k : Nat)
    (h : data.drop k = []) (hk : k ≤ data.length) (m : Nat) (hm : 8 * data.length ≤ m) :
    searchBytes s [b] ((8 * k : Nat) : Int) (some (m : Int)) = .ok none := by
  obtain ⟨r, hr, hm1⟩ := _root_.Props.C05_searchBytes data [b] s hs (by simp) k (some m) data.length (by simp only; omega) hk
  have e1 : searchBytes s [b] ((8 * k : Nat) : Int) (some (m : Int)) = .ok r := hr
  rw [e1]
  cases r with
  | none => rfl
  | some a =>
    obtain ⟨p, rfl, h1, h2, h3, h4⟩ := hm1
    rw [List.drop_eq_nil_iff] at h
    simp only [List.length_singleton] at h2
    omega

/-- C94: image data ends at the first marker behind it, or at the end of the file. -/
theorem C94_image (data : Bytes) (s : InputStream) (hs : stringInputStream data = .ok s) (hmax : 8 * data.length ≤ maxBits)
    {ent : Bytes} (he : EntropyBytes ent) (next : Bytes) (hn : next = [] ∨ ∃ t rest, t ≠ 0 ∧ next = 0xff :: t :: rest) :
    ∀ (k fuel : Nat), data.drop k = ent ++ next → k ≤ data.length → ent.length < fuel →
      imageEnd s (8 * data.length) fuel (8 * k) = .ok (8 * (k + ent.length)) := by
  induction he with
  | nil =>
    intro k fuel hd hk hfu
    obtain ⟨fuel, rfl⟩ : ∃ m, fuel = m + 1 := ⟨fuel - 1, by omega⟩
    rw [List.nil_append] at hd
    rw [imageEnd]
    rcases hn with rfl | ⟨t, rest, ht, rfl⟩
    · rw [search_end data s hs 0xff k hd hk maxBits hmax]
      simp only
      rw [List.drop_eq_nil_iff] at hd
      simp only [List.length_nil, Nat.add_zero]
      rw [show data.length = k by omega]
    · rw [search_found data s hs 0xff k _ hd maxBits hmax]
      have hp : [0xff, t] <+: data.drop k := by rw [hd]; exact ⟨rest, rfl⟩
      have := readBytes_prefix data s hs k [0xff, t] hp
      simp only
      rw [show (2 : Nat) = ([0xff, t] : Bytes).length from rfl, this]
      simp only
      rw [if_neg (by simpa using ht), Int.toNat_natCast]
      simp
  | byte b bs hb he ih =>
    intro k fuel hd hk hfu
    obtain ⟨fuel, rfl⟩ : ∃ m, fuel = m + 1 := ⟨fuel - 1, by omega⟩
    rw [List.cons_append] at hd
    have hk1 : k < data.length := by
      have := congrArg List.length hd
      rw [List.length_drop, List.length_cons] at this
      omega
    have hd1 : data.drop (k + 1) = bs ++ next := by rw [← List.drop_drop, hd]; rfl
    rw [List.length_cons] at hfu ⊢
    have g := ih (k + 1) (fuel + 1) hd1 hk1 (by omega)
    rw [imageEnd] at g ⊢
    rw [search_skip data s hs 0xff b k _ hd hb maxBits hmax, g, show k + 1 + bs.length = k + (bs.length + 1) by ring]
  | stuffed bs he ih =>
    intro k fuel hd hk hfu
    obtain ⟨fuel, rfl⟩ : ∃ m, fuel = m + 1 := ⟨fuel - 1, by omega⟩
    rw [List.cons_append, List.cons_append] at hd
    rw [List.length_cons, List.length_cons] at hfu ⊢
    have hk2 : k + 2 ≤ data.length := by
      have := congrArg List.length hd
      rw [List.length_drop, List.length_cons, List.length_cons] at this
      omega
    have hd2 : data.drop (k + 2) = bs ++ next := by rw [← List.drop_drop, hd]; rfl
    have g := ih (k + 2) fuel hd2 hk2 (by omega)
    rw [imageEnd, search_found data s hs 0xff k _ hd maxBits hmax]
    have hp : [0xff, 0] <+: data.drop k := by rw [hd]; exact ⟨_, rfl⟩
    have := readBytes_prefix data s hs k [0xff, 0] hp
    simp only
    rw [show (2 : Nat) = ([0xff, 0] : Bytes).length from rfl, this]
    simp only
    rw [if_pos trivial, Int.toNat_natCast, show 8 * k + 16 = 8 * (k + 2) by ring, g, show k + 2 + bs.length = k + (bs.length + 1 + 1) by ring]

/-! ### Chunks -/

/-- C94: what does not begin with FF is no chunk. -/
theorem C94_no_marker (data : Bytes) (s : InputStream) (hs : stringInputStream data = .ok s) (k : Nat) (b : UInt8) (size : Nat)
    (hb : b ≠ 0xff) (hp : [b] <+: data.drop k) : readChunk s (8 * k) size = .error .parser := by
  have r1 := read_big data s hs k 1 _ [b] (big_byte b) (by omega) hp 8 rfl ((8 * k : Nat) : Int) rfl
  unfold readChunk
  by_cases h : size < 8 * k + 16
  · rw [if_pos h]
  · rw [if_neg h, r1]
    simp only
    rw [if_pos (show b.toNat ≠ 0xff from fun e => hb (UInt8.toNat_inj.1 e))]

theorem chunk_bare (data : Bytes) (s : InputStream) (hs : stringInputStream data = .ok s) (k : Nat) (t : UInt8) (size : Nat)
    (hsz : 8 * (k + 2) ≤ size) (ht : startsOrEnds t = true ∨ restarts t = true) (hp : [0xff, t] <+: data.drop k) :
    readChunk s (8 * k) size = .ok (t.toNat, 16, 0) := by
  have r1 := read_big data s hs k 1 _ [0xff] (big_byte 0xff) (by omega) (prefix_left (xs := [0xff]) (ys := [t]) hp) 8 rfl ((8 * k : Nat) : Int) rfl
  have r2 := read_big data s hs (k + 1) 1 _ [t] (big_byte t) (by omega) (tail_prefix hp) 8 rfl (((8 * k : Nat) : Int) + 8) (by push_cast; ring)
  have hb : isBare t.toNat = true := by
    rw [isBare_eq]; rcases ht with h | h <;> simp [h]
  have hx : ¬ t.toNat = 0xe1 := by
    intro h
    have h' : t = 0xe1 := by rw [← UInt8.toNat_inj, h]; rfl
    rcases ht with ht | ht
    · exact (bare_other t ht).2.2 h'
    · exact (restart_other t ht).1 h'
  rw [readChunk, if_neg (by omega), r1]
  simp only
  rw [if_neg (by decide), r2]
  simp only
  rw [if_neg hx]
  simp only
  rw [if_pos hb]

theorem chunk_segment (data : Bytes) (s : InputStream) (hs : stringInputStream data = .ok s) (k : Nat) (t : UInt8) (len content : Bytes)
    (size : Nat) (hsz : 8 * (k + (4 + content.length)) ≤ size) (ht : startsOrEnds t = false ∧ restarts t = false)
    (hl : Big 2 (content.length + 2) len) (hx : t = 0xe1 → 6 ≤ content.length) (hp : [0xff, t] ++ (len ++ content) <+: data.drop k) :
    readChunk s (8 * k) size = .ok (t.toNat, 8 * (4 + content.length), 8 * content.length) := by
  have hp0 := prefix_left hp
  have hp2 := drop_prefix hp
  have hp4 := drop_prefix hp2
  rw [hl.1, show ([0xff, t] : Bytes).length = 2 from rfl] at hp4
  have r1 := read_big data s hs k 1 _ [0xff] (big_byte 0xff) (by omega) (prefix_left (xs := [0xff]) (ys := [t]) hp0) 8 rfl ((8 * k : Nat) : Int) rfl
  have r2 := read_big data s hs (k + 1) 1 _ [t] (big_byte t) (by omega) (tail_prefix hp0) 8 rfl (((8 * k : Nat) : Int) + 8) (by push_cast; ring)
  have r3 := read_big data s hs (k + 2) 2 _ len hl (by omega) (prefix_left hp2) 16 rfl (((8 * k : Nat) : Int) + 16) (by push_cast; ring)
  have hb : ¬ isBare t.toNat = true := by
    rw [isBare_eq]; simp [ht]
  have hex : ∃ bs, (if t.toNat = 0xe1 then readBytes s (((8 * k : Nat) : Int) + 32) 6 else .ok []) = .ok bs := by
    by_cases h : t.toNat = 0xe1
    · have h' : t = 0xe1 := by rw [← UInt8.toNat_inj, h]; rfl
      rw [if_pos h, show ((8 * k : Nat) : Int) + 32 = ((8 * (k + 4) : Nat) : Int) by push_cast; ring, _root_.Props.C04_readBytes data s hs]
      have h6 := hx h'
      have := hp4.length_le
      rw [List.length_drop] at this
      rw [if_pos (Or.inl (by omega))]
      exact ⟨_, rfl⟩
    · rw [if_neg h]; exact ⟨_, rfl⟩
  obtain ⟨bs, hex⟩ := hex
  rw [readChunk, if_neg (by omega), r1]
  simp only
  rw [if_neg (by decide), r2]
  simp only
  rw [hex]
  simp only
  rw [if_neg hb, if_neg (by omega), r3]
  simp only
  by_cases hc : content.length = 0
  · rw [if_neg (by omega), hc]
  · rw [if_pos (by omega), if_neg (by omega)]
    rw [show content.length + 2 - 2 = content.length by omega, Nat.mul_comm content.length 8, show 32 + 8 * content.length = 8 * (4 + content.length) by ring]

/-! ### The property -/

/-- C94: the fields of a JPEG file are its chunks, with the image data behind scans and restart
markers. -/
theorem C94_parts (data : Bytes) (s : InputStream) (hs : stringInputStream data = .ok s) (hmax : 8 * data.length ≤ maxBits)
    {frame : Bool} {k : Nat} {ps : List Part} {bs : Bytes} (h : JpegBytes frame k ps bs) :
    ∀ fuel : Nat, data.drop k = bs → k ≤ data.length → bs.length < fuel →
      readParts s (8 * data.length) fuel frame (8 * k) = .ok ps := by
  induction h with
  | nil frame k =>
    intro fuel hd hk hfu
    obtain ⟨fuel, rfl⟩ : ∃ m, fuel = m + 1 := ⟨fuel - 1, by omega⟩
    rw [List.drop_eq_nil_iff] at hd
    rw [readParts, if_neg (by omega)]
  | bare frame k t ps bs ht hr ih =>
    intro fuel hd hk hfu
    obtain ⟨fuel, rfl⟩ : ∃ m, fuel = m + 1 := ⟨fuel - 1, by omega⟩
    have hlen := congrArg List.length hd
    rw [List.length_drop, List.length_append] at hlen
    rw [List.length_append] at hfu
    simp only [List.length_cons, List.length_nil] at hlen hfu
    have hd2 : data.drop (k + 2) = bs := by rw [← List.drop_drop, hd]; rfl
    obtain ⟨o1, o2, o3⟩ := bare_other t ht
    have oda : ¬ t.toNat = 0xda := fun h => o2 (by rw [← UInt8.toNat_inj, h]; rfl)
    have g := ih fuel hd2 (by omega) (by omega)
    rw [readParts, if_pos (by omega), chunk_bare data s hs k t _ (by omega) (Or.inl ht) (by rw [hd]; exact ⟨bs, rfl⟩)]
    simp only [isFrame_eq, isRestart_eq, (bare_frame t (Or.inl ht)).1, o1, Bool.false_and, Bool.or_false, Bool.false_eq_true, if_false,
      Bool.and_eq_true, beq_iff_eq, oda, false_and]
    rw [show 8 * k + 16 = 8 * (k + 2) by ring, g]
  | segment frame k t len content ps bs ht hl hf hx hr ih =>
    intro fuel hd hk hfu
    obtain ⟨fuel, rfl⟩ : ∃ m, fuel = m + 1 := ⟨fuel - 1, by omega⟩
    have hlen := congrArg List.length hd
    rw [List.length_drop, List.length_append, List.length_append, List.length_append, hl.1] at hlen
    rw [List.length_append, List.length_append, List.length_append, hl.1] at hfu
    simp only [List.length_cons, List.length_nil] at hlen hfu
    have hd2 : data.drop (k + (4 + content.length)) = bs := by
      rw [← List.drop_drop, hd, show [0xff, t] ++ (len ++ (content ++ bs)) = ([0xff, t] ++ len ++ content) ++ bs by simp,
        List.drop_append_of_le_length (by simp [hl.1]; omega), List.drop_of_length_le (by simp [hl.1]; omega)]
      rfl
    obtain ⟨o1, o2, o3, o4⟩ := ht
    have oda : ¬ t.toNat = 0xda := fun h => o3 (by rw [← UInt8.toNat_inj, h]; rfl)
    have g := ih fuel hd2 (by omega) (by omega)
    have hfc : ¬ (startsFrame t = true ∧ 8 * content.length = 0) := by
      rintro ⟨h1, h2⟩
      exact hf h1 (List.length_eq_zero_iff.1 (by omega))
    rw [readParts, if_pos (by omega), chunk_segment data s hs k t len content _ (by omega) ⟨o1, o2⟩ hl hx
      (by rw [hd]; exact ⟨bs, by simp⟩)]
    simp only [isFrame_eq, isRestart_eq, o2, Bool.or_false, Bool.and_eq_true, beq_iff_eq, oda, false_and, if_false, if_neg hfc]
    rw [show 8 * k + 8 * (4 + content.length) = 8 * (k + (4 + content.length)) by ring, g]
  | scan k len content ent ps bs hl hc he hn hr ih =>
    intro fuel hd hk hfu
    obtain ⟨fuel, rfl⟩ : ∃ m, fuel = m + 1 := ⟨fuel - 1, by omega⟩
    have hlen := congrArg List.length hd
    rw [List.length_drop, List.length_append, List.length_append, List.length_append, List.length_append, hl.1] at hlen
    rw [List.length_append, List.length_append, List.length_append, List.length_append, hl.1] at hfu
    simp only [List.length_cons, List.length_nil] at hlen hfu
    have hel : 0 < ent.length := List.length_pos_iff.2 hn
    have hcl : 0 < content.length := List.length_pos_iff.2 hc
    have hd2 : data.drop (k + (4 + content.length)) = ent ++ bs := by
      rw [← List.drop_drop, hd, show [0xff, 0xda] ++ (len ++ (content ++ (ent ++ bs))) = ([0xff, 0xda] ++ len ++ content) ++ (ent ++ bs) by simp,
        List.drop_append_of_le_length (by simp [hl.1]; omega), List.drop_of_length_le (by simp [hl.1]; omega)]
      rfl
    have hd3 : data.drop (k + (4 + content.length) + ent.length) = bs := by
      rw [← List.drop_drop, hd2, List.drop_left]
    have g1 := C94_image data s hs hmax he bs (jpeg_next hr) (k + (4 + content.length)) fuel hd2 (by omega) (by omega)
    have g2 := ih fuel hd3 (by omega) (by omega)
    have hc2 := chunk_segment data s hs k 0xda len content (8 * data.length) (by omega) (by decide) hl (fun h => absurd h (by decide))
      (by rw [hd]; exact ⟨ent ++ bs, by simp⟩)
    have hfc : ¬ ((0xda : UInt8).toNat = 0xda ∧ 8 * content.length = 0) := by omega
    rw [readParts, if_pos (by omega), hc2]
    have e1 : isFrame (0xda : UInt8).toNat = false := by decide
    have e2 : isRestart (0xda : UInt8).toNat = false := by decide
    have e3 : ((0xda : UInt8).toNat == 0xda) = true := by decide
    simp only [e1, e2, e3, Bool.false_and, Bool.false_eq_true, if_false, Bool.and_true, Bool.or_false, if_true, if_neg hfc]
    rw [show 8 * k + 8 * (4 + content.length) = 8 * (k + (4 + content.length)) by ring, g1]
    simp only
    rw [if_neg (by omega), g2]
    simp only
    rw [show 8 * (k + (4 + content.length) + ent.length) - 8 * (k + (4 + content.length)) = 8 * ent.length by omega]
    rfl
  | restart frame k t ent ps bs ht he hn hr ih =>
    intro fuel hd hk hfu
    obtain ⟨fuel, rfl⟩ : ∃ m, fuel = m + 1 := ⟨fuel - 1, by omega⟩
    have hlen := congrArg List.length hd
    rw [List.length_drop, List.length_append, List.length_append] at hlen
    rw [List.length_append, List.length_append] at hfu
    simp only [List.length_cons, List.length_nil] at hlen hfu
    have hel : 0 < ent.length := List.length_pos_iff.2 hn
    have hd2 : data.drop (k + 2) = ent ++ bs := by rw [← List.drop_drop, hd]; rfl
    have hd3 : data.drop (k + 2 + ent.length) = bs := by rw [← List.drop_drop, hd2, List.drop_left]
    have g1 := C94_image data s hs hmax he bs (jpeg_next hr) (k + 2) fuel hd2 (by omega) (by omega)
    have g2 := ih fuel hd3 (by omega) (by omega)
    have oda : ¬ t.toNat = 0xda := fun h => (restart_other t ht).2 (by rw [← UInt8.toNat_inj, h]; rfl)
    rw [readParts, if_pos (by omega), chunk_bare data s hs k t _ (by omega) (Or.inr ht) (by rw [hd]; exact ⟨ent ++ bs, rfl⟩)]
    simp only [isFrame_eq, isRestart_eq, (bare_frame t (Or.inr (Or.inl ht))).1, ht, Bool.false_and, Bool.or_false, Bool.false_eq_true, if_false,
      Bool.or_true, if_true, oda, false_and]
    rw [show 8 * k + 16 = 8 * (k + 2) by ring, g1]
    simp only
    rw [if_neg (by omega), g2]
    simp only
    rw [show 8 * (k + 2 + ent.length) - 8 * (k + 2) = 8 * ent.length by omega]

/-! ### Example -/

/-- Start, frame, scan with a stuffed byte, restart, end. -/
def sampleJpeg : Bytes :=
  [0xff, 0xd8, 0xff, 0xc0, 0, 3, 8, 0xff, 0xda, 0, 3, 1, 0x12, 0xff, 0, 0x34, 0xff, 0xd0, 0x56, 0xff, 0xd9]

example : JpegBytes false 0 [.chunk 0xd8 0 16, .chunk 0xc0 16 40, .chunk 0xda 56 40, .image 96 32, .chunk 0xd0 128 16, .image 144 8,
    .chunk 0xd9 152 16] sampleJpeg :=
  .bare false 0 0xd8 _ _ (by decide)
    (.segment false 2 0xc0 [0, 3] [8] _ _ (by decide) ⟨rfl, by decide⟩ (by simp) (by decide)
      (.scan 7 [0, 3] [1] [0x12, 0xff, 0, 0x34] _ _ ⟨rfl, by decide⟩ (by simp)
        (.byte 0x12 _ (by decide) (.stuffed _ (.byte 0x34 _ (by decide) .nil))) (by simp)
        (.restart true 16 0xd0 [0x56] _ _ (by decide) (.byte 0x56 _ (by decide) .nil) (by simp)
          (.bare true 19 0xd9 [] [] (by decide) (.nil true 21)))))

end Hachoir.Props
