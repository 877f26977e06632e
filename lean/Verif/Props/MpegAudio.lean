import Verif.Formats.MpegAudio
import Verif.Props.Float
import Verif.Props.Exif

/-!
# C92: frames of MPEG audio files
-/

set_option linter.unusedVariables false

namespace Hachoir.Props
open Hachoir Hachoir.Stream Hachoir.Formats Hachoir.Formats.MpegAudio Spec

/-! ### Specification -/

/-- The values of the first 23 bits of a header, from the number of its first three bytes. -/
def hdrOf (v : Nat) : Hdr :=
  ⟨v / 2 ^ 13, v / 2 ^ 11 % 4, v / 2 ^ 9 % 4, v / 2 ^ 8 % 2, v / 2 ^ 4 % 16, v / 2 ^ 2 % 4, v / 2 % 2⟩

/-- Kilobits per second for the numbers 1 to 14. -/
def kbpsList (mpeg1 : Bool) (layer : Nat) : List Nat :=
  match mpeg1, layer with
  | true, 3 => (List.range 14).map fun i => 32 * (i + 1)
  | true, 2 => [32, 48, 56, 64, 80, 96, 112, 128, 160, 192, 224, 256, 320, 384]
  | true, _ => [32, 40, 48, 56, 64, 80, 96, 112, 128, 160, 192, 224, 256, 320]
  | false, 3 => [32, 48, 56, 64, 80, 96, 112, 128, 144, 160, 176, 192, 224, 256]
  | false, _ => (List.range 8).map (fun i => 8 * (i + 1)) ++ (List.range 6).map (fun i => 80 + 16 * i)

/-- Samples per second: those of MPEG 1, halved for MPEG 2 and again for MPEG 2.5. -/
def hertz (version rate : Nat) : Nat :=
  [44100, 48000, 32000].getD rate 0 / (if version = 3 then 1 else if version = 2 then 2 else 4)

/-- Samples of a frame. -/
def samplesOf (h : Hdr) : Nat := if h.layer = 3 then 384 else if h.layer = 1 ∧ h.version ≠ 3 then 576 else 1152

/-- Bytes of a slot. -/
def slotOf (h : Hdr) : Nat := if h.layer = 3 then 4 else 1

/-- The bytes of a frame: the slots for its samples at the bit rate, and the padding slot. -/
def isoSize (h : Hdr) : Nat :=
  slotOf h * (samplesOf h / 8 / slotOf h * ((kbpsList (h.version == 3) h.layer).getD (h.bitRate - 1) 0 * 1000) /
    hertz h.version h.samplingRate + h.padding)

/-- Values that are not reserved; bit rate 0 (free format) is not supported by the parser. -/
def Sized (h : Hdr) : Prop :=
  h.version ≠ 1 ∧ h.layer ≠ 0 ∧ h.bitRate ≠ 0 ∧ h.bitRate ≠ 15 ∧ h.samplingRate ≠ 3

instance (h : Hdr) : Decidable (Sized h) := inferInstanceAs (Decidable (_ ∧ _))

/-- Values of the widths of the fields. -/
structure InWidth (h : Hdr) : Prop where
  version : h.version < 4
  layer : h.layer < 4
  bitRate : h.bitRate < 16
  samplingRate : h.samplingRate < 4
  padding : h.padding < 2

/-- The header at the beginning of some bytes is one of a frame. -/
def FrameHeader (bs : Bytes) : Prop :=
  ∃ a b c d : UInt8, [a, b, c, d] <+: bs ∧ Sized (hdrOf (ofBytesBE [a, b, c])) ∧ ofBytesBE [a, b, c] / 2 ^ 13 = 2047 ∧ d.toNat % 4 ≠ 2

/-- Frames one behind the other, with their sizes in bytes; the file may end within the last one,
but not within the numbers that give its size. -/
inductive FrameBytes : List Nat → Bytes → Prop where
  | nil : FrameBytes [] []
  | cut (hdr body : Bytes) (h3 : hdr.length = 3) (hs : Sized (hdrOf (ofBytesBE hdr)))
      (n : Nat) (hn : (hdr ++ body).length = n) (hl : n < isoSize (hdrOf (ofBytesBE hdr))) : FrameBytes [n] (hdr ++ body)
  | cons (hdr body : Bytes) (h3 : hdr.length = 3) (hs : Sized (hdrOf (ofBytesBE hdr)))
      (n : Nat) (hn : (hdr ++ body).length = n) (hl : n = isoSize (hdrOf (ofBytesBE hdr))) (ns : List Nat) (bs : Bytes)
      (h : FrameBytes ns bs) : FrameBytes (n :: ns) ((hdr ++ body) ++ bs)

/-- Places from an address on. -/
def placesFrom : Nat → List Nat → List Place
  | _, [] => []
  | k, n :: ns => (8 * k, 8 * n) :: placesFrom (k + n) ns

/-! ### Sizes -/

/-- C92: the size of a frame is the one of the standards, and there is none for reserved values. -/
theorem C92_size (h : Hdr) (hw : InWidth h) : frameSize h = if Sized h then some (isoSize h) else none := by
  have key : ∀ v : Fin 4, ∀ l : Fin 4, ∀ b : Fin 16, ∀ r : Fin 4, ∀ p : Fin 2,
      frameSize ⟨0, v, l, 0, b, r, p⟩ = if Sized ⟨0, v, l, 0, b, r, p⟩ then some (isoSize ⟨0, v, l, 0, b, r, p⟩) else none := by
    decide +kernel
  obtain ⟨a, v, l, c, b, r, p⟩ := h
  exact key ⟨v, hw.version⟩ ⟨l, hw.layer⟩ ⟨b, hw.bitRate⟩ ⟨r, hw.samplingRate⟩ ⟨p, hw.padding⟩

theorem isoSize_big (h : Hdr) (hw : InWidth h) (hs : Sized h) : 4 ≤ isoSize h := by
  have key : ∀ v : Fin 4, ∀ l : Fin 4, ∀ b : Fin 16, ∀ r : Fin 4, ∀ p : Fin 2,
      Sized ⟨0, v, l, 0, b, r, p⟩ → 4 ≤ isoSize ⟨0, v, l, 0, b, r, p⟩ := by
    decide +kernel
  obtain ⟨a, v, l, c, b, r, p⟩ := h
  exact key ⟨v, hw.version⟩ ⟨l, hw.layer⟩ ⟨b, hw.bitRate⟩ ⟨r, hw.samplingRate⟩ ⟨p, hw.padding⟩ hs

example : isoSize ⟨2047, 3, 1, 1, 9, 0, 0⟩ = 417 ∧ isoSize ⟨2047, 3, 3, 1, 12, 1, 1⟩ = 388 := by decide +kernel

theorem hdrOf_width (v : Nat) : InWidth (hdrOf v) :=
  ⟨Nat.mod_lt _ (by norm_num), Nat.mod_lt _ (by norm_num), Nat.mod_lt _ (by norm_num), Nat.mod_lt _ (by norm_num), Nat.mod_lt _ (by norm_num)⟩

/-! ### Reading headers -/

/-- The bits of a number one group after the other. -/
def cutBits (v total : Nat) : Nat → List Nat → List Nat
  | _, [] => []
  | a, n :: ns => v / 2 ^ (total - a - n) % 2 ^ n :: cutBits v total (a + n) ns

theorem readBitList_eq (data : Bytes) (s : InputStream) (hs : stringInputStream data = .ok s)
    (k : Nat) (bs : Bytes) (hp : bs <+: data.drop k) (h0 : 0 < bs.length) (ns : List Nat) :
    ∀ a : Nat, a + ns.sum ≤ 8 * bs.length → ∀ ad : Int, ad = ((8 * k + a : Nat) : Int) →
      readBitList s ad ns = .ok (cutBits (ofBytesBE bs) (8 * bs.length) a ns) := by
  induction ns with
  | nil => intro a _ ad _; rfl
  | cons n ns ih =>
    intro a ha ad had
    rw [List.sum_cons] at ha
    rw [readBitList, readBits_mid data s hs k a n bs hp (by omega) h0 ad had]
    simp only
    rw [ih (a + n) (by omega) _ (by subst had; push_cast; ring)]
    rfl

theorem readHdr_eq (data : Bytes) (s : InputStream) (hs : stringInputStream data = .ok s)
    (k : Nat) (hdr : Bytes) (h3 : hdr.length = 3) (hp : hdr <+: data.drop k) (ad : Int) (had : ad = (8 * k : Nat)) :
    readHdr s ad = .ok (hdrOf (ofBytesBE hdr)) := by
  have hlt := ofBytesBE_lt hdr
  rw [h3] at hlt
  rw [readHdr, readBitList_eq data s hs k hdr hp (by omega) _ 0 (by rw [h3]; decide) ad (by rw [had]; rfl), h3]
  simp only [cutBits, hdrOf]
  congr 2
  exact Nat.mod_eq_of_lt (by rw [Nat.div_lt_iff_lt_mul (by norm_num)]; omega)

theorem frame_eq (data : Bytes) (s : InputStream) (hs : stringInputStream data = .ok s)
    (k stop : Nat) (hdr : Bytes) (h3 : hdr.length = 3) (hp : hdr <+: data.drop k) (hstop : 8 * k + 24 ≤ stop) :
    frame s (8 * k) stop = if Sized (hdrOf (ofBytesBE hdr)) then
      .ok (8 * k, min (8 * isoSize (hdrOf (ofBytesBE hdr))) (stop - 8 * k)) else .error .parser := by
  have hw := hdrOf_width (ofBytesBE hdr)
  rw [frame, if_neg (show ¬ stop < 8 * k + 23 by omega), readHdr_eq data s hs k hdr h3 hp _ (by push_cast; rfl)]
  simp only [C92_size _ hw]
  by_cases hsz : Sized (hdrOf (ofBytesBE hdr))
  · have := isoSize_big _ hw hsz
    simp only [if_pos hsz]
    rw [if_neg (by omega), Nat.mul_comm (isoSize _) 8]
  · simp only [if_neg hsz]

/-! ### Frames -/

/-- C92: frames one behind the other are found with their places; the last one may be cut. -/
theorem C92_frames (data : Bytes) (s : InputStream) (hs : stringInputStream data = .ok s) (ns : List Nat) (bs : Bytes)
    (hf : FrameBytes ns bs) : ∀ k fuel : Nat, bs <+: data.drop k → bs.length < fuel →
    frames s (8 * (k + bs.length)) fuel (8 * k) = .ok (placesFrom k ns) := by
  induction hf with
  | nil =>
    intro k fuel hp hfu
    obtain ⟨fuel, rfl⟩ : ∃ m, fuel = m + 1 := ⟨fuel - 1, by omega⟩
    rw [frames, if_neg (by simp)]; rfl
  | cut hdr body h3 hsz L hL hl =>
    intro k fuel hp hfu
    obtain ⟨fuel, rfl⟩ : ∃ m, fuel = m + 1 := ⟨fuel - 1, by omega⟩
    have hlen : (hdr ++ body).length = 3 + body.length := by rw [List.length_append, h3]
    rw [hL] at hfu hlen ⊢
    rw [frames, if_pos (by omega), frame_eq data s hs k _ hdr h3 (prefix_left hp) (by omega), if_pos hsz]
    simp only
    rw [show min (8 * isoSize (hdrOf (ofBytesBE hdr))) (8 * (k + L) - 8 * k) = 8 * L by omega]
    obtain ⟨fuel, rfl⟩ : ∃ m, fuel = m + 1 := ⟨fuel - 1, by omega⟩
    rw [frames, if_neg (by omega)]
    rfl
  | cons hdr body h3 hsz L hL hl ns bs h ih =>
    intro k fuel hp hfu
    obtain ⟨fuel, rfl⟩ : ∃ m, fuel = m + 1 := ⟨fuel - 1, by omega⟩
    have hlen : (hdr ++ body).length = 3 + body.length := by rw [List.length_append, h3]
    have hp2 := drop_prefix hp
    rw [List.length_append] at hfu
    rw [show ((hdr ++ body) ++ bs).length = (hdr ++ body).length + bs.length from List.length_append]
    rw [hL] at hfu hlen hp2 ⊢
    rw [frames, if_pos (by omega), frame_eq data s hs k _ hdr h3 (prefix_left (prefix_left hp)) (by omega), if_pos hsz]
    simp only
    rw [show min (8 * isoSize (hdrOf (ofBytesBE hdr))) (8 * (k + (L + bs.length)) - 8 * k) = 8 * L by omega,
      show 8 * k + 8 * L = 8 * (k + L) by ring, show k + (L + bs.length) = k + L + bs.length by ring,
      ih (k + L) fuel hp2 (by omega)]
    rfl

/-! ### Synchronisation -/

theorem validAt_eq (data : Bytes) (s : InputStream) (hs : stringInputStream data = .ok s) (k m : Nat) (hm : m ≤ data.length) :
    validAt s (8 * k) (8 * m) = true ↔ k + 4 ≤ m ∧ FrameHeader (data.drop k) := by
  rcases Nat.lt_or_ge m (k + 3) with h | h
  · -- no room for the size
    have : frame s (8 * k) (8 * m) = .error .parser := by rw [frame, if_pos (by omega)]
    rw [validAt, this]
    constructor
    · intro h; cases h
    · rintro ⟨h, -⟩; omega
  · obtain ⟨hdr, hhdr⟩ : ∃ hdr, (data.drop k).take 3 = hdr := ⟨_, rfl⟩
    have h3 : hdr.length = 3 := by rw [← hhdr, List.length_take, List.length_drop]; omega
    have hp : hdr <+: data.drop k := by rw [← hhdr]; exact List.take_prefix _ _
    have hf := frame_eq data s hs k (8 * m) hdr h3 hp (by omega)
    have hh := readHdr_eq data s hs k hdr h3 hp ((8 * k : Nat) : Int) rfl
    have fh : k + 4 ≤ m → ∀ d : UInt8, hdr ++ [d] <+: data.drop k → (FrameHeader (data.drop k) ↔
        Sized (hdrOf (ofBytesBE hdr)) ∧ ofBytesBE hdr / 2 ^ 13 = 2047 ∧ d.toNat % 4 ≠ 2) := by
      intro hk d hd
      constructor
      · rintro ⟨a, b, c, d', q1, q2, q3, q4⟩
        have e4 : hdr ++ [d] = [a, b, c, d'] := by
          rw [List.prefix_iff_eq_take] at hd q1
          rw [hd, q1]; simp [h3]
        have e3 : hdr = [a, b, c] := by
          have := congrArg (List.take 3) e4
          rwa [List.take_append_of_le_length (by omega), List.take_of_length_le (by omega)] at this
        have ed : d = d' := by subst e3; simpa using e4
        subst e3 ed
        exact ⟨q2, q3, q4⟩
      · rintro ⟨q2, q3, q4⟩
        match hdr, h3 with
        | [a, b, c], _ => exact ⟨a, b, c, d, hd, q2, q3, q4⟩
    rcases Nat.eq_or_lt_of_le h with h4 | h4
    · -- no room for the rest of the header
      have hn : validAt s (8 * k) (8 * m) = false := by
        rw [validAt, hf]
        by_cases hsz : Sized (hdrOf (ofBytesBE hdr))
        · have := isoSize_big _ (hdrOf_width _) hsz
          simp only [if_pos hsz]
          rw [if_pos (by omega)]
        · simp only [if_neg hsz]
      rw [hn]
      constructor
      · intro h; cases h
      · rintro ⟨h, -⟩; omega
    · obtain ⟨d, hd⟩ : ∃ d, hdr ++ [d] <+: data.drop k := by
        obtain ⟨rest, hr⟩ := hp
        cases rest with
        | nil =>
          have := congrArg List.length hr
          rw [List.length_append, List.length_drop, h3, List.length_nil] at this
          omega
        | cons d rest => exact ⟨d, rest, by rw [← hr]; simp⟩
      rw [fh (by omega) d hd]
      have hp2 := drop_prefix hd
      rw [h3] at hp2
      have he := readBits_mid data s hs (k + 3) 6 2 [d] hp2 (by simp) (by simp) (((8 * k : Nat) : Int) + 30) (by push_cast; ring)
      have hd4 : ofBytesBE [d] / 2 ^ (8 * [d].length - 6 - 2) % 2 ^ 2 = d.toNat % 4 := by
        simp [ofBytesBE]
      rw [hd4] at he
      rw [validAt, hf]
      by_cases hsz : Sized (hdrOf (ofBytesBE hdr))
      · have := isoSize_big _ (hdrOf_width _) hsz
        simp only [if_pos hsz]
        rw [if_neg (by omega), hh]
        simp only
        rw [he]
        simp only [Bool.and_eq_true, bne_iff_ne, ne_eq, beq_iff_eq]
        obtain ⟨g1, g2, g3, g4, g5⟩ := hsz
        constructor
        · rintro ⟨⟨⟨⟨⟨_, b⟩, _⟩, _⟩, _⟩, c⟩
          exact ⟨by omega, ⟨g1, g2, g3, g4, g5⟩, b, c⟩
        · rintro ⟨_, _, b, c⟩
          exact ⟨⟨⟨⟨⟨g2, b⟩, g1⟩, g5⟩, g3, g4⟩, c⟩
      · simp only [if_neg hsz]
        constructor
        · intro h; cases h
        · rintro ⟨-, h, -⟩; exact (hsz h).elim

theorem frameHeader_ff {bs : Bytes} (h : FrameHeader bs) : [(0xff : UInt8)] <+: bs := by
  obtain ⟨a, b, c, d, hp, -, h2, -⟩ := h
  have : a = 0xff := by
    rw [← UInt8.toNat_inj]
    have ha := a.toNat_lt
    have hb := b.toNat_lt
    have hc := c.toNat_lt
    simp only [ofBytesBE, List.length_cons, List.length_nil] at h2
    simp only [UInt8.reduceToNat]
    omega
  subst this
  exact (List.prefix_append [(0xff : UInt8)] [b, c, d]).trans hp

theorem findLoop_eq (data : Bytes) (s : InputStream) (hs : stringInputStream data = .ok s) (m last : Nat) (hm : m ≤ data.length) (hl : last ≤ data.length)
    (last' : Nat) (hl' : last = min (last' / 8) data.length) (fuel : Nat) :
    ∀ k size : Nat, k ≤ data.length → data.length - k < fuel → ∃ r, findLoop s (8 * m) last' fuel (8 * k) size = .ok r ∧
      match r with
      | some n => ∃ j, n = size + j ∧ k + j < last ∧ k + j + 4 ≤ m ∧ FrameHeader (data.drop (k + j)) ∧
          ∀ i, i < j → ¬ FrameHeader (data.drop (k + i))
      | none => ∀ j, k + j < last → k + j + 4 ≤ m → ¬ FrameHeader (data.drop (k + j)) := by
  induction fuel with
  | zero => intro k size _ h; omega
  | succ fuel ih =>
    intro k size hk hfu
    rw [findLoop]
    by_cases hlt : 8 * k < last'
    · rw [if_pos hlt]
      obtain ⟨r, hr, hmatch⟩ := _root_.Props.C05_searchBytes data [0xff] s hs (by simp) k (some last') (min last' (8 * data.length) / 8) rfl hk
      have hE : min last' (8 * data.length) / 8 = last := by omega
      rw [hE] at hmatch
      have hr' : searchBytes s [0xff] ((8 * k : Nat) : Int) (some (last' : Int)) = .ok r := hr
      unfold searchBytesLength
      rw [hr']
      cases r with
      | none =>
        refine ⟨none, rfl, fun j hj _ hh => hmatch (k + j) (by omega) (by simp; omega) (frameHeader_ff hh)⟩
      | some a =>
        obtain ⟨p, rfl, h1, h2, h3, h4⟩ := hmatch
        simp only [List.length_singleton] at h2
        have e1 : ((((8 * (p : Int) - ((8 * k : Nat) : Int)) / 8 + (if false = true then (([0xff] : Bytes).length : Int) else 0))).toNat) = p - k := by
          simp only [Bool.false_eq_true, if_false]; omega
        simp only [e1]
        rw [show 8 * k + (p - k) * 8 = 8 * p by omega]
        have hv := validAt_eq data s hs p m hm
        by_cases hval : validAt s (8 * p) (8 * m) = true
        · rw [if_pos hval]
          obtain ⟨g1, g2⟩ := hv.1 hval
          refine ⟨_, rfl, p - k, rfl, by omega, by omega, by rwa [show k + (p - k) = p by omega], ?_⟩
          intro i hi hh
          exact h4 (k + i) (by omega) (by omega) (frameHeader_ff hh)
        · rw [if_neg hval, show 8 * p + 8 = 8 * (p + 1) by ring]
          obtain ⟨r, hr2, hmatch⟩ := ih (p + 1) (size + (p - k) + 1) (by omega) (by omega)
          have hbad : ∀ i, k + i ≤ p → k + i + 4 ≤ m → ¬ FrameHeader (data.drop (k + i)) := by
            intro i hi him hh
            rcases Nat.lt_or_eq_of_le hi with hi | hi
            · exact h4 (k + i) (by omega) hi (frameHeader_ff hh)
            · rw [hi] at hh him
              exact hval (hv.2 ⟨him, hh⟩)
          refine ⟨r, hr2, ?_⟩
          cases r with
          | none =>
            intro j hj hjm
            rcases Nat.lt_or_ge p (k + j) with hpj | hpj
            · have := hmatch (k + j - (p + 1)) (by omega) (by omega)
              rwa [show p + 1 + (k + j - (p + 1)) = k + j by omega] at this
            · exact hbad j hpj hjm
          | some n =>
            obtain ⟨j, rfl, q1, q2, q3, q4⟩ := hmatch
            refine ⟨p - k + 1 + j, by omega, by omega, by omega, by rwa [show k + (p - k + 1 + j) = p + 1 + j by omega], ?_⟩
            intro i hi
            rcases Nat.lt_or_ge p (k + i) with hpi | hpi
            · have := q4 (k + i - (p + 1)) (by omega)
              rwa [show p + 1 + (k + i - (p + 1)) = k + i by omega] at this
            · exact hbad i hpi (by omega)
    · rw [if_neg hlt]
      exact ⟨none, rfl, fun j hj _ _ => by omega⟩

/-- C92: the search for a frame in the `m` bytes from byte `k` on returns the first place with the
header of a frame, looking at the first `k + 256` places. -/
theorem C92_sync (data : Bytes) (s : InputStream) (hs : stringInputStream data = .ok s) (k m fuel : Nat) (hm : k + m ≤ data.length)
    (hfu : data.length < fuel) :
    ∃ r, findSync s fuel (8 * k + 8 * m) (8 * k) (min (8 * k + 256 * 8) (8 * k + 8 * m)) = .ok r ∧
      match r with
      | some n => n < k + 256 ∧ n + 4 ≤ m ∧ FrameHeader (data.drop (k + n)) ∧ ∀ i, i < n → ¬ FrameHeader (data.drop (k + i))
      | none => ∀ n, n < k + 256 → n + 4 ≤ m → ¬ FrameHeader (data.drop (k + n)) := by
  have hE : (8 * k + min (8 * k + 256 * 8) (8 * k + 8 * m)) / 8 = 2 * k + min 256 m := by
    rcases Nat.le_total 256 m with h | h
    · rw [Nat.min_eq_left (by omega), Nat.min_eq_left h]; omega
    · rw [Nat.min_eq_right (by omega), Nat.min_eq_right h]; omega
  obtain ⟨r, hr, hmatch⟩ := findLoop_eq data s hs (k + m) _ hm (Nat.min_le_right _ _)
    (8 * k + min (8 * k + 256 * 8) (8 * k + 8 * m)) rfl fuel k 0 (by omega) (by omega)
  rw [hE] at hmatch
  refine ⟨r, by rw [findSync, ← hr]; congr 1; ring, ?_⟩
  cases r with
  | none =>
    intro n h1 h2
    exact hmatch n (by omega) (by omega)
  | some n =>
    obtain ⟨j, rfl, h1, h2, h3, h4⟩ := hmatch
    simp only [Nat.zero_add]
    exact ⟨by omega, by omega, h3, h4⟩

/-- C92: a file with other bytes in front of the frames: these are padding, and all frames are
found. -/
theorem C92_file (data : Bytes) (s : InputStream) (hs : stringInputStream data = .ok s) (k fuel : Nat) (junk bs : Bytes) (ns : List Nat)
    (hp : junk ++ bs <+: data.drop k) (hf : FrameBytes ns bs) (hh : FrameHeader bs) (hj : junk.length < k + 256)
    (hno : ∀ i, i < junk.length → ¬ FrameHeader (data.drop (k + i))) (hfu : data.length < fuel) :
    readAll s fuel (8 * k) (8 * (junk ++ bs).length) = .ok (junk.length, placesFrom (k + junk.length) ns) := by
  have hlen := hp.length_le
  rw [List.length_drop] at hlen
  have h4 : 4 ≤ bs.length := by
    obtain ⟨a, b, c, d, h, -⟩ := hh
    exact h.length_le
  rw [List.length_append] at hlen ⊢
  have hp2 := drop_prefix hp
  have hhd : FrameHeader (data.drop (k + junk.length)) := by
    obtain ⟨a, b, c, d, h, q⟩ := hh
    exact ⟨a, b, c, d, h.trans hp2, q⟩
  obtain ⟨r, hr, hmatch⟩ := C92_sync data s hs k (junk.length + bs.length) fuel (by omega) hfu
  rw [readAll, hr]
  cases r with
  | none => exact (hmatch junk.length hj (by omega) hhd).elim
  | some n =>
    obtain ⟨h1, h2, h3, h5⟩ := hmatch
    have : n = junk.length := by
      rcases Nat.lt_trichotomy n junk.length with h | h | h
      · exact (hno n h h3).elim
      · exact h
      · exact (h5 _ h hhd).elim
    subst this
    simp only
    rw [show 8 * k + 8 * (junk.length + bs.length) = 8 * (k + junk.length + bs.length) by ring,
      show 8 * k + 8 * junk.length = 8 * (k + junk.length) by ring,
      C92_frames data s hs ns bs hf (k + junk.length) fuel hp2 (by omega)]

/-! ### Examples -/

/-- A frame of MPEG 2 layer III with 8 kbit/s and 24 kHz has 24 bytes. -/
def smallFrame : Bytes := [0xff, 0xf3, 0x14, 0xc0] ++ List.replicate 20 0

theorem smallFrame_header (bs : Bytes) : FrameHeader (smallFrame ++ bs) :=
  ⟨0xff, 0xf3, 0x14, 0xc0, ⟨List.replicate 20 0 ++ bs, by simp [smallFrame]⟩, by decide +kernel, by decide +kernel, by decide⟩

example : FrameBytes [24, 24] (smallFrame ++ (smallFrame ++ [])) :=
  .cons [0xff, 0xf3, 0x14] ([0xc0] ++ List.replicate 20 0) rfl (by decide +kernel) 24 (by decide +kernel) (by decide +kernel) [24] _
    (.cons [0xff, 0xf3, 0x14] ([0xc0] ++ List.replicate 20 0) rfl (by decide +kernel) 24 (by decide +kernel) (by decide +kernel) [] _ .nil)

example : FrameBytes [24, 5] (smallFrame ++ [0xff, 0xf3, 0x14, 0xc0, 0]) :=
  .cons [0xff, 0xf3, 0x14] ([0xc0] ++ List.replicate 20 0) rfl (by decide +kernel) 24 (by decide +kernel) (by decide +kernel) [5] _
    (.cut [0xff, 0xf3, 0x14] [0xc0, 0] rfl (by decide +kernel) 5 (by decide +kernel) (by decide +kernel))

end Hachoir.Props
