import Verif.Formats.JpegBlock
import Verif.Props.Huffman
import Verif.Props.JavaPool
import Verif.Props.Float

/-!
# C95: Huffman coded blocks of JPEG files
-/

set_option linter.unusedVariables false

namespace Hachoir.Props
open Hachoir Hachoir.Stream Hachoir.Archive Hachoir.Formats Hachoir.Formats.Jpeg Spec

/-! ### Specification -/

/-- The address is behind a byte FF. -/
def BehindFF (data : Bytes) (a : Nat) : Prop := a % 8 = 0 ∧ [0xff] <+: data.drop (a / 8 - 1)

/-- The bits of entropy coded data from an address on: a byte 00 behind FF does not count.  The
address behind them, and how many bytes are left out. -/
inductive Stuffed (data : Bytes) : Nat → List Bool → Nat → Nat → Prop where
  | nil (a : Nat) : Stuffed data a [] a 0
  | bit (a : Nat) (b : Bool) (bits : List Bool) (e n : Nat) (hf : ¬ BehindFF data a) (hb : BitsAt .big data a [b])
      (hr : Stuffed data (a + 1) bits e n) : Stuffed data a (b :: bits) e n
  | skip (a : Nat) (b : Bool) (bits : List Bool) (e n : Nat) (hf : BehindFF data a) (hz : [0] <+: data.drop (a / 8))
      (hb : BitsAt .big data (a + 8) [b]) (hr : Stuffed data (a + 9) bits e n) : Stuffed data a (b :: bits) e (n + 1)

/-- A table: the lengths of the codes, and what they stand for. -/
structure Coding where
  lengths : List Nat
  values : List Nat

/-- The dictionary has the canonical codes. -/
def Coding.Of (c : Coding) (t : Table) : Prop :=
  ∀ ln w v, t.get (ln, w) = some v ↔
    ∃ i, HasCode c.lengths i ∧ c.lengths.getD i 0 = ln ∧ codeOf c.lengths i = w ∧ c.values.getD i 0 = v

/-- The code of the symbol with number `i` lies between two addresses, with a stuffed byte at most. -/
def CodeAt (data : Bytes) (c : Coding) (a i e : Nat) : Prop :=
  HasCode c.lengths i ∧ ∃ n, n ≤ 1 ∧ Stuffed data a (codeWord c.lengths i) e n

/-- T.81, F.1.2.1: the values of a category, and the additional bits. -/
def Category (sz : Nat) (v : Int) : Prop := 2 ^ (sz - 1) ≤ v.natAbs ∧ v.natAbs < 2 ^ sz
def extraBits (sz : Nat) (v : Int) : List Bool := toBitsMSB sz (if 0 < v then v.toNat else (v + 2 ^ sz - 1).toNat)

/-- Codes of the AC coefficients from number `n` on: fields, coefficients, end. -/
inductive AcAt (data : Bytes) (c : Coding) : Nat → Nat → List Fld → List Int → Nat → Prop where
  | full (a : Nat) : AcAt data c a 63 [] [] a
  | stop (a n i e : Nat) (hn : n < 63) (hc : CodeAt data c a i e) (hv : c.values.getD i 0 = 0) :
      AcAt data c a n [.code a (e - a) (codeOf c.lengths i) 0] [] e
  | coef (a n i e r sz : Nat) (v : Int) (flds : List Fld) (vs : List Int) (stop : Nat) (hn : n + r < 63) (hc : CodeAt data c a i e)
      (hv : c.values.getD i 0 = 16 * r + sz) (hs : 0 < sz ∧ sz < 16) (hcat : Category sz v)
      (hx : Stuffed data e (extraBits sz v) (e + sz) 0) (hr : AcAt data c (e + sz) (n + r + 1) flds vs stop) :
      AcAt data c a n (.code a (e - a) (codeOf c.lengths i) (16 * r + sz) :: .extra e sz v :: flds) (List.replicate r 0 ++ v :: vs) stop
  | zeros (a n i e : Nat) (flds : List Fld) (vs : List Int) (stop : Nat) (hn : n + 15 < 63) (hc : CodeAt data c a i e)
      (hv : c.values.getD i 0 = 0xf0) (hr : AcAt data c e (n + 16) flds vs stop) :
      AcAt data c a n (.code a (e - a) (codeOf c.lengths i) 0xf0 :: flds) (List.replicate 16 0 ++ vs) stop

/-- A block: fields, DC difference, AC coefficients, end. -/
inductive BlockAt (data : Bytes) (dc ac : Coding) : Nat → List Fld → Int → List Int → Nat → Prop where
  | zero (a i e : Nat) (flds : List Fld) (vs : List Int) (stop : Nat) (hc : CodeAt data dc a i e) (hv : dc.values.getD i 0 = 0)
      (hr : AcAt data ac e 0 flds vs stop) : BlockAt data dc ac a (.code a (e - a) (codeOf dc.lengths i) 0 :: flds) 0 vs stop
  | diff (a i e sz : Nat) (v : Int) (flds : List Fld) (vs : List Int) (stop : Nat) (hc : CodeAt data dc a i e)
      (hv : dc.values.getD i 0 = sz) (hs : 0 < sz) (hcat : Category sz v) (hx : Stuffed data e (extraBits sz v) (e + sz) 0)
      (hr : AcAt data ac (e + sz) 0 flds vs stop) :
      BlockAt data dc ac a (.code a (e - a) (codeOf dc.lengths i) sz :: .extra e sz v :: flds) v vs stop

/-- The lengths of the codes: as many of length 1, 2, … as the counts say. -/
def countedLengths (counts : List UInt8) : List Nat :=
  counts.zipIdx.flatMap fun p => List.replicate p.1.toNat (p.2 + 1)

/-- A table in a file: class and index, sixteen counts, the values. -/
def TableBytes (cls index : Nat) (counts values bs : Bytes) : Prop :=
  ∃ b : UInt8, b.toNat = 16 * cls + index ∧ index < 16 ∧ counts.length = 16 ∧ values.length = (countedLengths counts).length ∧
    bs = [b] ++ (counts ++ values)

/-! ### Codes -/

theorem bitsAt_length {data : Bytes} {a : Nat} {bits : List Bool} (h : BitsAt .big data a bits) (hne : bits ≠ []) :
    a + bits.length ≤ 8 * data.length := by
  have := h.length_le
  rw [List.length_drop, streamBits, length_bitsMSB] at this
  have : 0 < bits.length := List.length_pos_iff.2 hne
  omega

theorem skip_no (data : Bytes) (s : InputStream) (hs : stringInputStream data = .ok s) (a : Nat) (h0 : 0 < a) (ha : a < 8 * data.length)
    (hf : ¬ BehindFF data a) : skipStuffed s a = .ok (a, false) := by
  unfold skipStuffed
  by_cases h8 : a % 8 = 0
  · rw [if_pos h8]
    have hk : a / 8 - 1 < data.length := by omega
    have hd : data.drop (a / 8 - 1) = data[a / 8 - 1] :: data.drop (a / 8 - 1 + 1) := List.drop_eq_getElem_cons hk
    have hp : [data[a / 8 - 1]] <+: data.drop (a / 8 - 1) := by rw [hd]; exact ⟨_, rfl⟩
    have : readBytes s ((8 * (a / 8 - 1) : Nat) : Int) 1 = _ := readBytes_prefix data s hs _ _ hp
    rw [show ((a : Int) - 8) = ((8 * (a / 8 - 1) : Nat) : Int) by omega, this]
    simp only
    rw [if_neg]
    intro h
    rw [h] at hp
    exact hf ⟨h8, hp⟩
  · rw [if_neg h8]

theorem skip_yes (data : Bytes) (s : InputStream) (hs : stringInputStream data = .ok s) (a : Nat) (h0 : 0 < a)
    (hf : BehindFF data a) (hz : [0] <+: data.drop (a / 8)) : skipStuffed s a = .ok (a + 8, true) := by
  unfold skipStuffed
  rw [if_pos hf.1]
  have h8 := hf.1
  have r1 : readBytes s ((8 * (a / 8 - 1) : Nat) : Int) 1 = _ := readBytes_prefix data s hs _ _ hf.2
  have r2 : readBytes s ((8 * (a / 8) : Nat) : Int) 1 = _ := readBytes_prefix data s hs _ _ hz
  rw [show ((a : Int) - 8) = ((8 * (a / 8 - 1) : Nat) : Int) by omega, r1]
  simp only
  rw [if_pos trivial, show (a : Int) = ((8 * (a / 8) : Nat) : Int) by omega, r2]
  simp only
  rw [if_neg (by simp)]

theorem codeLoop_word (data : Bytes) (s : InputStream) (hs : stringInputStream data = .ok s) (t : Table) (real : Nat)
    {a : Nat} {rest : List Bool} {e n : Nat} (h : Stuffed data a rest e n) :
    ∀ (pre : List Bool) (fuel : Nat) (met : Bool), 0 < a → rest.length ≤ fuel →
      (∀ k, k < rest.length → t.get ((pre ++ rest.take k).length, ofBitsMSB (pre ++ rest.take k)) = none) →
      t.get ((pre ++ rest).length, ofBitsMSB (pre ++ rest)) = some real →
      codeLoop s t fuel a pre.length (ofBitsMSB pre) met =
        .ok (if met = true ∨ 0 < n then (pre ++ rest).length + 8 else (pre ++ rest).length, ofBitsMSB (pre ++ rest), real) ∧
      e = a + rest.length + 8 * n := by
  induction h with
  | nil a =>
    intro pre fuel met h0 hfu hno hyes
    simp only [List.append_nil] at hyes ⊢
    unfold codeLoop
    rw [hyes]
    simp
  | bit a b bits e n hf hb hr ih =>
    intro pre fuel met h0 hfu hno hyes
    have g0 := hno 0 (by simp)
    simp only [List.take_zero, List.append_nil] at g0
    rw [List.length_cons] at hfu
    obtain ⟨fuel, rfl⟩ : ∃ m, fuel = m + 1 := ⟨fuel - 1, by omega⟩
    have hlen := bitsAt_length hb (by simp)
    rw [List.length_singleton] at hlen
    have hval : (ofBitsMSB pre <<< 1) + b.toNat = ofBitsMSB (pre ++ [b]) := by
      rw [ofBitsMSB_append, Nat.shiftLeft_eq]; simp [ofBitsMSB]
    obtain ⟨g, ge⟩ := ih (pre ++ [b]) fuel met (by omega) (by omega) (by
      intro k hk
      have := hno (k + 1) (by simpa using hk)
      simpa using this) (by simpa using hyes)
    unfold codeLoop
    rw [g0]
    simp only
    rw [skip_no data s hs a h0 (by omega) hf]
    simp only
    rw [readBit_at hs (by simp) hb]
    simp only [Bool.or_false]
    rw [hval, show pre.length + 1 = (pre ++ [b]).length by simp, g]
    refine ⟨by simp, by rw [ge, List.length_cons]; omega⟩
  | skip a b bits e n hf hz hb hr ih =>
    intro pre fuel met h0 hfu hno hyes
    have g0 := hno 0 (by simp)
    simp only [List.take_zero, List.append_nil] at g0
    rw [List.length_cons] at hfu
    obtain ⟨fuel, rfl⟩ : ∃ m, fuel = m + 1 := ⟨fuel - 1, by omega⟩
    have hval : (ofBitsMSB pre <<< 1) + b.toNat = ofBitsMSB (pre ++ [b]) := by
      rw [ofBitsMSB_append, Nat.shiftLeft_eq]; simp [ofBitsMSB]
    obtain ⟨g, ge⟩ := ih (pre ++ [b]) fuel true (by omega) (by omega) (by
      intro k hk
      have := hno (k + 1) (by simpa using hk)
      simpa using this) (by simpa using hyes)
    unfold codeLoop
    rw [g0]
    simp only
    rw [skip_yes data s hs a h0 hf hz]
    simp only
    rw [readBit_at hs (by simp) hb]
    simp only [Bool.or_true]
    rw [hval, show pre.length + 1 = (pre ++ [b]).length by simp, g]
    refine ⟨by simp, by rw [ge, List.length_cons]; omega⟩

/-- C95: a code has its value whatever stuffed bytes are inside; the field counts one of them. -/
theorem C95_code (data : Bytes) (s : InputStream) (hs : stringInputStream data = .ok s) (c : Coding) (hk : Kraft c.lengths) (t : Table)
    (ht : c.Of t) (i : Nat) (hi : HasCode c.lengths i) (a e n : Nat) (ha : 0 < a) (h : Stuffed data a (codeWord c.lengths i) e n)
    (fuel : Nat) (hfu : c.lengths.getD i 0 ≤ fuel) :
    readCode s t fuel a = .ok (c.lengths.getD i 0 + (if 0 < n then 8 else 0), codeOf c.lengths i, c.values.getD i 0) ∧
      e = a + c.lengths.getD i 0 + 8 * n := by
  have hlt := codeOf_lt c.lengths hk i hi
  have hlen : (codeWord c.lengths i).length = c.lengths.getD i 0 := by simp [codeWord, length_toBitsMSB]
  have hval : ofBitsMSB (codeWord c.lengths i) = codeOf c.lengths i := by
    rw [codeWord, ofBitsMSB_toBitsMSB, Nat.mod_eq_of_lt hlt]
  have := codeLoop_word data s hs t (c.values.getD i 0) h [] fuel false ha (by rw [hlen]; exact hfu) (by
    intro k hk'
    simp only [List.nil_append]
    cases hg : t.get (((codeWord c.lengths i).take k).length, ofBitsMSB ((codeWord c.lengths i).take k)) with
    | none => rfl
    | some j =>
      rw [ht] at hg
      obtain ⟨j, hj, g1, g2, g3⟩ := hg
      rw [List.length_take, hlen, Nat.min_eq_left (by omega)] at g1
      rw [hlen] at hk'
      have h4 := codeOf_prefix c.lengths j i hj hi (by rw [g1]; exact hk')
      rw [codeWord, toBitsMSB_prefix _ _ _ (by omega) hlt, ← g1] at g2
      omega) (by
    simp only [List.nil_append, hlen, hval]
    exact (ht _ _ _).2 ⟨i, hi, rfl, rfl, rfl⟩)
  simp only [List.nil_append, List.length_nil, hlen, hval, Bool.false_eq_true, false_or] at this
  refine ⟨?_, this.2⟩
  rw [readCode]
  have h1 := this.1
  rw [show ofBitsMSB [] = 0 from rfl] at h1
  rw [h1]
  by_cases hn : 0 < n
  · rw [if_pos hn, if_pos hn]
  · rw [if_neg hn, if_neg hn]; rfl

theorem code_at {data : Bytes} {s : InputStream} (hs : stringInputStream data = .ok s) {c : Coding} (hk : Kraft c.lengths) {t : Table}
    (ht : c.Of t) {a i e : Nat} (ha : 0 < a) (h : CodeAt data c a i e) (fuel : Nat) (hfu : ∀ x ∈ c.lengths, x ≤ fuel) :
    readCode s t fuel a = .ok (e - a, codeOf c.lengths i, c.values.getD i 0) ∧ a ≤ e := by
  obtain ⟨hi, n, hn, hst⟩ := h
  have hg : c.lengths.getD i 0 = c.lengths[i]'hi.1 := by simp [List.getD_eq_getElem?_getD, hi.1]
  obtain ⟨g, ge⟩ := C95_code data s hs c hk t ht i hi a e n ha hst fuel (by rw [hg]; exact hfu _ (List.getElem_mem hi.1))
  refine ⟨?_, by omega⟩
  rw [g]
  have : c.lengths.getD i 0 + (if 0 < n then 8 else 0) = e - a := by
    by_cases h0 : 0 < n
    · rw [if_pos h0]; omega
    · rw [if_neg h0]; omega
  rw [this]

/-! ### Extra bits -/

theorem stuffed_none {data : Bytes} {a : Nat} {bits : List Bool} {e n : Nat} (h : Stuffed data a bits e n) (hn : n = 0) (hne : bits ≠ []) :
    BitsAt .big data a bits := by
  induction h with
  | nil a => exact (hne rfl).elim
  | bit a b bits e n hf hb hr ih =>
    obtain ⟨r, hr'⟩ := hb
    by_cases he : bits = []
    · subst he; exact ⟨r, hr'⟩
    · obtain ⟨r2, h2⟩ := ih hn he
      refine ⟨r2, ?_⟩
      rw [← List.drop_drop, ← hr'] at h2
      rw [← hr', List.cons_append, h2]
      rfl
  | skip => omega

theorem corrected_extra (sz : Nat) (hs : 0 < sz) (v : Int) (hcat : Category sz v) :
    corrected sz (ofBitsMSB (extraBits sz v)) = v := by
  obtain ⟨h1, h2⟩ := hcat
  have hp : 2 ^ sz = 2 * 2 ^ (sz - 1) := by
    obtain ⟨m, rfl⟩ : ∃ m, sz = m + 1 := ⟨sz - 1, by omega⟩
    rw [Nat.pow_succ, Nat.add_sub_cancel]; ring
  have hpi : (2 : Int) ^ sz = 2 * ((2 ^ (sz - 1) : Nat) : Int) := by
    rw [show (2 : Int) ^ sz = ((2 ^ sz : Nat) : Int) by push_cast; rfl, hp]; push_cast; rfl
  have hpos : 0 < 2 ^ (sz - 1) := Nat.two_pow_pos _
  have hx : (if 0 < v then v.toNat else (v + 2 ^ sz - 1).toNat) < 2 ^ sz := by
    rw [hpi, hp]; rw [hp] at h2
    generalize 2 ^ (sz - 1) = q at *
    split <;> omega
  rw [extraBits, ofBitsMSB_toBitsMSB, Nat.mod_eq_of_lt hx]
  unfold corrected
  rw [hpi]; rw [hp] at h2
  generalize 2 ^ (sz - 1) = q at *
  by_cases h0 : 0 < v
  · rw [if_pos h0, if_neg (by omega)]; omega
  · rw [if_neg h0, if_pos (by omega)]; omega

theorem extra_at {data : Bytes} {s : InputStream} (hs : stringInputStream data = .ok s) {e sz : Nat} {v : Int} (h0 : 0 < sz)
    (hcat : Category sz v) (hx : Stuffed data e (extraBits sz v) (e + sz) 0) :
    ∃ w, readBits s (e : Int) sz .big = .ok w ∧ corrected sz w = v := by
  have hl : (extraBits sz v).length = sz := by simp [extraBits, length_toBitsMSB]
  have hne : extraBits sz v ≠ [] := by
    intro h
    rw [h] at hl
    simp at hl; omega
  have hb := stuffed_none hx rfl hne
  have := readBits_at hs (by simp) hb hne
  rw [hl] at this
  exact ⟨_, this, corrected_extra sz h0 v hcat⟩

/-! ### Blocks -/

theorem ac_step {data : Bytes} {s : InputStream} (hs : stringInputStream data = .ok s) {c : Coding} (hk : Kraft c.lengths) {t : Table}
    (ht : c.Of t) (fuel : Nat) (hfu : ∀ x ∈ c.lengths, x ≤ fuel) {a n : Nat} {flds : List Fld} {vs : List Int} {stop : Nat}
    (h : AcAt data c a n flds vs stop) :
    ∀ left, 0 < a → 63 - n ≤ left → acLoop s t fuel left a n = .ok (flds, vs, stop) := by
  induction h with
  | full a =>
    intro left ha hl
    unfold acLoop
    rw [if_neg (by omega)]
  | stop a n i e hn hc hv =>
    intro left ha hl
    obtain ⟨left, rfl⟩ : ∃ m, left = m + 1 := ⟨left - 1, by omega⟩
    obtain ⟨g, ge⟩ := code_at hs hk ht ha hc fuel hfu
    unfold acLoop
    rw [if_pos hn]
    simp only
    rw [g, hv]
    simp only
    rw [if_pos (by decide), show a + (e - a) = e by omega]
  | coef a n i e r sz v flds vs stop hn hc hv hsz hcat hx hr ih =>
    intro left ha hl
    obtain ⟨left, rfl⟩ : ∃ m, left = m + 1 := ⟨left - 1, by omega⟩
    obtain ⟨g, ge⟩ := code_at hs hk ht ha hc fuel hfu
    obtain ⟨w, hw, hcor⟩ := extra_at hs hsz.1 hcat hx
    have g2 := ih left (by omega) (by omega)
    have e1 : (16 * r + sz) >>> 4 = r := by rw [Nat.shiftRight_eq_div_pow]; omega
    have e2 : (16 * r + sz) &&& 0x0f = sz := by
      rw [show (0x0f : Nat) = 2 ^ 4 - 1 from rfl, Nat.and_two_pow_sub_one_eq_mod]; omega
    unfold acLoop
    rw [if_pos (by omega)]
    simp only
    rw [g, hv]
    simp only
    rw [e1, e2, if_neg (by omega), if_pos (by omega), show a + (e - a) = e by omega, hw]
    simp only
    rw [g2]
    simp only
    rw [hcor]
  | zeros a n i e flds vs stop hn hc hv hr ih =>
    intro left ha hl
    obtain ⟨left, rfl⟩ : ∃ m, left = m + 1 := ⟨left - 1, by omega⟩
    obtain ⟨g, ge⟩ := code_at hs hk ht ha hc fuel hfu
    have g2 := ih left (by omega) (by omega)
    have e1 : 0xf0 >>> 4 = 15 := by decide
    have e2 : 0xf0 &&& 0x0f = 0 := by decide
    unfold acLoop
    rw [if_pos (by omega)]
    simp only
    rw [g, hv]
    simp only
    rw [e1, e2, if_neg (by omega), if_neg (by simp), show a + (e - a) = e by omega, show n + 15 + 1 = n + 16 by omega, g2]
    rfl

/-- C95: a block whose extra bits have no stuffed byte inside is read: fields, DC difference and AC
coefficients. -/
theorem C95_block_partial (data : Bytes) (s : InputStream) (hs : stringInputStream data = .ok s) (dc ac : Coding) (hkd : Kraft dc.lengths)
    (hka : Kraft ac.lengths) (td ta : Table) (htd : dc.Of td) (hta : ac.Of ta) (fuel : Nat) (hfd : ∀ x ∈ dc.lengths, x ≤ fuel)
    (hfa : ∀ x ∈ ac.lengths, x ≤ fuel) (a : Nat) (ha : 0 < a) (flds : List Fld) (v : Int) (vs : List Int) (stop : Nat)
    (h : BlockAt data dc ac a flds v vs stop) : readBlock s td ta fuel a = .ok (flds, v, vs, stop) := by
  cases h with
  | zero i e flds vs stop hc hv hr =>
    obtain ⟨g, ge⟩ := code_at hs hkd htd ha hc fuel hfd
    have g2 := ac_step hs hka hta fuel hfa hr 63 (by omega) (by omega)
    unfold readBlock
    rw [g, hv]
    simp only
    rw [if_neg (by omega), show a + (e - a) = e by omega, g2]
  | diff i e sz v flds vs stop hc hv hsz hcat hx hr =>
    obtain ⟨g, ge⟩ := code_at hs hkd htd ha hc fuel hfd
    obtain ⟨w, hw, hcor⟩ := extra_at hs hsz hcat hx
    have g2 := ac_step hs hka hta fuel hfa hr 63 (by omega) (by omega)
    unfold readBlock
    rw [g, hv]
    simp only
    rw [if_pos (by omega), show a + (e - a) = e by omega, hw]
    simp only
    rw [g2]
    simp only
    rw [hcor]

/-! ### Tables -/

theorem lengthsFrom_eq (counts : List UInt8) : ∀ i,
    lengthsFrom i (counts.map UInt8.toNat) = (counts.zipIdx i).flatMap fun p => List.replicate p.1.toNat p.2 := by
  induction counts with
  | nil => intro i; rfl
  | cons c counts ih =>
    intro i
    rw [List.map_cons, lengthsFrom, ih, List.zipIdx_cons, List.flatMap_cons]

theorem lengthsFrom_counted (counts : List UInt8) : lengthsFrom 1 (counts.map UInt8.toNat) = countedLengths counts := by
  rw [lengthsFrom_eq, countedLengths, List.zipIdx_eq_map_add (i := 1), List.flatMap_map]
  congr 1
  funext p
  rw [Nat.add_comm p.2 1]

theorem readOctets_eq (data : Bytes) (s : InputStream) (hs : stringInputStream data = .ok s) (bs : Bytes) : ∀ k : Nat, bs <+: data.drop k →
    readOctets s bs.length (8 * k) = .ok (bs.map UInt8.toNat) := by
  induction bs with
  | nil => intro k h; rfl
  | cons b bs ih =>
    intro k h
    have r1 := read_big data s hs k 1 _ [b] (big_byte b) (by omega) (prefix_left (xs := [b]) (ys := bs) h) 8 rfl ((8 * k : Nat) : Int) rfl
    have r2 := ih (k + 1) (drop_prefix (xs := [b]) h)
    rw [List.length_cons, readOctets, r1]
    simp only
    rw [show 8 * k + 8 = 8 * (k + 1) by ring, r2]
    rfl

theorem get_map (t : Table) (values : List Nat) (key : Nat × Nat) :
    Table.get (t.map (fun p => (p.1, values.getD p.2 0))) key = (Table.get t key).map (fun j => values.getD j 0) := by
  unfold Table.get
  rw [List.find?_map, Option.map_map, Option.map_map]
  rfl

/-- C95: a table has the canonical codes of its lengths, for its values in order. -/
theorem C95_table (data : Bytes) (s : InputStream) (hs : stringInputStream data = .ok s) (k cls index : Nat) (counts values bs : Bytes)
    (h : TableBytes cls index counts values bs) (hne : values ≠ []) (hp : bs <+: data.drop k) :
    ∃ t, readTable s (8 * k) = .ok (cls, index, t, 8 * bs.length) ∧
      Coding.Of ⟨countedLengths counts, values.map UInt8.toNat⟩ t := by
  obtain ⟨b, hb, hi, hc, hv, rfl⟩ := h
  have hlt := b.toNat_lt
  have p0 := prefix_left hp
  have p1 := drop_prefix hp
  have p2 := drop_prefix p1
  rw [hc] at p2
  have r1 := readBits_mid data s hs k 0 4 [b] p0 (by simp) (by simp) ((8 * k : Nat) : Int) (by simp)
  have r2 := readBits_mid data s hs k 4 4 [b] p0 (by simp) (by simp) (((8 * k : Nat) : Int) + 4) (by simp)
  have r3 := readOctets_eq data s hs counts _ (prefix_left p1)
  have r4 := readOctets_eq data s hs values _ p2
  rw [hc] at r3
  rw [hv] at r4
  have hb1 : ofBytesBE [b] = b.toNat := by simp [ofBytesBE]
  have e1 : ofBytesBE [b] / 2 ^ (8 * [b].length - 0 - 4) % 2 ^ 4 = cls := by
    rw [hb1, hb]; simp only [List.length_singleton]; omega
  have e2 : ofBytesBE [b] / 2 ^ (8 * [b].length - 4 - 4) % 2 ^ 4 = index := by
    rw [hb1, hb]; simp only [List.length_singleton]; omega
  rw [e1] at r1
  rw [e2] at r2
  have hln : countedLengths counts ≠ [] := by
    intro h
    rw [h] at hv
    exact hne (List.length_eq_zero_iff.1 hv)
  obtain ⟨t, ht⟩ := buildTree_ok _ hln
  refine ⟨t.map (fun p => (p.1, (values.map UInt8.toNat).getD p.2 0)), ?_, ?_⟩
  · unfold readTable
    rw [r1]
    simp only
    rw [r2]
    simp only
    rw [show 8 * k + 8 = 8 * (k + [b].length) by simp; ring, r3]
    simp only
    rw [lengthsFrom_counted, show 8 * k + 136 = 8 * (k + [b].length + 16) by simp; ring, r4]
    simp only
    rw [ht]
    simp only
    congr 4
    simp [hc, hv]; ring
  · intro ln w v
    rw [get_map, Option.map_eq_some_iff]
    constructor
    · rintro ⟨i, hg, rfl⟩
      obtain ⟨h1, h2, h3⟩ := (buildTree_get ht _ _ _).1 hg
      exact ⟨i, h1, h2, h3, rfl⟩
    · rintro ⟨i, h1, h2, h3, rfl⟩
      exact ⟨i, (buildTree_get ht _ _ _).2 ⟨h1, h2, h3⟩, rfl⟩

/-! ### What goes wrong -/

/-- C95: with more than one stuffed byte inside a code the field is too small. -/
theorem C95_two_stuffed (data : Bytes) (s : InputStream) (hs : stringInputStream data = .ok s) (c : Coding) (hk : Kraft c.lengths) (t : Table)
    (ht : c.Of t) (i : Nat) (hi : HasCode c.lengths i) (a e n : Nat) (ha : 0 < a) (h : Stuffed data a (codeWord c.lengths i) e n)
    (hn : 2 ≤ n) (fuel : Nat) (hfu : c.lengths.getD i 0 ≤ fuel) :
    ∃ size value real, readCode s t fuel a = .ok (size, value, real) ∧ a + size + 8 ≤ e := by
  obtain ⟨g, ge⟩ := C95_code data s hs c hk t ht i hi a e n ha h fuel hfu
  refine ⟨_, _, _, g, ?_⟩
  rw [if_pos (by omega)]
  omega

/-- A single code of one bit. -/
def oneCode (v : Nat) : Coding := ⟨[1], [v]⟩

theorem oneCode_of (v : Nat) : (oneCode v).Of [((1, 0), v)] := by
  have hb : buildTree [1] = .ok [((1, 0), 0)] := rfl
  intro ln w x
  have hg := get_map [((1, 0), 0)] [v] (ln, w)
  have : List.map (fun p : (Nat × Nat) × Nat => (p.1, [v].getD p.2 0)) [((1, 0), 0)] = [((1, 0), v)] := rfl
  rw [this] at hg
  rw [hg, Option.map_eq_some_iff]
  constructor
  · rintro ⟨i, hg, rfl⟩
    obtain ⟨h1, h2, h3⟩ := (buildTree_get hb _ _ _).1 hg
    exact ⟨i, h1, h2, h3, rfl⟩
  · rintro ⟨i, h1, h2, h3, rfl⟩
    exact ⟨i, (buildTree_get hb _ _ _).2 ⟨h1, h2, h3⟩, rfl⟩

instance (data : Bytes) (a : Nat) : Decidable (BehindFF data a) := by unfold BehindFF; infer_instance
instance (e : Endian) (data : Bytes) (a : Nat) (bits : List Bool) : Decidable (BitsAt e data a bits) := by
  unfold BitsAt; infer_instance

/-- Nine extra bits, all ones, with a stuffed byte before the last one. -/
def crossing : Bytes := [0, 0, 0xff, 0, 0x80]

theorem crossing_bits : Stuffed crossing 16 (extraBits 9 511) 33 1 := by
  have : extraBits 9 511 = [true, true, true, true, true, true, true, true, true] := by decide
  rw [this]
  refine .bit _ _ _ _ _ (by decide) (by decide) <| .bit _ _ _ _ _ (by decide) (by decide) <| .bit _ _ _ _ _ (by decide) (by decide) <|
    .bit _ _ _ _ _ (by decide) (by decide) <| .bit _ _ _ _ _ (by decide) (by decide) <| .bit _ _ _ _ _ (by decide) (by decide) <|
    .bit _ _ _ _ _ (by decide) (by decide) <| .bit _ _ _ _ _ (by decide) (by decide) <|
    .skip _ _ _ _ _ (by decide) (by decide) (by decide) (.nil _)

/-- C95: a stuffed byte inside extra bits is taken for data: 511 in nine bits is read as 510. -/
theorem C95_extra_stuffed : ∃ (data : Bytes) (s : InputStream) (dc ac : Coding) (td ta : Table), stringInputStream data = .ok s ∧
    dc.Of td ∧ ac.Of ta ∧ CodeAt data dc 15 0 16 ∧ dc.values.getD 0 0 = 9 ∧ Category 9 511 ∧
    Stuffed data 16 (extraBits 9 511) 33 1 ∧ CodeAt data ac 33 0 34 ∧ ac.values.getD 0 0 = 0 ∧
    ∃ flds vs stop, readBlock s td ta 16 15 = .ok (flds, 510, vs, stop) := by
  refine ⟨crossing, _, oneCode 9, oneCode 0, _, _, rfl, oneCode_of 9, oneCode_of 0, ⟨⟨by decide, by decide⟩, 0, by omega, ?_⟩, rfl,
    ⟨by decide, by decide⟩, crossing_bits, ⟨⟨by decide, by decide⟩, 0, by omega, ?_⟩, rfl,
    [.code 15 1 0 9, .extra 16 9 510, .code 25 1 0 0], [], 26, by decide +kernel⟩
  · exact .bit _ false _ _ _ (by decide) (by decide) (.nil _)
  · exact .bit _ false _ _ _ (by decide) (by decide) (.nil _)

/-! ### Examples -/

/-- Codes of ones closed by a zero. -/
def unary : Coding := ⟨[1, 2, 3, 4, 5, 6, 7, 8, 9, 10], [0, 1, 2, 3, 4, 5, 6, 7, 8, 9]⟩

example : Kraft unary.lengths ∧ HasCode unary.lengths 9 ∧ Stuffed [0, 0xff, 0, 0xff, 0, 0x80] 16 (codeWord unary.lengths 9) 42 2 := by
  refine ⟨⟨10, by decide, by decide⟩, ⟨by decide, by decide⟩, ?_⟩
  have : codeWord unary.lengths 9 = [true, true, true, true, true, true, true, true, true, false] := by decide
  rw [this]
  exact .skip _ _ _ _ _ (by decide) (by decide) (by decide) <| .bit _ _ _ _ _ (by decide) (by decide) <|
    .bit _ _ _ _ _ (by decide) (by decide) <| .bit _ _ _ _ _ (by decide) (by decide) <| .bit _ _ _ _ _ (by decide) (by decide) <|
    .bit _ _ _ _ _ (by decide) (by decide) <| .bit _ _ _ _ _ (by decide) (by decide) <| .bit _ _ _ _ _ (by decide) (by decide) <|
    .skip _ _ _ _ _ (by decide) (by decide) (by decide) <| .bit _ _ _ _ _ (by decide) (by decide) (.nil _)

/-- A block: the difference -2 (code 0, bits 01), then the end of the block (code 0). -/
example : BlockAt [7, 0x20] (oneCode 2) (oneCode 0) 8 [.code 8 1 0 2, .extra 9 2 (-2), .code 11 1 0 0] (-2) [] 12 :=
  .diff 8 0 9 2 (-2) _ _ _ ⟨⟨by decide, by decide⟩, 0, by omega, .bit _ false _ _ _ (by decide) (by decide) (.nil _)⟩ rfl (by omega)
    ⟨by decide, by decide⟩
    (by
      have : extraBits 2 (-2) = [false, true] := by decide
      rw [this]
      exact .bit _ _ _ _ _ (by decide) (by decide) <| .bit _ _ _ _ _ (by decide) (by decide) (.nil _))
    (.stop 11 0 0 12 (by omega) ⟨⟨by decide, by decide⟩, 0, by omega, .bit _ false _ _ _ (by decide) (by decide) (.nil _)⟩ rfl)

/-- A table with one code of one bit and two of two bits. -/
example : TableBytes 1 2 [1, 2, 0, 0, 0, 0, 0, 0, 0, 0, 0, 0, 0, 0, 0, 0] [7, 8, 9]
    ([0x12] ++ ([1, 2, 0, 0, 0, 0, 0, 0, 0, 0, 0, 0, 0, 0, 0, 0] ++ [7, 8, 9])) :=
  ⟨0x12, rfl, by omega, rfl, rfl, rfl⟩

end Hachoir.Props
