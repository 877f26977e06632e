import Verif.Archive.HuffmanLemmas

/-!
# Properties C34 and C35: Huffman codes and back-references
-/

set_option linter.unusedVariables false
set_option linter.unusedSimpArgs false

namespace Hachoir.Props
open Hachoir Hachoir.Stream Hachoir.Archive Spec

/-! ## C34 -/

/-- The table has exactly one entry for every symbol with a non-zero length: its code, of
that length. -/
theorem C34_table (lengths : List Nat) (hne : lengths ≠ []) :
    ∃ t, buildTree lengths = .ok t ∧
      ∀ ln c i, t.get (ln, c) = some i ↔ HasCode lengths i ∧ lengths.getD i 0 = ln ∧ codeOf lengths i = c := by
  obtain ⟨t, ht⟩ := buildTree_ok lengths hne
  exact ⟨t, ht, fun ln c i => buildTree_get ht ln c i⟩

/-- No code word is a prefix of another one's. -/
theorem C34_prefix_free (lengths : List Nat) (hk : Kraft lengths) (i j : Nat) (hi : HasCode lengths i)
    (hj : HasCode lengths j) (h : codeWord lengths i <+: codeWord lengths j) : i = j := by
  have li := codeOf_lt lengths hk i hi
  have lj := codeOf_lt lengths hk j hj
  have hlen := h.length_le
  simp only [codeWord, length_toBitsMSB] at hlen
  have ht : codeWord lengths i = (codeWord lengths j).take (lengths.getD i 0) := by
    have := List.prefix_iff_eq_take.1 h
    simpa [codeWord, length_toBitsMSB] using this
  have hv : codeOf lengths i = codeOf lengths j / 2 ^ (lengths.getD j 0 - lengths.getD i 0) := by
    rw [← toBitsMSB_prefix _ _ _ hlen lj]
    have h1 : ofBitsMSB (codeWord lengths i) = codeOf lengths i := by
      rw [codeWord, ofBitsMSB_toBitsMSB, Nat.mod_eq_of_lt li]
    rw [← h1, ht]; rfl
  rcases Nat.lt_or_ge (lengths.getD i 0) (lengths.getD j 0) with hlt | hge
  · have := codeOf_prefix lengths i j hi hj hlt
    omega
  · have he : lengths.getD i 0 = lengths.getD j 0 := by omega
    rw [he] at hv
    simp at hv
    exact codeOf_inj lengths i j hi hj he hv

/-- Reading as many Huffman codes as the list has, one behind the other: the symbols and the
address behind them. -/
def readCodes (s : InputStream) (e : Endian) (t : Table) : Nat → Nat → Except PyErr (List Nat × Nat)
  | 0, addr => .ok ([], addr)
  | n + 1, addr =>
    match huffmanCode s e t addr with
    | .error er => .error er
    | .ok (size, _, sym) =>
      match readCodes s e t n (addr + size) with
      | .error er => .error er
      | .ok (l, a) => .ok (sym :: l, a)

/-- The code words of any sequence of symbols, anywhere in a file in any bit order, are
read back as that sequence, consuming exactly these bits (codes up to 257 bits). -/
theorem C34_decode (e : Endian) (data : Bytes) (s : InputStream) (hs : stringInputStream data = .ok s)
    (hm : e = .middle → data.length % 2 = 0) (lengths : List Nat) (hk : Kraft lengths)
    (h257 : ∀ x ∈ lengths, x ≤ 257) (t : Table) (ht : buildTree lengths = .ok t) (syms : List Nat)
    (hsym : ∀ i ∈ syms, HasCode lengths i) (addr : Nat)
    (hat : BitsAt e data addr (syms.flatMap (codeWord lengths))) :
    readCodes s e t syms.length addr = .ok (syms, addr + (syms.flatMap (codeWord lengths)).length) := by
  induction syms generalizing addr with
  | nil => simp [readCodes]
  | cons i l ih =>
    rw [List.flatMap_cons] at hat
    have hi := hsym i (by simp)
    have hg : lengths.getD i 0 = lengths[i]'hi.1 := by simp [List.getD_eq_getElem?_getD, hi.1]
    have h1 := huffmanCode_word hs hm hk (buildTree_get ht) hi (by rw [hg]; exact h257 _ (List.getElem_mem hi.1)) hat.append.1
    have hlen : (codeWord lengths i).length = lengths.getD i 0 := by simp [codeWord, length_toBitsMSB]
    have h2 := ih (fun j hj => hsym j (by simp [hj])) (addr + lengths.getD i 0) (by rw [← hlen]; exact hat.append.2)
    simp only [List.length_cons, readCodes, h1, h2, List.flatMap_cons, List.length_append, hlen]
    congr 2
    omega

theorem huffmanLoop_sound (e : Endian) (he : e ≠ .middle) (data : Bytes) (s : InputStream)
    (hs : stringInputStream data = .ok s) (t : Table) (left : Nat) :
    ∀ (pre : List Bool) (addr size value sym : Nat),
      huffmanLoop s e t addr left pre.length (ofBitsMSB pre) = .ok (size, value, sym) →
      ∃ rest, BitsAt e data addr rest ∧ size = (pre ++ rest).length ∧ value = ofBitsMSB (pre ++ rest) ∧
        t.get (size, value) = some sym := by
  have bit : ∀ (addr v : Nat), readBits s addr 1 e = .ok v → ∃ b : Bool, BitsAt e data addr [b] ∧ v = b.toNat := by
    intro addr v hv
    have hle := (_root_.Props.C01_readBits_iff data s hs addr 1 (by omega) e he).1 ⟨v, hv⟩
    have hlen : addr < (streamBits e data).length := by
      cases e
      · simp only [streamBits, length_bitsMSB]; omega
      · simp only [streamBits, length_bitsLSB]; omega
      · exact absurd rfl he
    have hat : BitsAt e data addr [(streamBits e data)[addr]] :=
      ⟨(streamBits e data).drop (addr + 1), by rw [List.drop_eq_getElem_cons hlen]; rfl⟩
    refine ⟨_, hat, ?_⟩
    rw [readBit_at hs (fun h => absurd h he) hat] at hv
    cases hv
    rfl
  induction left with
  | zero =>
    intro pre addr size value sym h
    unfold huffmanLoop at h
    split at h
    · rename_i x hx
      cases h
      exact ⟨[], ⟨_, rfl⟩, by simp, by simp, hx⟩
    · cases h
  | succ left ih =>
    intro pre addr size value sym h
    unfold huffmanLoop at h
    split at h
    · rename_i x hx
      cases h
      exact ⟨[], ⟨_, rfl⟩, by simp, by simp, hx⟩
    · simp only at h
      cases hb : readBits s addr 1 e with
      | error er => rw [hb] at h; cases h
      | ok v =>
        rw [hb] at h
        obtain ⟨b, hat, rfl⟩ := bit addr v hb
        have hval : (ofBitsMSB pre <<< 1) + b.toNat = ofBitsMSB (pre ++ [b]) := by
          rw [ofBitsMSB_append, Nat.shiftLeft_eq]; simp [ofBitsMSB]
        simp only [hval] at h
        rw [show pre.length + 1 = (pre ++ [b]).length by simp] at h
        obtain ⟨rest, r1, r2, r3, r4⟩ := ih (pre ++ [b]) (addr + 1) size value sym h
        refine ⟨b :: rest, ?_, by simpa using r2, by simpa using r3, r4⟩
        obtain ⟨x, hx⟩ := hat
        obtain ⟨y, hy⟩ := r1
        refine ⟨y, ?_⟩
        rw [← List.drop_drop, ← hx] at hy
        simp only [List.singleton_append, List.drop_succ_cons, List.drop_zero] at hy
        rw [← hx, ← hy]
        rfl

/-- Whatever is decoded is there: the bits read are the code word of the symbol. -/
theorem C34_decode_sound (e : Endian) (he : e ≠ .middle) (data : Bytes) (s : InputStream)
    (hs : stringInputStream data = .ok s) (lengths : List Nat) (hk : Kraft lengths) (t : Table)
    (ht : buildTree lengths = .ok t) (addr size value sym : Nat)
    (h : huffmanCode s e t addr = .ok (size, value, sym)) :
    HasCode lengths sym ∧ size = lengths.getD sym 0 ∧ BitsAt e data addr (codeWord lengths sym) := by
  obtain ⟨rest, r1, r2, r3, r4⟩ := huffmanLoop_sound e he data s hs t 257 [] addr size value sym h
  obtain ⟨g1, g2, g3⟩ := (buildTree_get ht size value sym).1 r4
  refine ⟨g1, g2.symm, ?_⟩
  have : rest = codeWord lengths sym := by
    apply ofBitsMSB_inj
    · simp only [List.nil_append] at r2
      rw [← r2, ← g2]; simp [codeWord, length_toBitsMSB]
    · simp only [List.nil_append] at r3
      rw [← r3, ← g3, codeWord, ofBitsMSB_toBitsMSB, Nat.mod_eq_of_lt (codeOf_lt lengths hk sym g1)]
  rw [← this]
  exact r1

/-- The example of RFC 1951, 3.2.2. -/
example : Kraft [3, 3, 3, 3, 3, 2, 4, 4] ∧ HasCode [3, 3, 3, 3, 3, 2, 4, 4] 7 ∧
    codeWord [3, 3, 3, 3, 3, 2, 4, 4] 5 = [false, false] ∧
    codeWord [3, 3, 3, 3, 3, 2, 4, 4] 7 = [true, true, true, true] ∧
    BitsAt .little [0xf0] 2 ([5, 7].flatMap (codeWord [3, 3, 3, 3, 3, 2, 4, 4])) := by
  refine ⟨⟨4, by decide, by decide⟩, by unfold HasCode; decide, by decide, by decide, ⟨[], by decide⟩⟩

/-- Lengths that are too short for the alphabet are accepted; some symbols then have
codes that do not fit in their length. -/
theorem C34_oversubscribed_accepted :
    ∃ t, buildTree [1, 1, 1] = .ok t ∧ t.get (1, 2) = some 2 := ⟨_, rfl, by decide⟩

/-- No code of more than 257 bits is decoded. -/
theorem C34_limit (s : InputStream) (e : Endian) (t : Table) (addr size value sym : Nat)
    (h : huffmanCode s e t addr = .ok (size, value, sym)) : size ≤ 257 := by
  have key : ∀ left addr size0 value0, huffmanLoop s e t addr left size0 value0 = .ok (size, value, sym) →
      size ≤ size0 + left := by
    intro left
    induction left with
    | zero =>
      intro addr size0 value0 h
      unfold huffmanLoop at h
      split at h
      · cases h; omega
      · cases h
    | succ left ih =>
      intro addr size0 value0 h
      unfold huffmanLoop at h
      split at h
      · cases h; omega
      · simp only at h
        split at h
        · cases h
        · have := ih _ _ _ h; omega
  have := key 257 addr 0 0 h
  omega

/-! ## C35 -/

/-- `extend_data` is the copy one byte at a time, overlapping or not. -/
theorem C35_extend_data (data : Bytes) (length offset : Nat) (h1 : 0 < offset) (h2 : offset ≤ data.length) :
    extendData data length offset = .ok (lzCopy data offset length) :=
  extendData_spec data length offset h1 h2

/-- The old bytes stay, `length` bytes are added, and every new byte equals the byte
`offset` positions before it. -/
theorem C35_each_byte (data : Bytes) (length offset : Nat) (h1 : 0 < offset) (h2 : offset ≤ data.length) :
    ∃ d, extendData data length offset = .ok d ∧ d.length = data.length + length ∧ d.take data.length = data ∧
      ∀ i, data.length ≤ i → i < d.length → d[i]? = d[i - offset]? := by
  refine ⟨_, extendData_spec data length offset h1 h2, ?_⟩
  rw [lzCopy_eq data offset length h1 h2]
  refine ⟨by simp, by simp, ?_⟩
  intro i hi hlt
  simp only [List.length_append, List.length_map, List.length_range] at hlt
  rw [List.getElem?_append_right hi, List.getElem?_map, List.getElem?_range (by omega), Option.map_some]
  have hml := Nat.mod_lt (i - data.length) h1
  by_cases hn : i - data.length < offset
  · rw [List.getElem?_append_left (by omega), Nat.mod_eq_of_lt hn, List.getElem?_eq_getElem (by omega)]
    have hb : data.length - offset + (i - data.length) < data.length := by omega
    simp only [List.getD_eq_getElem?_getD, List.getElem?_eq_getElem hb, Option.getD_some]
    congr 2; omega
  · rw [List.getElem?_append_right (by omega), List.getElem?_map, List.getElem?_range (by omega), Option.map_some]
    congr 3
    rw [show i - offset - data.length = i - data.length - offset by omega, ← Nat.mod_eq_sub_mod (by omega)]

example : extendData [1, 2, 3] 7 2 = .ok [1, 2, 3, 2, 3, 2, 3, 2, 3, 2] := by decide
example : extendData [1, 2, 3] 1 3 = .ok [1, 2, 3, 1] := by decide

/-- An offset of zero: ZeroDivisionError. -/
theorem C35_offset_zero (data : Bytes) (length : Nat) : extendData data length 0 = .error .zeroDivision := by
  simp [extendData, Tools.alignValue]

/-- An offset beyond the data is not refused: fewer or other bytes are added. -/
theorem C35_offset_too_far :
    extendData [1, 2] 1 3 = .ok [1, 2] ∧ extendData [1, 2] 3 3 = .ok [1, 2, 1, 2] := by decide

end Hachoir.Props
