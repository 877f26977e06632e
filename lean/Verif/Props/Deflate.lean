import Verif.Archive.DeflateLemmas

/-!
# C36: inflate

`Spec.BlocksBits pos blocks bs`: `bs` is one of the ways to write the blocks from bit `pos`
(RFC 1951); `Spec.expandBlocks [] blocks` is the data they stand for.
-/

set_option linter.unusedVariables false

namespace Hachoir.Props
open Hachoir Hachoir.Stream Hachoir.Archive Spec

theorem size_bound {data : Bytes} {pos : Nat} {bs : List Bool} (h : bs <+: (bitsLSB data).drop pos)
    (hp : pos + bs.length ≤ 8 * data.length ∨ 0 < bs.length) : pos + bs.length ≤ 8 * data.length := by
  have := h.length_le
  rw [List.length_drop, length_bitsLSB] at this
  omega

/-- **C36** (partial: the bytes of stored blocks are missing, and the descriptions of dynamic
codes must be `Plain`).  Whatever the blocks and however they are written, inflating zlib data
gives the data of the blocks, stored blocks counted as empty; bit 13 of the header tells that the
identifier of a dictionary (32 bits) comes before the blocks. -/
theorem C36_zlib_partial {data : Bytes} {s : InputStream} (hs : stringInputStream data = .ok s)
    {blocks : List Block} {bs : List Bool} (dict : Bool) (hb : BlocksBits (if dict then 48 else 16) blocks bs)
    (hat : bs <+: (bitsLSB data).drop (if dict then 48 else 16))
    (hdict : (bitsLSB data)[13]? = some dict) (hplain : ∀ b ∈ blocks, BlockPlain b) {out : Bytes}
    (hout : expandBlocks [] (blocks.map dropStored) = some out) :
    zlibInflate s (8 * data.length) false = .ok out := by
  have hne : 0 < bs.length := by cases hb <;> simp
  have hsz := size_bound hat (Or.inr hne)
  have h13 : BitsAt .little data 13 [dict] := by
    show [dict] <+: (bitsLSB data).drop 13
    obtain ⟨h1, h2⟩ := List.getElem?_eq_some_iff.1 hdict
    rw [List.drop_eq_getElem_cons h1, h2]
    exact ⟨_, rfl⟩
  unfold zlibInflate
  have h13' : readBits s 13 1 .little = .ok dict.toNat := readBit_at hs (by simp) h13
  have hpos : (if dict.toNat ≠ 0 then 48 else 16) = (if dict = true then 48 else 16) := by cases dict <;> rfl
  simp only [h13', hpos, if_false, Bool.false_eq_true]
  obtain ⟨pos, hp⟩ : ∃ pos, (if dict = true then 48 else 16) = pos := ⟨_, rfl⟩
  rw [hp] at hb hat hsz ⊢
  unfold deflateData
  rw [deflateBlocks_spec hs hb (8 * data.length + 1) (8 * data.length + 1) [] out hplain hat (by omega) (by omega) hout]
  simp only [Tools.paddingSize]
  rw [if_neg (by omega)]
  by_cases h : ((pos + bs.length : Nat) : Int).fmod 8 ≠ 0
  · rw [if_pos h]
  · rw [if_neg h]

/-- **C36** (partial, as above).  The same for raw data that fills the file up to the padding
of the last byte. -/
theorem C36_raw_partial {data : Bytes} {s : InputStream} (hs : stringInputStream data = .ok s)
    {blocks : List Block} {bs pad : List Bool} (hb : BlocksBits 0 blocks bs) (hbits : bitsLSB data = bs ++ pad)
    (hpad : pad.length < 8) (hplain : ∀ b ∈ blocks, BlockPlain b) {out : Bytes}
    (hout : expandBlocks [] (blocks.map dropStored) = some out) :
    zlibInflate s (8 * data.length) true = .ok out := by
  have hat : BitsAt .little data 0 bs := by
    show bs <+: (bitsLSB data).drop 0
    rw [hbits]; exact ⟨pad, by simp⟩
  have hsz : 8 * data.length = bs.length + pad.length := by
    rw [← length_bitsLSB, hbits, List.length_append]
  unfold zlibInflate
  simp only [if_true]
  unfold deflateData
  rw [deflateBlocks_spec hs hb (8 * data.length + 1) (8 * data.length + 1) [] out hplain hat (by omega) (by omega) hout]
  simp only [Tools.paddingSize, Nat.zero_add]
  rw [if_neg (by omega)]
  have hmod : (bs.length : Int).fmod 8 = ((bs.length % 8 : Nat) : Int) := by
    rw [Int.fmod_eq_emod_of_nonneg _ (by omega)]; omega
  rw [hmod]
  by_cases h : ((bs.length % 8 : Nat) : Int) ≠ 0
  · rw [if_pos h]
    simp only
    rw [if_neg (by omega)]
  · rw [if_neg h]
    simp only
    rw [if_neg (by omega)]

/-- No stored bytes: the blocks count in full. -/
theorem C36_no_stored (blocks : List Block) (h : ∀ bytes, Block.stored bytes ∈ blocks → bytes = []) :
    blocks.map dropStored = blocks := by
  conv => rhs; rw [← List.map_id blocks]
  apply List.map_congr_left
  intro b hb
  cases b with
  | stored bytes => rw [h bytes hb]; rfl
  | fixed ts => rfl
  | dynamic h ts => rfl

/-- Any data can be written with the fixed codes, and is read back: raw data made of literals
in one fixed block. -/
theorem C36_literals {data : Bytes} {s : InputStream} (hs : stringInputStream data = .ok s) (out : Bytes)
    {pad : List Bool} (hpad : pad.length < 8)
    (hbits : bitsLSB data = true :: ([true, false] ++ (out.flatMap (fun b => codeWord fixedLengths b.toNat)
      ++ codeWord fixedLengths 256)) ++ pad) :
    zlibInflate s (8 * data.length) true = .ok out := by
  have htok : ∀ out : Bytes, TokensBits fixedLengths fixedDistances (out.map Token.lit)
      (out.flatMap (fun b => codeWord fixedLengths b.toNat) ++ codeWord fixedLengths 256) := by
    intro out
    induction out with
    | nil => exact .stop ⟨by decide +kernel, by decide +kernel⟩
    | cons b out ih =>
      rw [List.map_cons, List.flatMap_cons, List.append_assoc]
      refine .cons _ _ _ _ (.lit b ?_) ih
      have hlen : fixedLengths.length = 288 := by decide +kernel
      have hb := b.toNat_lt
      refine ⟨by omega, ?_⟩
      have : ∀ x ∈ fixedLengths, x ≠ 0 := by decide +kernel
      rw [List.getD_eq_getElem?_getD, List.getElem?_eq_getElem (by omega), Option.getD_some]
      exact this _ (List.getElem_mem _)
  have hexp : ∀ (out d : Bytes), expand d (out.map Token.lit) = some (d ++ out) := by
    intro out
    induction out with
    | nil => intro d; simp [expand]
    | cons b out ih => intro d; rw [List.map_cons]; simp only [expand]; rw [ih]; simp
  refine C36_raw_partial hs (.last 0 (.fixed (out.map .lit)) _ (.fixed _ _ (htok out))) hbits hpad ?_ ?_
  · intro b hb
    simp only [List.mem_singleton] at hb
    subst hb
    trivial
  · simp only [List.map_cons, List.map_nil, dropStored, expandBlocks, expandBlock, hexp]
    rfl

/-! ## Where the full claim fails -/

/-- Stored bytes are lost: data in one stored block inflates to nothing. -/
theorem C36_stored_lost {data : Bytes} {s : InputStream} (hs : stringInputStream data = .ok s) (bytes : Bytes)
    (hl : bytes.length < 65536)
    (hbits : bitsLSB data = true :: ([false, false] ++ ([false, false, false, false, false] ++
      (toBitsLSB 16 bytes.length ++ (toBitsLSB 16 (65535 - bytes.length) ++ bitsLSB bytes))))) :
    BlocksBits 0 [.stored bytes] (bitsLSB data) ∧ expandBlocks [] [.stored bytes] = some bytes ∧
      zlibInflate s (8 * data.length) true = .ok [] := by
  have hb : BlocksBits 0 [.stored bytes] (bitsLSB data) := by
    rw [hbits]
    exact .last 0 _ _ (.stored bytes _ hl (by simp) (by simp))
  refine ⟨hb, by simp [expandBlocks, expandBlock], ?_⟩
  refine C36_raw_partial hs (pad := []) hb (by simp) (by simp) ?_ (by simp [dropStored, expandBlocks, expandBlock])
  intro b hb
  simp only [List.mem_singleton] at hb
  subst hb
  trivial

theorem getD_outside {cl : List Nat} (n : Nat) (order : List Nat) (hn : cl.length = n)
    (h : ∀ i : Fin n, i.val ∉ order → cl.getD i 0 = 0) : ∀ i, i ∉ order → cl.getD i 0 = 0 := by
  intro i hi
  by_cases hlt : i < n
  · exact h ⟨i, hlt⟩ hi
  · rw [List.getD_eq_getElem?_getD, List.getElem?_eq_none (by omega)]
    rfl

/-- Lengths 1 for literal 0, end of block and distance 0; after a run of zeros, three more
zeros are written as "previous length". -/
def repeatedZero : Header where
  cl := [0, 1, 0, 0, 0, 0, 0, 0, 0, 0, 0, 0, 0, 0, 0, 0, 2, 0, 2]
  hclen := 14
  runs := [.len 1, .manyZeros 138, .prev 3, .manyZeros 114, .len 1, .len 1]
  ll := [1] ++ List.replicate 255 0 ++ [1]
  dl := [1]

instance (lengths : List Nat) (i : Nat) : Decidable (HasCode lengths i) := by
  unfold HasCode; infer_instance

instance (cl : List Nat) (r : Run) : Decidable (r.Valid cl) := by
  cases r <;> (simp only [Run.Valid, HasCode]; infer_instance)

theorem repeatedZero_valid : repeatedZero.Valid where
  cl19 := rfl
  cl7 := by decide
  clKraft := ⟨2, by decide, by decide⟩
  hclen := by decide
  written := getD_outside 19 _ rfl (by decide)
  runs := by decide +kernel
  lengths := by decide +kernel
  ll := by decide +kernel
  dl := by decide +kernel
  llKraft := ⟨1, by decide +kernel, by decide +kernel⟩
  dlKraft := ⟨1, by decide +kernel, by decide +kernel⟩

theorem tokens_zero {ll dl : List Nat} (h0 : HasCode ll 0) (h1 : HasCode ll 256) :
    TokensBits ll dl [.lit 0] (codeWord ll 0 ++ codeWord ll 256) :=
  .cons _ _ _ _ (.lit 0 h0) (.stop h1)

/-- "Previous length" after a run of zeros repeats the last length that was written by
itself: 13 bytes that stand for one zero byte inflate to something else. -/
theorem C36_repeat_after_zeros :
    ∃ bs pad, BlocksBits 0 [.dynamic repeatedZero [.lit 0]] bs ∧
      bitsLSB [5, 192, 5, 1, 0, 0, 0, 0, 16, 255, 227, 51, 2] = bs ++ pad ∧ pad.length < 8 ∧
      expandBlocks [] [.dynamic repeatedZero [.lit 0]] = some [0] ∧
      ∀ s, stringInputStream [5, 192, 5, 1, 0, 0, 0, 0, 16, 255, 227, 51, 2] = .ok s →
        zlibInflate s 104 true ≠ .ok [0] := by
  refine ⟨_, List.replicate 6 false, .last 0 _ _ (.dynamic repeatedZero _ _ repeatedZero_valid
    (tokens_zero (by decide +kernel) (by decide +kernel))), ?_, by decide, by decide, ?_⟩
  · decide +kernel
  · intro s hs
    cases hs
    decide +kernel

/-- A run of zeros that goes from the lengths over to the distances. -/
def crossingRun : Header where
  cl := [0, 1, 0, 0, 0, 0, 0, 0, 0, 0, 0, 0, 0, 0, 0, 0, 0, 2, 2]
  hclen := 14
  runs := [.len 1, .manyZeros 138, .manyZeros 117, .len 1, .zeros 3, .len 1]
  ll := [1] ++ List.replicate 255 0 ++ [1, 0]
  dl := [0, 0, 1]

theorem crossingRun_valid : crossingRun.Valid where
  cl19 := rfl
  cl7 := by decide
  clKraft := ⟨2, by decide, by decide⟩
  hclen := by decide
  written := getD_outside 19 _ rfl (by decide)
  runs := by decide +kernel
  lengths := by decide +kernel
  ll := by decide +kernel
  dl := by decide +kernel
  llKraft := ⟨1, by decide +kernel, by decide +kernel⟩
  dlKraft := ⟨1, by decide +kernel, by decide +kernel⟩

/-- Such a run (allowed by RFC 1951, 3.2.7) is counted to the lengths only: 13 bytes that
stand for one zero byte inflate to something else. -/
theorem C36_crossing_run :
    ∃ bs pad, BlocksBits 0 [.dynamic crossingRun [.lit 0]] bs ∧
      bitsLSB [13, 194, 33, 1, 0, 0, 0, 0, 16, 255, 87, 11, 4] = bs ++ pad ∧ pad.length < 8 ∧
      expandBlocks [] [.dynamic crossingRun [.lit 0]] = some [0] ∧
      ∀ s, stringInputStream [13, 194, 33, 1, 0, 0, 0, 0, 16, 255, 87, 11, 4] = .ok s →
        zlibInflate s 104 true ≠ .ok [0] := by
  refine ⟨_, List.replicate 5 false, .last 0 _ _ (.dynamic crossingRun _ _ crossingRun_valid
    (tokens_zero (by decide +kernel) (by decide +kernel))), ?_, by decide, by decide, ?_⟩
  · decide +kernel
  · intro s hs
    cases hs
    decide +kernel

/-- Raw data with a byte behind the last block is not inflated: an empty fixed block,
one more byte. -/
theorem C36_raw_trailing :
    ∀ s, stringInputStream [3, 0, 0] = .ok s → zlibInflate s 24 true = .error .runtime := by
  intro s hs
  cases hs
  decide +kernel

/-! ## Examples -/

/-- "a" and a copy of length 4 at distance 1, in a fixed block. -/
example : ∀ s, stringInputStream [75, 4, 1, 0] = .ok s →
    zlibInflate s 32 true = .ok [97, 97, 97, 97, 97] := by
  intro s hs
  cases hs
  decide +kernel

/-- The data meets the hypotheses of `C36_raw_partial`. -/
example : BlocksBits 0 [.fixed [.lit 97, .copy 4 1]]
    (true :: ([true, false] ++ (codeWord fixedLengths 97 ++
      ((codeWord fixedLengths 258 ++ toBitsLSB 0 0 ++ (codeWord fixedDistances 0 ++ toBitsLSB 0 0)) ++
        codeWord fixedLengths 256)))) :=
  .last 0 _ _ (.fixed _ _ (.cons _ _ _ _ (.lit 97 (by decide +kernel))
    (.cons _ _ _ _ (.copy 258 4 0 0 0 1 0 0 (by decide) (by decide) (by decide) (by decide) (by decide +kernel)
      (by decide +kernel)) (.stop (by decide +kernel)))))

/-- A description of dynamic codes that is plain. -/
def plainHeader : Header where
  cl := [0, 1, 0, 0, 0, 0, 0, 0, 0, 0, 0, 0, 0, 0, 0, 0, 2, 0, 2]
  hclen := 14
  runs := [.len 1, .manyZeros 138, .manyZeros 117, .len 1, .len 1]
  ll := [1] ++ List.replicate 255 0 ++ [1]
  dl := [1]

example : plainHeader.Valid ∧ Header.Plain plainHeader :=
  ⟨{ cl19 := rfl
     cl7 := by decide
     clKraft := ⟨2, by decide, by decide⟩
     hclen := by decide
     written := getD_outside 19 _ rfl (by decide)
     runs := by decide +kernel
     lengths := by decide +kernel
     ll := by decide +kernel
     dl := by decide +kernel
     llKraft := ⟨1, by decide +kernel, by decide +kernel⟩
     dlKraft := ⟨1, by decide +kernel, by decide +kernel⟩ },
   (by
      show PrevOk false [.len 1, .manyZeros 138, .manyZeros 117, .len 1, .len 1]
      simp [PrevOk]),
   [.len 1, .manyZeros 138, .manyZeros 117, .len 1], [.len 1], rfl, by decide +kernel⟩

/-- With a dictionary: the blocks begin behind 6 bytes. -/
example : ∀ s, stringInputStream [0x78, 0x20, 1, 2, 3, 4, 75, 4, 1, 0] = .ok s →
    zlibInflate s 80 false = .ok [97, 97, 97, 97, 97] := fun s hs =>
  C36_zlib_partial hs (blocks := [.fixed [.lit 97, .copy 4 1]]) true
    (.last _ _ _ (.fixed _ _ (.cons _ _ _ _ (.lit 97 (by decide +kernel))
      (.cons _ _ _ _ (.copy 258 4 0 0 0 1 0 0 (by decide) (by decide) (by decide) (by decide) (by decide +kernel)
        (by decide +kernel)) (.stop (by decide +kernel))))))
    (by decide +kernel) (by decide +kernel) (by intro b hb; simp only [List.mem_singleton] at hb; subst hb; trivial)
    (by decide +kernel)

/-- A stored block. -/
example : bitsLSB [1, 1, 0, 254, 255, 65] = true :: ([false, false] ++ ([false, false, false, false, false] ++
      (toBitsLSB 16 1 ++ (toBitsLSB 16 (65535 - 1) ++ bitsLSB [65])))) := by
  decide +kernel

end Hachoir.Props
