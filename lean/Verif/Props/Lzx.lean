import Verif.Archive.LzxJumpLemmas

/-!
# C67, C68: LZX compressed data, and jumps in it
-/

set_option linter.unusedVariables false

namespace Hachoir.Props
open Hachoir Hachoir.Stream Hachoir.Archive Hachoir.Archive.LZX Spec.Lzx Spec.Jumps
open Spec (toBitsMSB codeWord)

/-! ## C67: decompression -/

/-- Full claim: for every LZX file of any window size, `lzx_decompress` returns the bytes the blocks
stand for, up to the translation of jumps.  Proved for files without that translation, if no block
begins at the end of a frame except stored ones behind stored ones: elsewhere the code aligns to 16
bits behind the trees of the block, the format in front of the block. -/
theorem C67_decompress_partial {level : Nat} {filesize : Option Nat} {infos : List Info} {raw file : Bytes}
    {s : InputStream} (h : File level filesize infos raw file) (hf : filesize = none ∨ filesize = some 0)
    (hap : Apart 0 infos) (hs : stringInputStream file = .ok s) :
    lzxDecompress s (8 * file.length) level = .ok raw := by
  rw [lzxDecompress_spec h hap hs, translated_none filesize hf infos [] raw (file_length h), List.nil_append]

/-- The same with a translation, for bytes in which there is nothing to translate. -/
theorem C67_noJump_partial {level : Nat} {filesize : Option Nat} {infos : List Info} {raw file : Bytes}
    {s : InputStream} (h : File level filesize infos raw file) (h8 : 0xE8 ∉ raw)
    (hap : Apart 0 infos) (hs : stringInputStream file = .ok s) :
    lzxDecompress s (8 * file.length) level = .ok raw := by
  rw [lzxDecompress_spec h hap hs, translated_clear filesize infos [] raw (by simp) h8 (file_length h), List.nil_append]

/-- The translation never changes how many bytes there are, nor where they end: whatever the
translation, if there is an output it has the length of the raw bytes. -/
theorem C67_length_partial {level : Nat} {filesize : Option Nat} {infos : List Info} {raw file out : Bytes}
    {s : InputStream} (h : File level filesize infos raw file) (hap : Apart 0 infos)
    (hs : stringInputStream file = .ok s) (ho : lzxDecompress s (8 * file.length) level = .ok out) :
    out.length = (infos.map Info.size).sum := by
  rw [lzxDecompress_spec h hap hs] at ho
  have := length_translated filesize infos [] raw (file_length h) out ho
  simpa [file_length h] using this

/-! ## C68: jumps -/

/-- Full claim: with a file size in the header, the output is the raw bytes with the targets of the
jumps of every frame made relative again.  Proved for file sizes and outputs below 2 GiB, when the
places where blocks end are `Calm`. -/
theorem C68_relative_partial {level n : Nat} {infos : List Info} {raw file : Bytes} {s : InputStream}
    (h : File level (some n) infos raw file) (h0 : 0 < n) (hn : n < 2 ^ 31) (hraw : raw.length < 2 ^ 31)
    (hc : Calm raw 0 infos) (hap : Apart 0 infos) (hs : stringInputStream file = .ok s) :
    lzxDecompress s (8 * file.length) level = .ok (makeRelative n raw) := by
  rw [lzxDecompress_spec h hap hs, translated_relative h h0 (by omega) (by omega) hc]

/-- So what the compressor made absolute comes back as it was. -/
theorem C68_restored_partial {level n : Nat} {infos : List Info} {original file : Bytes} {s : InputStream}
    (h : File level (some n) infos (makeAbsolute n original) file) (h0 : 0 < n) (hn : n < 2 ^ 31)
    (hlen : original.length < 2 ^ 31) (hc : Calm (makeAbsolute n original) 0 infos) (hap : Apart 0 infos)
    (hs : stringInputStream file = .ok s) :
    lzxDecompress s (8 * file.length) level = .ok original := by
  have hl : (makeAbsolute n original).length = original.length := length_inAll _ _ _
  rw [C68_relative_partial h h0 hn (by omega) hc hap hs]
  congr 1
  exact inAll_inverse n (by omega) original 0 (by omega)

/-- A single block that is stored is `Calm`, unless it has 6 to 9 bytes. -/
theorem calm_single (raw : Bytes) (i : Info) (h : i.e8 = true) (hn : i.size ≤ 5 ∨ 10 ≤ i.size) : Calm raw 0 [i] := by
  refine ⟨by omega, fun p hp => by omega, fun h' => ?_, trivial⟩
  rw [h] at h'; cases h'

/-! ## Files -/

/-- A file with one stored block. -/
theorem stored_file (filesize : Option Nat) (hn : ∀ n, filesize = some n → n < 2 ^ 32) (bytes fill file : Bytes)
    (pad : List Bool) (h1 : 0 < bytes.length) (h2 : bytes.length < 2 ^ 24) (h3 : pad.length = 4)
    (h4 : fill.length = bytes.length % 2) (he : file.length % 2 = 0)
    (h5 : fileBits file = headBits filesize ++ (toBitsMSB 3 3 ++ (toBitsMSB 24 bytes.length ++
      (pad ++ fileBits (le32 1 ++ le32 1 ++ le32 1 ++ bytes ++ fill))))) :
    File 15 filesize [⟨true, bytes.length, true⟩] bytes file where
  even := he
  size := hn
  some := by simp
  bits := by
    refine ⟨30, _, _, [], ⟨by decide, by decide, by decide⟩, rfl, by decide, .cons _ _ _ _ _ _ _ _
      (.stored _ bytes fill 1 1 1 pad h1 h2 (by decide) (by decide) (by decide) (by omega) (by omega) ?_ h4)
      (.nil _ _), ?_⟩
    · cases filesize with
      | none => rw [h3]; decide
      | some n => rw [h3]; simp [headBits, Spec.length_toBitsMSB]
    · rw [h5]; simp

/-- Three bytes, as they are. -/
example : ∀ s, stringInputStream [0, 48, 48, 0, 1, 0, 0, 0, 1, 0, 0, 0, 1, 0, 0, 0, 1, 2, 3, 0] = .ok s →
    lzxDecompress s 160 15 = .ok [1, 2, 3] := fun s hs =>
  C67_decompress_partial (stored_file none (by simp) [1, 2, 3] [0] _ [false, false, false, false] (by decide) (by decide)
    rfl rfl rfl (by decide +kernel)) (Or.inl rfl) trivial hs

/-- A jump to 100 from position 2. -/
example : ∀ s, stringInputStream [0, 128, 244, 1, 0, 48, 64, 1, 1, 0, 0, 0, 1, 0, 0, 0, 1, 0, 0, 0, 1, 2, 232, 100, 0, 0,
      0, 0, 1, 2, 3, 4, 5, 6, 7, 8, 9, 10, 11, 12] = .ok s →
    lzxDecompress s 320 15 = .ok [1, 2, 232, 98, 0, 0, 0, 0, 1, 2, 3, 4, 5, 6, 7, 8, 9, 10, 11, 12] := fun s hs =>
  C68_restored_partial (n := 1000) (infos := [⟨true, 20, true⟩])
    (by
      rw [show makeAbsolute 1000 [1, 2, 232, 98, 0, 0, 0, 0, 1, 2, 3, 4, 5, 6, 7, 8, 9, 10, 11, 12]
        = [1, 2, 232, 100, 0, 0, 0, 0, 1, 2, 3, 4, 5, 6, 7, 8, 9, 10, 11, 12] by decide +kernel]
      exact stored_file (some 1000) (by simp) [1, 2, 232, 100, 0, 0, 0, 0, 1, 2, 3, 4, 5, 6, 7, 8, 9, 10, 11, 12] [] _ [false, false, false, false] (by decide) (by decide)
        rfl rfl rfl (by decide +kernel))
    (by decide) (by decide) (by decide) (calm_single _ _ rfl (by decide)) trivial hs

/-- Frames of up to 10 bytes have no jumps, but the code translates one in 6 bytes: `len - 10` is
negative, and `find` counts it from the end. -/
theorem C68_shortFrame : ∃ (raw file : Bytes) (s : InputStream), File 15 (some 1000) [⟨true, 6, true⟩] raw file ∧
    stringInputStream file = .ok s ∧ makeRelative 1000 raw = raw ∧
    lzxDecompress s (8 * file.length) 15 ≠ .ok raw := by
  have hf : File 15 (some 1000) [⟨true, 6, true⟩] [0, 0xE8, 5, 0, 0, 0] [0, 128, 244, 1, 0, 48, 96, 0, 1, 0, 0, 0, 1, 0, 0, 0, 1, 0, 0, 0,
      0, 232, 5, 0, 0, 0] := stored_file (some 1000) (by simp) [0, 0xE8, 5, 0, 0, 0] [] _ [false, false, false, false] (by decide)
        (by decide) rfl rfl rfl (by decide +kernel)
  refine ⟨_, _, _, hf, rfl, by decide +kernel, ?_⟩
  rw [lzxDecompress_spec hf trivial rfl]
  decide +kernel

/-- And with 7 bytes it may stop with an error. -/
theorem C68_shortFrame_error : ∃ (raw file : Bytes) (s : InputStream), File 15 (some 1000) [⟨true, 7, true⟩] raw file ∧
    stringInputStream file = .ok s ∧ makeRelative 1000 raw = raw ∧
    lzxDecompress s (8 * file.length) 15 = .error .struct := by
  have hf : File 15 (some 1000) [⟨true, 7, true⟩] [0, 0, 0, 0xE8, 5, 0, 0] [0, 128, 244, 1, 0, 48, 112, 0, 1, 0, 0, 0, 1, 0, 0, 0, 1,
      0, 0, 0, 0, 0, 0, 232, 5, 0, 0, 0] := stored_file (some 1000) (by simp) [0, 0, 0, 0xE8, 5, 0, 0] [0] _
        [false, false, false, false] (by decide) (by decide) rfl rfl rfl (by decide +kernel)
  refine ⟨_, _, _, hf, rfl, by decide +kernel, ?_⟩
  rw [lzxDecompress_spec hf trivial rfl]
  decide +kernel

/-- A jump at the end of a block is translated, and then its operand is searched for jumps again
behind the next block. -/
theorem C68_blockEnd : ∃ (raw file : Bytes) (s : InputStream),
    File 15 (some 1000) [⟨true, 15, true⟩, ⟨true, 10, true⟩] raw file ∧
    stringInputStream file = .ok s ∧ ∃ out, lzxDecompress s (8 * file.length) 15 = .ok out ∧
    out ≠ makeRelative 1000 raw := by
  have hf : File 15 (some 1000) [⟨true, 15, true⟩, ⟨true, 10, true⟩]
      [1, 2, 3, 4, 0xE8, 0xEC, 0, 0, 0, 0, 9, 9, 9, 9, 9, 7, 7, 7, 7, 7, 7, 7, 7, 7, 7]
      [0, 128, 244, 1, 0, 48, 240, 0, 1, 0, 0, 0, 1, 0, 0, 0, 1, 0, 0, 0, 1, 2, 3, 4, 232, 236, 0, 0, 0, 0, 9, 9, 9, 9,
        9, 0, 0, 96, 64, 1, 1, 0, 0, 0, 1, 0, 0, 0, 1, 0, 0, 0, 7, 7, 7, 7, 7, 7, 7, 7, 7, 7] :=
    { even := rfl
      size := by simp
      some := by simp
      bits := ⟨30, _, _, [], ⟨by decide, by decide, by decide⟩, rfl, by decide, .cons _ _ _ _ _ _ _ _
        (.stored _ [1, 2, 3, 4, 0xE8, 0xEC, 0, 0, 0, 0, 9, 9, 9, 9, 9] [0] 1 1 1 [false, false, false, false] (by decide)
          (by decide) (by decide) (by decide) (by decide) (by decide) (by decide) (by decide) rfl)
        (.cons _ _ _ _ _ _ _ _ (.stored _ (List.replicate 10 7) [] 1 1 1 [false, false, false, false, false] (by decide)
          (by decide) (by decide) (by decide) (by decide) (by decide) (by decide) (by decide +kernel) rfl) (.nil _ _)),
        by decide +kernel⟩ }
  refine ⟨_, _, _, hf, rfl, ?_⟩
  rw [lzxDecompress_spec hf ⟨by decide, trivial⟩ rfl]
  exact ⟨[1, 2, 3, 4, 0xE8, 0xE8, 0xFB, 0xFF, 0xFF, 0xFF, 9, 9, 9, 9, 9, 7, 7, 7, 7, 7, 7, 7, 7, 7, 7], by decide +kernel, by decide +kernel⟩

/-- The first 36 bytes of a file in which a jump is repeated by copies: the second block has no code
for the byte E8 itself. -/
def copiedJump : Bytes := [0xE8, 100, 0, 0, 0, 1, 2, 3, 4, 5, 6, 7, 0xE8, 100, 0, 0, 0, 1, 2, 3, 4, 5, 6, 7,
  0xE8, 100, 0, 0, 0, 1, 2, 3, 4, 5, 6, 7]

/-- Such a file, with a header. -/
def copiedFile (filesize : Bytes) : Bytes := filesize ++ [0, 48, 192, 0, 1, 0, 0, 0, 1, 0, 0, 0, 1, 0, 0, 0, 232, 100, 0, 0, 0, 1, 2, 3, 4, 5, 6,
  7, 0, 32, 2, 3, 0, 0, 0, 0, 0, 0, 0, 0, 31, 2, 255, 255, 128, 255, 0, 0, 0, 0, 0, 0, 8, 0, 31, 132, 125, 222, 196,
  247, 0, 0, 0, 0, 0, 0, 0, 0, 16, 0, 247, 125, 101, 223, 0, 36]

/-- Lengths of the codes for the byte E8 to the others, and of the copies: one of them has a code. -/
def copyCodes : List Nat := List.replicate 62 0 ++ [1] ++ List.replicate 177 0

/-- The bits of the lengths of the codes. -/
def treeBits (pre : List Nat) (rs : List TreeRun) : List Bool :=
  pre.flatMap (toBitsMSB 4) ++ rs.flatMap (TreeRun.bits pre)

/-- The bits of its two blocks. -/
def copiedBits : List Bool :=
  (toBitsMSB 3 3 ++ (toBitsMSB 24 12 ++ ([false, false, false, false] ++
    fileBits (le32 1 ++ le32 1 ++ le32 1 ++ [0xE8, 100, 0, 0, 0, 1, 2, 3, 4, 5, 6, 7] ++ [])))) ++
  ((toBitsMSB 3 1 ++ (toBitsMSB 24 24 ++
    (treeBits [1, 0, 0, 0, 0, 0, 0, 0, 0, 0, 0, 0, 0, 0, 0, 0, 0, 0, 1, 0] (List.replicate 5 (.manyZeros 51) ++ [.delta 0]) ++
     treeBits [0, 0, 0, 0, 0, 0, 0, 0, 0, 0, 0, 0, 0, 0, 0, 0, 2, 2, 1, 0]
       [.manyZeros 51, .zeros 11, .delta 16, .manyZeros 51, .manyZeros 51, .manyZeros 51, .manyZeros 24] ++
     treeBits [0, 0, 0, 0, 0, 0, 0, 0, 0, 0, 0, 0, 0, 0, 0, 0, 0, 0, 1, 0] (List.replicate 4 (.manyZeros 51) ++ [.manyZeros 45]) ++
     ((codeWord (List.replicate 256 0 ++ copyCodes) 318 ++ ([] ++ toBitsMSB 2 2)) ++ ([] ++
     ((codeWord (List.replicate 256 0 ++ copyCodes) 318 ++ ([] ++ toBitsMSB 2 2)) ++ ([] ++
     ((codeWord (List.replicate 256 0 ++ copyCodes) 318 ++ ([] ++ toBitsMSB 2 2)) ++ ([] ++ []))))))))) ++ [])

theorem copied_blocks (pos : Nat) (hpos : pos % 16 = 1) : BlocksBits 15 30 pos (State.init 30)
    [⟨true, 12, true⟩, ⟨false, 24, false⟩]
    ⟨copiedJump, (12, 12, 12), List.replicate 256 0, copyCodes, List.replicate 249 0⟩ copiedBits := by
  have hstart : Lengths (List.replicate 256 0) (List.replicate 5 (.manyZeros 51) ++ [.delta 0]) (List.replicate 256 0) :=
    .manyZeros 51 (List.replicate 51 0) (List.replicate 205 0) _ (List.replicate 205 0) (List.length_replicate ..)
      (.manyZeros 51 (List.replicate 51 0) (List.replicate 154 0) _ (List.replicate 154 0) (List.length_replicate ..)
      (.manyZeros 51 (List.replicate 51 0) (List.replicate 103 0) _ (List.replicate 103 0) (List.length_replicate ..)
      (.manyZeros 51 (List.replicate 51 0) (List.replicate 52 0) _ (List.replicate 52 0) (List.length_replicate ..)
      (.manyZeros 51 (List.replicate 51 0) (List.replicate 1 0) _ (List.replicate 1 0) (List.length_replicate ..)
      (.delta 0 0 [] [] [] .nil)))))
  have hdelta : Lengths (0 :: List.replicate 177 0)
      [.delta 16, .manyZeros 51, .manyZeros 51, .manyZeros 51, .manyZeros 24] (newLength 0 16 :: List.replicate 177 0) :=
    .delta 0 16 (List.replicate 177 0) _ (List.replicate 177 0)
      (.manyZeros 51 (List.replicate 51 0) (List.replicate 126 0) _ (List.replicate 126 0) (List.length_replicate ..)
      (.manyZeros 51 (List.replicate 51 0) (List.replicate 75 0) _ (List.replicate 75 0) (List.length_replicate ..)
      (.manyZeros 51 (List.replicate 51 0) (List.replicate 24 0) _ (List.replicate 24 0) (List.length_replicate ..)
      (.manyZeros 24 (List.replicate 24 0) [] _ [] (List.length_replicate ..) .nil))))
  rw [show newLength 0 16 = 1 by decide, show 0 :: List.replicate 177 0 = List.replicate 178 0 by decide +kernel] at hdelta
  have hrest := Lengths.manyZeros 51 (List.replicate 51 0) _ _ _ (List.length_replicate ..)
    (Lengths.zeros 11 (List.replicate 11 0) _ _ _ (List.length_replicate ..) hdelta)
  rw [show List.replicate 51 0 ++ (List.replicate 11 0 ++ List.replicate 178 0) = List.replicate 240 0 by decide +kernel,
    show List.replicate 51 0 ++ (List.replicate 11 0 ++ 1 :: List.replicate 177 0) = copyCodes by decide +kernel] at hrest
  have hlens : Lengths (List.replicate 249 0) (List.replicate 4 (.manyZeros 51) ++ [.manyZeros 45]) (List.replicate 249 0) :=
    .manyZeros 51 (List.replicate 51 0) (List.replicate 198 0) _ (List.replicate 198 0) (List.length_replicate ..)
      (.manyZeros 51 (List.replicate 51 0) (List.replicate 147 0) _ (List.replicate 147 0) (List.length_replicate ..)
      (.manyZeros 51 (List.replicate 51 0) (List.replicate 96 0) _ (List.replicate 96 0) (List.length_replicate ..)
      (.manyZeros 51 (List.replicate 51 0) (List.replicate 45 0) _ (List.replicate 45 0) (List.length_replicate ..)
      (.manyZeros 45 (List.replicate 45 0) [] _ [] (List.length_replicate ..) .nil))))
  have t1 := TreeBits.mk (old := List.replicate 256 0) (new := List.replicate 256 0)
    [1, 0, 0, 0, 0, 0, 0, 0, 0, 0, 0, 0, 0, 0, 0, 0, 0, 0, 1, 0] _ rfl (by decide) ⟨1, by decide, by decide⟩
    (by
      intro r hr
      rw [List.mem_append, List.mem_singleton] at hr
      rcases hr with hr | rfl
      · rw [List.eq_of_mem_replicate hr]; exact ⟨by decide, by decide, by decide, by decide⟩
      · exact ⟨by decide, by decide, by decide⟩) hstart
  have t2 := TreeBits.mk (old := List.replicate 240 0) (new := copyCodes)
    [0, 0, 0, 0, 0, 0, 0, 0, 0, 0, 0, 0, 0, 0, 0, 0, 2, 2, 1, 0] _ rfl (by decide) ⟨2, by decide, by decide⟩
    (by
      intro r hr
      simp only [List.mem_cons, List.not_mem_nil, or_false] at hr
      rcases hr with rfl | rfl | rfl | rfl | rfl | rfl | rfl
      · exact ⟨by decide, by decide, by decide, by decide⟩
      · exact ⟨by decide, by decide, by decide, by decide⟩
      · exact ⟨by decide, by decide, by decide⟩
      all_goals exact ⟨by decide, by decide, by decide, by decide⟩) hrest
  have t3 := TreeBits.mk (old := List.replicate 249 0) (new := List.replicate 249 0)
    [0, 0, 0, 0, 0, 0, 0, 0, 0, 0, 0, 0, 0, 0, 0, 0, 0, 0, 1, 0] _ rfl (by decide) ⟨1, by decide, by decide⟩
    (by
      intro r hr
      rw [List.mem_append, List.mem_singleton] at hr
      rcases hr with hr | rfl
      · rw [List.eq_of_mem_replicate hr]; exact ⟨by decide, by decide, by decide, by decide⟩
      · exact ⟨by decide, by decide, by decide, by decide⟩) hlens
  have copy : ∀ (d : Bytes) (r0 r1 r2 : Nat), d.length = 12 ∨ d.length = 20 ∨ d.length = 28 →
      CodeBits 15 30 ⟨List.replicate 256 0 ++ copyCodes, List.replicate 249 0, none⟩ d (r0, r1, r2)
        (codeWord (List.replicate 256 0 ++ copyCodes) 318 ++ ([] ++ toBitsMSB 2 2)) (Spec.lzCopy d 12 8) (12, r0, r1) := by
    intro d r0 r1 r2 hd
    exact .copy d _ _ 8 6 12 7 [] _ (.short 6 (by decide)) (.new r0 r1 r2 12 7 2 _ (by decide) (by decide)
      (.verbatim _ _ (by decide) (Or.inl rfl))) (by decide) (by decide) (by omega) (by decide) (by unfold frame; omega)
      ⟨by decide +kernel, by decide +kernel⟩
  have codes : ∀ pos, CodesBits 15 30 ⟨List.replicate 256 0 ++ copyCodes, List.replicate 249 0, none⟩ pos
      [0xE8, 100, 0, 0, 0, 1, 2, 3, 4, 5, 6, 7] (1, 1, 1) _ copiedJump (12, 12, 12) := fun pos =>
    .cons _ _ (copiedJump.take 20) _ _ _ _ _ [] _ (copy [0xE8, 100, 0, 0, 0, 1, 2, 3, 4, 5, 6, 7] 1 1 1 (by decide)) rfl
      (.cons _ _ (copiedJump.take 28) _ _ _ _ _ [] _ (copy (copiedJump.take 20) 12 1 1 (by decide)) rfl
      (.cons _ _ copiedJump _ _ _ _ _ [] _ (copy (copiedJump.take 28) 12 12 1 (by decide)) rfl (.nil _ _ _)))
  have k1 : Spec.Kraft (List.replicate 256 0 ++ copyCodes) := ⟨1, by decide +kernel, by decide +kernel⟩
  have k2 : Spec.Kraft (List.replicate 249 0) := ⟨1, by decide +kernel, by decide +kernel⟩
  have b1 : ∀ pos, pos % 16 = 1 → BlockBits 15 30 pos (State.init 30) ⟨true, 12, true⟩
      { State.init 30 with data := [0xE8, 100, 0, 0, 0, 1, 2, 3, 4, 5, 6, 7], recent := (1, 1, 1) } _ := fun pos hp =>
    .stored _ [0xE8, 100, 0, 0, 0, 1, 2, 3, 4, 5, 6, 7] [] 1 1 1 [false, false, false, false] (by decide)
        (by decide) (by decide) (by decide) (by decide) (by decide) (by decide)
        (by rw [show [false, false, false, false].length = 4 from rfl]; omega) rfl
  have b2 : ∀ pos, BlockBits 15 30 pos
      { State.init 30 with data := [0xE8, 100, 0, 0, 0, 1, 2, 3, 4, 5, 6, 7], recent := (1, 1, 1) }
      ⟨false, 24, decide ((List.replicate 256 0).getD 0xE8 0 ≠ 0)⟩
      ⟨copiedJump, (12, 12, 12), List.replicate 256 0, copyCodes, List.replicate 249 0⟩ _ := fun pos =>
    .verbatim { State.init 30 with data := [0xE8, 100, 0, 0, 0, 1, 2, 3, 4, 5, 6, 7], recent := (1, 1, 1) }
      ⟨copiedJump, (12, 12, 12), List.replicate 256 0, copyCodes, List.replicate 249 0⟩ 24 _ (by decide) (by decide) rfl
      (.mk _ _ _ _ t1 t2 t3 k1 k2 (codes _))
  rw [show decide ((List.replicate 256 0).getD 0xE8 0 ≠ 0) = false by decide +kernel] at b2
  exact .cons _ _ _ _ _ _ _ _ (b1 pos hpos) (.cons _ _ _ _ _ _ _ _ (b2 _) (.nil _ _))

/-- The file with jumps to be translated. -/
theorem copied_file : File 15 (some 1000) [⟨true, 12, true⟩, ⟨false, 24, false⟩] copiedJump
    (copiedFile [0, 128, 244, 1]) where
  even := rfl
  size := by simp
  some := by simp
  bits := ⟨30, _, _, List.replicate 9 false, ⟨by decide, by decide, by decide⟩, rfl, by decide,
    copied_blocks _ (by decide), by decide +kernel⟩

/-- The file without. -/
theorem copied_plain : File 15 none [⟨true, 12, true⟩, ⟨false, 24, false⟩] copiedJump (copiedFile []) where
  even := rfl
  size := by simp
  some := by simp
  bits := ⟨30, _, _, List.replicate 9 false, ⟨by decide, by decide, by decide⟩, rfl, by decide,
    copied_blocks _ (by decide), by decide +kernel⟩

/-- A stored block and a compressed one. -/
example : ∀ s, stringInputStream (copiedFile []) = .ok s → lzxDecompress s 608 15 = .ok copiedJump := fun s hs =>
  C67_decompress_partial copied_plain (Or.inl rfl) ⟨by decide, trivial⟩ hs

/-- Whether jumps are translated is decided for each block, by the codes of that block: a jump that
a block copies from before is not translated if the byte E8 itself has no code there. -/
theorem C68_copiedJump : ∃ (infos : List Info) (raw file : Bytes) (s : InputStream),
    File 15 (some 1000) infos raw file ∧ stringInputStream file = .ok s ∧
    (infos.map Info.size).sum = 36 ∧ ∃ out, lzxDecompress s (8 * file.length) 15 = .ok out ∧
    out.drop 12 = raw.drop 12 ∧ (makeRelative 1000 raw).drop 12 ≠ raw.drop 12 := by
  refine ⟨_, _, _, _, copied_file, rfl, rfl, ?_⟩
  rw [lzxDecompress_spec copied_file ⟨by decide, trivial⟩ rfl]
  exact ⟨copiedJump, by decide +kernel, rfl, by decide +kernel⟩

end Hachoir.Props
