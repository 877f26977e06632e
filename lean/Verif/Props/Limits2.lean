import Verif.Props.JpegMeta
import Verif.Props.Iptc
import Verif.Props.Python

/-!
# Tables of JPEG pictures and compiled Python files
-/

namespace Hachoir.Props
open Hachoir Hachoir.Stream Hachoir.Field Hachoir.Formats Spec

/-! ## Quality of JPEG pictures -/

/-- **C146.** A quality that is told as exact is one whose values are reached neither by the hash nor by the sum of the tables. -/
theorem C146_exact : ∀ (l : List (Nat × Nat)) (hash sum i q : Nat), JpegMeta.search hash sum i l = some (q, false) →
    i < q ∧ ∃ h s, l[q - 1 - i]? = some (h, s) ∧ hash ≤ h ∧ sum ≤ s
  | [], _, _, _, _, e => by rw [JpegMeta.search] at e; cases e
  | (h, s) :: l, hash, sum, i, q, e => by
    rw [JpegMeta.search] at e
    by_cases c : h ≤ hash ∨ s ≤ sum
    · rw [if_pos c] at e
      injection e with e
      injection e with e1 e2
      have e2 := of_decide_eq_false e2
      subst e1
      exact ⟨by omega, h, s, by simp, by omega, by omega⟩
    · rw [if_neg c] at e
      obtain ⟨a, h', s', b, d⟩ := C146_exact l hash sum (i + 1) q e
      refine ⟨by omega, h', s', ?_, d⟩
      rw [show q - 1 - i = q - 1 - (i + 1) + 1 by omega, List.getElem?_cons_succ]
      exact b

example : JpegMeta.search 5 7 0 [(9, 9), (5, 7)] = some (2, false) := by decide

/-- **C146.** A better quality has smaller values in the tables. -/
theorem C146_sorted : JpegMeta.hashColor.Pairwise (· ≥ ·) ∧ JpegMeta.sumColor.Pairwise (· ≥ ·) ∧ JpegMeta.hashGray.Pairwise (· ≥ ·) ∧ JpegMeta.sumGray.Pairwise (· ≥ ·) := by
  decide +kernel

/-! ## IPTC records -/

/-- **C147.** What metadata tell of a picture, and its keywords, date and time, are read as texts. -/
theorem C147_texts (tag : Nat) (h : (Iptc.keyOf tag).isSome ∨ tag = 25 ∨ tag = 55 ∨ tag = 60) : Iptc.kind 2 tag = .text := by
  have : tag = 80 ∨ tag = 90 ∨ tag = 101 ∨ tag = 116 ∨ tag = 120 ∨ tag = 231 ∨ tag = 25 ∨ tag = 55 ∨ tag = 60 := by
    by_contra c
    rcases h with h | h
    · rw [Iptc.keyOf, if_neg (by omega), if_neg (by omega), if_neg (by omega), if_neg (by omega), if_neg (by omega), if_neg (by omega)] at h
      cases h
    · omega
  rcases this with rfl | rfl | rfl | rfl | rfl | rfl | rfl | rfl | rfl <;> decide

example : (Iptc.keyOf 120).isSome := rfl

/-- **C147.** A size of two words is read with the first as the high digit, also when that is zero. -/
theorem C147_size_words (hi lo n : Nat) (h1 : hi < 32768) (h2 : lo < 32768) : Reads (Iptc.sizeLoop 0 (n + 2)) (hi * 32768 + lo) (beBytes 2 (32768 + hi) ++ beBytes 2 lo) := by
  rw [Iptc.sizeLoop]
  refine Reads.bind (reads_int_be 2 _ (by omega) (by omega)) ?_
  rw [if_neg (by omega), Iptc.sizeLoop]
  have := Reads.bind (f := fun v => if v < 0x8000 then pure ((0 * 0x8000 + (32768 + hi) % 0x8000) * 0x8000 + v % 0x8000)
    else Iptc.sizeLoop ((0 * 0x8000 + (32768 + hi) % 0x8000) * 0x8000 + v % 0x8000) n) (v := lo) (w := hi * 32768 + lo) (reads_int_be 2 lo (by omega) (by omega)) (by
      rw [if_pos (by omega)]
      exact Reads.of_eq (reads_pure _) (by omega) rfl)
  rwa [List.append_nil] at this

/-! ## Compiled Python files -/

/-- The minor version of Python 3 that writes a magic number, by the ranges of CPython's `importlib`. -/
def minorOf (magic : Nat) : Nat :=
  if magic < 3141 then 0 else if magic < 3160 then 1 else if magic < 3190 then 2 else if magic < 3250 then 3 else if magic < 3320 then 4 else if magic < 3360 then 5
  else if magic < 3390 then 6 else if magic < 3400 then 7 else if magic < 3420 then 8 else if magic < 3430 then 9 else 10 + (magic - 3400) / 50

/-- **C130.** The version that is told for a magic number of Python 3 is the one that writes it. -/
theorem C130_minor : ∀ p ∈ Python.magics, p.1 < 20000 → p.2 / 65536 = 0x300 + minorOf p.1 := by decide +kernel

/-- **C130.** The numbers of Python 3 are told in the order of the versions. -/
theorem C130_order : (Python.magics.filter fun p => p.1 < 20000).Pairwise (fun a b => a.1 < b.1 ∧ a.2 ≤ b.2) := by decide +kernel

/-- **C128.** The table of line numbers is read in pairs: behind a table of an odd number of bytes one more is taken. -/
theorem C128_line_table (n : Nat) (hn : n < 2 ^ 32) (ps : List (UInt8 × UInt8)) (h : ps.length = (n + 1) / 2) :
    Reads (Python.string true) (ps.flatMap fun p => [p.1, p.2]) (leBytes 4 n ++ ps.flatMap fun p => [p.1, p.2]) := by
  refine Reads.bind (reads_int_le 4 _ (by omega) (by omega)) ?_
  rw [if_pos rfl, ← h]
  have hr := reads_times_map (do
      let a ← Rd.int 1 .little
      let b ← Rd.int 1 .little
      pure [UInt8.ofNat a, UInt8.ofNat b]) (fun p : UInt8 × UInt8 => [p.1, p.2]) (fun p => [p.1, p.2]) ps (fun p _ => by
    refine Reads.of_eq (Reads.bind (reads_byte p.1 .little (by decide)) (Reads.map (f := fun b => [UInt8.ofNat p.1.toNat, UInt8.ofNat b]) (reads_byte p.2 .little (by decide)))) ?_ rfl
    simp)
  have := Reads.map (f := fun ps : List (List UInt8) => ps.flatten) hr
  rwa [← List.flatMap_def] at this

/-- **C129.** The texts that references count are those written with the codes of interned texts. -/
theorem C129_interned (c : Nat) (f : Bool) (v : Bytes) : (Python.stringTable (.text c f v) ≠ [] ↔ c = 't'.toNat ∨ c = 'A'.toNat ∨ c = 'Z'.toNat) := by
  rw [Python.stringTable]
  show _ ↔ c = 116 ∨ c = 65 ∨ c = 90
  by_cases h : c = 116 ∨ c = 65 ∨ c = 90
  · simp [h]
  · simp [h]

end Hachoir.Props
