import Verif.Formats.Msdos
import Verif.Props.Packed

/-!
# C175: attributes of MS-DOS files
-/

namespace Hachoir.Props
open Hachoir Hachoir.Stream Hachoir.Field Hachoir.Formats Hachoir.Formats.Msdos Spec _root_.Props

/-! ### Specification -/

/-- The attributes that are named, as Windows numbers them, by importance. -/
def dosNames : List (Nat × String) :=
  [(0x10, "directory"), (0x1, "read_only"), (0x800, "compressed"), (0x2, "hidden"), (0x4, "system"), (0x80, "normal"), (0x40, "device"), (0x100, "temporary"), (0x20, "archive")]

/-- The names of the attributes of the number. -/
def dosSet (w : Nat) : List String := (dosNames.filter fun p => w / p.1 % 2 == 1).map (·.2)

/-- Up to four names, and dots if there are more. -/
def dosText (w : Nat) : String :=
  match dosSet w with
  | [] => "(none)"
  | l => ", ".intercalate (if l.length ≤ 4 then l else l.take 4 ++ ["..."])

/-- The bits of the number, and what is left of it. -/
def dosBits (w : Nat) : List Nat :=
  [w % 2, w / 2 % 2, w / 4 % 2, w / 8 % 2, w / 16 % 2, w / 32 % 2, w / 64 % 2, w / 128 % 2, w / 256 % 2, w / 512 % 2, w / 1024 % 2, w / 2048 % 2, w / 4096 % 2, w / 8192 % 2, w / 16384 % 2, w / 32768]

/-! ### Proofs -/

theorem loop_eq (bits : List Nat) : ∀ (names mode : List String), mode.length ≤ 4 →
    Msdos.loop bits mode names = if mode.length + (names.filter (isSet bits)).length ≤ 4 then mode ++ names.filter (isSet bits)
      else (mode ++ names.filter (isSet bits)).take 4 ++ ["..."]
  | [], mode, h => by
    rw [Msdos.loop, List.filter_nil, if_pos (by simpa using h), List.append_nil]
  | name :: names, mode, h => by
    rw [Msdos.loop, List.filter_cons]
    by_cases hs : isSet bits name = true
    · rw [if_pos hs, if_pos hs]
      by_cases h4 : 4 ≤ mode.length
      · rw [if_pos h4, if_neg (by rw [List.length_cons]; omega), List.take_append_of_le_length h4, List.take_of_length_le h]
      · rw [if_neg h4, loop_eq bits names (mode ++ [name]) (by rw [List.length_append]; simp; omega), List.append_assoc, List.singleton_append]
        have : (mode ++ [name]).length + (names.filter (isSet bits)).length = mode.length + (name :: names.filter (isSet bits)).length := by
          simp only [List.length_append, List.length_cons, List.length_nil]
          omega
        rw [this]
    · rw [if_neg hs, if_neg hs]
      exact loop_eq bits names mode h

theorem dos_set (w : Nat) : textKeys.filter (isSet (dosBits w)) = dosSet w := by
  have e : dosSet w = (dosNames.map (·.2)).filter fun n => isSet (dosBits w) n := by
    rw [List.filter_map]
    unfold dosSet
    congr 1
    apply List.filter_congr
    intro p hp
    have two : ∀ x : Nat, (x % 2 == 1) = (x % 2 != 0) := by
      intro x
      have := Nat.mod_two_eq_zero_or_one x
      rcases this with h | h <;> rw [h] <;> rfl
    simp only [dosNames, List.mem_cons, List.not_mem_nil, or_false] at hp
    rcases hp with rfl | rfl | rfl | rfl | rfl | rfl | rfl | rfl | rfl <;> (rw [two]; first | rfl | (rw [Nat.div_one]; rfl))
  rw [e]
  rfl

theorem dos_fit (w last : Nat) (h : w < 2 ^ (15 + last)) : Fit (widths last) (dosBits w) ∧ joinLE (widths last) (dosBits w) = w := by
  have h2 : w / 32768 < 2 ^ last := by
    rw [Nat.div_lt_iff_lt_mul (by decide)]
    rw [Nat.pow_add] at h
    omega
  refine ⟨?_, ?_⟩
  · refine ⟨?_, ?_, ?_, ?_, ?_, ?_, ?_, ?_, ?_, ?_, ?_, ?_, ?_, ?_, ?_, h2, trivial⟩ <;> exact Nat.mod_lt _ (by decide)
  · simp only [widths, dosBits, joinLE, Nat.mod_eq_of_lt h2, Nat.mod_mod, Nat.pow_one, Nat.mul_zero, Nat.add_zero]
    rw [show w / 32768 = w / 16384 / 2 by rw [Nat.div_div_eq_div_mul], Nat.mod_add_div]
    rw [show w / 16384 = w / 8192 / 2 by rw [Nat.div_div_eq_div_mul], Nat.mod_add_div]
    rw [show w / 8192 = w / 4096 / 2 by rw [Nat.div_div_eq_div_mul], Nat.mod_add_div]
    rw [show w / 4096 = w / 2048 / 2 by rw [Nat.div_div_eq_div_mul], Nat.mod_add_div]
    rw [show w / 2048 = w / 1024 / 2 by rw [Nat.div_div_eq_div_mul], Nat.mod_add_div]
    rw [show w / 1024 = w / 512 / 2 by rw [Nat.div_div_eq_div_mul], Nat.mod_add_div]
    rw [show w / 512 = w / 256 / 2 by rw [Nat.div_div_eq_div_mul], Nat.mod_add_div]
    rw [show w / 256 = w / 128 / 2 by rw [Nat.div_div_eq_div_mul], Nat.mod_add_div]
    rw [show w / 128 = w / 64 / 2 by rw [Nat.div_div_eq_div_mul], Nat.mod_add_div]
    rw [show w / 64 = w / 32 / 2 by rw [Nat.div_div_eq_div_mul], Nat.mod_add_div]
    rw [show w / 32 = w / 16 / 2 by rw [Nat.div_div_eq_div_mul], Nat.mod_add_div]
    rw [show w / 16 = w / 8 / 2 by rw [Nat.div_div_eq_div_mul], Nat.mod_add_div]
    rw [show w / 8 = w / 4 / 2 by rw [Nat.div_div_eq_div_mul], Nat.mod_add_div]
    rw [show w / 4 = w / 2 / 2 by rw [Nat.div_div_eq_div_mul], Nat.mod_add_div]
    rw [Nat.mod_add_div]

theorem dos_value (w : Nat) : value (dosBits w) = dosText w := by
  unfold value
  rw [loop_eq _ _ _ (by decide), dos_set]
  simp only [List.nil_append, List.length_nil, Nat.zero_add]
  unfold dosText
  cases dosSet w with
  | nil => rfl
  | cons x l =>
    rw [if_pos]
    split <;> simp

/-- **C175**: the attributes of a file, 32 bits wide, are named by importance, up to four and dots. -/
theorem C175_long (w : Nat) (h : w < 2 ^ 32) : Reads (attributes 17) (dosBits w) (leBytes 4 w) ∧ value (dosBits w) = dosText w := by
  obtain ⟨h1, h2⟩ := dos_fit w 17 h
  have := reads_packed_le 4 (widths 17) (dosBits w) (by decide) (by decide) h1
  rw [h2] at this
  exact ⟨this, dos_value w⟩

/-- **C175**: the same for 16 bits. -/
theorem C175_short (w : Nat) (h : w < 2 ^ 16) : Reads (attributes 1) (dosBits w) (leBytes 2 w) ∧ value (dosBits w) = dosText w := by
  obtain ⟨h1, h2⟩ := dos_fit w 1 h
  have := reads_packed_le 2 (widths 1) (dosBits w) (by decide) (by decide) h1
  rw [h2] at this
  exact ⟨this, dos_value w⟩

/-- **C175**: every named attribute is in the text if there are at most four. -/
theorem C175_named (w : Nat) (h : (dosSet w).length ≤ 4) (h0 : dosSet w ≠ []) : value (dosBits w) = ", ".intercalate (dosSet w) := by
  rw [dos_value]
  unfold dosText
  cases hw : dosSet w with
  | nil => exact absurd hw h0
  | cons x l =>
    rw [hw] at h
    simp only [if_pos h]

/-- **C175** (disagreement): a file that is sparse, a reparse point, offline, not indexed or encrypted, and nothing else, is said to have no attribute. -/
theorem C175_silent (w : Nat) (h : w / 512 * 512 = w) (hc : w / 2048 % 2 = 0) : value (dosBits w) = "(none)" := by
  rw [dos_value]
  have : dosSet w = [] := by
    simp only [dosSet, dosNames, List.map_eq_nil_iff, List.filter_eq_nil_iff, List.mem_cons, List.not_mem_nil, or_false]
    rintro p (rfl | rfl | rfl | rfl | rfl | rfl | rfl | rfl | rfl) <;> simp <;> omega
  unfold dosText
  rw [this]

example : value (dosBits 0x21) = "read_only, archive" := by
  rw [C175_named 0x21 (by decide) (by decide)]
  decide

example : dosText 0x837 = "directory, read_only, compressed, hidden, ..." := by decide +kernel

example : value (dosBits 0x4000) = "(none)" := C175_silent 0x4000 (by decide) (by decide)

end Hachoir.Props
