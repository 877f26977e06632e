import Verif.Core.Human
import Mathlib.Tactic.Ring

/-!
# C63: hexadecimal numbers; C64: Unix attributes
-/

set_option linter.unusedVariables false

namespace Hachoir.Props
open Hachoir Hachoir.Human Spec

/-! ## Digits -/

/-- The digit a character stands for. -/
def digitOf (c : UInt8) : Option Nat :=
  if 48 ≤ c.toNat ∧ c.toNat ≤ 57 then some (c.toNat - 48)
  else if 97 ≤ c.toNat ∧ c.toNat ≤ 102 then some (c.toNat - 87)
  else none

/-- The number `acc` followed by the digits of a text in base `b`: `none` if a character is not
a digit of this base. -/
def readBase (b : Nat) : Nat → List UInt8 → Option Nat
  | acc, [] => some acc
  | acc, c :: cs =>
    match digitOf c with
    | some d => if d < b then readBase b (acc * b + d) cs else none
    | none => none

theorem readBase_append (b : Nat) : ∀ (xs ys : List UInt8) (acc : Nat),
    readBase b acc (xs ++ ys) = (readBase b acc xs).bind fun v => readBase b v ys
  | [], ys, acc => rfl
  | c :: xs, ys, acc => by
    rw [List.cons_append, readBase, readBase]
    cases digitOf c with
    | none => rfl
    | some d =>
      simp only
      split
      · exact readBase_append b xs ys _
      · rfl

theorem digitOf_hex (n : Nat) (h : n < 16) : digitOf (UInt8.ofNat (baseDigits.hexDigit n)) = some n := by
  have : ∀ n, n < 16 → digitOf (UInt8.ofNat (baseDigits.hexDigit n)) = some n := by decide
  exact this n h

theorem readBase_zeros (b k : Nat) (hb : 0 < b) : readBase b 0 (List.replicate k 48) = some 0 := by
  induction k with
  | zero => rfl
  | succ k ih =>
    rw [List.replicate_succ, readBase, show digitOf 48 = some 0 from by decide]
    simp only
    rw [if_pos hb, Nat.zero_mul]
    exact ih

theorem readBase_digits (b : Nat) (hb : 2 ≤ b) (hb' : b ≤ 16) (n : Nat) :
    readBase b 0 (baseDigits b n) = some n := by
  induction n using Nat.strongRecOn with
  | _ n ih =>
    rw [baseDigits]
    split
    · rename_i h
      rw [readBase, digitOf_hex n (by omega)]
      simp only
      rw [if_pos (by omega), Nat.zero_mul, Nat.zero_add]
      rfl
    · rename_i h
      have hlt : n / b < n := Nat.div_lt_self (by omega) (by omega)
      rw [readBase_append, ih _ hlt, Option.bind_some, readBase, digitOf_hex _ (by have := Nat.mod_lt n (show b > 0 by omega); omega)]
      simp only
      rw [if_pos (Nat.mod_lt _ (by omega)), Nat.mul_comm, Nat.div_add_mod]
      rfl

theorem digits_length_le (b : Nat) (hb : 2 ≤ b) : ∀ (k n : Nat), n < b ^ (k + 1) →
    (baseDigits b n).length ≤ k + 1 := by
  intro k
  induction k with
  | zero =>
    intro n h
    rw [baseDigits, dif_pos (Or.inl (by simpa using h))]
    simp
  | succ k ih =>
    intro n h
    rw [baseDigits]
    split
    · simp
    · rw [List.length_append]
      have := ih (n / b) ((Nat.div_lt_iff_lt_mul (by omega)).mpr (by rwa [← Nat.pow_succ]))
      simp only [List.length_singleton]
      omega

/-! ## C63 -/

/-- **C63.** A field of `size` bits, with a value of that many bits, is shown as `0x` and
`size / 4` digits, rounded up; they read back as the value. -/
theorem C63_hexadecimal (size value : Nat) (hs : 0 < size) (h : value < 2 ^ size) :
    ∃ digits, hexadecimal size value = .ok (asc "0x" ++ digits) ∧
      digits.length = (size + 3) / 4 ∧ readBase 16 0 digits = some value := by
  obtain ⟨w, hw⟩ : ∃ w, (size + 3) / 4 = w + 1 := ⟨(size + 3) / 4 - 1, by omega⟩
  have ha : ∃ a, Tools.alignValue size 4 = .ok a ∧ a = 4 * ((w : Int) + 1) := by
    unfold Tools.alignValue
    rw [if_neg (by decide), Int.fmod_eq_emod_of_nonneg _ (by decide)]
    split
    · exact ⟨_, rfl, by omega⟩
    · exact ⟨_, rfl, by omega⟩
  obtain ⟨a, ha, hA⟩ := ha
  have hwidth : (a.fdiv 4).toNat = w + 1 := by
    rw [Int.fdiv_eq_ediv_of_nonneg _ (by decide)]
    omega
  have hlen : (baseDigits 16 value).length ≤ w + 1 := by
    apply digits_length_le 16 (by decide)
    have h16 : (16 : Nat) ^ (w + 1) = 2 ^ (4 * (w + 1)) := by rw [Nat.pow_mul]
    rw [h16]
    exact Nat.lt_of_lt_of_le h (Nat.pow_le_pow_right (by decide) (by omega))
  refine ⟨List.replicate (w + 1 - (baseDigits 16 value).length) 48 ++ baseDigits 16 value, ?_, ?_, ?_⟩
  · unfold hexadecimal
    simp only [ha]
    rw [hwidth]
    unfold hexPadded
    simp only [Int.natAbs_natCast]
    rw [if_neg (by omega)]
  · rw [List.length_append, List.length_replicate, hw]
    omega
  · rw [readBase_append, readBase_zeros 16 _ (by decide), Option.bind_some]
    exact readBase_digits 16 (by decide) (by decide) value

/-- **C63.** Two fields of the same size that are shown alike have the same value. -/
theorem C63_injective (size v w : Nat) (hs : 0 < size) (hv : v < 2 ^ size) (hw : w < 2 ^ size)
    (h : hexadecimal size v = hexadecimal size w) : v = w := by
  obtain ⟨d, d1, d2, d3⟩ := C63_hexadecimal size v hs hv
  obtain ⟨e, e1, e2, e3⟩ := C63_hexadecimal size w hs hw
  rw [d1, e1] at h
  have : d = e := List.append_cancel_left (Except.ok.inj h)
  rw [this, e3] at d3
  exact (Option.some.inj d3).symm

/-- **C63** (disagreement): a negative value is shown with a sign behind the prefix, not in two's
complement. -/
theorem C63_negative : hexadecimal 8 (-1) = .ok (asc "0x-1") ∧ hexadecimal 16 (-1) = .ok (asc "0x-001") := by
  decide +kernel

example : hexadecimal 16 412 = .ok (asc "0x019c") := by decide +kernel
example : hexadecimal 5 17 = .ok (asc "0x11") := by decide +kernel

/-! ## C64 -/

/-- The letter of a kind of file, from the upper four bits of the mode. -/
def kindLetter : Nat → Char
  | 0 => '-' | 8 => '-' | 6 => 'b' | 2 => 'c' | 4 => 'd' | 1 => 'p' | 10 => 'l' | 12 => 's' | _ => '?'

/-- Execution right and set-uid, set-gid or sticky bit share a letter. -/
def execLetter (exec special : Bool) (lower upper : Char) : Char :=
  match exec, special with
  | false, false => '-' | true, false => 'x' | true, true => lower | false, true => upper

/-- The ten letters of `ls -l`. -/
def lsLetters (mode : Nat) : List Char :=
  let right (bit : Nat) (c : Char) := if mode.testBit bit then c else '-'
  [kindLetter (mode / 4096 % 16),
   right 8 'r', right 7 'w', execLetter (mode.testBit 6) (mode.testBit 11) 's' 'S',
   right 5 'r', right 4 'w', execLetter (mode.testBit 3) (mode.testBit 10) 's' 'S',
   right 2 'r', right 1 'w', execLetter (mode.testBit 0) (mode.testBit 9) 't' 'T']

def code (c : Char) : UInt8 := UInt8.ofNat c.toNat

theorem and_bit (mode k : Nat) : mode &&& (1 <<< k) = 0 ↔ mode.testBit k = false := by
  rw [Nat.shiftLeft_eq, Nat.one_mul]
  constructor
  · intro h
    have := congrArg (Nat.testBit · k) h
    simpa [Nat.testBit_and, Nat.testBit_two_pow_self] using this
  · intro h
    apply Nat.eq_of_testBit_eq
    intro i
    rw [Nat.testBit_and, Nat.zero_testBit]
    by_cases hi : k = i
    · subst hi; rw [h]; rfl
    · rw [Nat.testBit_two_pow_of_ne hi, Bool.and_false]

theorem and_kind (mode : Nat) : mode &&& 0o170000 = 4096 * (mode / 4096 % 16) := by
  apply Nat.eq_of_testBit_eq
  intro i
  rw [Nat.testBit_and, show 4096 * (mode / 4096 % 16) = 2 ^ 12 * (mode / 2 ^ 12 % 2 ^ 4) from rfl,
    Nat.testBit_two_pow_mul, Nat.testBit_mod_two_pow, Nat.testBit_div_two_pow]
  by_cases h1 : 12 ≤ i
  · by_cases h2 : i < 16
    · have : i = 12 ∨ i = 13 ∨ i = 14 ∨ i = 15 := by omega
      rcases this with rfl | rfl | rfl | rfl <;> simp [Nat.testBit, Nat.shiftRight_eq_div_pow]
    · have hz : Nat.testBit 0o170000 i = false := Nat.testBit_lt_two_pow
        (Nat.lt_of_lt_of_le (by decide : 0o170000 < 2 ^ 16) (Nat.pow_le_pow_right (by decide) (by omega)))
      rw [hz, Bool.and_false]
      simp
      omega
  · have : ∀ i, i < 12 → Nat.testBit 0o170000 i = false := by decide
    rw [this i (by omega), Bool.and_false]
    simp
    omega

theorem ftypelet_eq (mode : Nat) : ftypelet mode = code (kindLetter (mode / 4096 % 16)) := by
  unfold ftypelet
  simp only [and_kind]
  have h : mode / 4096 % 16 < 16 := Nat.mod_lt _ (by decide)
  obtain ⟨k, hk⟩ : ∃ k, mode / 4096 % 16 = k := ⟨_, rfl⟩
  rw [hk] at h ⊢
  have : ∀ k, k < 16 → (if 4096 * k = 0o100000 ∨ 4096 * k = 0 then (45 : UInt8)
    else if 4096 * k = 0o060000 then 98
    else if 4096 * k = 0o020000 then 99
    else if 4096 * k = 0o040000 then 100
    else if 4096 * k = 0o010000 then 112
    else if 4096 * k = 0o120000 then 108
    else if 4096 * k = 0o140000 then 115
    else 63) = code (kindLetter k) := by decide
  exact this k h

theorem permission_eq (mode i : Nat) : permission mode i =
    if mode.testBit (9 - i) then (if i % 3 = 1 then 114 else if i % 3 = 2 then 119 else 120) else 45 := by
  unfold permission
  simp only [and_bit]
  cases mode.testBit (9 - i) <;> rfl

theorem special_eq (mode k i : Nat) (hi : i % 3 = 0) (lower upper : Char) :
    special mode (1 <<< k) (permission mode i) (code upper) (code lower)
      = code (execLetter (mode.testBit (9 - i)) (mode.testBit k) lower upper) := by
  unfold special
  rw [permission_eq, hi]
  simp only [ne_eq, and_bit]
  cases mode.testBit (9 - i) <;> cases mode.testBit k <;> rfl

/-- **C64.** The text of a file mode is that of `ls -l` followed by the mode in octal. -/
theorem C64_letters (mode : Nat) : ∃ octal,
    humanUnixAttributes mode = (lsLetters mode).map code ++ asc " (" ++ octal ++ asc ")" ∧
    readBase 8 0 octal = some mode := by
  refine ⟨baseDigits 8 mode, ?_, readBase_digits 8 (by decide) (by decide) mode⟩
  unfold humanUnixAttributes lsLetters
  have s3 := special_eq mode 11 3 rfl 's' 'S'
  have s6 := special_eq mode 10 6 rfl 's' 'S'
  have s9 := special_eq mode 9 9 rfl 't' 'T'
  rw [show (1 <<< 11 : Nat) = 0o4000 from rfl, show code 'S' = 83 from rfl, show code 's' = 115 from rfl] at s3
  rw [show (1 <<< 10 : Nat) = 0o2000 from rfl, show code 'S' = 83 from rfl, show code 's' = 115 from rfl] at s6
  rw [show (1 <<< 9 : Nat) = 0o1000 from rfl, show code 'T' = 84 from rfl, show code 't' = 116 from rfl] at s9
  rw [s3, s6, s9, ftypelet_eq]
  have hp : ∀ i b c, 9 - i = b → (if i % 3 = 1 then (114 : UInt8) else if i % 3 = 2 then 119 else 120) = code c →
      permission mode i = code (if mode.testBit b then c else '-') := by
    intro i b c hb hc
    rw [permission_eq, hb, hc]
    cases mode.testBit b <;> rfl
  rw [hp 1 8 'r' rfl rfl, hp 2 7 'w' rfl rfl, hp 4 5 'r' rfl rfl, hp 5 4 'w' rfl rfl, hp 7 2 'r' rfl rfl,
    hp 8 1 'w' rfl rfl]
  rfl

/-- **C64.** Two modes shown alike are equal. -/
theorem C64_injective (m n : Nat) (h : humanUnixAttributes m = humanUnixAttributes n) : m = n := by
  obtain ⟨o, o1, o2⟩ := C64_letters m
  obtain ⟨p, p1, p2⟩ := C64_letters n
  rw [o1, p1] at h
  have h' := congrArg (List.drop 12) h
  have hl : ∀ (k : Nat) (o : List UInt8), ((lsLetters k).map code ++ asc " (" ++ o ++ asc ")").drop 12 = o ++ asc ")" := by
    intro k o
    rfl
  rw [hl, hl] at h'
  have : o = p := List.append_cancel_right h'
  rw [this, p2] at o2
  exact (Option.some.inj o2).symm

/-- A set-uid program: `-rwsr-xr-x (104755)`. -/
example : humanUnixAttributes 0o104755 = asc "-rwsr-xr-x (104755)" := by decide +kernel
example : humanUnixAttributes 0o41776 = asc "drwxrwxrwT (41776)" := by decide +kernel

end Hachoir.Props
