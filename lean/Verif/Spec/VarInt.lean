import Mathlib.Tactic.Ring
import Mathlib.Tactic.Linarith

/-!
# Specification of integers of variable length

Independent of the models: digits in base 128 and the bytes that carry them.
-/

namespace Spec

/-- The bytes of a list of digits in base 128: bit 7 is set on every byte but the last. -/
def groups : List Nat → List UInt8
  | [] => []
  | [d] => [UInt8.ofNat d]
  | d :: e :: ds => UInt8.ofNat (d + 128) :: groups (e :: ds)

/-- A non-empty list of digits in base 128. -/
def Digits (ds : List Nat) : Prop := ds ≠ [] ∧ ∀ d ∈ ds, d < 128

/-- Number spelled in base `b`, most significant digit first. -/
def ofDigitsBE (b : Nat) : List Nat → Nat
  | [] => 0
  | d :: ds => d * b ^ ds.length + ofDigitsBE b ds

/-- Number spelled in base `b`, least significant digit first. -/
def ofDigitsLE (b : Nat) : List Nat → Nat
  | [] => 0
  | d :: ds => d + b * ofDigitsLE b ds

/-- The shortest digits of a number in base 128, least significant first. -/
def digitsLE (n : Nat) : List Nat :=
  if n < 128 then [n] else n % 128 :: digitsLE (n / 128)

/-- The shortest digits of a number in base 128, most significant first. -/
def digitsBE (n : Nat) : List Nat := (digitsLE n).reverse

/-! ### Lemmas -/

theorem ofDigitsLE_append (b : Nat) (xs ys : List Nat) :
    ofDigitsLE b (xs ++ ys) = ofDigitsLE b xs + b ^ xs.length * ofDigitsLE b ys := by
  induction xs with
  | nil => simp [ofDigitsLE]
  | cons x xs ih => simp only [List.cons_append, ofDigitsLE, ih, List.length_cons]; ring

theorem ofDigitsBE_reverse (b : Nat) (ds : List Nat) : ofDigitsBE b ds = ofDigitsLE b ds.reverse := by
  induction ds with
  | nil => rfl
  | cons d ds ih => simp only [ofDigitsBE, List.reverse_cons, ofDigitsLE_append, ofDigitsLE, ih,
      List.length_reverse]; ring

theorem digitsLE_digits (n : Nat) : Digits (digitsLE n) := by
  induction n using Nat.strongRecOn with
  | _ n ih =>
    rw [digitsLE]
    split
    · exact ⟨by simp, by intro d hd; simp at hd; omega⟩
    · refine ⟨by simp, ?_⟩
      intro d hd
      rcases List.mem_cons.1 hd with h | h
      · omega
      · exact (ih (n / 128) (by omega)).2 d h

theorem ofDigitsLE_digitsLE (n : Nat) : ofDigitsLE 128 (digitsLE n) = n := by
  induction n using Nat.strongRecOn with
  | _ n ih =>
    rw [digitsLE]
    split
    · simp [ofDigitsLE]
    · rw [ofDigitsLE, ih (n / 128) (by omega)]; omega

theorem digitsLE_length (m n : Nat) (h : n < 128 ^ (m + 1)) : (digitsLE n).length ≤ m + 1 := by
  induction m generalizing n with
  | zero => rw [digitsLE, if_pos (by simpa using h)]; simp
  | succ m ih =>
    rw [digitsLE]
    split
    · simp
    · rw [List.length_cons]
      have := ih (n / 128) (by rw [Nat.div_lt_iff_lt_mul (by omega)]; rw [Nat.pow_succ] at h; exact h)
      omega

theorem digitsBE_digits (n : Nat) : Digits (digitsBE n) :=
  ⟨by simpa [digitsBE] using (digitsLE_digits n).1, fun d hd => (digitsLE_digits n).2 d (List.mem_reverse.1 hd)⟩

theorem ofDigitsBE_digitsBE (n : Nat) : ofDigitsBE 128 (digitsBE n) = n := by
  rw [ofDigitsBE_reverse, digitsBE, List.reverse_reverse, ofDigitsLE_digitsLE]

theorem digitsBE_length (m n : Nat) (h : n < 128 ^ (m + 1)) : (digitsBE n).length ≤ m + 1 := by
  rw [digitsBE, List.length_reverse]; exact digitsLE_length m n h

theorem length_groups (ds : List Nat) : (groups ds).length = ds.length := by
  induction ds with
  | nil => rfl
  | cons d ds ih =>
    cases ds with
    | nil => rfl
    | cons e ds => simp only [groups, List.length_cons] at *; omega

/-- The digits are determined by the bytes that follow. -/
theorem groups_unique (ds es : List Nat) (data : List UInt8) (hd : Digits ds) (he : Digits es)
    (h1 : groups ds <+: data) (h2 : groups es <+: data) : ds = es := by
  induction ds generalizing es data with
  | nil => exact absurd rfl hd.1
  | cons d ds ih =>
    cases es with
    | nil => exact absurd rfl he.1
    | cons e es =>
      obtain ⟨t1, rfl⟩ := h1
      obtain ⟨t2, h2⟩ := h2
      have hd0 := hd.2 d (by simp)
      have he0 := he.2 e (by simp)
      cases ds with
      | nil =>
        cases es with
        | nil =>
          simp only [groups, List.cons_append, List.cons.injEq] at h2
          have := congrArg UInt8.toNat h2.1
          simp only [UInt8.toNat_ofNat'] at this
          have : d = e := by omega
          rw [this]
        | cons e2 es =>
          simp only [groups, List.cons_append, List.cons.injEq] at h2
          have := congrArg UInt8.toNat h2.1
          simp only [UInt8.toNat_ofNat'] at this
          omega
      | cons d2 ds =>
        cases es with
        | nil =>
          simp only [groups, List.cons_append, List.cons.injEq] at h2
          have := congrArg UInt8.toNat h2.1
          simp only [UInt8.toNat_ofNat'] at this
          omega
        | cons e2 es =>
          simp only [groups, List.cons_append, List.cons.injEq] at h2
          have h3 := congrArg UInt8.toNat h2.1
          simp only [UInt8.toNat_ofNat'] at h3
          have h4 : d = e := by omega
          have := ih (e2 :: es) _ ⟨by simp, fun x hx => hd.2 x (List.mem_cons_of_mem _ hx)⟩
            ⟨by simp, fun x hx => he.2 x (List.mem_cons_of_mem _ hx)⟩ ⟨t1, rfl⟩ ⟨t2, h2.2⟩
          rw [h4, this]

end Spec
