import Verif.Field.FieldSet
import Mathlib.Data.List.Basic
import Mathlib.Data.List.Nodup
import Mathlib.Tactic.IntervalCases

/-!
# Lemmas on field names
-/

namespace Hachoir.FieldSet
open Hachoir

/-- The name does not end with `]`. -/
def Plain (n : Name) : Prop := n.getLast? ≠ some ']'

theorem digit_inj {a b : Nat} (ha : a < 10) (hb : b < 10) (h : Char.ofNat (48 + a) = Char.ofNat (48 + b)) : a = b := by
  interval_cases a <;> interval_cases b <;> first | rfl | (exfalso; revert h; decide)

theorem decimal_digits (n : Nat) : ∀ c ∈ decimal n, ∃ d, d < 10 ∧ c = Char.ofNat (48 + d) := by
  induction n using Nat.strongRecOn with
  | _ n ih =>
    rw [decimal]
    split
    · rename_i h
      intro c hc
      simp at hc
      exact ⟨n, h, hc⟩
    · rename_i h
      intro c hc
      rw [List.mem_append] at hc
      rcases hc with hc | hc
      · exact ih (n / 10) (by omega) c hc
      · simp at hc
        exact ⟨n % 10, by omega, hc⟩

theorem decimal_ne_nil (n : Nat) : decimal n ≠ [] := by
  rw [decimal]; split <;> simp

theorem decimal_no_bracket (n : Nat) : '[' ∉ decimal n := by
  intro h
  obtain ⟨d, hd, he⟩ := decimal_digits n _ h
  revert he
  interval_cases d <;> decide

theorem decimal_inj (n : Nat) : ∀ m, decimal n = decimal m → n = m := by
  induction n using Nat.strongRecOn with
  | _ n ih =>
    intro m h
    rw [decimal.eq_def n, decimal.eq_def m] at h
    by_cases hn : n < 10
    · by_cases hm : m < 10
      · rw [dif_pos hn, dif_pos hm] at h
        injection h with h
        exact digit_inj hn hm h
      · rw [dif_pos hn, dif_neg hm] at h
        have := congrArg List.length h
        have h2 := List.length_pos_iff.mpr (decimal_ne_nil (m / 10))
        simp only [List.length_append, List.length_cons, List.length_nil] at this
        omega
    · by_cases hm : m < 10
      · rw [dif_neg hn, dif_pos hm] at h
        have := congrArg List.length h
        have h2 := List.length_pos_iff.mpr (decimal_ne_nil (n / 10))
        simp only [List.length_append, List.length_cons, List.length_nil] at this
        omega
      · rw [dif_neg hn, dif_neg hm] at h
        obtain ⟨h1, h2⟩ := List.append_inj' h rfl
        injection h2 with h2
        have e1 := ih (n / 10) (by omega) (m / 10) h1
        have e2 := digit_inj (by omega) (by omega) h2
        omega

theorem split_unique {α : Type} (x : α) (a a' b b' : List α) (ha : x ∉ a) (ha' : x ∉ a')
    (h : a ++ x :: b = a' ++ x :: b') : a = a' ∧ b = b' := by
  induction a generalizing a' with
  | nil =>
    cases a' with
    | nil => simp at h; exact ⟨rfl, h⟩
    | cons y a' =>
      simp at h
      exact absurd (by simp [h.1]) ha'
  | cons y a ih =>
    cases a' with
    | nil =>
      simp at h
      exact absurd (by simp [h.1]) ha
    | cons z a' =>
      simp only [List.cons_append, List.cons.injEq] at h
      simp only [List.mem_cons, not_or] at ha ha'
      obtain ⟨e1, e2⟩ := ih a' ha.2 ha'.2 h.2
      exact ⟨by rw [h.1, e1], e2⟩

theorem indexed_inj {k k' : Name} {i i' : Nat} (h : indexed k i = indexed k' i') : k = k' ∧ i = i' := by
  unfold indexed at h
  have h1 := congrArg List.reverse h
  simp only [List.append_assoc, List.reverse_append, List.reverse_cons, List.reverse_nil, List.nil_append,
    List.cons_append, List.cons.injEq, true_and] at h1
  have e : ∀ (a b : List Char), a ++ (['['] ++ b) = a ++ '[' :: b := by simp
  have key := split_unique '[' (decimal i).reverse (decimal i').reverse k.reverse k'.reverse
    (by simpa using decimal_no_bracket i) (by simpa using decimal_no_bracket i') (by simpa using h1)
  exact ⟨List.reverse_injective key.2, decimal_inj _ _ (List.reverse_injective key.1)⟩

theorem indexed_last (k : Name) (i : Nat) : (indexed k i).getLast? = some ']' := by
  rw [indexed, List.getLast?_append]; simp

theorem indexed_not_plain (k : Name) (i : Nat) : ¬ Plain (indexed k i) := by
  unfold Plain; rw [indexed_last]; simp

theorem raw_not_plain : ¬ Plain rawName := by
  unfold Plain; decide

theorem indexed_ne_raw (k : Name) (i : Nat) : indexed k i ≠ rawName := by
  intro h
  have h1 := congrArg List.reverse h
  have hr : rawName.reverse = [']', '[', 'w', 'a', 'r'] := by decide
  rw [hr] at h1
  unfold indexed at h1
  simp only [List.append_assoc, List.reverse_append, List.reverse_cons, List.reverse_nil, List.nil_append,
    List.cons_append, List.cons.injEq, true_and] at h1
  cases hd : (decimal i).reverse with
  | nil => simp at hd; exact decimal_ne_nil i hd
  | cons c r =>
    rw [hd] at h1
    simp at h1
    have : '[' ∈ (decimal i).reverse := by rw [hd, ← h1.1]; simp
    rw [List.mem_reverse] at this
    exact decimal_no_bracket i this

theorem isArray_iff (n : Name) : isArray n = true ↔ n = arrayKey n ++ ['[', ']'] := by
  unfold isArray arrayKey
  rw [List.isSuffixOf_iff_suffix]
  constructor
  · rintro ⟨t, rfl⟩; simp
  · intro h; rw [h]; exact List.suffix_append _ _

theorem arrayKey_append (n : Name) : arrayKey (n ++ ['[', ']']) = n := by
  simp [arrayKey]

theorem lookup_cons_self (counts : List (Name × Nat)) (k : Name) (n : Nat) : lookup ((k, n) :: counts) k = some n := by
  simp [lookup]

theorem lookup_cons_ne (counts : List (Name × Nat)) (k k' : Name) (n : Nat) (h : k ≠ k') :
    lookup ((k, n) :: counts) k' = lookup counts k' := by
  simp [lookup, h]

end Hachoir.FieldSet
