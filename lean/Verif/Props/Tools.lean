import Verif.Core.Tools

/-!
# Properties C15, C16: alignment arithmetic and binary searches
-/

namespace Props
open Hachoir Hachoir.Tools

/-! ## C15 -/

/-- C15: for a positive alignment, `alignValue` is the least multiple of the
alignment that is not below the value. -/
theorem C15_alignValue (value align : Int) (h : 0 < align) :
    ∃ r, alignValue value align = .ok r ∧ align ∣ r ∧ value ≤ r ∧
      ∀ m, align ∣ m → value ≤ m → r ≤ m := by
  have hne : align ≠ 0 := by omega
  have hf : value.fmod align = value % align := Int.fmod_eq_emod_of_nonneg _ (by omega)
  have h1 := Int.emod_nonneg value hne
  have h2 := Int.emod_lt_of_pos value h
  have h3 := Int.emod_add_mul_ediv value align
  by_cases hz : value % align = 0
  · refine ⟨value, by simp [alignValue, hne, hf, hz], Int.dvd_of_emod_eq_zero hz, Int.le_refl _,
      fun m _ hm => hm⟩
  · refine ⟨value + align - value % align, by simp [alignValue, hne, hf, hz], ?_, by omega, ?_⟩
    · refine ⟨value / align + 1, ?_⟩
      rw [Int.mul_add, Int.mul_one]; omega
    · rintro m ⟨k, rfl⟩ hm
      -- value / align < k
      have hk : value / align < k := by
        apply Int.lt_of_mul_lt_mul_left (a := align) _ (by omega)
        omega
      have : align * (value / align + 1) ≤ align * k :=
        Int.mul_le_mul_of_nonneg_left (by omega) (by omega)
      rw [Int.mul_add, Int.mul_one] at this
      omega

example : alignValue 33 4 = .ok 36 := by decide
example : alignValue 32 4 = .ok 32 := by decide

/-- C15: `value + paddingSize = alignValue` for every non-zero alignment, and
`0 ≤ paddingSize < align` for a positive one. -/
theorem C15_paddingSize (value align : Int) (h : align ≠ 0) :
    ∃ p r, paddingSize value align = .ok p ∧ alignValue value align = .ok r ∧ value + p = r ∧
      (0 < align → 0 ≤ p ∧ p < align) := by
  by_cases hz : value.fmod align = 0
  · exact ⟨0, value, by simp [paddingSize, h, hz], by simp [alignValue, h, hz], by omega,
      fun hp => ⟨by omega, hp⟩⟩
  · refine ⟨_, _, by simp [paddingSize, h, hz]; rfl, by simp [alignValue, h, hz]; rfl, by omega, ?_⟩
    intro hp
    have hf : value.fmod align = value % align := Int.fmod_eq_emod_of_nonneg _ (by omega)
    have h1 := Int.emod_nonneg value h
    have h2 := Int.emod_lt_of_pos value hp
    omega

/-- C15: a zero alignment is a ZeroDivisionError in both functions. -/
theorem C15_zero (value : Int) :
    alignValue value 0 = .error .zeroDivision ∧ paddingSize value 0 = .error .zeroDivision := by
  simp [alignValue, paddingSize]

/-! ## C16 -/

/-- Monotone test: once false, stays false. -/
def Monotone' {α : Type _} (seq : List α) (test : α → Bool) : Prop :=
  ∀ (i j : Nat) (x y : α), i ≤ j → seq[i]? = some x → seq[j]? = some y → test y = true → test x = true

theorem lowerBoundLoop_spec {α : Type _} (seq : List α) (test : α → Bool) (hm : Monotone' seq test)
    (f n : Nat) (hfn : f + n ≤ seq.length)
    (hlo : ∀ i x, i < f → seq[i]? = some x → test x = true)
    (hhi : ∀ i x, f + n ≤ i → seq[i]? = some x → test x = false) :
    ∃ r, lowerBoundLoop seq test f n = .ok r ∧ r ≤ seq.length ∧
      (∀ i x, i < r → seq[i]? = some x → test x = true) ∧
      (∀ i x, r ≤ i → seq[i]? = some x → test x = false) := by
  induction n using Nat.strongRecOn generalizing f with
  | ind n ih =>
    rw [lowerBoundLoop]
    by_cases h : 0 < n
    · have e : n >>> 1 = n / 2 := by rw [Nat.shiftRight_eq_div_pow]
      simp only [h, dif_pos, e]
      have hmlt : f + n / 2 < seq.length := by omega
      rw [List.getElem?_eq_getElem hmlt]
      have hget : seq[f + n / 2]? = some seq[f + n / 2] := List.getElem?_eq_getElem hmlt
      by_cases ht : test seq[f + n / 2] = true
      · simp only [ht, if_true]
        apply ih _ (by omega) _ (by omega)
        · intro i x hi hx
          exact hm i (f + n / 2) x _ (by omega) hx hget ht
        · intro i x hi hx
          exact hhi i x (by omega) hx
      · simp only [ht]
        apply ih _ (by omega) _ (by omega) hlo
        intro i x hi hx
        cases hxx : test x with
        | false => rfl
        | true => exact absurd (hm (f + n / 2) i _ x hi hget hx hxx) ht
    · have : n = 0 := by omega
      subst this
      exact ⟨f, by simp, by omega, hlo, by simpa using hhi⟩

/-- C16: `lowerBound` with a monotone test never indexes out of range and
returns the boundary: the test holds exactly on the elements before it. -/
theorem C16_lowerBound {α : Type _} (seq : List α) (test : α → Bool) (hm : Monotone' seq test) :
    ∃ r, lowerBound seq test = .ok r ∧ r ≤ seq.length ∧
      (∀ i x, seq[i]? = some x → (test x = true ↔ i < r)) := by
  obtain ⟨r, h1, h2, h3, h4⟩ := lowerBoundLoop_spec seq test hm 0 seq.length (by omega)
    (by intro i x hi; omega)
    (by intro i x hi hx; rw [List.getElem?_eq_none (by omega)] at hx; cases hx)
  refine ⟨r, h1, h2, ?_⟩
  intro i x hx
  constructor
  · intro ht
    rcases Nat.lt_or_ge i r with h | h
    · exact h
    · rw [h4 i x h hx] at ht; cases ht
  · intro hi; exact h3 i x hi hx

example : lowerBound [1, 3, 5, 7] (fun x => decide (x ≤ 5)) = .ok 3 := by
  simp [lowerBound, lowerBoundLoop]

/-- Without any assumption on the test, `lowerBound` still terminates inside
the sequence (no IndexError). -/
theorem C16_lowerBound_total {α : Type _} (seq : List α) (test : α → Bool) (f n : Nat)
    (hfn : f + n ≤ seq.length) :
    ∃ r, lowerBoundLoop seq test f n = .ok r ∧ f ≤ r ∧ r ≤ f + n := by
  induction n using Nat.strongRecOn generalizing f with
  | ind n ih =>
    rw [lowerBoundLoop]
    by_cases h : 0 < n
    · have e : n >>> 1 = n / 2 := by rw [Nat.shiftRight_eq_div_pow]
      simp only [h, dif_pos, e]
      have hmlt : f + n / 2 < seq.length := by omega
      rw [List.getElem?_eq_getElem hmlt]
      by_cases ht : test seq[f + n / 2] = true
      · simp only [ht, if_true]
        obtain ⟨r, h1, h2, h3⟩ := ih (n - (n / 2 + 1)) (by omega) (f + n / 2 + 1) (by omega)
        exact ⟨r, h1, by omega, by omega⟩
      · simp only [ht]
        obtain ⟨r, h1, h2, h3⟩ := ih (n / 2) (by omega) f (by omega)
        exact ⟨r, h1, by omega, by omega⟩
    · exact ⟨f, by simp [h], by omega, by omega⟩

/-- A comparison function consistent with the order of the sequence: results
go from "search forward" (positive) to "search backward" (negative). -/
def OrderedFor {α : Type _} (seq : List α) (cmp : α → Int) : Prop :=
  ∀ (i j : Nat) (x y : α), i < j → seq[i]? = some x → seq[j]? = some y →
    (cmp x < 0 → cmp y < 0) ∧ (0 < cmp y → 0 < cmp x)

theorem binarySearchLoop_spec {α : Type _} (seq : List α) (cmp : α → Int)
    (ho : OrderedFor seq cmp) (lower upper : Nat) (hu : upper ≤ seq.length)
    (hlo : ∀ i x, i < lower → seq[i]? = some x → 0 < cmp x)
    (hhi : ∀ i x, upper ≤ i → seq[i]? = some x → cmp x < 0) :
    ∃ r, binarySearchLoop seq cmp lower upper = .ok r ∧
      (∀ i, r = some i → ∃ x, seq[i]? = some x ∧ cmp x = 0) ∧
      (r = none → ∀ (i : Nat) (x : α), seq[i]? = some x → cmp x ≠ 0) := by
  generalize hn : upper - lower = n
  induction n using Nat.strongRecOn generalizing lower upper with
  | ind n ih =>
    rw [binarySearchLoop]
    by_cases h : lower < upper
    · have e : (lower + upper) >>> 1 = (lower + upper) / 2 := by rw [Nat.shiftRight_eq_div_pow]
      simp only [h, dif_pos, e]
      have hmlt : (lower + upper) / 2 < seq.length := by omega
      rw [List.getElem?_eq_getElem hmlt]
      have hget : seq[(lower + upper) / 2]? = some seq[(lower + upper) / 2] :=
        List.getElem?_eq_getElem hmlt
      by_cases h1 : cmp seq[(lower + upper) / 2] < 0
      · simp only [h1, if_true]
        apply ih _ _ _ _ (by omega) hlo _ rfl
        · omega
        · intro i x hi hx
          by_cases hii : i = (lower + upper) / 2
          · subst hii; rw [hget] at hx; cases hx; exact h1
          · exact (ho _ i _ x (by omega) hget hx).1 h1
      · by_cases h2 : 0 < cmp seq[(lower + upper) / 2]
        · simp only [h1, if_false, h2, if_true]
          apply ih _ _ _ _ hu _ hhi rfl
          · omega
          · intro i x hi hx
            by_cases hii : i = (lower + upper) / 2
            · subst hii; rw [hget] at hx; cases hx; exact h2
            · exact (ho i _ x _ (by omega) hx hget).2 h2
        · simp only [h1, h2, if_false]
          refine ⟨_, rfl, ?_, by simp⟩
          intro i hi
          cases hi
          exact ⟨_, hget, by omega⟩
    · refine ⟨none, by simp [h], by simp, ?_⟩
      intro _ i x hx
      rcases Nat.lt_or_ge i lower with h1 | h1
      · have := hlo i x h1 hx; omega
      · have := hhi i x (by omega) hx; omega

/-- C16: on a sequence ordered for the comparison function, `binarySearch`
never fails, returns an index whose element compares equal, and returns `None`
only if no element compares equal. -/
theorem C16_binarySearch {α : Type _} (seq : List α) (cmp : α → Int) (ho : OrderedFor seq cmp) :
    ∃ r, binarySearch seq cmp = .ok r ∧
      (∀ i, r = some i → ∃ x, seq[i]? = some x ∧ cmp x = 0) ∧
      (r = none → ∀ (i : Nat) (x : α), seq[i]? = some x → cmp x ≠ 0) :=
  binarySearchLoop_spec seq cmp ho 0 seq.length (Nat.le_refl _)
    (by intro i x hi; omega)
    (by intro i x hi hx; rw [List.getElem?_eq_none hi] at hx; cases hx)

example : binarySearch [0, 4, 5, 10] (fun x => 5 - x) = .ok (some 2) := by
  simp [binarySearch, binarySearchLoop]
example : OrderedFor [0, 4, 5, 10] (fun x : Int => 5 - x) := by
  intro i j x y hij hx hy
  rcases i with _ | _ | _ | i <;> rcases j with _ | _ | _ | _ | j <;> simp at hij hx hy <;>
    (try subst hx) <;> (try subst hy) <;> (first | decide | omega)

end Props
