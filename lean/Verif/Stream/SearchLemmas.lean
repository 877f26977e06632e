import Verif.Stream.InputLemmas

/-! Helper lemmas: `searchBytes`. -/

namespace Hachoir.Stream
open Hachoir Spec

theorem bytesFind_some (needle hay : Bytes) (i : Nat) (h : bytesFind needle hay = some i) :
    i ≤ hay.length ∧ needle <+: hay.drop i ∧ ∀ j, j < i → ¬ needle <+: hay.drop j := by
  induction hay generalizing i with
  | nil =>
    unfold bytesFind at h
    split at h
    · rename_i hp
      cases h
      exact ⟨by simp, by simpa [List.isPrefixOf_iff_prefix] using hp, by intro j hj; omega⟩
    · cases h
  | cons b bs ih =>
    unfold bytesFind at h
    split at h
    · rename_i hp
      cases h
      exact ⟨by simp, by simpa [List.isPrefixOf_iff_prefix] using hp, by intro j hj; omega⟩
    · rename_i hp
      rw [List.isPrefixOf_iff_prefix] at hp
      cases hf : bytesFind needle bs with
      | none => simp [hf] at h
      | some i' =>
        simp only [hf, Option.map_some, Option.some.injEq] at h
        subst h
        obtain ⟨h1, h2, h3⟩ := ih i' hf
        refine ⟨by simp; omega, by simpa using h2, ?_⟩
        intro j hj
        cases j with
        | zero => simpa using hp
        | succ j => simpa using h3 j (by omega)

theorem bytesFind_none (needle hay : Bytes) (h : bytesFind needle hay = none) (j : Nat) :
    ¬ needle <+: hay.drop j := by
  induction hay generalizing j with
  | nil =>
    unfold bytesFind at h
    split at h
    · cases h
    · rename_i hp
      rw [List.isPrefixOf_iff_prefix] at hp
      simpa using hp
  | cons b bs ih =>
    unfold bytesFind at h
    split at h
    · cases h
    · rename_i hp
      rw [List.isPrefixOf_iff_prefix] at hp
      cases hf : bytesFind needle bs with
      | some i' => simp [hf] at h
      | none =>
        cases j with
        | zero => simpa using hp
        | succ j => simpa using ih hf j

/-- `readBytes` of a byte-aligned window of in-memory data. -/
theorem readBytes_string (s : InputStream) (data : Bytes) (hs : s.read = stringRead data)
    (p n : Nat) (h : p + n ≤ data.length) :
    readBytes s ((8 * p : Nat) : Int) n = .ok ((data.drop p).take n) := by
  unfold readBytes
  rw [hs, stringRead_ok data (8 * p) (8 * n) (by omega)]
  have h1 : 8 * p % 8 = 0 := by omega
  have h2 : 8 * p / 8 = p := by omega
  have h3 : (8 * n + 0 + 7) / 8 = n := by omega
  simp [h1, h2, h3]

/-- First occurrence of a needle in bytes `[k0, E)` (specification). -/
def FirstIn (data needle : Bytes) (k0 E : Nat) : Option Int → Prop
  | some a => ∃ k : Nat, a = 8 * k ∧ k0 ≤ k ∧ k + needle.length ≤ E ∧ needle <+: data.drop k ∧
      ∀ j, k0 ≤ j → j < k → ¬ needle <+: data.drop j
  | none => ∀ k, k0 ≤ k → k + needle.length ≤ E → ¬ needle <+: data.drop k

theorem prefix_window (data needle : Bytes) (q n j : Nat) (h : j + needle.length ≤ n) :
    needle <+: (((data.drop q).take n).drop j) ↔ needle <+: data.drop (q + j) := by
  rw [List.drop_take, List.drop_drop]
  constructor
  · intro h; exact h.trans (List.take_prefix _ _)
  · intro h1
    rw [List.prefix_take_iff]
    exact ⟨h1, by omega⟩

theorem searchLoop_spec (s : InputStream) (data needle : Bytes) (hs : s.read = stringRead data)
    (hne : needle ≠ []) (k0 E : Nat) (endA : Int) (hE : endA / 8 = (E : Int)) (hEl : E ≤ data.length)
    (size : Nat) (hpos : 0 < size) (p q : Nat) (hq : q ≤ p) (hk0 : k0 ≤ q) (hp : p ≤ data.length)
    (buffer : Bytes) (hbuf : buffer = (data.drop q).take (p - q))
    (hno : ∀ k, k0 ≤ k → k + needle.length ≤ p → ¬ needle <+: data.drop k)
    (hinv : (p = q ∧ p = k0) ∨ needle.length ≤ p - q + 1 ∨ E ≤ p)
    (hsz : needle.length ≤ size ∨ E ≤ p) :
    ∃ r, searchLoop s needle endA size hpos ((8 * p : Nat) : Int) buffer = .ok r ∧
      FirstIn data needle k0 E r := by
  generalize hm : E - p = m
  induction m using Nat.strongRecOn generalizing p q size buffer with
  | ind m ih =>
    rw [searchLoop]
    have htodo : (endA - ((8 * p : Nat) : Int)) / 8 = (E : Int) - p := by omega
    simp only [htodo]
    by_cases h0 : (E : Int) - p ≤ 0
    · simp only [h0, dif_pos]
      refine ⟨none, rfl, ?_⟩
      intro k hk hkE
      exact hno k hk (by omega)
    · simp only [h0, dif_neg, not_false_eq_true]
      obtain ⟨size', hsz'⟩ : ∃ x, (if (E : Int) - ↑p < ↑size then ((E : Int) - ↑p).toNat else size) = x :=
        ⟨_, rfl⟩
      simp only [hsz']
      have hsize'pos : 0 < size' := by rw [← hsz']; split <;> omega
      have hsize'le : p + size' ≤ E := by rw [← hsz']; split <;> omega
      have hsize'or : (size' = size ∧ needle.length ≤ size') ∨ p + size' = E := by
        rw [← hsz']; split
        · right; omega
        · left; exact ⟨rfl, by omega⟩
      rw [readBytes_string s data hs p size' (by omega)]
      simp only
      have hbl : buffer.length = p - q := by rw [hbuf]; simp; omega
      -- the retained suffix
      obtain ⟨q', hq'1, hq'2, hq'3, hq'4⟩ : ∃ q', q ≤ q' ∧ q' ≤ p ∧
          pySlice buffer ((buffer.length : Int) - needle.length + 1) buffer.length =
            (data.drop q').take (p - q') ∧
          ((q' = k0 ∧ p = k0) ∨ p + 1 = q' + needle.length) := by
        have hL : 0 < needle.length := List.length_pos_iff.mpr hne
        rcases hinv with ⟨h1, h2⟩ | h1 | h1
        · refine ⟨q, Nat.le_refl _, hq, ?_, Or.inl ⟨by omega, h2⟩⟩
          have : buffer = [] := by
            apply List.eq_nil_of_length_eq_zero; omega
          rw [this]
          have : p - q = 0 := by omega
          simp [pySlice, this]
        · refine ⟨p + 1 - needle.length, by omega, by omega, ?_, Or.inr (by omega)⟩
          have e1 : ((buffer.length : Int) - needle.length + 1) =
              ((p - q + 1 - needle.length : Nat) : Int) := by omega
          have e2 : (buffer.length : Int) =
              ((p - q + 1 - needle.length : Nat) : Int) + ((needle.length - 1 : Nat) : Int) := by omega
          rw [e1]
          conv => lhs; rw [e2]
          rw [pySlice_nat, hbuf, List.drop_take, List.drop_drop, List.take_take]
          have e3 : q + (p - q + 1 - needle.length) = p + 1 - needle.length := by omega
          have e4 : min (needle.length - 1) (p - q - (p - q + 1 - needle.length)) =
              p - (p + 1 - needle.length) := by omega
          rw [e3, e4]
        · omega
      rw [hq'3]
      have hbuf' : (data.drop q').take (p - q') ++ (data.drop p).take size' =
          (data.drop q').take (p + size' - q') := by
        have : p + size' - q' = (p - q') + size' := by omega
        rw [this, List.take_add, List.drop_drop]
        have : q' + (p - q') = p := by omega
        rw [this]
      rw [hbuf']
      have hbl' : ((data.drop q').take (p + size' - q')).length = p + size' - q' := by
        simp; omega
      have hno' : ∀ j, k0 ≤ j → j < q' → ¬ needle <+: data.drop j := by
        intro j hj1 hj2
        rcases hq'4 with ⟨h1, h2⟩ | h1
        · omega
        · exact hno j hj1 (by omega)
      cases hf : bytesFind needle ((data.drop q').take (p + size' - q')) with
      | some f =>
        obtain ⟨f1, f2, f3⟩ := bytesFind_some _ _ _ hf
        have hfl : f + needle.length ≤ p + size' - q' := by
          have := f2.length_le
          rw [List.length_drop, hbl'] at this
          rw [hbl'] at f1
          omega
        refine ⟨_, rfl, q' + f, ?_, by omega, by omega, ?_, ?_⟩
        · rw [hbl']; omega
        · exact (prefix_window data needle q' _ f hfl).mp f2
        · intro j hj1 hj2 hj3
          rcases Nat.lt_or_ge j q' with h | h
          · exact hno' j hj1 h hj3
          · obtain ⟨i, rfl⟩ : ∃ i, j = q' + i := ⟨j - q', by omega⟩
            exact f3 i (by omega) ((prefix_window data needle q' _ i (by omega)).mpr hj3)
      | none =>
        have hstart : ((8 * p : Nat) : Int) + 8 * (size' : Int) = ((8 * (p + size') : Nat) : Int) := by omega
        simp only [hstart]
        apply ih (E - (p + size')) (by omega) size' hsize'pos (p + size') q' (by omega) (by omega)
          (by omega) _ rfl
        · intro k hk1 hk2 hk3
          rcases Nat.lt_or_ge k q' with h | h
          · exact hno' k hk1 h hk3
          · obtain ⟨i, rfl⟩ : ∃ i, k = q' + i := ⟨k - q', by omega⟩
            exact bytesFind_none _ _ hf i ((prefix_window data needle q' _ i (by omega)).mpr hk3)
        · rcases hsize'or with ⟨_, h1⟩ | h1
          · right; left
            have := hbl'
            omega
          · right; right; omega
        · rcases hsize'or with ⟨_, h1⟩ | h1
          · left; exact h1
          · right; omega
        · rfl

end Hachoir.Stream
