import Mathlib.Tactic.Ring
import Mathlib.Tactic.Linarith
import Verif.Regex.OrLemmas

/-! Lemmas about repetition of regular expressions. -/

namespace Hachoir.Regex

set_option linter.unusedVariables false
set_option linter.unusedSimpArgs false

variable {isWord : Nat → Bool} {w : List Nat}

/-- `n` is allowed by the bounds `m` and `mx` (`none`: no upper bound). -/
def Allowed (m : Nat) (mx : Option Nat) (n : Nat) : Prop := m ≤ n ∧ ∀ x, mx = some x → n ≤ x

/-- Some allowed number of matches of `R` in a row. -/
def Repeated (R : Nat → Nat → Prop) (m : Nat) (mx : Option Nat) (i j : Nat) : Prop :=
  ∃ n, Allowed m mx n ∧ Times R n i j

theorem matches_rep (r : Rx) (m : Nat) (mx : Option Nat) (i j : Nat) :
    Matches isWord w (.rep r m mx) i j ↔ Repeated (Matches isWord w r) m mx i j := by
  simp only [Matches, Repeated, Allowed, and_assoc]

theorem times_congr {R S : Nat → Nat → Prop} (h : ∀ i j, R i j ↔ S i j) (n i j : Nat) :
    Times R n i j ↔ Times S n i j := by
  induction n generalizing i with
  | zero => simp [Times]
  | succ n ih => simp only [Times, h, ih]

theorem times_mono {R S : Nat → Nat → Prop} (h : ∀ i j, R i j → S i j) (n i j : Nat) :
    Times R n i j → Times S n i j := by
  induction n generalizing i with
  | zero => exact id
  | succ n ih => rintro ⟨k, h1, h2⟩; exact ⟨k, h _ _ h1, ih k h2⟩

theorem times_one (R : Nat → Nat → Prop) (i j : Nat) : Times R 1 i j ↔ R i j := by
  simp [Times]

theorem times_add (R : Nat → Nat → Prop) (m n i j : Nat) :
    Times R (m + n) i j ↔ ∃ k, Times R m i k ∧ Times R n k j := by
  induction m generalizing i with
  | zero => simp [Times]
  | succ m ih =>
    rw [Nat.succ_add]
    simp only [Times, ih]
    constructor
    · rintro ⟨k, h1, k', h2, h3⟩; exact ⟨k', ⟨k, h1, h2⟩, h3⟩
    · rintro ⟨k', ⟨k, h1, h2⟩, h3⟩; exact ⟨k, h1, k', h2, h3⟩

/-- A relation that allows the empty match can be repeated more often. -/
theorem times_pad {R : Nat → Nat → Prop} (h : ∀ i, R i i) (m n i j : Nat) (hmn : m ≤ n) :
    Times R m i j → Times R n i j := by
  obtain ⟨k, rfl⟩ := Nat.exists_eq_add_of_le hmn
  intro ht
  rw [times_add]
  refine ⟨j, ht, ?_⟩
  clear ht hmn
  induction k with
  | zero => simp [Times]
  | succ k ih => exact ⟨j, h j, ih⟩

/-- Repeating `k` times something repeated between `m` and `mx` times. -/
theorem times_repeated (R : Nat → Nat → Prop) (m : Nat) (mx : Option Nat)
    (hm : ∀ p, mx = some p → m ≤ p) (k i j : Nat) :
    Times (Repeated R m mx) k i j ↔
      ∃ N, k * m ≤ N ∧ (∀ p, mx = some p → N ≤ k * p) ∧ (k = 0 → N = 0) ∧ Times R N i j := by
  induction k generalizing i with
  | zero =>
    constructor
    · intro h; exact ⟨0, by simp, by simp, by simp, h⟩
    · rintro ⟨N, _, _, h0, h⟩
      rw [h0 rfl] at h; exact h
  | succ k ih =>
    simp only [Times]
    constructor
    · rintro ⟨i', ⟨n, ⟨hn1, hn2⟩, hn3⟩, h2⟩
      obtain ⟨N, hN1, hN2, hN0, hN3⟩ := (ih i').1 h2
      refine ⟨n + N, ?_, ?_, by simp, ?_⟩
      · rw [Nat.succ_mul]; omega
      · intro p hp
        have := hn2 p hp
        have := hN2 p hp
        rw [Nat.succ_mul]; omega
      · rw [times_add]; exact ⟨i', hn3, hN3⟩
    · rintro ⟨N, hN1, hN2, _, hN3⟩
      rw [Nat.succ_mul] at hN1
      cases k with
      | zero =>
        refine ⟨j, ⟨N, ⟨by omega, ?_⟩, hN3⟩, ?_⟩
        · intro p hp; have := hN2 p hp; simpa using this
        · exact (ih j).2 ⟨0, by simp, by simp, by simp, by simp [Times]⟩
      | succ k =>
        -- take as many as possible first
        cases mx with
        | none =>
          obtain ⟨n, rfl⟩ : ∃ n, N = n + (k + 1) * m := ⟨N - (k + 1) * m, by omega⟩
          obtain ⟨i', h1, h2⟩ := (times_add R n ((k + 1) * m) i j).1 hN3
          exact ⟨i', ⟨n, ⟨by omega, by simp⟩, h1⟩,
            (ih i').2 ⟨(k + 1) * m, Nat.le_refl _, by simp, by simp, h2⟩⟩
        | some p =>
          have hmp := hm p rfl
          have hNp := hN2 p rfl
          rw [Nat.succ_mul] at hNp
          have hkm : (k + 1) * m ≤ (k + 1) * p := Nat.mul_le_mul_left _ hmp
          obtain ⟨n, N', hN, h1, h2, h3, h4⟩ : ∃ n N', N = n + N' ∧ m ≤ n ∧ n ≤ p ∧
              (k + 1) * m ≤ N' ∧ N' ≤ (k + 1) * p := by
            by_cases hc : p + (k + 1) * m ≤ N
            · exact ⟨p, N - p, by omega, hmp, Nat.le_refl _, by omega, by omega⟩
            · exact ⟨N - (k + 1) * m, (k + 1) * m, by omega, by omega, by omega, by omega, hkm⟩
          subst hN
          obtain ⟨i', g1, g2⟩ := (times_add R n N' i j).1 hN3
          refine ⟨i', ⟨n, ⟨h1, ?_⟩, g1⟩, (ih i').2 ⟨N', h3, ?_, by simp, g2⟩⟩
          · rintro _ ⟨⟩; exact h2
          · rintro _ ⟨⟩; exact h4

/-- The bounds for which `(a{m,mx}){x,y}` is `a{m*x,mx*y}`: no number between
the two products is skipped. -/
def Fits (m : Nat) (mx : Option Nat) (x : Nat) (y : Option Nat) : Prop :=
  y = some x ∨
    match mx with
    | some p => m ≤ x * (p - m) + 1
    | none => m ≤ 1 ∨ 1 ≤ x

/-- The upper bound computed by `RegexRepeat.__init__`. -/
def mulMax (mx y : Option Nat) : Option Nat :=
  match mx, y with
  | some a, some b => if a ≠ 0 ∧ b ≠ 0 then some (b * a) else none
  | _, _ => none

theorem repeated_repeated (R : Nat → Nat → Prop) (m : Nat) (mx : Option Nat) (x : Nat)
    (y : Option Nat) (hm : ∀ p, mx = some p → m ≤ p ∧ p ≠ 0)
    (hx : ∀ q, y = some q → x ≤ q ∧ q ≠ 0) (hf : Fits m mx x y) (i j : Nat) :
    Repeated (Repeated R m mx) x y i j ↔ Repeated R (x * m) (mulMax mx y) i j := by
  have hm' : ∀ p, mx = some p → m ≤ p := fun p hp => (hm p hp).1
  unfold Repeated
  constructor
  · rintro ⟨k, ⟨hk1, hk2⟩, hk3⟩
    obtain ⟨N, h1, h2, h0, h3⟩ := (times_repeated R m mx hm' k i j).1 hk3
    refine ⟨N, ⟨Nat.le_trans (Nat.mul_le_mul_right m hk1) h1, ?_⟩, h3⟩
    intro z hz
    unfold mulMax at hz
    split at hz
    · rename_i a b
      split at hz
      · simp only [Option.some.injEq] at hz; subst hz
        have := h2 a rfl
        have := hk2 b rfl
        exact Nat.le_trans ‹N ≤ k * a› (Nat.mul_le_mul_right a this)
      · cases hz
    · cases hz
  · rintro ⟨N, ⟨h1, h2⟩, h3⟩
    -- find the number of repetitions
    suffices h : ∃ k, x ≤ k ∧ (∀ q, y = some q → k ≤ q) ∧ k * m ≤ N ∧
        (∀ p, mx = some p → N ≤ k * p) ∧ (k = 0 → N = 0) by
      obtain ⟨k, g1, g2, g3, g4, g5⟩ := h
      exact ⟨k, ⟨g1, g2⟩, (times_repeated R m mx hm' k i j).2 ⟨N, g3, g4, g5, h3⟩⟩
    cases mx with
    | none =>
      by_cases hx0 : x = 0
      · subst hx0
        by_cases hN : N = 0
        · subst hN
          exact ⟨0, Nat.le_refl _, fun q _ => Nat.zero_le _, by simp, by simp, by simp⟩
        · refine ⟨1, by omega, fun q hq => ?_, ?_, by simp, by simp⟩
          · have := (hx q hq).2; omega
          · rcases hf with hf | hf
            · have := (hx 0 hf).2; omega
            · rcases hf with hf | hf <;> omega
      · exact ⟨x, Nat.le_refl _, fun q hq => (hx q hq).1, h1, by simp, fun h => absurd h hx0⟩
    | some p =>
      obtain ⟨hmp, hp0⟩ := hm p rfl
      have hex : ∃ k, x ≤ k ∧ N ≤ k * p := by
        refine ⟨x + N, by omega, ?_⟩
        have : 1 ≤ p := by omega
        calc N ≤ (x + N) * 1 := by omega
          _ ≤ (x + N) * p := Nat.mul_le_mul_left _ this
      classical
      obtain ⟨k, ⟨hk1, hk2⟩, hmin⟩ : ∃ k, (x ≤ k ∧ N ≤ k * p) ∧
          ∀ k', k' < k → ¬ (x ≤ k' ∧ N ≤ k' * p) :=
        ⟨Nat.find hex, Nat.find_spec hex, fun k' => Nat.find_min hex⟩
      refine ⟨k, hk1, fun q hq => ?_, ?_, ?_, ?_⟩
      · by_contra hlt
        have hlt : q < k := by omega
        have := hmin q hlt
        have hxq := (hx q hq).1
        subst hq
        have := h2 (q * p) (by simp [mulMax, hp0, (hx q rfl).2])
        exact hmin q hlt ⟨hxq, this⟩
      · by_cases hkx : k = x
        · subst hkx; exact h1
        · have hgt : x ≤ k - 1 := by omega
          have hn := hmin (k - 1) (by omega)
          have hn : (k - 1) * p < N := by
            by_contra h
            exact hn ⟨hgt, by omega⟩
          rcases hf with hf | hf
          · -- only `x` repetitions are allowed
            exfalso
            subst hf
            have := h2 (x * p) (by simp [mulMax, hp0, (hx x rfl).2])
            exact hmin x (by omega) ⟨Nat.le_refl _, this⟩
          · simp only at hf
            have e1 : x * (p - m) ≤ (k - 1) * (p - m) := Nat.mul_le_mul_right _ hgt
            obtain ⟨d, rfl⟩ := Nat.exists_eq_add_of_le hmp
            obtain ⟨k', rfl⟩ : ∃ k', k = k' + 1 := ⟨k - 1, by omega⟩
            simp only [Nat.add_sub_cancel, Nat.add_sub_cancel_left] at *
            have e2 : k' * (m + d) = k' * m + k' * d := by ring
            have e3 : (k' + 1) * m = k' * m + m := by ring
            rw [e3]; omega
      · rintro _ ⟨⟩; exact hk2
      · rintro rfl; simpa using hk2

/-! ### `(a|b|...){x,y}` -/

/-- The loop of `optimizeRepeatOr` on `rmin`. -/
theorem fixMin_spec (l : List Rx) (x : Nat) :
    (fixMin x l = x ∨ (fixMin x l = 0 ∧ ∃ r ∈ l, ∀ i, Matches isWord w r i i)) ∧
      (Rx.empty ∈ l → fixMin x l = 0) ∧
      ((∃ r mx, Rx.rep r 0 mx ∈ l) → fixMin x l ≠ 1) := by
  have zero : ∀ l : List Rx, fixMin 0 l = 0 := by
    intro l
    induction l with
    | nil => rfl
    | cons r l ih => cases r <;> simp [fixMin, ih]
  induction l generalizing x with
  | nil => simp [fixMin]
  | cons r l ih =>
    have keep : fixMin x (r :: l) = fixMin x l → r ≠ .empty →
        (∀ r' mx, r = .rep r' 0 mx → x ≠ 1) →
        (fixMin x (r :: l) = x ∨ (fixMin x (r :: l) = 0 ∧ ∃ r' ∈ r :: l, ∀ i, Matches isWord w r' i i)) ∧
        (Rx.empty ∈ r :: l → fixMin x (r :: l) = 0) ∧
        ((∃ r' mx, Rx.rep r' 0 mx ∈ r :: l) → fixMin x (r :: l) ≠ 1) := by
      intro he hne hrep
      rw [he]
      obtain ⟨h1, h2, h3⟩ := ih x
      refine ⟨?_, ?_, ?_⟩
      · rcases h1 with h1 | ⟨h1, r', h4, h5⟩
        · exact Or.inl h1
        · exact Or.inr ⟨h1, r', by simp [h4], h5⟩
      · intro hmem
        rcases List.mem_cons.1 hmem with h | h
        · exact absurd h.symm hne
        · exact h2 h
      · rintro ⟨r', mx, hmem⟩
        rcases List.mem_cons.1 hmem with h | h
        · intro h1'
          rcases h1 with h1 | ⟨h1, _⟩
          · exact hrep r' mx h.symm (by omega)
          · omega
        · exact h3 ⟨r', mx, h⟩
    cases r with
    | empty =>
      simp only [fixMin, zero]
      exact ⟨Or.inr ⟨trivial, .empty, by simp, fun i => by simp [Matches]⟩, by simp, by simp⟩
    | rep r m mx =>
      by_cases hc : m = 0 ∧ x = 1
      · obtain ⟨rfl, rfl⟩ := hc
        simp only [fixMin, and_self, if_true, zero]
        refine ⟨Or.inr ⟨trivial, .rep r 0 mx, by simp, fun i => ?_⟩, by simp, by simp⟩
        rw [matches_rep]
        exact ⟨0, ⟨by simp, by simp⟩, by simp [Times]⟩
      · refine keep (by simp only [fixMin, if_neg hc]) (by simp) ?_
        rintro r' mx' h rfl
        simp only [Rx.rep.injEq] at h
        exact hc ⟨h.2.1, rfl⟩
    | _ => exact keep (by simp [fixMin]) (by simp) (by simp)

/-- What the second loop of `optimizeRepeatOr` gives for the items. -/
theorem fixItems_spec (d : Prop) (rmin : Nat) (rmax : Option Nat) (l l' : List Rx)
    (hl : Fines d l)
    (hE : Rx.empty ∈ l → rmin = 0)
    (hZ : (∃ r mx, Rx.rep r 0 mx ∈ l) → rmin ≠ 1)
    (hN : ∀ r m, Rx.rep r m none ∈ l → 2 ≤ m → rmax ≠ none)
    (h : fixItems rmin rmax l = some l') :
    Fines d l' ∧
      (∀ i j, MatchesAlt isWord w l' i j → MatchesAlt isWord w l i j) ∧
      (∀ i j, MatchesAlt isWord w l i j →
        ∃ k, (rmin = 0 ∨ 1 ≤ k) ∧ (rmax = none ∨ k ≤ 1) ∧
          Times (MatchesAlt isWord w l') k i j) ∧
      (l' = [] → ∀ r ∈ l, r = .empty) := by
  induction l generalizing l' with
  | nil =>
    simp only [fixItems, Option.some.injEq] at h; subst h
    exact ⟨hl, fun _ _ => id, fun i j h => by simp [MatchesAlt] at h, by simp⟩
  | cons x l ih =>
    simp only [Fines] at hl
    have ihx := fun l'' h => ih l'' hl.2 (fun h => hE (by simp [h]))
      (fun ⟨r, mx, h⟩ => hZ ⟨r, mx, by simp [h]⟩) (fun r m h => hN r m (by simp [h])) h
    -- an item replaced by `y`
    have repl : ∀ y l'', l' = y :: l'' → fixItems rmin rmax l = some l'' → Fine d y →
        (∀ i j, Matches isWord w y i j → Matches isWord w x i j) →
        (∀ i j, Matches isWord w x i j →
          ∃ k, (rmin = 0 ∨ 1 ≤ k) ∧ (rmax = none ∨ k ≤ 1) ∧
            Times (Matches isWord w y) k i j) →
        Fines d l' ∧
        (∀ i j, MatchesAlt isWord w l' i j → MatchesAlt isWord w (x :: l) i j) ∧
        (∀ i j, MatchesAlt isWord w (x :: l) i j →
          ∃ k, (rmin = 0 ∨ 1 ≤ k) ∧ (rmax = none ∨ k ≤ 1) ∧
            Times (MatchesAlt isWord w l') k i j) ∧
        (l' = [] → ∀ r ∈ x :: l, r = .empty) := by
      rintro y l'' rfl hl'' hy h1 h2
      obtain ⟨g1, g2, g3, g4⟩ := ihx l'' hl''
      refine ⟨by simp only [Fines]; exact ⟨hy, g1⟩, ?_, ?_, by simp⟩
      · intro i j
        simp only [MatchesAlt]
        exact fun h => h.imp (h1 i j) (g2 i j)
      · intro i j hm
        simp only [MatchesAlt] at hm
        rcases hm with hm | hm
        · obtain ⟨k, k1, k2, k3⟩ := h2 i j hm
          exact ⟨k, k1, k2, times_mono (fun a b hab => by simp [MatchesAlt, hab]) k i j k3⟩
        · obtain ⟨k, k1, k2, k3⟩ := g3 i j hm
          exact ⟨k, k1, k2, times_mono (fun a b hab => by simp [MatchesAlt, hab]) k i j k3⟩
    have same : ∀ l'', l' = x :: l'' → fixItems rmin rmax l = some l'' →
        Fines d l' ∧
        (∀ i j, MatchesAlt isWord w l' i j → MatchesAlt isWord w (x :: l) i j) ∧
        (∀ i j, MatchesAlt isWord w (x :: l) i j →
          ∃ k, (rmin = 0 ∨ 1 ≤ k) ∧ (rmax = none ∨ k ≤ 1) ∧
            Times (MatchesAlt isWord w l') k i j) ∧
        (l' = [] → ∀ r ∈ x :: l, r = .empty) := fun l'' e1 e2 =>
      repl x l'' e1 e2 hl.1 (fun _ _ => id)
        (fun i j hm => ⟨1, Or.inr (Nat.le_refl _), Or.inr (Nat.le_refl _), (times_one _ i j).2 hm⟩)
    simp only [fixItems] at h
    cases hf : fixItem rmin rmax x with
    | none =>
      simp only [hf] at h
      have hx : x = .empty := by
        unfold fixItem at hf
        split at hf
        · rfl
        · repeat' split at hf
          all_goals cases hf
        · cases hf
      subst hx
      have h0 := hE (by simp)
      obtain ⟨g1, g2, g3, g4⟩ := ihx l' h
      refine ⟨g1, fun i j hm => by simp [MatchesAlt, g2 i j hm], ?_, ?_⟩
      · intro i j hm
        simp only [MatchesAlt, Matches] at hm
        rcases hm with rfl | hm
        · exact ⟨0, Or.inl h0, Or.inr (by simp), by simp [Times]⟩
        · exact g3 i j hm
      · intro he r hr
        rcases List.mem_cons.1 hr with rfl | hr
        · rfl
        · exact g4 he r hr
    | some o =>
      cases o with
      | valueError => simp [hf] at h
      | ok y =>
        simp only [hf] at h
        cases hl'' : fixItems rmin rmax l with
        | none => simp [hl''] at h
        | some l'' =>
          simp only [hl'', Option.some.injEq] at h
          cases x with
          | empty => simp [fixItem] at hf
          | rep r m mx =>
            have hfx : Fine d r := by simpa only [Fine] using hl.1
            simp only [fixItem] at hf
            split at hf
            · rename_i hm0; subst hm0
              have hn1 : rmin ≠ 1 := hZ ⟨r, mx, by simp⟩
              split at hf
              · rename_i hr01
                have hr0 : rmin = 0 := by omega
                split at hf
                · -- r*
                  rename_i hnn
                  simp only [Option.some.injEq, Rep.ok.injEq] at hf; subst hf
                  obtain ⟨hn1', rfl⟩ := hnn
                  refine repl r l'' h.symm hl'' hfx ?_ ?_
                  · intro i j hm
                    rw [matches_rep]
                    exact ⟨1, ⟨by simp, by simp⟩, (times_one _ i j).2 hm⟩
                  · intro i j hm
                    rw [matches_rep] at hm
                    obtain ⟨n, _, hn⟩ := hm
                    exact ⟨n, Or.inl hr0, Or.inl hn1', hn⟩
                · -- r{0,p} becomes r{1,p}
                  simp only [Option.some.injEq] at hf
                  have hy : y = .rep r 1 mx := by
                    unfold mkRepeat at hf
                    split at hf
                    · simpa using hf.symm
                    · split at hf
                      · cases hf
                      · split at hf
                        · cases hf
                        · simpa using hf.symm
                  subst hy
                  refine repl _ l'' h.symm hl'' (by simpa only [Fine] using hfx) ?_ ?_
                  · intro i j hm
                    rw [matches_rep] at hm ⊢
                    obtain ⟨n, ⟨_, hn1⟩, hn2⟩ := hm
                    exact ⟨n, ⟨by simp, hn1⟩, hn2⟩
                  · intro i j hm
                    rw [matches_rep] at hm
                    obtain ⟨n, ⟨_, hn1⟩, hn2⟩ := hm
                    cases n with
                    | zero => exact ⟨0, Or.inl hr0, Or.inr (by simp), by simpa [Times] using hn2⟩
                    | succ n =>
                      refine ⟨1, Or.inl hr0, Or.inr (Nat.le_refl _), (times_one _ i j).2 ?_⟩
                      rw [matches_rep]
                      exact ⟨n + 1, ⟨by omega, hn1⟩, hn2⟩
              · simp only [Option.some.injEq, Rep.ok.injEq] at hf; subst hf
                exact same l'' h.symm hl''
            · rename_i hm0
              split at hf
              · rename_i hm1; subst hm1
                split at hf
                · -- r+
                  rename_i hnn
                  simp only [Option.some.injEq, Rep.ok.injEq] at hf; subst hf
                  obtain ⟨hn1', rfl⟩ := hnn
                  refine repl r l'' h.symm hl'' hfx ?_ ?_
                  · intro i j hm
                    rw [matches_rep]
                    exact ⟨1, ⟨by simp, by simp⟩, (times_one _ i j).2 hm⟩
                  · intro i j hm
                    rw [matches_rep] at hm
                    obtain ⟨n, ⟨hn, _⟩, hn2⟩ := hm
                    exact ⟨n, Or.inr hn, Or.inl hn1', hn2⟩
                · simp only [Option.some.injEq, Rep.ok.injEq] at hf; subst hf
                  exact same l'' h.symm hl''
              · rename_i hm1
                split at hf
                · rename_i hnn
                  obtain ⟨hn1', rfl⟩ := hnn
                  exact absurd hn1' (hN r m (by simp) (by omega))
                · simp only [Option.some.injEq, Rep.ok.injEq] at hf; subst hf
                  exact same l'' h.symm hl''
          | _ =>
            simp only [fixItem, Option.some.injEq, Rep.ok.injEq] at hf; subst hf
            exact same l'' h.symm hl''

/-- Replacing `A` by `B` under a repetition, when each `A` is some number of `B`. -/
theorem repeated_replace {A B : Nat → Nat → Prop} (rmin : Nat) (rmax : Option Nat)
    (hBA : ∀ i j, B i j → A i j)
    (hAB : ∀ i j, A i j → ∃ k, (rmin = 0 ∨ 1 ≤ k) ∧ (rmax = none ∨ k ≤ 1) ∧ Times B k i j)
    (i j : Nat) : Repeated B rmin rmax i j ↔ Repeated A rmin rmax i j := by
  constructor
  · rintro ⟨n, hn, h⟩; exact ⟨n, hn, times_mono hBA n i j h⟩
  · rintro ⟨n, ⟨hn1, hn2⟩, h⟩
    have : ∃ k, (rmin = 0 ∨ n ≤ k) ∧ (rmax = none ∨ k ≤ n) ∧ Times B k i j := by
      clear hn1 hn2
      induction n generalizing i with
      | zero => exact ⟨0, Or.inr (Nat.le_refl _), Or.inr (Nat.le_refl _), h⟩
      | succ n ih =>
        obtain ⟨i', h1, h2⟩ := h
        obtain ⟨k, k1, k2, k3⟩ := hAB i i' h1
        obtain ⟨k', k1', k2', k3'⟩ := ih i' h2
        refine ⟨k + k', by omega, ?_, (times_add B k k' i j).2 ⟨i', k3, k3'⟩⟩
        rcases k2 with k2 | k2
        · exact Or.inl k2
        · rcases k2' with k2' | k2'
          · exact Or.inl k2'
          · exact Or.inr (by omega)
    obtain ⟨k, k1, k2, k3⟩ := this
    refine ⟨k, ⟨by omega, fun x hx => ?_⟩, k3⟩
    rcases k2 with k2 | k2
    · rw [k2] at hx; cases hx
    · have := hn2 x hx; omega

end Hachoir.Regex
