import Verif.Regex.Pattern
import Verif.Props.Regex
import Mathlib.Data.List.Induction

/-!
# Property C49: searching many patterns at once
-/

set_option linter.unusedVariables false
set_option linter.unusedSimpArgs false

namespace Hachoir.Props
open Hachoir.Regex

/-- `addString` for each pair of text and user data. -/
def addStrings {U : Type} (adds : List (List Nat × U)) : Patterns U :=
  adds.foldl (fun p x => p.addString x.1 x.2) (Patterns.new U)

theorem mergeAll_spec (isWord : Nat → Bool) (w : List Nat) (d : Prop) (hd : d → 10 ∉ w)
    (same : List Item → List Item → Bool) (hs : SoundSame same) (n : Nat) (l : List Rx)
    (hl : ∀ r ∈ l, Fine d r) : ∀ (x y : Option Rx), (∀ r, x = some r → Fine d r) →
    mergeAll same n x l = some y →
    ((x.isSome ∨ l ≠ []) → y.isSome) ∧
    ∀ i j, (∃ r, y = some r ∧ Matches isWord w r i j) ↔
      (∃ r, x = some r ∧ Matches isWord w r i j) ∨ ∃ r ∈ l, Matches isWord w r i j := by
  induction l with
  | nil =>
    intro x y hx h
    simp only [mergeAll, Option.some.injEq] at h
    subst h
    simp
  | cons r l ih =>
    intro x y hx h
    simp only [mergeAll] at h
    cases hn : orNext same n x r with
    | none => simp [hn] at h
    | some z =>
      simp only [hn] at h
      have hz : Fine d z ∧ ∀ i j, Matches isWord w z i j ↔
          (∃ r, x = some r ∧ Matches isWord w r i j) ∨ Matches isWord w r i j := by
        cases x with
        | none =>
          simp only [orNext, Option.some.injEq] at hn
          subst hn
          exact ⟨hl _ (by simp), by simp⟩
        | some x =>
          simp only [orNext] at hn
          have := (bar_spec (isWord := isWord) (w := w) d hd same hs n).1 x r z (hx x rfl)
            (hl r (by simp)) hn
          exact ⟨this.fine, fun i j => by rw [this.lang]; simp⟩
      obtain ⟨g0, g⟩ := ih (fun r hr => hl r (by simp [hr])) (some z) y
        (by rintro _ ⟨⟩; exact hz.1) h
      refine ⟨fun _ => g0 (Or.inl rfl), fun i j => ?_⟩
      rw [g i j]
      simp only [Option.some.injEq, exists_eq_left', List.mem_cons, exists_eq_or_imp]
      rw [hz.2 i j, or_assoc]

theorem mergeAll_total (same : List Item → List Item → Bool) (S n : Nat)
    (hn : 3 * (S * S + S) + 3 ≤ n) (l : List Rx) (hl : ∀ r ∈ l, Sized r) :
    ∀ x : Option Rx, (∀ r, x = some r → Sized r ∧ sz r + szs l ≤ S) → szs l ≤ S →
    ∃ y, mergeAll same n x l = some y := by
  induction l with
  | nil => intro x _ _; exact ⟨x, rfl⟩
  | cons r l ih =>
    intro x hx hS
    simp only [szs] at hS hx
    simp only [mergeAll]
    cases x with
    | none =>
      simp only [orNext]
      exact ih (fun r hr => hl r (by simp [hr])) _
        (by rintro _ ⟨⟩; exact ⟨hl _ (by simp), hS⟩) (by omega)
    | some x =>
      obtain ⟨h1, h2⟩ := hx x rfl
      obtain ⟨z, hz, hsm⟩ := (bar_total same n).1 S S x r h1 (hl r (by simp)) (by omega)
        (by omega) hn
      simp only [orNext, hz]
      exact ih (fun r hr => hl r (by simp [hr])) _
        (by rintro _ ⟨⟩; exact ⟨hsm.1, by have := hsm.2; omega⟩) (by omega)

/-- What `addString` maintains. -/
theorem addStrings_spec {U : Type} (adds : List (List Nat × U)) :
    (addStrings adds).regexes = [] ∧ (addStrings adds).dict = (addStrings adds).strings ∧
      (∀ x ∈ (addStrings adds).strings, x ∈ adds) ∧
      ∀ t, (addStrings adds).dict.find? (fun x => x.1 = t) = adds.find? (fun x => x.1 = t) := by
  unfold addStrings
  induction adds using List.reverseRecOn with
  | nil => simp [Patterns.new]
  | append_singleton adds a ih =>
    obtain ⟨h1, h2, h3, h4⟩ := ih
    rw [List.foldl_append]
    simp only [List.foldl_cons, List.foldl_nil]
    generalize adds.foldl (fun p x => Patterns.addString p x.1 x.2) (Patterns.new U) = p at *
    unfold Patterns.addString
    split
    · rename_i hm
      refine ⟨h1, h2, fun x hx => by simp [h3 x hx], fun t => ?_⟩
      rw [h4, List.find?_append]
      cases hf : adds.find? (fun x => x.1 = t) with
      | some x => rfl
      | none =>
        by_cases ht : a.1 = t
        · subst ht
          exfalso
          have := h4 a.1
          rw [hf, List.find?_eq_none] at this
          obtain ⟨y, hy, he⟩ := List.mem_map.1 hm
          exact absurd he (by simpa using this y hy)
        · simp [ht]
    · rename_i hm
      refine ⟨h1, by simp [h2], ?_, fun t => ?_⟩
      · intro x hx
        simp only [List.mem_append, List.mem_singleton] at hx ⊢
        exact hx.imp (h3 x) id
      · simp only
        rw [List.find?_append, h4, List.find?_append]

theorem strings_mem {U : Type} (adds : List (List Nat × U)) (t : List Nat) :
    (∃ x ∈ (addStrings adds).strings, x.1 = t) ↔ ∃ x ∈ adds, x.1 = t := by
  obtain ⟨h1, h2, h3, h4⟩ := addStrings_spec adds
  constructor
  · rintro ⟨x, hx, h⟩; exact ⟨x, h3 x hx, h⟩
  · rintro ⟨x, hx, h⟩
    have : (adds.find? (fun x => x.1 = t)).isSome := by
      rw [List.find?_isSome]; exact ⟨x, hx, by simpa using h⟩
    rw [← h4 t, List.find?_isSome] at this
    obtain ⟨y, hy, he⟩ := this
    exact ⟨y, h2 ▸ hy, by simpa using he⟩

theorem createString_fine (d : Prop) (t : List Nat) : Fine d (createString t) := by
  cases t <;> simp [createString, Fine]

theorem createString_matches (isWord : Nat → Bool) (w t : List Nat) (i j : Nat) :
    Matches isWord w (createString t) i j ↔ j = i + t.length ∧ t <+: w.drop i := by
  cases t with
  | nil => simp [createString, Matches, eq_comm]
  | cons c t => simp [createString, Matches]

/-- `commit` always returns, for any strings added. -/
theorem C49_commit_returns {U : Type} (same : List Item → List Item → Bool)
    (adds : List (List Nat × U)) :
    ∃ N, ∀ n, N ≤ n → ∃ r, (addStrings adds).commit same n = some r := by
  obtain ⟨l, hl⟩ : ∃ l, l = (addStrings adds).strings.map (fun x => createString x.1) ++
    (addStrings adds).regexes.map Prod.fst := ⟨_, rfl⟩
  refine ⟨3 * (szs l * szs l + szs l) + 3, fun n hn => ?_⟩
  obtain ⟨y, hy⟩ := mergeAll_total same (szs l) n hn l (by
    intro r hr
    rw [hl, (addStrings_spec adds).1] at hr
    simp only [List.map_nil, List.append_nil, List.mem_map] at hr
    obtain ⟨x, _, rfl⟩ := hr
    cases x.1 <;> simp [createString, Sized]) none (by simp) (Nat.le_refl _)
  exact ⟨_, by unfold Patterns.commit; rw [← hl, hy]⟩

/-- The merged expression matches exactly the texts that were added, whatever
characters they contain and in whatever order they were added. -/
theorem C49_strings {U : Type} (isWord : Nat → Bool) (w : List Nat)
    (same : List Item → List Item → Bool) (hs : SoundSame same) (n : Nat)
    (adds : List (List Nat × U)) (hne : adds ≠ []) (r : Rx) (len : Nat)
    (h : (addStrings adds).commit same n = some (r, len)) (i j : Nat) :
    Matches isWord w r i j ↔ ∃ x ∈ adds, j = i + x.1.length ∧ x.1 <+: w.drop i := by
  obtain ⟨h1, h2, h3, h4⟩ := addStrings_spec adds
  unfold Patterns.commit at h
  simp only [h1, List.map_nil, List.append_nil] at h
  split at h
  · cases h
  · rename_i y hy
    simp only [Option.some.injEq, Prod.mk.injEq] at h
    obtain ⟨g0, g⟩ := mergeAll_spec isWord w False False.elim same hs n _ (by
      intro r hr
      obtain ⟨x, _, rfl⟩ := List.mem_map.1 hr
      exact createString_fine _ _) none y (by simp) hy
    have hne' : (addStrings adds).strings ≠ [] := by
      obtain ⟨a, l, rfl⟩ := List.exists_cons_of_ne_nil hne
      obtain ⟨x, hx, _⟩ := (strings_mem (a :: l) a.1).2 ⟨a, by simp, rfl⟩
      intro hc; rw [hc] at hx; simp at hx
    obtain ⟨z, rfl⟩ := Option.isSome_iff_exists.1 (g0 (Or.inr (by simpa using hne')))
    have hr : r = z := h.1.symm
    subst hr
    have := g i j
    simp only [Option.some.injEq, exists_eq_left', List.mem_map, exists_exists_and_eq_and,
      createString_matches, reduceCtorEq, false_and, exists_false, false_or] at this
    rw [this]
    constructor
    · rintro ⟨x, hx, h⟩; exact ⟨x, h3 x hx, h⟩
    · rintro ⟨x, hx, h⟩
      obtain ⟨y, hy, he⟩ := (strings_mem adds x.1).2 ⟨x, hx, rfl⟩
      exact ⟨y, hy, by rw [he]; exact h⟩

/-- The text of a match is found by `getPattern`: the user data is the one given
with the first `addString` of that text. -/
theorem C49_pattern_found {U : Type} (isWord : Nat → Bool) (w : List Nat)
    (same : List Item → List Item → Bool) (hs : SoundSame same) (n : Nat)
    (hit : Rx → List Nat → Bool) (adds : List (List Nat × U)) (hne : adds ≠ []) (r : Rx) (len : Nat)
    (h : (addStrings adds).commit same n = some (r, len)) (i j : Nat)
    (hm : Matches isWord w r i j) :
    ∃ x, adds.find? (fun x => x.1 = (w.drop i).take (j - i)) = some x ∧
      (addStrings adds).getPattern hit ((w.drop i).take (j - i)) = some x.2 := by
  obtain ⟨x, hx, hj, hp⟩ := (C49_strings isWord w same hs n adds hne r len h i j).1 hm
  have ht : (w.drop i).take (j - i) = x.1 := by
    obtain ⟨t, ht⟩ := hp
    rw [← ht, hj]
    simp
  have : (adds.find? (fun x => x.1 = (w.drop i).take (j - i))).isSome := by
    rw [List.find?_isSome]; exact ⟨x, hx, by simp [ht]⟩
  obtain ⟨y, hy⟩ := Option.isSome_iff_exists.1 this
  refine ⟨y, hy, ?_⟩
  unfold Patterns.getPattern
  rw [(addStrings_spec adds).2.2.2, hy]

/-- Strings `GIF8`, `RIFF`, `GIF9`. -/
example :
    let adds : List (List Nat × Nat) := [([71, 73, 70, 56], 1), ([82, 73, 70, 70], 2),
      ([71, 73, 70, 57], 3)]
    (addStrings adds).commit neverSame 60
      = some (.or [.and [.str [71, 73, 70], .range [⟨56, 57⟩] false], .str [82, 73, 70, 70]], 4) := by
  rfl

/-- `max_length` bounds every match, for strings and regular expressions (with the
conditions of C31 for the latter). -/
theorem C49_max_length_partial {U : Type} (isWord : Nat → Bool) (w : List Nat)
    (same : List Item → List Item → Bool) (hs : SoundSame same) (n : Nat) (p : Patterns U)
    (hp : ∀ x ∈ p.regexes, WF x.1 ∧ NoExclude x.1 ∧ (10 ∉ w ∨ NoDot x.1) ∧
      ∃ k, maxLength x.1 = .num k)
    (r : Rx) (len : Nat) (h : p.commit same n = some (r, len)) (i j : Nat)
    (hm : Matches isWord w r i j) : j ≤ i + len := by
  unfold Patterns.commit at h
  split at h
  · cases h
  · rename_i y hy
    simp only [Option.some.injEq, Prod.mk.injEq] at h
    obtain ⟨hr, hlen⟩ := h
    obtain ⟨g0, g⟩ := mergeAll_spec isWord w (10 ∉ w) id same hs n _ (by
      intro r hr
      rcases List.mem_append.1 hr with hr | hr
      · obtain ⟨x, _, rfl⟩ := List.mem_map.1 hr
        exact createString_fine _ _
      · obtain ⟨x, hx, rfl⟩ := List.mem_map.1 hr
        obtain ⟨a, b, c, _⟩ := hp x hx
        exact fine_of _ _ a b c) none y (by simp) hy
    have foldmax : ∀ {α : Type} (f : α → Nat) (l : List α) (m : Nat),
        m ≤ l.foldl (fun m x => max m (f x)) m ∧
          ∀ x ∈ l, f x ≤ l.foldl (fun m x => max m (f x)) m := by
      intro α f l
      induction l with
      | nil => intro m; simp
      | cons a l ih =>
        intro m
        obtain ⟨i1, i2⟩ := ih (max m (f a))
        simp only [List.foldl_cons, List.mem_cons, forall_eq_or_imp]
        refine ⟨by omega, by omega, i2⟩
    obtain ⟨s1, s2⟩ := foldmax (fun x : List Nat × U => x.1.length) p.strings 0
    obtain ⟨t1, t2⟩ := foldmax (fun x : Rx × U => (maxLength x.1).val) p.regexes
      (p.strings.foldl (fun m x => max m x.1.length) 0)
    rw [hlen] at t1 t2
    cases y with
    | none =>
      simp only [Option.getD_none] at hr
      subst hr
      simp only [Matches] at hm
      omega
    | some z =>
      simp only [Option.getD_some] at hr
      subst hr
      have := (g i j).1 ⟨z, rfl, hm⟩
      simp only [reduceCtorEq, false_and, exists_false, false_or, List.mem_append,
        List.mem_map] at this
      obtain ⟨q, hq, hmq⟩ := this
      rcases hq with ⟨x, hx, rfl⟩ | ⟨x, hx, rfl⟩
      · rw [createString_matches] at hmq
        have := s2 x hx
        omega
      · obtain ⟨_, _, _, k, hk⟩ := hp x hx
        have := C32_maxLength isWord w x.1 k hk i j hmq
        have := t2 x hx
        simp only [hk, Len.val] at this
        omega

/-- With regular expressions `getPattern` can fail on a match: `\b ` matches the
space of `a ` but not a space alone (`getPattern` only sees the matched text). -/
theorem C49_boundary_lost (isWord : Nat → Bool) (h1 : isWord 97 = true) (h2 : isWord 32 = false) :
    Matches isWord [97, 32] (.and [.word, .str [32]]) 1 2 ∧
      ∀ j, ¬ Matches isWord [32] (.and [.word, .str [32]]) 0 j := by
  constructor
  · simp only [Matches, MatchesSeq]
    refine ⟨1, ⟨rfl, ?_⟩, 2, ⟨rfl, by decide⟩, rfl⟩
    simp [boundary, wordAt, h1, h2]
  · intro j
    simp only [Matches, MatchesSeq]
    rintro ⟨k, ⟨rfl, hb⟩, _⟩
    simp [boundary, wordAt, h2] at hb

end Hachoir.Props
