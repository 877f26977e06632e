import Mathlib.Tactic.Tauto
import Verif.Regex.Lang

/-! Lemmas about the regular expression model. -/

namespace Hachoir.Regex

set_option linter.unusedVariables false
set_option linter.unusedSimpArgs false

variable {isWord : Nat → Bool} {w : List Nat}

/-! ### Sequences and alternatives -/

theorem matchesSeq_append (l m : List Rx) (i j : Nat) :
    MatchesSeq isWord w (l ++ m) i j ↔
      ∃ k, MatchesSeq isWord w l i k ∧ MatchesSeq isWord w m k j := by
  induction l generalizing i with
  | nil => simp [MatchesSeq]
  | cons r l ih =>
    simp only [List.cons_append, MatchesSeq, ih]
    constructor
    · rintro ⟨k, h1, k', h2, h3⟩; exact ⟨k', ⟨k, h1, h2⟩, h3⟩
    · rintro ⟨k', ⟨k, h1, h2⟩, h3⟩; exact ⟨k, h1, k', h2, h3⟩

theorem matchesSeq_single (r : Rx) (i j : Nat) :
    MatchesSeq isWord w [r] i j ↔ Matches isWord w r i j := by
  simp [MatchesSeq]

theorem matchesSeq_pair (a b : Rx) (i j : Nat) :
    MatchesSeq isWord w [a, b] i j ↔
      ∃ k, Matches isWord w a i k ∧ Matches isWord w b k j := by
  simp [MatchesSeq]

theorem matchesAlt_iff (l : List Rx) (i j : Nat) :
    MatchesAlt isWord w l i j ↔ ∃ r ∈ l, Matches isWord w r i j := by
  induction l with
  | nil => simp [MatchesAlt]
  | cons r l ih => simp [MatchesAlt, ih]

theorem str_append (s t : List Nat) (i j : Nat) :
    Matches isWord w (.str (s ++ t)) i j ↔
      ∃ k, Matches isWord w (.str s) i k ∧ Matches isWord w (.str t) k j := by
  simp only [Matches]
  constructor
  · rintro ⟨rfl, x, hx⟩
    refine ⟨i + s.length, ⟨rfl, t ++ x, by simpa using hx⟩, by simp [Nat.add_assoc], x, ?_⟩
    rw [← List.drop_drop, ← hx, List.append_assoc, List.drop_left]
  · rintro ⟨k, ⟨rfl, x, hx⟩, rfl, y, hy⟩
    refine ⟨by simp [Nat.add_assoc], y, ?_⟩
    rw [← List.drop_drop, ← hx, List.drop_left] at hy
    rw [List.append_assoc, hy, hx]

/-! ### Concatenation -/

mutual
theorem andStep_matches (a b r : Rx) (h : andStep a b = some r) (i j : Nat) :
    Matches isWord w r i j ↔ ∃ k, Matches isWord w a i k ∧ Matches isWord w b k j := by
  cases a with
  | empty => simp only [andStep, Option.some.injEq] at h; subst h; simp [Matches]
  | word =>
    cases b <;> simp [andStep] at h
    subst h; simp only [Matches]
    constructor
    · rintro ⟨rfl, hb⟩; exact ⟨i, ⟨rfl, hb⟩, rfl, hb⟩
    · rintro ⟨k, ⟨rfl, hb⟩, rfl, _⟩; exact ⟨rfl, hb⟩
  | start =>
    cases b <;> simp [andStep] at h
    subst h; simp only [Matches]
    constructor
    · rintro ⟨rfl, hb⟩; exact ⟨i, ⟨rfl, hb⟩, rfl, hb⟩
    · rintro ⟨k, ⟨rfl, hb⟩, rfl, _⟩; exact ⟨rfl, hb⟩
  | stop =>
    cases b <;> simp [andStep] at h
    subst h; simp only [Matches]
    constructor
    · rintro ⟨rfl, hb⟩; exact ⟨i, ⟨rfl, hb⟩, rfl, hb⟩
    · rintro ⟨k, ⟨rfl, hb⟩, rfl, _⟩; exact ⟨rfl, hb⟩
  | dot => simp [andStep] at h
  | str s =>
    cases b <;> simp [andStep] at h
    subst h; exact str_append _ _ i j
  | range rs e => simp [andStep] at h
  | and l =>
    simp only [andStep] at h
    cases hl : andLast l b with
    | some l' =>
      simp only [hl, Option.some.injEq] at h; subst h
      simpa only [Matches] using andLast_matches l b l' hl i j
    | none =>
      simp only [hl, Option.some.injEq] at h; subst h
      simp only [Matches, matchesSeq_append, matchesSeq_single]
  | or l => simp [andStep] at h
  | rep r' m mx => simp [andStep] at h
theorem andLast_matches (l : List Rx) (b : Rx) (l' : List Rx) (h : andLast l b = some l')
    (i j : Nat) :
    MatchesSeq isWord w l' i j ↔
      ∃ k, MatchesSeq isWord w l i k ∧ Matches isWord w b k j := by
  match l with
  | [] => simp [andLast] at h
  | [x] =>
    simp only [andLast] at h
    cases hx : andStep x b with
    | none => simp [hx] at h
    | some y =>
      simp only [hx, Option.some.injEq] at h; subst h
      simpa only [matchesSeq_single] using andStep_matches x b y hx i j
  | x :: y :: l =>
    simp only [andLast] at h
    cases hx : andLast (y :: l) b with
    | none => simp [hx] at h
    | some l'' =>
      simp only [hx, Option.some.injEq] at h; subst h
      have ih := andLast_matches (y :: l) b l'' hx
      rw [show MatchesSeq isWord w (x :: l'') i j ↔
        ∃ k, Matches isWord w x i k ∧ MatchesSeq isWord w l'' k j by simp only [MatchesSeq]]
      constructor
      · rintro ⟨k, h1, h2⟩
        obtain ⟨k', h3, h4⟩ := (ih k j).1 h2
        exact ⟨k', by rw [MatchesSeq]; exact ⟨k, h1, h3⟩, h4⟩
      · rintro ⟨k', h1, h2⟩
        rw [MatchesSeq] at h1
        obtain ⟨k, h3, h4⟩ := h1
        exact ⟨k, h3, (ih k j).2 ⟨k', h4, h2⟩⟩
end

/-- The last case of `andOp`. -/
theorem andOp_other (a b : Rx) (hb : b ≠ .empty) (hb' : ∀ m, b ≠ .and m) :
    andOp a b = (andStep a b).getD (.and [a, b]) := by
  cases b with
  | empty => exact absurd rfl hb
  | and m => exact absurd rfl (hb' m)
  | _ => simp only [andOp]; cases andStep a _ <;> rfl

mutual
theorem andOp_matches (a b : Rx) (i j : Nat) :
    Matches isWord w (andOp a b) i j ↔
      ∃ k, Matches isWord w a i k ∧ Matches isWord w b k j := by
  have other : ∀ b, b ≠ .empty → (∀ m, b ≠ .and m) →
      (Matches isWord w (andOp a b) i j ↔
        ∃ k, Matches isWord w a i k ∧ Matches isWord w b k j) := by
    intro b hb hb'
    rw [andOp_other a b hb hb']
    cases hs : andStep a b with
    | some r => exact andStep_matches a b r hs i j
    | none => simp only [Option.getD_none, Matches, matchesSeq_pair]
  cases b with
  | empty => simp [andOp, Matches]
  | and m =>
    cases a with
    | and l =>
      simp only [andOp]
      rw [andFold_matches (.and l) m i j]
      simp only [Matches]
    | empty => simp [andOp, Matches]
    | _ => simp only [andOp]; rw [Matches, matchesSeq_pair]
  | _ => exact other _ (by simp) (by simp)
theorem andFold_matches (a : Rx) (l : List Rx) (i j : Nat) :
    Matches isWord w (andFold a l) i j ↔
      ∃ k, Matches isWord w a i k ∧ MatchesSeq isWord w l k j := by
  match l with
  | [] => simp [andFold, MatchesSeq]
  | x :: l =>
    simp only [andFold]
    rw [andFold_matches (andOp a x) l i j]
    simp only [MatchesSeq]
    constructor
    · rintro ⟨k, h1, h2⟩
      obtain ⟨k', h3, h4⟩ := (andOp_matches a x i k).1 h1
      exact ⟨k', h3, k, h4, h2⟩
    · rintro ⟨k', h3, k, h4, h2⟩
      exact ⟨k, (andOp_matches a x i k).2 ⟨k', h3, h4⟩, h2⟩
end

theorem foldl_andOp_matches (l : List Rx) (a : Rx) (i j : Nat) :
    Matches isWord w (l.foldl andOp a) i j ↔
      ∃ k, Matches isWord w a i k ∧ MatchesSeq isWord w l k j := by
  induction l generalizing a with
  | nil => simp [MatchesSeq]
  | cons x l ih =>
    simp only [List.foldl_cons, ih, MatchesSeq]
    constructor
    · rintro ⟨k, h1, h2⟩
      obtain ⟨k', h3, h4⟩ := (andOp_matches a x i k).1 h1
      exact ⟨k', h3, k, h4, h2⟩
    · rintro ⟨k', h3, k, h4, h2⟩
      exact ⟨k, (andOp_matches a x i k).2 ⟨k', h3, h4⟩, h2⟩

theorem andJoin_matches (l : List Rx) (i j : Nat) :
    Matches isWord w (andJoin l) i j ↔ MatchesSeq isWord w l i j := by
  cases l with
  | nil => simp [andJoin, Matches, MatchesSeq]
  | cons r l => simp only [andJoin, foldl_andOp_matches, MatchesSeq]

/-! ### Character ranges -/

/-- Range items with `cmin ≤ cmax`. -/
def Ordered (rs : List Item) : Prop := ∀ a ∈ rs, a.cmin ≤ a.cmax

theorem inItems_cons (a : Item) (l : List Item) (c : Nat) :
    InItems (a :: l) c ↔ (a.cmin ≤ c ∧ c ≤ a.cmax) ∨ InItems l c := by
  simp only [InItems, List.mem_cons, exists_eq_or_imp]

theorem mergeStep_none (a b : Item) (h : mergeStep a b = some none) : b.within a = true := by
  unfold mergeStep at h
  split at h; · simp at h
  split at h; · assumption
  split at h; · simp at h
  split at h <;> simp at h

theorem mergeStep_some (a b new : Item) (ha : a.cmin ≤ a.cmax) (hb : b.cmin ≤ b.cmax)
    (h : mergeStep a b = some (some new)) :
    new.cmin ≤ new.cmax ∧
      ∀ c, (new.cmin ≤ c ∧ c ≤ new.cmax) ↔
        (a.cmin ≤ c ∧ c ≤ a.cmax) ∨ (b.cmin ≤ c ∧ c ≤ b.cmax) := by
  unfold mergeStep at h
  split at h
  · rename_i hw
    simp only [Option.some.injEq] at h; subst h
    simp only [Item.within, Bool.and_eq_true, decide_eq_true_eq] at hw
    exact ⟨hb, fun c => by omega⟩
  split at h; · simp at h
  split at h
  · simp only [Option.some.injEq] at h; subst h
    exact ⟨by simp; omega, fun c => by simp; omega⟩
  split at h
  · simp only [Option.some.injEq] at h; subst h
    exact ⟨by simp; omega, fun c => by simp; omega⟩
  · simp at h

theorem mergeScan_none (l : List Item) (b : Item) (h : mergeScan l b = some none) :
    ∃ a ∈ l, b.within a = true := by
  induction l with
  | nil => simp [mergeScan] at h
  | cons a l ih =>
    simp only [mergeScan] at h
    cases hs : mergeStep a b with
    | some o =>
      cases o with
      | none => exact ⟨a, by simp, mergeStep_none a b hs⟩
      | some new => simp [hs] at h
    | none =>
      simp only [hs] at h
      cases hm : mergeScan l b with
      | none => simp [hm] at h
      | some o =>
        cases o with
        | none =>
          obtain ⟨a', h1, h2⟩ := ih hm
          exact ⟨a', by simp [h1], h2⟩
        | some p => simp [hm] at h

theorem mergeScan_some (l : List Item) (b : Item) (rest : List Item) (new : Item)
    (hl : Ordered l) (hb : b.cmin ≤ b.cmax) (h : mergeScan l b = some (some (rest, new))) :
    Ordered rest ∧ new.cmin ≤ new.cmax ∧ rest.length + 1 = l.length ∧
      ∀ c, (InItems rest c ∨ (new.cmin ≤ c ∧ c ≤ new.cmax)) ↔
        InItems l c ∨ (b.cmin ≤ c ∧ c ≤ b.cmax) := by
  induction l generalizing rest with
  | nil => simp [mergeScan] at h
  | cons a l ih =>
    simp only [mergeScan] at h
    have ha : a.cmin ≤ a.cmax := hl a (by simp)
    have hl' : Ordered l := fun x hx => hl x (by simp [hx])
    cases hs : mergeStep a b with
    | some o =>
      cases o with
      | none => simp [hs] at h
      | some new' =>
        simp only [hs, Option.some.injEq, Prod.mk.injEq] at h
        obtain ⟨rfl, rfl⟩ := h
        obtain ⟨h1, h2⟩ := mergeStep_some a b new' ha hb hs
        refine ⟨hl', h1, by simp, fun c => ?_⟩
        rw [h2 c]
        rw [inItems_cons]
        tauto
    | none =>
      simp only [hs] at h
      cases hm : mergeScan l b with
      | none => simp [hm] at h
      | some o =>
        cases o with
        | none => simp [hm] at h
        | some p =>
          obtain ⟨rest', new'⟩ := p
          simp only [hm, Option.some.injEq, Prod.mk.injEq] at h
          obtain ⟨rfl, rfl⟩ := h
          obtain ⟨h1, h2, h3, h4⟩ := ih rest' hl' hm
          refine ⟨?_, h2, by simp [h3], fun c => ?_⟩
          · intro x hx
            rcases List.mem_cons.1 hx with rfl | hx
            · exact ha
            · exact h1 x hx
          · have := h4 c
            simp only [inItems_cons]
            tauto

theorem rangeAddN_spec (n : Nat) (l : List Item) (b : Item) (hl : Ordered l)
    (hb : b.cmin ≤ b.cmax) :
    Ordered (rangeAddN n l b) ∧ rangeAddN n l b ≠ [] ∧
      ∀ c, InItems (rangeAddN n l b) c ↔ InItems l c ∨ (b.cmin ≤ c ∧ c ≤ b.cmax) := by
  have app : Ordered (l ++ [b]) ∧ l ++ [b] ≠ [] ∧
      ∀ c, InItems (l ++ [b]) c ↔ InItems l c ∨ (b.cmin ≤ c ∧ c ≤ b.cmax) := by
    refine ⟨?_, by simp, fun c => ?_⟩
    · intro x hx
      rcases List.mem_append.1 hx with hx | hx
      · exact hl x hx
      · simp at hx; subst hx; exact hb
    · simp only [InItems, List.mem_append, List.mem_singleton, or_and_right, exists_or,
        exists_eq_left]
  induction n generalizing l b with
  | zero => exact app
  | succ n ih =>
    simp only [rangeAddN]
    cases hm : mergeScan l b with
    | none => exact app
    | some o =>
      cases o with
      | none =>
        obtain ⟨a, ha, hw⟩ := mergeScan_none l b hm
        simp only [Item.within, Bool.and_eq_true, decide_eq_true_eq] at hw
        refine ⟨hl, List.ne_nil_of_mem ha, fun c => ⟨Or.inl, ?_⟩⟩
        rintro (h | h)
        · exact h
        · exact ⟨a, ha, by omega, by omega⟩
      | some p =>
        obtain ⟨rest, new⟩ := p
        obtain ⟨h1, h2, _, h4⟩ := mergeScan_some l b rest new hl hb hm
        have app' : Ordered (rest ++ [new]) ∧ rest ++ [new] ≠ [] ∧
            ∀ c, InItems (rest ++ [new]) c ↔
              InItems rest c ∨ (new.cmin ≤ c ∧ c ≤ new.cmax) := by
          refine ⟨?_, by simp, fun c => ?_⟩
          · intro x hx
            rcases List.mem_append.1 hx with hx | hx
            · exact h1 x hx
            · simp at hx; subst hx; exact h2
          · simp only [InItems, List.mem_append, List.mem_singleton, or_and_right, exists_or,
              exists_eq_left]
        obtain ⟨g1, g2, g3⟩ := ih rest new h1 h2 app'
        exact ⟨g1, g2, fun c => by rw [g3 c, h4 c]⟩

theorem foldl_rangeAdd_spec (items l : List Item) (hl : Ordered l) (hi : Ordered items) :
    Ordered (items.foldl rangeAdd l) ∧
      (l ≠ [] ∨ items ≠ [] → items.foldl rangeAdd l ≠ []) ∧
      ∀ c, InItems (items.foldl rangeAdd l) c ↔ InItems l c ∨ InItems items c := by
  induction items generalizing l with
  | nil => exact ⟨hl, by simp, fun c => by simp [InItems]⟩
  | cons b items ih =>
    obtain ⟨h1, h2, h3⟩ := rangeAddN_spec l.length l b hl (hi b (by simp))
    obtain ⟨g1, g2, g3⟩ := ih (rangeAdd l b) h1 (fun x hx => hi x (by simp [hx]))
    refine ⟨g1, fun _ => g2 (Or.inl h2), fun c => ?_⟩
    rw [List.foldl_cons, g3 c, show InItems (rangeAdd l b) c ↔ _ from h3 c]
    rw [inItems_cons]
    tauto

theorem mem_insertItem (a x : Item) (l : List Item) :
    x ∈ insertItem a l ↔ x = a ∨ x ∈ l := by
  induction l with
  | nil => simp [insertItem]
  | cons b l ih =>
    simp only [insertItem]
    split
    · simp
    · simp only [List.mem_cons, ih]; tauto

theorem mem_sortItems (x : Item) (l : List Item) : x ∈ sortItems l ↔ x ∈ l := by
  induction l with
  | nil => simp [sortItems]
  | cons a l ih => simp only [sortItems, mem_insertItem, ih, List.mem_cons]

/-- The character range made by `createRange`. -/
theorem createRange_spec (chars : List Nat) (e : Bool) :
    ∃ rs, createRange chars e = .range rs e ∧ Ordered rs ∧ (chars ≠ [] → rs ≠ []) ∧
      ∀ c, InItems rs c ↔ c ∈ chars := by
  have hi : Ordered (chars.map charItem) := by
    intro x hx
    obtain ⟨c, _, rfl⟩ := List.mem_map.1 hx
    exact Nat.le_refl _
  obtain ⟨h1, h2, h3⟩ := foldl_rangeAdd_spec (chars.map charItem) [] (by simp [Ordered]) hi
  refine ⟨_, rfl, ?_, ?_, fun c => ?_⟩
  · intro x hx; exact h1 x ((mem_sortItems x _).1 hx)
  · intro hc hn
    refine h2 (Or.inr (by simpa using hc)) ?_
    cases hf : (List.foldl rangeAdd [] (List.map charItem chars)) with
    | nil => rfl
    | cons a l =>
      have : a ∈ sortItems (List.foldl rangeAdd [] (List.map charItem chars)) :=
        (mem_sortItems a _).2 (by rw [hf]; simp)
      rw [hn] at this; cases this
  · have : InItems (sortItems (List.foldl rangeAdd [] (List.map charItem chars))) c ↔
        InItems (List.foldl rangeAdd [] (List.map charItem chars)) c := by
      simp only [InItems, mem_sortItems]
    rw [this, h3 c]
    simp only [InItems, List.not_mem_nil, false_and, exists_false, false_or, List.mem_map]
    constructor
    · rintro ⟨a, ⟨d, hd, rfl⟩, h⟩
      simp only [charItem] at h
      have : c = d := by omega
      subst this; exact hd
    · intro hc
      exact ⟨charItem c, ⟨c, hc, rfl⟩, by simp [charItem]⟩

end Hachoir.Regex
