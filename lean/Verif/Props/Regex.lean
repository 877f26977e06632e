import Verif.Regex.Size
import Verif.Regex.RepeatLemmas

/-!
# Properties C31 and C32: regular expressions

`Matches isWord w r i j` (Verif/Regex/Lang.lean) is the meaning of an
expression: `r` matches the characters of `w` from `i` to `j`.
-/

set_option linter.unusedVariables false
set_option linter.unusedSimpArgs false

namespace Hachoir.Props
open Hachoir.Regex

/-- An answer to the object identity test of `RegexRange._eq` that is right. -/
def SoundSame (same : List Item → List Item → Bool) : Prop :=
  ∀ x y, same x y = true → x = y

/-- The answer that range objects are never shared. -/
def neverSame : List Item → List Item → Bool := fun _ _ => false

/-! ## C31: language of `&`, `|` and repetition -/

/-- `a & b` matches exactly the concatenations of a match of `a` and a match
of `b`. -/
theorem C31_and (isWord : Nat → Bool) (w : List Nat) (a b : Rx) (i j : Nat) :
    Matches isWord w (andOp a b) i j ↔
      ∃ k, Matches isWord w a i k ∧ Matches isWord w b k j :=
  andOp_matches a b i j

/-- `RegexAnd.join` matches the sequence of the items. -/
theorem C31_join (isWord : Nat → Bool) (w : List Nat) (l : List Rx) (i j : Nat) :
    Matches isWord w (andJoin l) i j ↔ MatchesSeq isWord w l i j :=
  andJoin_matches l i j

/-- `a | b` matches exactly what `a` or `b` matches, on texts without newline
(or for expressions without dot), for expressions without `[^...]`. -/
theorem C31_or_partial (isWord : Nat → Bool) (w : List Nat)
    (same : List Item → List Item → Bool) (hs : SoundSame same) (n : Nat) (a b r : Rx)
    (ha : WF a) (hb : WF b) (ea : NoExclude a) (eb : NoExclude b)
    (hd : 10 ∉ w ∨ (NoDot a ∧ NoDot b)) (h : bar same n a b = some r) (i j : Nat) :
    Matches isWord w r i j ↔ Matches isWord w a i j ∨ Matches isWord w b i j :=
  ((bar_spec (isWord := isWord) (w := w) (10 ∉ w) id same hs n).1 a b r
    (fine_of _ a ha ea (hd.imp id And.left)) (fine_of _ b hb eb (hd.imp id And.right)) h).lang i j

/-- `a | b` always returns: the recursion is bounded by the size of the two
expressions. -/
theorem C31_or_terminates (same : List Item → List Item → Bool) (a b : Rx)
    (ha : WF a) (hb : WF b) :
    ∃ r, bar same (3 * ((sz a + sz b) * (sz a + sz b) + sz b) + 3) a b = some r :=
  have ⟨r, h, _⟩ := (bar_total same _).1 (sz a + sz b) (sz b) a b (sized_of_wf a ha)
    (sized_of_wf b hb) (Nat.le_refl _) (Nat.le_refl _) (Nat.le_refl _)
  ⟨r, h⟩

/-- Joining any number of alternatives. -/
theorem C31_or_list_partial (isWord : Nat → Bool) (w : List Nat)
    (same : List Item → List Item → Bool) (hs : SoundSame same) (n : Nat) (x : Rx) (l : List Rx)
    (r : Rx) (hx : WF x) (hl : WFs l) (ex : NoExclude x) (el : NoExcludes l)
    (hd : 10 ∉ w ∨ (NoDot x ∧ NoDots l)) (h : foldBar (bar same n) x l = some r) (i j : Nat) :
    Matches isWord w r i j ↔
      Matches isWord w x i j ∨ MatchesAlt isWord w l i j :=
  (foldBar_spec _ (bar same n) (bar_spec (isWord := isWord) (w := w) (10 ∉ w) id same hs n).1 l
    (fines_of _ l hl el (hd.imp id And.right)) x r (fine_of _ x hx ex (hd.imp id And.left)) h).2 i j

/-- `"color red" | "color blue"` is `color (red|blue)`; the hypotheses of
`C31_or_partial` hold for it. -/
example :
    let a := Rx.str [99, 32, 114]
    let b := Rx.str [99, 32, 98]
    bar neverSame 20 a b
        = some (.and [.str [99, 32], .range [⟨98, 98⟩, ⟨114, 114⟩] false]) ∧
      WF a ∧ WF b ∧ NoExclude a ∧ NoExclude b ∧ NoDot a ∧ NoDot b ∧ SoundSame neverSame := by
  refine ⟨by rfl, by simp [WF], by simp [WF], by simp [NoExclude], by simp [NoExclude],
    by simp [NoDot], by simp [NoDot], ?_⟩
  intro x y h; cases h

/-- `(.x|.y)` is grouped in `.[xy]`. -/
example : bar neverSame 20 (.and [.dot, .str [120]]) (.and [.dot, .str [121]])
    = some (.and [.dot, .range [⟨120, 121⟩] false]) := by rfl

/-- Excluding ranges: `[^A] | [^B]` gives an expression that matches the
characters matched by *both*, for all `A` and `B`. -/
theorem C31_exclude_gives_intersection (isWord : Nat → Bool) (w : List Nat)
    (same : List Item → List Item → Bool) (hs : SoundSame same) (n : Nat) (A B : List Item)
    (hA : Ordered A) (hB : Ordered B) (r : Rx)
    (h : bar same n (.range A true) (.range B true) = some r) (i j : Nat) :
    Matches isWord w r i j ↔
      Matches isWord w (.range A true) i j ∧ Matches isWord w (.range B true) i j := by
  have sub : ∀ P Q : List Item, matches_ (.range P true) (.range Q true) = true →
      ∀ c, InItems Q c → InItems P c := by
    intro P Q hm c hc
    simp only [matches_, otherItems, beq_self_eq_true, if_true] at hm
    obtain ⟨x, hx, hc⟩ := hc
    obtain ⟨a, ha, hw⟩ := List.any_eq_true.1 (List.all_eq_true.1 hm x hx)
    simp only [Item.within, Bool.and_eq_true, decide_eq_true_eq] at hw
    exact ⟨a, ha, by omega, by omega⟩
  match n with
  | 0 => simp [bar] at h
  | 1 => simp [bar, orU] at h
  | n + 2 =>
    simp only [bar, orU] at h
    by_cases he : eqv same (.range A true) (.range B true) = true
    · have := eqv_sound same hs _ _ he
      simp only [he, if_true, Option.some.injEq] at h
      subst h; rw [← this]; simp
    by_cases hm1 : matches_ (.range A true) (.range B true) = true
    · simp only [he, hm1, if_true, Option.some.injEq, Bool.false_eq_true, if_false] at h
      subst h
      have := sub A B hm1
      simp only [Matches, if_true]
      constructor
      · rintro ⟨h1, c, h2, h3⟩
        exact ⟨⟨h1, c, h2, h3⟩, h1, c, h2, fun h => h3 (this c h)⟩
      · exact And.left
    by_cases hm2 : matches_ (.range B true) (.range A true) = true
    · simp only [he, hm1, hm2, if_true, Option.some.injEq, Bool.false_eq_true, if_false] at h
      subst h
      have := sub B A hm2
      simp only [Matches, if_true]
      constructor
      · rintro ⟨h1, c, h2, h3⟩
        exact ⟨⟨h1, c, h2, fun h => h3 (this c h)⟩, h1, c, h2, h3⟩
      · exact And.right
    · simp only [he, hm1, hm2, sameClass, if_true, Bool.false_eq_true, if_false] at h
      match n with
      | 0 => simp [Regex.orM] at h
      | n + 1 =>
        simp only [Regex.orM, otherItems, beq_self_eq_true, if_true, Option.some.injEq] at h
        subst h
        obtain ⟨_, _, g⟩ := foldl_rangeAdd_spec B A hA hB
        simp only [Matches, if_true, g]
        constructor
        · rintro ⟨h1, c, h2, h3⟩
          exact ⟨⟨h1, c, h2, fun h => h3 (Or.inl h)⟩, h1, c, h2, fun h => h3 (Or.inr h)⟩
        · rintro ⟨⟨h1, c, h2, h3⟩, _, c', h2', h3'⟩
          rw [h2] at h2'
          simp only [Option.some.injEq] at h2'; subst h2'
          exact ⟨h1, c, h2, by rintro (h | h); exacts [h3 h, h3' h]⟩

/-- So C31 fails for excluding ranges: `[^a] | [^b]` no longer matches `a`,
though `[^b]` does. -/
theorem C31_exclude_wrong :
    ∃ r, bar neverSame 5 (.range [⟨97, 97⟩] true) (.range [⟨98, 98⟩] true) = some r ∧
      (∀ isWord, Matches isWord [97] (.range [⟨98, 98⟩] true) 0 1) ∧
      ∀ isWord, ¬ Matches isWord [97] r 0 1 := by
  refine ⟨_, rfl, fun isWord => ?_, fun isWord => ?_⟩
  · simp [Matches, InItems]
  · rw [C31_exclude_gives_intersection isWord [97] neverSame (by intro x y h; cases h) 5
      [⟨97, 97⟩] [⟨98, 98⟩] (by simp [Ordered]) (by simp [Ordered]) _ rfl]
    simp [Matches, InItems]

/-- And it fails for a dot and a newline: `. | "\n"` is `.`, which does not match
a newline. -/
theorem C31_dot_newline_wrong :
    bar neverSame 5 .dot (.str [10]) = some .dot ∧
      (∀ isWord, Matches isWord [10] (.str [10]) 0 1) ∧
      ∀ isWord, ¬ Matches isWord [10] .dot 0 1 := by
  refine ⟨rfl, fun isWord => ?_, fun isWord => ?_⟩
  · exact (matches_char 10 0 1).2 ⟨rfl, rfl⟩
  · simp [Matches]

/-- What the bounds of a repetition must satisfy for `RegexRepeat(r, x, y)` to be
the repetition of `r`.  For a repetition of a repetition no number between the
products may be skipped; for an alternative without upper bound no item may be
`a{n,}` with `2 ≤ n`. -/
def RepeatOk (r : Rx) (x : Nat) (y : Option Nat) : Prop :=
  (∀ q, y = some q → x ≤ q ∧ q ≠ 0) ∧
    match r with
    | .rep _ m mx =>
      (∀ p, mx = some p → m ≤ p ∧ p ≠ 0) ∧ (Fits m mx x y ∨ (x = 0 ∧ y = some 1))
    | .or l => ∀ r m, Rx.rep r m none ∈ l → 2 ≤ m → y ≠ none
    | _ => True

theorem mkRepeat_ok (r : Rx) (x : Nat) (y : Option Nat) (q : Rx)
    (h : mkRepeat r x y = .ok q) : q = .rep r x y := by
  unfold mkRepeat at h
  split at h
  · simpa using h.symm
  · split at h
    · cases h
    · split at h
      · cases h
      · simpa using h.symm

/-- `RegexRepeat(r, x, y)`, with its simplifications, matches exactly the texts
made of `x` to `y` matches of `r`. -/
theorem C31_repeat_partial (isWord : Nat → Bool) (w : List Nat)
    (same : List Item → List Item → Bool) (hs : SoundSame same) (n : Nat) (r q : Rx) (x : Nat)
    (y : Option Nat) (hr : WF r) (er : NoExclude r) (hd : 10 ∉ w ∨ NoDot r)
    (hok : RepeatOk r x y) (h : repeat_ same n r x y = some (.ok q)) (i j : Nat) :
    Matches isWord w q i j ↔
      ∃ k, x ≤ k ∧ (∀ z, y = some z → k ≤ z) ∧ Times (Matches isWord w r) k i j := by
  have goal : ∀ q', Repeated (Matches isWord w r) x y i j ↔ _ :=
    fun _ : Rx => (by simp only [Repeated, Allowed, and_assoc] :
      Repeated (Matches isWord w r) x y i j ↔
        ∃ k, x ≤ k ∧ (∀ z, y = some z → k ≤ z) ∧ Times (Matches isWord w r) k i j)
  rw [← goal r]
  obtain ⟨hxy, hok⟩ := hok
  have plain : repeat_ same n r x y = some (mkRepeat r x y) →
      (Matches isWord w q i j ↔ Repeated (Matches isWord w r) x y i j) := by
    intro h'
    rw [h'] at h
    simp only [Option.some.injEq] at h
    rw [mkRepeat_ok _ _ _ _ h, matches_rep]
  cases r with
  | rep r' m mx =>
    by_cases hc : x = 0 ∧ y = some 1
    · exact plain (by simp only [repeat_, if_pos hc])
    · simp only at hok
      obtain ⟨hm, hf⟩ := hok
      have hf : Fits m mx x y := hf.resolve_right hc
      have h' : repeat_ same n (.rep r' m mx) x y
          = some (mkRepeat r' (x * m) (mulMax mx y)) := by
        simp only [repeat_, if_neg hc, mulMax]
        rfl
      rw [h'] at h
      simp only [Option.some.injEq] at h
      rw [mkRepeat_ok _ _ _ _ h, matches_rep]
      rw [← repeated_repeated (Matches isWord w r') m mx x y hm hxy hf i j]
      unfold Repeated
      constructor
      · rintro ⟨k, hk, ht⟩
        exact ⟨k, hk, (times_congr (fun a b => matches_rep r' m mx a b) k i j).2 ht⟩
      · rintro ⟨k, hk, ht⟩
        exact ⟨k, hk, (times_congr (fun a b => matches_rep r' m mx a b) k i j).1 ht⟩
  | or l =>
    simp only [repeat_] at h
    have hfine := fine_of (10 ∉ w) _ hr er hd
    simp only [Fine] at hfine
    obtain ⟨hlen, hl⟩ := hfine
    obtain ⟨m1, m2, m3⟩ := fixMin_spec (isWord := isWord) (w := w) l x
    cases hfi : fixItems (fixMin x l) y l with
    | none => simp [hfi] at h
    | some l' =>
      simp only [hfi] at h
      obtain ⟨f1, f2, f3, f4⟩ := fixItems_spec (isWord := isWord) (w := w) (10 ∉ w) (fixMin x l) y
        l l' hl m2 m3 hok hfi
      cases hj : orJoin (bar same n) l' with
      | none => simp [hj] at h
      | some r' =>
        simp only [hj, Option.some.injEq] at h
        rw [mkRepeat_ok _ _ _ _ h, matches_rep]
        -- the repetition with the new minimum
        have step : Repeated (Matches isWord w r') (fixMin x l) y i j ↔
            Repeated (Matches isWord w (.or l)) (fixMin x l) y i j := by
          refine repeated_replace _ _ ?_ ?_ i j
          · intro a b hm
            simp only [Matches]
            cases l' with
            | nil =>
              simp only [orJoin, Option.some.injEq] at hj; subst hj
              simp only [Matches] at hm; subst hm
              rw [matchesAlt_iff]
              obtain ⟨z, l2, rfl⟩ := List.exists_cons_of_ne_nil
                (show l ≠ [] by intro h; simp [h] at hlen)
              exact ⟨z, by simp, by rw [f4 rfl z (by simp)]; simp [Matches]⟩
            | cons z l2 =>
              simp only [orJoin] at hj
              simp only [Fines] at f1
              have := (foldBar_spec _ (bar same n)
                (bar_spec (isWord := isWord) (w := w) (10 ∉ w) id same hs n).1 l2 f1.2 z r' f1.1 hj).2 a b
              exact f2 a b (by rw [MatchesAlt]; exact this.1 hm)
          · intro a b hm
            simp only [Matches] at hm
            obtain ⟨k, k1, k2, k3⟩ := f3 a b hm
            refine ⟨k, k1, k2, ?_⟩
            cases l' with
            | nil =>
              simp only [orJoin, Option.some.injEq] at hj; subst hj
              refine times_mono ?_ k a b k3
              intro c d hcd
              simp [MatchesAlt] at hcd
            | cons z l2 =>
              simp only [orJoin] at hj
              simp only [Fines] at f1
              have := (foldBar_spec _ (bar same n)
                (bar_spec (isWord := isWord) (w := w) (10 ∉ w) id same hs n).1 l2 f1.2 z r' f1.1 hj).2
              refine times_mono ?_ k a b k3
              intro c d hcd
              rw [MatchesAlt] at hcd
              exact (this c d).2 hcd
        rw [step]
        rcases m1 with m1 | ⟨m1, z, hz1, hz2⟩
        · rw [m1]
        · rw [m1]
          constructor
          · rintro ⟨k, ⟨_, hk⟩, ht⟩
            refine ⟨max k x, ⟨by omega, ?_⟩, ?_⟩
            · intro q hq
              have := hk q hq
              have := (hxy q hq).1
              omega
            · refine times_pad (fun a => ?_) k _ i j (by omega) ht
              simp only [Matches, matchesAlt_iff]
              exact ⟨z, hz1, hz2 a⟩
          · rintro ⟨k, ⟨_, hk⟩, ht⟩
            exact ⟨k, ⟨by omega, hk⟩, ht⟩
  | _ => exact plain rfl

/-- `(a|)+` is `a*`; `(a{1,2}){2,3}` is `a{2,6}`. -/
example :
    repeat_ neverSame 20 (.or [.str [97], .empty]) 1 none
        = some (.ok (.rep (.str [97]) 0 none)) ∧
      RepeatOk (.or [.str [97], .empty]) 1 none ∧
      repeat_ neverSame 20 (.rep (.str [97]) 1 (some 2)) 2 (some 3)
        = some (.ok (.rep (.str [97]) 2 (some 6))) ∧
      RepeatOk (.rep (.str [97]) 1 (some 2)) 2 (some 3) := by
  refine ⟨rfl, ?_, rfl, ?_⟩
  · simp [RepeatOk]
  · simp [RepeatOk, Fits]

/-- A repetition of a repetition that skips numbers changes the language:
`(a{2}){0,2}` becomes `a{0,4}`, which matches a single `a`. -/
theorem C31_nested_repeat_wrong :
    repeat_ neverSame 20 (.rep (.str [97]) 2 (some 2)) 0 (some 2)
        = some (.ok (.rep (.str [97]) 0 (some 4))) ∧
      (∀ isWord, Matches isWord [97] (.rep (.str [97]) 0 (some 4)) 0 1) ∧
      ∀ isWord, ¬ ∃ k, 0 ≤ k ∧ (∀ z, some 2 = some z → k ≤ z) ∧
        Times (Matches isWord [97] (.rep (.str [97]) 2 (some 2))) k 0 1 := by
  refine ⟨rfl, fun isWord => ?_, fun isWord => ?_⟩
  · rw [matches_rep]
    exact ⟨1, ⟨by simp, by simp⟩, (times_one _ 0 1).2 ((matches_char 97 0 1).2 ⟨rfl, rfl⟩)⟩
  · rintro ⟨k, _, hk, ht⟩
    have ht := (times_congr (fun a b => matches_rep (isWord := isWord) (w := [97]) (.str [97]) 2
      (some 2) a b) k 0 1).1 ht
    obtain ⟨N, h1, h2, h0, h3⟩ := (times_repeated _ 2 (some 2) (by simp) k 0 1).1 ht
    have hlen : ∀ n i j, Times (Matches isWord [97] (.str [97])) n i j → j = i + n := by
      intro n
      induction n with
      | zero => intro i j h; simpa [Times] using h.symm
      | succ n ih =>
        rintro i j ⟨m, g1, g2⟩
        have := ((matches_char 97 i m).1 g1).1
        have := ih m j g2
        omega
    have := hlen N 0 1 h3
    have := h2 2 rfl
    omega

/-- `(a{2,}|b)*` becomes `(aa|b)*`, which does not match `aaa`. -/
theorem C31_open_item_wrong :
    ∃ q, repeat_ neverSame 20 (.or [.rep (.str [97]) 2 none, .str [98]]) 0 none = some (.ok q) ∧
      (∀ isWord, ∃ k, Times (Matches isWord [97, 97, 97]
        (.or [.rep (.str [97]) 2 none, .str [98]])) k 0 3) ∧
      ∀ isWord, ¬ Matches isWord [97, 97, 97] q 0 3 := by
  have one : ∀ (isWord : Nat → Bool) (i : Nat), i < 3 →
      Matches isWord [97, 97, 97] (.str [97]) i (i + 1) := by
    intro isWord i hi
    rw [matches_char]
    refine ⟨rfl, ?_⟩
    match i, hi with
    | 0, _ => rfl
    | 1, _ => rfl
    | 2, _ => rfl
  refine ⟨_, rfl, fun isWord => ⟨1, ?_⟩, fun isWord => ?_⟩
  · rw [times_one]
    simp only [Matches, MatchesAlt]
    refine Or.inl ⟨3, by simp, by simp, 1, ?_, 2, ?_, 3, ?_, rfl⟩
    · simpa only [Matches] using one isWord 0 (by omega)
    · simpa only [Matches] using one isWord 1 (by omega)
    · simpa only [Matches] using one isWord 2 (by omega)
  · rw [matches_rep]
    rintro ⟨n, _, ht⟩
    have hlen : ∀ n i j, Times (Matches isWord [97, 97, 97] (.str [97])) n i j → j = i + n := by
      intro n
      induction n with
      | zero => intro i j h; simpa [Times] using h.symm
      | succ n ih =>
        rintro i j ⟨m, g1, g2⟩
        have := ((matches_char 97 i m).1 g1).1
        have := ih m j g2
        omega
    have item : ∀ i j, Matches isWord [97, 97, 97]
        (.or [.rep (.str [97]) 2 (some 2), .str [98]]) i j → j = i + 2 := by
      intro i j h
      rw [Matches, MatchesAlt, MatchesAlt, MatchesAlt, or_false] at h
      rcases h with h | h
      · rw [matches_rep] at h
        obtain ⟨m, ⟨h1, h2⟩, h3⟩ := h
        have := h2 2 rfl
        have := hlen m i j h3
        omega
      · rw [matches_char] at h
        obtain ⟨_, h⟩ := h
        match i, h with
        | 0, h => simp at h
        | 1, h => simp at h
        | 2, h => simp at h
        | i + 3, h => simp at h
    have : ∀ n i j, Times (Matches isWord [97, 97, 97]
        (.or [.rep (.str [97]) 2 (some 2), .str [98]])) n i j → j = i + 2 * n := by
      intro n
      induction n with
      | zero => intro i j h; simpa [Times] using h.symm
      | succ n ih =>
        rintro i j ⟨m, g1, g2⟩
        have := item i m g1
        have := ih m j g2
        omega
    have := this n 0 3 ht
    omega

/-- `(a?|b)*` is refused: the simplification builds `a{1,1}`, which the
constructor rejects with `ValueError`. -/
theorem C31_repeat_refuses_valid :
    repeat_ neverSame 20 (.or [.rep (.str [97]) 0 (some 1), .str [98]]) 0 none
      = some .valueError := rfl

/-! ## C32: length bounds -/

theorem times_min (R : Nat → Nat → Prop) (m : Nat) (h : ∀ i j, R i j → i + m ≤ j) (n i j : Nat)
    (ht : Times R n i j) : i + m * n ≤ j := by
  induction n generalizing i with
  | zero => simp only [Times] at ht; omega
  | succ n ih =>
    obtain ⟨k, h1, h2⟩ := ht
    have := h i k h1
    have := ih k h2
    rw [Nat.mul_succ]; omega

theorem times_max (R : Nat → Nat → Prop) (m : Nat) (h : ∀ i j, R i j → j ≤ i + m) (n i j : Nat)
    (ht : Times R n i j) : j ≤ i + m * n := by
  induction n generalizing i with
  | zero => simp only [Times] at ht; omega
  | succ n ih =>
    obtain ⟨k, h1, h2⟩ := ht
    have := h i k h1
    have := ih k h2
    rw [Nat.mul_succ]; omega

mutual
/-- No match is shorter than `minLength()`. -/
theorem C32_minLength (isWord : Nat → Bool) (w : List Nat) (r : Rx) (i j : Nat)
    (h : Matches isWord w r i j) : i + minLength r ≤ j := by
  cases r with
  | empty => simp only [Matches] at h; simp only [minLength]; omega
  | word => simp only [Matches] at h; simp only [minLength]; omega
  | start => simp only [Matches] at h; simp only [minLength]; omega
  | stop => simp only [Matches] at h; simp only [minLength]; omega
  | dot => simp only [Matches] at h; simp only [minLength]; omega
  | str t => simp only [Matches] at h; simp only [minLength]; omega
  | range rs e => simp only [Matches] at h; simp only [minLength]; omega
  | and l =>
    simp only [Matches] at h
    simp only [minLength]
    exact minSum_le isWord w l i j h
  | or l =>
    simp only [Matches] at h
    simp only [minLength]
    exact minMin_le isWord w l i j h
  | rep r m mx =>
    simp only [Matches] at h
    obtain ⟨n, h1, _, h3⟩ := h
    have := times_min _ (minLength r) (fun a b => C32_minLength isWord w r a b) n i j h3
    have : minLength r * m ≤ minLength r * n := Nat.mul_le_mul_left _ h1
    simp only [minLength]; omega
theorem minSum_le (isWord : Nat → Bool) (w : List Nat) (l : List Rx) (i j : Nat)
    (h : MatchesSeq isWord w l i j) : i + minSum l ≤ j := by
  match l with
  | [] => simp only [MatchesSeq] at h; simp only [minSum]; omega
  | r :: l =>
    simp only [MatchesSeq] at h
    obtain ⟨k, h1, h2⟩ := h
    have := C32_minLength isWord w r i k h1
    have := minSum_le isWord w l k j h2
    simp only [minSum]; omega
theorem minMin_le (isWord : Nat → Bool) (w : List Nat) (l : List Rx) (i j : Nat)
    (h : MatchesAlt isWord w l i j) : i + minMin l ≤ j := by
  match l with
  | [] => simp [MatchesAlt] at h
  | [r] =>
    simp only [MatchesAlt, or_false] at h
    have := C32_minLength isWord w r i j h
    simpa only [minMin] using this
  | r :: s :: l =>
    rw [MatchesAlt] at h
    simp only [minMin]
    rcases h with h | h
    · have := C32_minLength isWord w r i j h
      have : (minLength r).min (minMin (s :: l)) ≤ minLength r := Nat.min_le_left _ _
      omega
    · have := minMin_le isWord w (s :: l) i j h
      have : (minLength r).min (minMin (s :: l)) ≤ minMin (s :: l) := Nat.min_le_right _ _
      omega
end

mutual
/-- No match is longer than `maxLength()` when that is a number. -/
theorem C32_maxLength (isWord : Nat → Bool) (w : List Nat) (r : Rx) (m : Nat)
    (hm : maxLength r = .num m) (i j : Nat) (h : Matches isWord w r i j) : j ≤ i + m := by
  cases r with
  | empty => simp only [maxLength, Len.num.injEq] at hm; simp only [Matches] at h; omega
  | word => simp only [maxLength, Len.num.injEq] at hm; simp only [Matches] at h; omega
  | start => simp only [maxLength, Len.num.injEq] at hm; simp only [Matches] at h; omega
  | stop => simp only [maxLength, Len.num.injEq] at hm; simp only [Matches] at h; omega
  | dot => simp only [maxLength, Len.num.injEq] at hm; simp only [Matches] at h; omega
  | str t => simp only [maxLength, Len.num.injEq] at hm; simp only [Matches] at h; omega
  | range rs e => simp only [maxLength, Len.num.injEq] at hm; simp only [Matches] at h; omega
  | and l =>
    simp only [Matches] at h
    simp only [maxLength] at hm
    obtain ⟨t, h1, h2⟩ := maxSum_le isWord w l 0 m hm
    have := h2 i j h
    omega
  | or l =>
    simp only [Matches] at h
    simp only [maxLength] at hm
    exact (maxMax_le isWord w l none m hm).2 i j h
  | rep r a mx =>
    simp only [Matches] at h
    obtain ⟨n, h1, h2, h3⟩ := h
    cases mx with
    | none => simp [maxLength] at hm
    | some b =>
      simp only [maxLength] at hm
      cases hr : maxLength r with
      | num k =>
        simp only [hr, Len.num.injEq] at hm
        subst hm
        have := times_max _ k (fun a b => C32_maxLength isWord w r k hr a b) n i j h3
        have : k * n ≤ k * b := Nat.mul_le_mul_left _ (h2 b rfl)
        omega
      | unlimited => simp [hr] at hm
      | typeError => simp [hr] at hm
theorem maxSum_le (isWord : Nat → Bool) (w : List Nat) (l : List Rx) (t m : Nat)
    (hm : maxSum (.num t) l = .num m) :
    ∃ d, m = t + d ∧ ∀ i j, MatchesSeq isWord w l i j → j ≤ i + d := by
  match l with
  | [] =>
    simp only [maxSum, Len.num.injEq] at hm
    exact ⟨0, by omega, fun i j h => by simp only [MatchesSeq] at h; omega⟩
  | r :: l =>
    simp only [maxSum] at hm
    cases hr : maxLength r with
    | num k =>
      simp only [hr, Len.add] at hm
      obtain ⟨d, h1, h2⟩ := maxSum_le isWord w l (t + k) m hm
      refine ⟨k + d, by omega, fun i j h => ?_⟩
      simp only [MatchesSeq] at h
      obtain ⟨i', g1, g2⟩ := h
      have := C32_maxLength isWord w r k hr i i' g1
      have := h2 i' j g2
      omega
    | unlimited =>
      simp only [hr, Len.add] at hm
      cases l <;> simp [maxSum] at hm
    | typeError =>
      simp only [hr, Len.add] at hm
      cases l <;> simp [maxSum] at hm
theorem maxMax_le (isWord : Nat → Bool) (w : List Nat) (l : List Rx) (v : Option Nat) (m : Nat)
    (hm : maxMax v l = .num m) :
    (∀ k, v = some k → k ≤ m) ∧ ∀ i j, MatchesAlt isWord w l i j → j ≤ i + m := by
  match l with
  | [] =>
    cases v with
    | none => simp [maxMax] at hm
    | some k =>
      simp only [maxMax, Len.num.injEq] at hm
      exact ⟨by rintro _ ⟨⟩; omega, fun i j h => by simp [MatchesAlt] at h⟩
  | r :: l =>
    simp only [maxMax] at hm
    cases hr : maxLength r with
    | num k =>
      simp only [hr] at hm
      obtain ⟨h1, h2⟩ := maxMax_le isWord w l _ m hm
      have h1 := h1 _ rfl
      refine ⟨?_, fun i j h => ?_⟩
      · rintro k' rfl
        simp only at h1
        have := Nat.le_max_left k' k
        exact Nat.le_trans this h1
      · simp only [MatchesAlt] at h
        rcases h with h | h
        · have := C32_maxLength isWord w r k hr i j h
          have hk : k ≤ m := by
            cases v with
            | none => exact h1
            | some k' => exact Nat.le_trans (Nat.le_max_right k' k) h1
          omega
        · exact h2 i j h
    | unlimited => simp [hr] at hm
    | typeError => simp [hr] at hm
end

/-- `(cat|horse)s{1,2}`: every match has 4 to 7 characters. -/
example :
    let r := Rx.and [.or [.str [99, 97, 116], .str [104, 111, 114, 115, 101]],
      .rep (.str [115]) 1 (some 2)]
    minLength r = 4 ∧ maxLength r = .num 7 := by decide +kernel

/-- `maxLength()` of an expression such as `(a*b){2}` raises `TypeError`
(`None * 2`), though the expression is valid. -/
theorem C32_maxLength_fails :
    maxLength (.rep (.and [.rep (.str [97]) 0 none, .str [98]]) 2 (some 2)) = .typeError := by
  decide +kernel

end Hachoir.Props
