import Verif.Regex.Lemmas

/-! Lemmas about `|` on regular expressions. -/

namespace Hachoir.Regex

set_option linter.unusedVariables false
set_option linter.unusedSimpArgs false

variable {isWord : Nat → Bool} {w : List Nat}

mutual
/-- `WF`, `NoExclude` and "dots only if `d`" together. -/
def Fine (d : Prop) : Rx → Prop
  | .dot => d
  | .str t => t ≠ []
  | .range rs e => rs ≠ [] ∧ Ordered rs ∧ e = false
  | .and l => 2 ≤ l.length ∧ Fines d l
  | .or l => 2 ≤ l.length ∧ Fines d l
  | .rep r _ _ => Fine d r
  | .empty => True
  | .word => True
  | .start => True
  | .stop => True
def Fines (d : Prop) : List Rx → Prop
  | [] => True
  | r :: l => Fine d r ∧ Fines d l
end

theorem fines_iff (d : Prop) (l : List Rx) : Fines d l ↔ ∀ r ∈ l, Fine d r := by
  induction l with
  | nil => simp [Fines]
  | cons r l ih => simp [Fines, ih]

theorem fines_append (d : Prop) (l m : List Rx) :
    Fines d (l ++ m) ↔ Fines d l ∧ Fines d m := by
  simp only [fines_iff, List.mem_append]
  constructor
  · intro h; exact ⟨fun r hr => h r (Or.inl hr), fun r hr => h r (Or.inr hr)⟩
  · rintro ⟨h1, h2⟩ r (hr | hr)
    · exact h1 r hr
    · exact h2 r hr

mutual
theorem fine_of (d : Prop) (r : Rx) (h1 : WF r) (h2 : NoExclude r) (h3 : d ∨ NoDot r) :
    Fine d r := by
  cases r with
  | dot => simpa only [Fine, NoDot, or_false] using h3
  | str t => simpa only [Fine, WF] using h1
  | range rs e =>
    simp only [WF] at h1
    simp only [NoExclude] at h2
    simp only [Fine]; exact ⟨h1.1, h1.2, h2⟩
  | and l =>
    simp only [WF] at h1
    simp only [NoExclude] at h2
    simp only [NoDot] at h3
    simp only [Fine]; exact ⟨h1.1, fines_of d l h1.2 h2 h3⟩
  | or l =>
    simp only [WF] at h1
    simp only [NoExclude] at h2
    simp only [NoDot] at h3
    simp only [Fine]; exact ⟨h1.1, fines_of d l h1.2 h2 h3⟩
  | rep r m mx =>
    simp only [WF] at h1
    simp only [NoExclude] at h2
    simp only [NoDot] at h3
    simp only [Fine]; exact fine_of d r h1 h2 h3
  | empty => simp [Fine]
  | word => simp [Fine]
  | start => simp [Fine]
  | stop => simp [Fine]
theorem fines_of (d : Prop) (l : List Rx) (h1 : WFs l) (h2 : NoExcludes l) (h3 : d ∨ NoDots l) :
    Fines d l := by
  cases l with
  | nil => simp [Fines]
  | cons r l =>
    simp only [WFs] at h1
    simp only [NoExcludes] at h2
    simp only [NoDots] at h3
    simp only [Fines]
    exact ⟨fine_of d r h1.1 h2.1 (h3.imp id And.left), fines_of d l h1.2 h2.2 (h3.imp id And.right)⟩
end

/-! ### `&` keeps the conditions -/

mutual
theorem andStep_fine (d : Prop) (a b r : Rx) (h : andStep a b = some r) (ha : Fine d a)
    (hb : Fine d b) : Fine d r := by
  cases a with
  | empty => simp only [andStep, Option.some.injEq] at h; subst h; exact hb
  | word => cases b <;> simp [andStep] at h; subst h; exact ha
  | start => cases b <;> simp [andStep] at h; subst h; exact ha
  | stop => cases b <;> simp [andStep] at h; subst h; exact ha
  | dot => simp [andStep] at h
  | str s =>
    cases b <;> simp [andStep] at h
    subst h
    simp only [Fine] at ha ⊢
    simp [ha]
  | range rs e => simp [andStep] at h
  | and l =>
    simp only [andStep] at h
    simp only [Fine] at ha
    cases hl : andLast l b with
    | some l' =>
      simp only [hl, Option.some.injEq] at h; subst h
      obtain ⟨h1, h2⟩ := andLast_fine d l b l' hl ha.2 hb
      simp only [Fine]
      exact ⟨by omega, h2⟩
    | none =>
      simp only [hl, Option.some.injEq] at h; subst h
      simp only [Fine, fines_append, Fines]
      exact ⟨by simp; omega, ha.2, hb, trivial⟩
  | or l => simp [andStep] at h
  | rep r' m mx => simp [andStep] at h
theorem andLast_fine (d : Prop) (l : List Rx) (b : Rx) (l' : List Rx)
    (h : andLast l b = some l') (hl : Fines d l) (hb : Fine d b) :
    l'.length = l.length ∧ Fines d l' := by
  match l with
  | [] => simp [andLast] at h
  | [x] =>
    simp only [andLast] at h
    simp only [Fines] at hl
    cases hx : andStep x b with
    | none => simp [hx] at h
    | some y =>
      simp only [hx, Option.some.injEq] at h; subst h
      simp only [Fines]
      exact ⟨rfl, andStep_fine d x b y hx hl.1 hb, trivial⟩
  | x :: y :: l =>
    simp only [andLast] at h
    rw [Fines] at hl
    cases hx : andLast (y :: l) b with
    | none => simp [hx] at h
    | some l'' =>
      simp only [hx, Option.some.injEq] at h; subst h
      obtain ⟨h1, h2⟩ := andLast_fine d (y :: l) b l'' hx hl.2 hb
      rw [Fines]
      exact ⟨by simp [h1], hl.1, h2⟩
end

mutual
theorem andOp_fine (d : Prop) (a b : Rx) (ha : Fine d a) (hb : Fine d b) :
    Fine d (andOp a b) := by
  have pair : Fine d (.and [a, b]) := by simp only [Fine, Fines]; exact ⟨by simp, ha, hb, trivial⟩
  have other : b ≠ .empty → (∀ m, b ≠ .and m) → Fine d (andOp a b) := by
    intro hb1 hb2
    rw [andOp_other a b hb1 hb2]
    cases hs : andStep a b with
    | some r => exact andStep_fine d a b r hs ha hb
    | none => exact pair
  cases b with
  | empty => simpa only [andOp] using ha
  | and m =>
    cases a with
    | and l =>
      simp only [andOp]
      simp only [Fine] at hb
      exact andFold_fine d (.and l) m ha hb.2
    | empty => simpa only [andOp] using hb
    | _ => simpa only [andOp] using pair
  | _ => exact other (by simp) (by simp)
theorem andFold_fine (d : Prop) (a : Rx) (l : List Rx) (ha : Fine d a) (hl : Fines d l) :
    Fine d (andFold a l) := by
  match l with
  | [] => simpa only [andFold] using ha
  | x :: l =>
    simp only [Fines] at hl
    simp only [andFold]
    exact andFold_fine d (andOp a x) l (andOp_fine d a x ha hl.1) hl.2
end

theorem andJoin_fine (d : Prop) (l : List Rx) (hl : Fines d l) : Fine d (andJoin l) := by
  cases l with
  | nil => simp [andJoin, Fine]
  | cons r l =>
    simp only [Fines] at hl
    simp only [andJoin]
    obtain ⟨h1, h2⟩ := hl
    induction l generalizing r with
    | nil => exact h1
    | cons x l ih =>
      simp only [Fines] at h2
      exact ih (andOp r x) (andOp_fine d r x h1 h2.1) h2.2

/-! ### `matchSingleValue` -/

theorem singles_append (l m : List Rx) : singles (l ++ m) = (singles l && singles m) := by
  induction l with
  | nil => simp [singles]
  | cons r l ih => simp [singles, ih, Bool.and_assoc]

mutual
theorem andStep_single (a b r : Rx) (h : andStep a b = some r) :
    single r = (single a && single b) := by
  cases a with
  | empty => simp only [andStep, Option.some.injEq] at h; subst h; simp [single]
  | word => cases b <;> simp [andStep] at h; subst h; simp [single]
  | start => cases b <;> simp [andStep] at h; subst h; simp [single]
  | stop => cases b <;> simp [andStep] at h; subst h; simp [single]
  | dot => simp [andStep] at h
  | str s => cases b <;> simp [andStep] at h; subst h; simp [single]
  | range rs e => simp [andStep] at h
  | and l =>
    simp only [andStep] at h
    cases hl : andLast l b with
    | some l' =>
      simp only [hl, Option.some.injEq] at h; subst h
      simpa only [single] using andLast_single l b l' hl
    | none =>
      simp only [hl, Option.some.injEq] at h; subst h
      simp [single, singles_append, singles]
  | or l => simp [andStep] at h
  | rep r' m mx => simp [andStep] at h
theorem andLast_single (l : List Rx) (b : Rx) (l' : List Rx) (h : andLast l b = some l') :
    singles l' = (singles l && single b) := by
  match l with
  | [] => simp [andLast] at h
  | [x] =>
    simp only [andLast] at h
    cases hx : andStep x b with
    | none => simp [hx] at h
    | some y =>
      simp only [hx, Option.some.injEq] at h; subst h
      simp [singles, andStep_single x b y hx]
  | x :: y :: l =>
    simp only [andLast] at h
    cases hx : andLast (y :: l) b with
    | none => simp [hx] at h
    | some l'' =>
      simp only [hx, Option.some.injEq] at h; subst h
      rw [singles, andLast_single (y :: l) b l'' hx, singles.eq_def (x :: y :: l)]
      simp only [Bool.and_assoc]
end

mutual
theorem andOp_single (a b : Rx) : single (andOp a b) = (single a && single b) := by
  have other : b ≠ .empty → (∀ m, b ≠ .and m) →
      single (andOp a b) = (single a && single b) := by
    intro hb1 hb2
    rw [andOp_other a b hb1 hb2]
    cases hs : andStep a b with
    | some r => exact andStep_single a b r hs
    | none => simp [single, singles]
  cases b with
  | empty => simp [andOp, single]
  | and m =>
    cases a with
    | and l =>
      simp only [andOp]
      rw [andFold_single (.and l) m]
      simp only [single]
    | empty => simp [andOp, single]
    | _ => simp [andOp, single, singles]
  | _ => exact other (by simp) (by simp)
theorem andFold_single (a : Rx) (l : List Rx) :
    single (andFold a l) = (single a && singles l) := by
  match l with
  | [] => simp [andFold, singles]
  | x :: l =>
    simp only [andFold]
    rw [andFold_single (andOp a x) l, andOp_single a x, singles, Bool.and_assoc]
end

/-! ### Equality and `_match` -/

mutual
theorem eqv_sound (same : List Item → List Item → Bool)
    (hs : ∀ x y, same x y = true → x = y) (a b : Rx) (h : eqv same a b = true) : a = b := by
  cases a <;> cases b <;> simp [eqv] at h <;> try rfl
  case str s t => rw [h]
  case range rs e rs' e' => rw [h.1, hs _ _ h.2]
  case and l m => rw [eqvs_sound same hs l m h]
  case or l m => rw [eqvs_sound same hs l m h]
  case rep r m mx r' m' mx' =>
    obtain ⟨⟨h1, h2⟩, h3⟩ := h
    rw [h1, h2, eqv_sound same hs r r' h3]
theorem eqvs_sound (same : List Item → List Item → Bool)
    (hs : ∀ x y, same x y = true → x = y) (l m : List Rx) (h : eqvs same l m = true) :
    l = m := by
  match l, m with
  | [], [] => rfl
  | [], _ :: _ => simp [eqvs] at h
  | _ :: _, [] => simp [eqvs] at h
  | a :: l, b :: m =>
    simp only [eqvs, Bool.and_eq_true] at h
    rw [eqv_sound same hs a b h.1, eqvs_sound same hs l m h.2]
end

theorem matches_char (c : Nat) (i j : Nat) :
    Matches isWord w (.str [c]) i j ↔ j = i + 1 ∧ w[i]? = some c := by
  simp only [Matches, List.length_singleton]
  refine and_congr_right fun _ => ?_
  constructor
  · rintro ⟨x, hx⟩
    have : (w.drop i)[0]? = some c := by rw [← hx]; rfl
    simpa using this
  · intro h
    obtain ⟨hi, hc⟩ := List.getElem?_eq_some_iff.1 h
    exact ⟨w.drop (i + 1), by rw [List.drop_eq_getElem_cons hi, hc]; rfl⟩

theorem otherItems_spec (d : Prop) (b : Rx) (items : List Item)
    (h : otherItems false b = some items) (hb : Fine d b) :
    items ≠ [] ∧ Ordered items ∧
      ∀ i j, Matches isWord w b i j ↔
        j = i + 1 ∧ ∃ c, w[i]? = some c ∧ InItems items c := by
  unfold otherItems at h
  split at h
  · rename_i c
    simp at h; subst h
    refine ⟨by simp, by simp [Ordered, charItem], fun i j => ?_⟩
    rw [matches_char]
    refine and_congr_right fun _ => ?_
    simp only [InItems, charItem, List.mem_singleton, exists_eq_left]
    constructor
    · intro h; exact ⟨c, h, by omega, by omega⟩
    · rintro ⟨x, h, h1, h2⟩
      have : x = c := by omega
      rw [← this]; exact h
  · rename_i rs e
    split at h
    · rename_i he
      simp at h he; subst h; subst he
      simp only [Fine] at hb
      exact ⟨hb.1, hb.2.1, fun i j => by simp [Matches]⟩
    · simp at h
  · simp at h

/-- A range with a single character. -/
theorem single_range (rs : List Item) (e : Bool) (ho : Ordered rs)
    (h : single (.range rs e) = true) : ∃ c, rs = [⟨c, c⟩] := by
  unfold single at h
  split at h
  · rename_i a
    simp only [Item.len, beq_iff_eq] at h
    have := ho a (by simp)
    refine ⟨a.cmin, ?_⟩
    cases a; simp_all; omega
  · cases h

theorem matches_spec (d : Prop) (hd : d → 10 ∉ w) (a b : Rx) (ha : Fine d a) (hb : Fine d b)
    (h : matches_ a b = true) :
    (∀ i j, Matches isWord w b i j → Matches isWord w a i j) ∧
      (single a = true → ∀ i j, Matches isWord w a i j → Matches isWord w b i j) := by
  unfold matches_ at h
  split at h
  · rename_i rs e
    refine ⟨fun i j => ?_, by simp [single]⟩
    simp only [Fine] at ha
    simp only [Matches]
    rintro ⟨h1, c, h2, _⟩
    refine ⟨h1, c, h2, ?_⟩
    rintro rfl
    exact hd ha (List.mem_of_getElem? h2)
  · rename_i t
    refine ⟨fun i j => ?_, by simp [single]⟩
    simp only [Fine] at ha
    match t, h with
    | [c], _ =>
      rw [matches_char]
      simp only [Matches]
      rintro ⟨h1, h2⟩
      refine ⟨h1, c, h2, ?_⟩
      rintro rfl
      exact hd ha (List.mem_of_getElem? h2)
  · rename_i rs e
    simp only [Fine] at ha
    obtain ⟨hne, ho, rfl⟩ := ha
    split at h
    · cases h
    · rename_i items hi
      obtain ⟨h1, h2, h3⟩ := otherItems_spec (isWord := isWord) (w := w) d b items hi hb
      have hsub : ∀ c, InItems items c → InItems rs c := by
        rintro c ⟨x, hx, hc⟩
        obtain ⟨a, ha, hw⟩ := List.any_eq_true.1 (List.all_eq_true.1 h x hx)
        simp only [Item.within, Bool.and_eq_true, decide_eq_true_eq] at hw
        exact ⟨a, ha, by omega, by omega⟩
      refine ⟨fun i j => ?_, fun hs i j => ?_⟩
      · rw [h3]
        rintro ⟨g1, c, g2, g3⟩
        simp only [Matches]
        exact ⟨g1, c, g2, by simpa using hsub c g3⟩
      · obtain ⟨c, rfl⟩ := single_range rs false ho hs
        rw [h3]
        simp only [Matches]
        rintro ⟨g1, x, g2, g3⟩
        refine ⟨g1, x, g2, ?_⟩
        simp [InItems] at g3
        have hx : x = c := by omega
        obtain ⟨y, l, rfl⟩ := List.exists_cons_of_ne_nil h1
        have hy := h2 y (by simp)
        have := hsub y.cmin ⟨y, by simp, Nat.le_refl _, hy⟩
        have := hsub y.cmax ⟨y, by simp, hy, Nat.le_refl _⟩
        simp [InItems] at *
        left; omega
  · cases h

/-! ### Common prefixes -/

theorem commonLen_take (s t : List Nat) :
    s.take (commonLen s t) = t.take (commonLen s t) := by
  induction s generalizing t with
  | nil => simp [commonLen]
  | cons a s ih =>
    cases t with
    | nil => simp [commonLen]
    | cons b t =>
      simp only [commonLen]
      split
      · rename_i h; subst h; simp [ih t]
      · simp

theorem createString_matches (t : List Nat) (i j : Nat) :
    Matches isWord w (createString t) i j ↔ Matches isWord w (.str t) i j := by
  unfold createString
  split
  · rename_i h; subst h; simp [Matches, eq_comm]
  · rfl

theorem createString_fine (d : Prop) (t : List Nat) : Fine d (createString t) := by
  unfold createString
  split
  · simp [Fine]
  · rename_i h; simpa only [Fine] using h

theorem findPrefix_spec (d : Prop) (s t : List Nat) (hs : s ≠ []) (ht : t ≠ [])
    (c x y : Rx) (h : findPrefix s t = some (c, x, y)) :
    Fine d c ∧ Fine d x ∧ Fine d y ∧
      (((∀ i j, Matches isWord w (.str s) i j ↔
            ∃ k, Matches isWord w c i k ∧ Matches isWord w x k j) ∧
          (∀ i j, Matches isWord w (.str t) i j ↔
            ∃ k, Matches isWord w c i k ∧ Matches isWord w y k j)) ∨
        (x = .empty ∧ y = .empty ∧ (single c = true → s = t) ∧
          ∀ i j, Matches isWord w c i j ↔
            Matches isWord w (.str s) i j ∨ Matches isWord w (.str t) i j)) := by
  unfold findPrefix at h
  split at h
  · rename_i a b
    simp only [Option.some.injEq, Prod.mk.injEq] at h
    obtain ⟨rfl, rfl, rfl⟩ := h
    obtain ⟨rs, h1, h2, h3, h4⟩ := createRange_spec [a, b] false
    rw [h1]
    refine ⟨by simp only [Fine]; exact ⟨h3 (by simp), h2, trivial⟩, by simp [Fine], by simp [Fine],
      Or.inr ⟨rfl, rfl, ?_, fun i j => ?_⟩⟩
    · intro hsing
      obtain ⟨c, rfl⟩ := single_range rs false h2 hsing
      have e1 := (h4 a).2 (by simp)
      have e2 := (h4 b).2 (by simp)
      simp [InItems] at e1 e2
      have : a = b := by omega
      rw [this]
    · rw [matches_char, matches_char]
      simp only [Matches, Bool.false_eq_true, if_false]
      constructor
      · rintro ⟨g1, x, g2, g3⟩
        have := (h4 x).1 g3
        simp at this
        rcases this with rfl | rfl
        · exact Or.inl ⟨g1, g2⟩
        · exact Or.inr ⟨g1, g2⟩
      · rintro (⟨g1, g2⟩ | ⟨g1, g2⟩)
        · exact ⟨g1, a, g2, (h4 a).2 (by simp)⟩
        · exact ⟨g1, b, g2, (h4 b).2 (by simp)⟩
  · simp only at h
    split at h
    · cases h
    · rename_i hn
      simp only [Option.some.injEq, Prod.mk.injEq] at h
      obtain ⟨rfl, rfl, rfl⟩ := h
      refine ⟨?_, createString_fine d _, createString_fine d _, Or.inl ⟨fun i j => ?_, fun i j => ?_⟩⟩
      · simp only [Fine]
        intro h
        rcases List.take_eq_nil_iff.1 h with h | h
        · exact hn h
        · exact hs h
      · simp only [createString_matches]
        rw [← str_append, List.take_append_drop]
      · simp only [createString_matches]
        rw [← str_append, commonLen_take, List.take_append_drop]

theorem splitCommon_spec (same : List Item → List Item → Bool)
    (hs : ∀ x y, same x y = true → x = y) (l m : List Rx) :
    l = (splitCommon same l m).1 ++ (splitCommon same l m).2.1 ∧
      m = (splitCommon same l m).1 ++ (splitCommon same l m).2.2 := by
  induction l generalizing m with
  | nil => simp [splitCommon]
  | cons a l ih =>
    cases m with
    | nil => simp [splitCommon]
    | cons b m =>
      simp only [splitCommon]
      split
      · rename_i h
        have := eqv_sound same hs a b h
        subst this
        obtain ⟨h1, h2⟩ := ih m
        simp only [List.cons_append]
        rw [← h1, ← h2]
        exact ⟨rfl, rfl⟩
      · simp

/-! ### The `|` operator -/

/-- `r` is a right value for `a | b`. -/
structure OrOk (isWord : Nat → Bool) (w : List Nat) (d : Prop) (a b r : Rx) : Prop where
  lang : ∀ i j, Matches isWord w r i j ↔ Matches isWord w a i j ∨ Matches isWord w b i j
  fine : Fine d r
  one : single r = true → ∀ i j, Matches isWord w a i j ↔ Matches isWord w b i j

theorem OrOk.symm {d : Prop} {a b r : Rx} (h : OrOk isWord w d a b r) :
    OrOk isWord w d b a r :=
  ⟨fun i j => by rw [h.lang, or_comm], h.fine, fun hs i j => (h.one hs i j).symm⟩

theorem orItems_spec (d : Prop) (f : Rx → Option (Option Rx)) (b : Rx)
    (l : List Rx) (hl : Fines d l)
    (hf : ∀ x, Fine d x → ∀ r, f x = some (some r) → OrOk isWord w d x b r)
    (l' : List Rx) (h : orItems f l = some (some l')) :
    l'.length = l.length ∧ Fines d l' ∧
      ∀ i j, MatchesAlt isWord w l' i j ↔
        MatchesAlt isWord w l i j ∨ Matches isWord w b i j := by
  induction l generalizing l' with
  | nil => simp [orItems] at h
  | cons x l ih =>
    simp only [Fines] at hl
    simp only [orItems] at h
    cases hx : f x with
    | none => simp [hx] at h
    | some o =>
      cases o with
      | some r =>
        simp only [hx, Option.some.injEq] at h; subst h
        have ok := hf x hl.1 r hx
        refine ⟨rfl, by simp only [Fines]; exact ⟨ok.fine, hl.2⟩, fun i j => ?_⟩
        simp only [MatchesAlt, ok.lang]
        tauto
      | none =>
        simp only [hx] at h
        cases hr : orItems f l with
        | none => simp [hr] at h
        | some o =>
          cases o with
          | none => simp [hr] at h
          | some l'' =>
            simp only [hr, Option.some.injEq] at h; subst h
            obtain ⟨h1, h2, h3⟩ := ih hl.2 l'' hr
            refine ⟨by simp [h1], by simp only [Fines]; exact ⟨hl.1, h2⟩, fun i j => ?_⟩
            simp only [MatchesAlt, h3]
            tauto

theorem foldBar_spec (d : Prop) (g : Rx → Rx → Option Rx)
    (hg : ∀ a b r, Fine d a → Fine d b → g a b = some r → OrOk isWord w d a b r)
    (l : List Rx) (hl : Fines d l) (total r : Rx) (ht : Fine d total)
    (h : foldBar g total l = some r) :
    Fine d r ∧ ∀ i j, Matches isWord w r i j ↔
      Matches isWord w total i j ∨ MatchesAlt isWord w l i j := by
  induction l generalizing total with
  | nil =>
    simp only [foldBar, Option.some.injEq] at h; subst h
    exact ⟨ht, fun i j => by simp [MatchesAlt]⟩
  | cons x l ih =>
    simp only [Fines] at hl
    simp only [foldBar] at h
    cases hx : g total x with
    | none => simp [hx] at h
    | some t =>
      simp only [hx] at h
      have ok := hg total x t ht hl.1 hx
      obtain ⟨h1, h2⟩ := ih hl.2 t ok.fine h
      refine ⟨h1, fun i j => ?_⟩
      rw [h2, ok.lang]
      simp only [MatchesAlt]
      tauto

theorem foldBar_or (g : Rx → Rx → Option Rx)
    (hg : ∀ l b r, g (.or l) b = some r → ∃ l', r = .or l')
    (l m : List Rx) (r : Rx) (h : foldBar g (.or l) m = some r) : ∃ l', r = .or l' := by
  induction m generalizing l with
  | nil => simp only [foldBar, Option.some.injEq] at h; exact ⟨l, h.symm⟩
  | cons x m ih =>
    simp only [foldBar] at h
    cases hx : g (.or l) x with
    | none => simp [hx] at h
    | some t =>
      simp only [hx] at h
      obtain ⟨l', rfl⟩ := hg l x t hx
      exact ih l' h

theorem matches_or_left (l : List Rx) (b : Rx) : matches_ (.or l) b = false := by
  cases b <;> rfl

theorem matches_or_right (l : List Rx) (b : Rx) : matches_ b (.or l) = false := by
  cases b <;> simp [matches_, otherItems]

/-- The result of `RegexOr | other` is a `RegexOr`. -/
theorem bar_or (same : List Item → List Item → Bool) (n : Nat) :
    (∀ l b r, bar same n (.or l) b = some r → ∃ l', r = .or l') ∧
      (∀ l b o, orU same n (.or l) b = some o → ∃ l', o = some (.or l')) ∧
      (∀ l b rev o, orM same n (.or l) b rev = some o → ∃ l', o = some (.or l')) := by
  induction n with
  | zero => simp [bar, orU, orM]
  | succ n ih =>
    obtain ⟨ih1, ih2, ih3⟩ := ih
    refine ⟨fun l b r h => ?_, fun l b o h => ?_, fun l b rev o h => ?_⟩
    · simp only [bar] at h
      cases ho : orU same n (.or l) b with
      | none => simp [ho] at h
      | some o =>
        obtain ⟨l', rfl⟩ := ih2 l b o ho
        simp only [ho, Option.some.injEq] at h
        exact ⟨l', h.symm⟩
    · simp only [orU, matches_or_left, matches_or_right, Bool.false_eq_true, if_false] at h
      split at h
      · simp only [Option.some.injEq] at h; exact ⟨l, h.symm⟩
      split at h
      · exact ih3 l b false o h
      · cases ho : orM same n (.or l) b false with
        | none => simp [ho] at h
        | some o' =>
          obtain ⟨l', rfl⟩ := ih3 l b false o' ho
          simp only [ho, Option.some.injEq] at h
          exact ⟨l', h.symm⟩
    · simp only [orM] at h
      split at h
      · rename_i m
        cases hf : foldBar (bar same n) (.or l) m with
        | none => simp [hf] at h
        | some r =>
          simp only [hf, Option.some.injEq] at h
          obtain ⟨l', rfl⟩ := foldBar_or (bar same n) ih1 l m r hf
          exact ⟨l', h.symm⟩
      · cases hi : orItems (fun x => orU same n x b) l with
        | none => simp [hi] at h
        | some o' =>
          cases o' with
          | some l' => simp only [hi, Option.some.injEq] at h; exact ⟨l', h.symm⟩
          | none =>
            simp only [hi, Option.some.injEq] at h
            cases rev
            · exact ⟨_, h.symm⟩
            · exact ⟨_, h.symm⟩

theorem orAnd_spec (d : Prop) (same : List Item → List Item → Bool)
    (hs : ∀ x y, same x y = true → x = y) (g : Rx → Rx → Option Rx)
    (hg : ∀ a b r, Fine d a → Fine d b → g a b = some r → OrOk isWord w d a b r)
    (la lb : List Rx) (ha : Fines d la) (hb : Fines d lb) (r : Rx)
    (h : orAnd same g la lb = some (some r)) :
    (∀ i j, Matches isWord w r i j ↔ MatchesSeq isWord w la i j ∨ MatchesSeq isWord w lb i j) ∧
      Fine d r ∧
      (single r = true → ∀ i j, MatchesSeq isWord w la i j ↔ MatchesSeq isWord w lb i j) := by
  unfold orAnd at h
  obtain ⟨e1, e2⟩ := splitCommon_spec same hs la lb
  split at h
  · rename_i p ps x y hsp
    rw [hsp] at e1 e2
    simp only at e1 e2
    cases hr : g (andJoin x) (andJoin y) with
    | none => simp [hr] at h
    | some r' =>
      simp only [hr, Option.some.injEq] at h; subst h
      rw [e1, fines_append] at ha
      rw [e2, fines_append] at hb
      have ok := hg _ _ r' (andJoin_fine d x ha.2) (andJoin_fine d y hb.2) hr
      refine ⟨fun i j => ?_, andOp_fine d _ _ (andJoin_fine d _ ha.1) ok.fine, fun hsing i j => ?_⟩
      · rw [e1, e2, matchesSeq_append, matchesSeq_append, andOp_matches]
        simp only [andJoin_matches, ok.lang]
        constructor
        · rintro ⟨k, h1, h2 | h2⟩
          · exact Or.inl ⟨k, h1, h2⟩
          · exact Or.inr ⟨k, h1, h2⟩
        · rintro (⟨k, h1, h2⟩ | ⟨k, h1, h2⟩)
          · exact ⟨k, h1, Or.inl h2⟩
          · exact ⟨k, h1, Or.inr h2⟩
      · rw [andOp_single, Bool.and_eq_true] at hsing
        have := ok.one hsing.2
        simp only [andJoin_matches] at this
        rw [e1, e2, matchesSeq_append, matchesSeq_append]
        simp only [this]
  · split at h
    · simp at h
    · rename_i c x y hp
      unfold headPrefix at hp
      split at hp
      · rename_i s ta t tb _
        simp only [List.tail_cons] at h
        simp only [Fines] at ha hb
        have hsne : s ≠ [] := by simpa only [Fine] using ha.1
        have htne : t ≠ [] := by simpa only [Fine] using hb.1
        cases hr : g (andOp x (andJoin ta)) (andOp y (andJoin tb)) with
        | none => simp [hr] at h
        | some r' =>
          simp only [hr] at h
          split at h
          · rename_i hcond
            simp only [Option.some.injEq] at h; subst h
            obtain ⟨f1, f2, f3, f4⟩ :=
              findPrefix_spec (isWord := isWord) (w := w) d s t hsne htne c x y hp
            have ok := hg _ _ r' (andOp_fine d _ _ f2 (andJoin_fine d ta ha.2))
              (andOp_fine d _ _ f3 (andJoin_fine d tb hb.2)) hr
            have okl := ok.lang
            simp only [andOp_matches, andJoin_matches] at okl
            have oko := ok.one
            simp only [andOp_matches, andJoin_matches] at oko
            rcases f4 with ⟨q1, q2⟩ | ⟨rfl, rfl, q3, q4⟩
            · have ea : ∀ i j, MatchesSeq isWord w (.str s :: ta) i j ↔
                  ∃ k, Matches isWord w c i k ∧
                    ∃ k', Matches isWord w x k k' ∧ MatchesSeq isWord w ta k' j := by
                intro i j
                simp only [MatchesSeq, q1]
                constructor
                · rintro ⟨k', ⟨k, h1, h2⟩, h3⟩; exact ⟨k, h1, k', h2, h3⟩
                · rintro ⟨k, h1, k', h2, h3⟩; exact ⟨k', ⟨k, h1, h2⟩, h3⟩
              have eb : ∀ i j, MatchesSeq isWord w (.str t :: tb) i j ↔
                  ∃ k, Matches isWord w c i k ∧
                    ∃ k', Matches isWord w y k k' ∧ MatchesSeq isWord w tb k' j := by
                intro i j
                simp only [MatchesSeq, q2]
                constructor
                · rintro ⟨k', ⟨k, h1, h2⟩, h3⟩; exact ⟨k, h1, k', h2, h3⟩
                · rintro ⟨k, h1, k', h2, h3⟩; exact ⟨k', ⟨k, h1, h2⟩, h3⟩
              refine ⟨fun i j => ?_, andOp_fine d _ _ f1 ok.fine, fun hsing i j => ?_⟩
              · rw [andOp_matches, ea, eb]
                constructor
                · rintro ⟨k, h1, h2⟩
                  rcases (okl k j).1 h2 with h2 | h2
                  · exact Or.inl ⟨k, h1, h2⟩
                  · exact Or.inr ⟨k, h1, h2⟩
                · rintro (⟨k, h1, h2⟩ | ⟨k, h1, h2⟩)
                  · exact ⟨k, h1, (okl k j).2 (Or.inl h2)⟩
                  · exact ⟨k, h1, (okl k j).2 (Or.inr h2)⟩
              · rw [andOp_single, Bool.and_eq_true] at hsing
                rw [ea, eb]
                simp only [oko hsing.2]
            · have eE : ∀ (l : List Rx) i j,
                  (∃ k, Matches isWord w .empty i k ∧ MatchesSeq isWord w l k j) ↔
                    MatchesSeq isWord w l i j := by
                intro l i j; simp [Matches]
              simp only [eE] at okl oko
              refine ⟨fun i j => ?_, andOp_fine d _ _ f1 ok.fine, fun hsing i j => ?_⟩
              · rw [andOp_matches]
                simp only [MatchesSeq, okl, q4]
                rw [Bool.or_eq_true] at hcond
                constructor
                · rintro ⟨k, h1, h2⟩
                  rcases hcond with hc | hc
                  · have := q3 hc; subst this
                    rw [or_self] at h1
                    rcases h2 with h2 | h2
                    · exact Or.inl ⟨k, h1, h2⟩
                    · exact Or.inr ⟨k, h1, h2⟩
                  · have e := oko hc k j
                    have h2' : MatchesSeq isWord w ta k j := h2.elim id e.2
                    rcases h1 with h1 | h1
                    · exact Or.inl ⟨k, h1, h2'⟩
                    · exact Or.inr ⟨k, h1, e.1 h2'⟩
                · rintro (⟨k, h1, h2⟩ | ⟨k, h1, h2⟩)
                  · exact ⟨k, Or.inl h1, Or.inl h2⟩
                  · exact ⟨k, Or.inr h1, Or.inr h2⟩
              · rw [andOp_single, Bool.and_eq_true] at hsing
                have := q3 hsing.1; subst this
                simp only [MatchesSeq, oko hsing.2]
          · simp at h
      · cases hp

theorem andContent_spec (d : Prop) (b : Rx) (m : List Rx) (h : andContent b = some m)
    (hb : Fine d b) :
    Fines d m ∧ ∀ i j, MatchesSeq isWord w m i j ↔ Matches isWord w b i j := by
  cases b <;> simp [andContent] at h
  · subst h
    exact ⟨by simp only [Fines]; exact ⟨hb, trivial⟩, fun i j => matchesSeq_single _ i j⟩
  · subst h
    simp only [Fine] at hb
    exact ⟨hb.2, fun i j => by simp only [Matches]⟩

theorem bar_spec (d : Prop) (hd : d → 10 ∉ w) (same : List Item → List Item → Bool)
    (hs : ∀ x y, same x y = true → x = y) (n : Nat) :
    (∀ a b r, Fine d a → Fine d b → bar same n a b = some r → OrOk isWord w d a b r) ∧
      (∀ a b r, Fine d a → Fine d b → orU same n a b = some (some r) →
        OrOk isWord w d a b r) ∧
      (∀ a b rev r, Fine d a → Fine d b → orM same n a b rev = some (some r) →
        OrOk isWord w d a b r) := by
  induction n with
  | zero => simp [bar, orU, orM]
  | succ n ih =>
    obtain ⟨ih1, ih2, ih3⟩ := ih
    refine ⟨fun a b r ha hb h => ?_, fun a b r ha hb h => ?_, fun a b rev r ha hb h => ?_⟩
    · simp only [bar] at h
      cases ho : orU same n a b with
      | none => simp [ho] at h
      | some o =>
        cases o with
        | some r' =>
          simp only [ho, Option.some.injEq] at h; subst h
          exact ih2 a b r' ha hb ho
        | none =>
          simp only [ho, Option.some.injEq] at h; subst h
          refine ⟨fun i j => by simp [Matches, MatchesAlt], ?_, by simp [single]⟩
          simp only [Fine, Fines]
          exact ⟨by simp, ha, hb, trivial⟩
    · simp only [orU] at h
      split at h
      · rename_i he
        have := eqv_sound same hs a b he
        subst this
        simp only [Option.some.injEq] at h; subst h
        exact ⟨fun i j => by simp, ha, fun _ i j => Iff.rfl⟩
      split at h
      · rename_i hm
        simp only [Option.some.injEq] at h; subst h
        obtain ⟨h1, h2⟩ := matches_spec (isWord := isWord) d hd a b ha hb hm
        exact ⟨fun i j => ⟨Or.inl, fun h => h.elim id (h1 i j)⟩, ha,
          fun hsing i j => ⟨h2 hsing i j, h1 i j⟩⟩
      split at h
      · rename_i hm
        simp only [Option.some.injEq] at h; subst h
        obtain ⟨h1, h2⟩ := matches_spec (isWord := isWord) d hd b a hb ha hm
        exact ⟨fun i j => ⟨Or.inr, fun h => h.elim (h1 i j) id⟩, hb,
          fun hsing i j => ⟨h1 i j, h2 hsing i j⟩⟩
      split at h
      · exact ih3 a b false r ha hb h
      · cases ho : orM same n a b false with
        | none => simp [ho] at h
        | some o =>
          cases o with
          | some r' =>
            simp only [ho, Option.some.injEq] at h; subst h
            exact ih3 a b false r' ha hb ho
          | none =>
            simp only [ho] at h
            exact (ih3 b a true r hb ha h).symm
    · simp only [orM] at h
      split at h
      · -- strings
        rename_i s
        split at h
        · rename_i t
          cases hp : findPrefix s t with
          | none => simp [hp] at h
          | some o =>
            obtain ⟨c, x, y⟩ := o
            simp only [hp] at h
            have hsne : s ≠ [] := by simpa only [Fine] using ha
            have htne : t ≠ [] := by simpa only [Fine] using hb
            obtain ⟨f1, f2, f3, f4⟩ :=
              findPrefix_spec (isWord := isWord) (w := w) d s t hsne htne c x y hp
            have key : ∀ r', OrOk isWord w d x y r' →
                OrOk isWord w d (.str s) (.str t) (andOp c r') := by
              intro r' ok
              refine ⟨fun i j => ?_, andOp_fine d _ _ f1 ok.fine, fun hsing i j => ?_⟩
              · rw [andOp_matches]
                simp only [ok.lang]
                rcases f4 with ⟨q1, q2⟩ | ⟨rfl, rfl, q3, q4⟩
                · rw [q1, q2]
                  constructor
                  · rintro ⟨k, h1, h2 | h2⟩
                    · exact Or.inl ⟨k, h1, h2⟩
                    · exact Or.inr ⟨k, h1, h2⟩
                  · rintro (⟨k, h1, h2⟩ | ⟨k, h1, h2⟩)
                    · exact ⟨k, h1, Or.inl h2⟩
                    · exact ⟨k, h1, Or.inr h2⟩
                · rw [← q4]; simp [Matches]
              · rw [andOp_single, Bool.and_eq_true] at hsing
                rcases f4 with ⟨q1, q2⟩ | ⟨rfl, rfl, q3, q4⟩
                · rw [q1, q2]; simp only [ok.one hsing.2]
                · rw [q3 hsing.1]
            cases rev with
            | true =>
              simp only [if_true] at h
              cases hr : bar same n y x with
              | none => simp [hr] at h
              | some r' =>
                simp only [hr, Option.some.injEq] at h; subst h
                exact key r' (ih1 y x r' f3 f2 hr).symm
            | false =>
              simp only [Bool.false_eq_true, if_false] at h
              cases hr : bar same n x y with
              | none => simp [hr] at h
              | some r' =>
                simp only [hr, Option.some.injEq] at h; subst h
                exact key r' (ih1 x y r' f2 f3 hr)
        · simp at h
      · -- ranges
        rename_i rs e
        simp only [Fine] at ha
        obtain ⟨hne, ho, rfl⟩ := ha
        cases hi : otherItems false b with
        | none => simp [hi] at h
        | some items =>
          simp only [hi, Option.some.injEq] at h; subst h
          obtain ⟨h1, h2, h3⟩ := otherItems_spec (isWord := isWord) (w := w) d b items hi hb
          obtain ⟨g1, g2, g3⟩ := foldl_rangeAdd_spec items rs ho h2
          refine ⟨fun i j => ?_, by simp only [Fine]; exact ⟨g2 (Or.inl hne), g1, trivial⟩,
            fun hsing i j => ?_⟩
          · rw [h3]
            simp only [Matches, Bool.false_eq_true, if_false, g3]
            constructor
            · rintro ⟨q1, c, q2, q3 | q3⟩
              · exact Or.inl ⟨q1, c, q2, q3⟩
              · exact Or.inr ⟨q1, c, q2, q3⟩
            · rintro (⟨q1, c, q2, q3⟩ | ⟨q1, c, q2, q3⟩)
              · exact ⟨q1, c, q2, Or.inl q3⟩
              · exact ⟨q1, c, q2, Or.inr q3⟩
          · obtain ⟨c, hc⟩ := single_range _ false g1 hsing
            have e : ∀ x, InItems rs x ∨ InItems items x ↔ x = c := by
              intro x; rw [← g3 x, hc]; simp [InItems]; omega
            have one : ∀ l : List Item, l ≠ [] → Ordered l → (∀ x, InItems l x → x = c) →
                ∀ x, InItems l x ↔ x = c := by
              intro l hl hol hx x
              refine ⟨hx x, ?_⟩
              rintro rfl
              obtain ⟨y, l', rfl⟩ := List.exists_cons_of_ne_nil hl
              have hin : InItems (y :: l') y.cmin :=
                ⟨y, by simp, Nat.le_refl _, hol y (by simp)⟩
              rw [hx _ hin] at hin; exact hin
            have e1 := one rs hne ho fun x hx => (e x).1 (Or.inl hx)
            have e2 := one items h1 h2 fun x hx => (e x).1 (Or.inr hx)
            rw [h3]
            simp only [Matches, Bool.false_eq_true, if_false, e1, e2]
      · -- sequences
        rename_i l
        cases hm : andContent b with
        | none => simp [hm] at h
        | some m =>
          simp only [hm] at h
          obtain ⟨m1, m2⟩ := andContent_spec (isWord := isWord) (w := w) d b m hm hb
          simp only [Fine] at ha
          cases rev with
          | true =>
            simp only [if_true] at h
            obtain ⟨h1, h2, h3⟩ := orAnd_spec (isWord := isWord) (w := w) d same hs (bar same n)
              ih1 m l m1 ha.2 r h
            exact ⟨fun i j => by rw [h1, m2, or_comm]; simp only [Matches], h2,
              fun hsing i j => by rw [← m2, h3 hsing]; simp only [Matches]⟩
          | false =>
            simp only [Bool.false_eq_true, if_false] at h
            obtain ⟨h1, h2, h3⟩ := orAnd_spec (isWord := isWord) (w := w) d same hs (bar same n)
              ih1 l m ha.2 m1 r h
            exact ⟨fun i j => by rw [h1, m2]; simp only [Matches], h2,
              fun hsing i j => by rw [← m2, ← h3 hsing]; simp only [Matches]⟩
      · -- alternatives
        rename_i l
        have ha' := ha
        simp only [Fine] at ha'
        split at h
        · rename_i m
          have hb' := hb
          simp only [Fine] at hb'
          cases hf : foldBar (bar same n) (.or l) m with
          | none => simp [hf] at h
          | some r' =>
            simp only [hf, Option.some.injEq] at h; subst h
            obtain ⟨h1, h2⟩ := foldBar_spec d (bar same n) ih1 m hb'.2 (.or l) r' ha hf
            obtain ⟨l', rfl⟩ := foldBar_or (bar same n) (bar_or same n).1 l m r' hf
            exact ⟨fun i j => by rw [h2]; simp only [Matches], h1, by simp [single]⟩
        · cases hi : orItems (fun x => orU same n x b) l with
          | none => simp [hi] at h
          | some o =>
            cases o with
            | some l' =>
              simp only [hi, Option.some.injEq] at h; subst h
              obtain ⟨h1, h2, h3⟩ := orItems_spec (isWord := isWord) (w := w) d _ b l ha'.2
                (fun x hx r hr => ih2 x b r hx hb hr) l' hi
              exact ⟨fun i j => by simp only [Matches, h3],
                by simp only [Fine]; exact ⟨by omega, h2⟩, by simp [single]⟩
            | none =>
              simp only [hi, Option.some.injEq] at h; subst h
              cases rev with
              | true =>
                refine ⟨fun i j => by simp [Matches, MatchesAlt, or_comm], ?_, by simp [single]⟩
                simp only [if_true, Fine, Fines]
                exact ⟨by simp; omega, hb, ha'.2⟩
              | false =>
                refine ⟨fun i j => ?_, ?_, by simp [single]⟩
                · simp only [Bool.false_eq_true, if_false, Matches, matchesAlt_iff,
                    List.mem_append, List.mem_singleton, or_and_right, exists_or, exists_eq_left]
                · simp only [Bool.false_eq_true, if_false, Fine, fines_append, Fines]
                  exact ⟨by simp; omega, ha'.2, hb, trivial⟩
      · simp at h

end Hachoir.Regex
