import Verif.Regex.Lemmas

/-! The recursion of `|` ends: lemmas on the size of expressions. -/

namespace Hachoir.Regex

set_option linter.unusedVariables false
set_option linter.unusedSimpArgs false

mutual
/-- Size of an expression: number of characters and atoms. -/
def sz : Rx → Nat
  | .empty => 1
  | .word => 1
  | .start => 1
  | .stop => 1
  | .dot => 1
  | .str t => t.length
  | .range _ _ => 1
  | .and l => szs l
  | .or l => szs l
  | .rep _ _ _ => 1
def szs : List Rx → Nat
  | [] => 0
  | r :: l => sz r + szs l
end

mutual
/-- The part of `WF` needed for termination. -/
def Sized : Rx → Prop
  | .str t => t ≠ []
  | .and l => 2 ≤ l.length ∧ Sizeds l
  | .or l => 2 ≤ l.length ∧ Sizeds l
  | .empty => True
  | .word => True
  | .start => True
  | .stop => True
  | .dot => True
  | .range _ _ => True
  | .rep _ _ _ => True
def Sizeds : List Rx → Prop
  | [] => True
  | r :: l => Sized r ∧ Sizeds l
end

mutual
theorem sized_of_wf (r : Rx) (h : WF r) : Sized r := by
  cases r <;> simp only [WF, Sized] at *
  case str => exact h
  case and l => exact ⟨h.1, sizeds_of_wf l h.2⟩
  case or l => exact ⟨h.1, sizeds_of_wf l h.2⟩
theorem sizeds_of_wf (l : List Rx) (h : WFs l) : Sizeds l := by
  cases l with
  | nil => simp [Sizeds]
  | cons r l => simp only [WFs, Sizeds] at *; exact ⟨sized_of_wf r h.1, sizeds_of_wf l h.2⟩
end

theorem szs_append (l m : List Rx) : szs (l ++ m) = szs l + szs m := by
  induction l with
  | nil => simp [szs]
  | cons r l ih => simp only [List.cons_append, szs, ih]; omega

theorem sizeds_append (l m : List Rx) : Sizeds (l ++ m) ↔ Sizeds l ∧ Sizeds m := by
  induction l with
  | nil => simp [Sizeds]
  | cons r l ih => simp only [List.cons_append, Sizeds, ih, and_assoc]

mutual
theorem sz_pos (r : Rx) (h : Sized r) : 1 ≤ sz r := by
  cases r with
  | str t => simp only [Sized] at h; simp only [sz]; exact List.length_pos_iff.2 h
  | and l =>
    simp only [Sized] at h; simp only [sz]
    have := szs_len l h.2; omega
  | or l =>
    simp only [Sized] at h; simp only [sz]
    have := szs_len l h.2; omega
  | _ => simp [sz]
theorem szs_len (l : List Rx) (h : Sizeds l) : l.length ≤ szs l := by
  cases l with
  | nil => simp
  | cons r l =>
    simp only [Sizeds] at h
    simp only [szs, List.length_cons]
    have := sz_pos r h.1
    have := szs_len l h.2
    omega
end

mutual
theorem andStep_sized (a b r : Rx) (h : andStep a b = some r) (ha : Sized a) (hb : Sized b) :
    Sized r ∧ sz r ≤ sz a + sz b := by
  cases a with
  | empty => simp only [andStep, Option.some.injEq] at h; subst h; exact ⟨hb, by simp [sz]⟩
  | word => cases b <;> simp [andStep] at h; subst h; exact ⟨ha, by simp [sz]⟩
  | start => cases b <;> simp [andStep] at h; subst h; exact ⟨ha, by simp [sz]⟩
  | stop => cases b <;> simp [andStep] at h; subst h; exact ⟨ha, by simp [sz]⟩
  | dot => simp [andStep] at h
  | str s =>
    cases b <;> simp [andStep] at h
    subst h
    simp only [Sized] at ha
    exact ⟨by simp [Sized, ha], by simp [sz]⟩
  | range rs e => simp [andStep] at h
  | and l =>
    simp only [andStep] at h
    simp only [Sized] at ha
    cases hl : andLast l b with
    | some l' =>
      simp only [hl, Option.some.injEq] at h; subst h
      obtain ⟨h1, h2, h3⟩ := andLast_sized l b l' hl ha.2 hb
      simp only [Sized, sz]
      exact ⟨⟨by omega, h2⟩, h3⟩
    | none =>
      simp only [hl, Option.some.injEq] at h; subst h
      simp only [Sized, sz, sizeds_append, Sizeds, szs_append, szs]
      exact ⟨⟨by simp; omega, ha.2, hb, trivial⟩, by omega⟩
  | or l => simp [andStep] at h
  | rep r' m mx => simp [andStep] at h
theorem andLast_sized (l : List Rx) (b : Rx) (l' : List Rx) (h : andLast l b = some l')
    (hl : Sizeds l) (hb : Sized b) :
    l'.length = l.length ∧ Sizeds l' ∧ szs l' ≤ szs l + sz b := by
  match l with
  | [] => simp [andLast] at h
  | [x] =>
    simp only [andLast] at h
    simp only [Sizeds] at hl
    cases hx : andStep x b with
    | none => simp [hx] at h
    | some y =>
      simp only [hx, Option.some.injEq] at h; subst h
      obtain ⟨h1, h2⟩ := andStep_sized x b y hx hl.1 hb
      simp only [Sizeds, szs]
      exact ⟨rfl, ⟨h1, trivial⟩, by omega⟩
  | x :: y :: l =>
    simp only [andLast] at h
    rw [Sizeds] at hl
    cases hx : andLast (y :: l) b with
    | none => simp [hx] at h
    | some l'' =>
      simp only [hx, Option.some.injEq] at h; subst h
      obtain ⟨h1, h2, h3⟩ := andLast_sized (y :: l) b l'' hx hl.2 hb
      rw [Sizeds, szs, szs.eq_def (x :: y :: l)]
      exact ⟨by simp [h1], ⟨hl.1, h2⟩, by simp only; omega⟩
end

mutual
theorem andOp_sized (a b : Rx) (ha : Sized a) (hb : Sized b) :
    Sized (andOp a b) ∧ sz (andOp a b) ≤ sz a + sz b := by
  have pair : Sized (.and [a, b]) ∧ sz (.and [a, b]) ≤ sz a + sz b := by
    simp only [Sized, Sizeds, sz, szs]; exact ⟨⟨by simp, ha, hb, trivial⟩, by omega⟩
  have other : b ≠ .empty → (∀ m, b ≠ .and m) →
      Sized (andOp a b) ∧ sz (andOp a b) ≤ sz a + sz b := by
    intro hb1 hb2
    rw [andOp_other a b hb1 hb2]
    cases hs : andStep a b with
    | some r => exact andStep_sized a b r hs ha hb
    | none => exact pair
  cases b with
  | empty => simp only [andOp]; exact ⟨ha, by omega⟩
  | and m =>
    cases a with
    | and l =>
      simp only [andOp]
      simp only [Sized] at hb
      have := andFold_sized (.and l) m ha hb.2
      exact ⟨this.1, by simpa only [sz] using this.2⟩
    | empty => simp only [andOp]; exact ⟨hb, by omega⟩
    | _ => simpa only [andOp] using pair
  | _ => exact other (by simp) (by simp)
theorem andFold_sized (a : Rx) (l : List Rx) (ha : Sized a) (hl : Sizeds l) :
    Sized (andFold a l) ∧ sz (andFold a l) ≤ sz a + szs l := by
  match l with
  | [] => simp only [andFold]; exact ⟨ha, by omega⟩
  | x :: l =>
    simp only [Sizeds] at hl
    simp only [andFold, szs]
    obtain ⟨h1, h2⟩ := andOp_sized a x ha hl.1
    obtain ⟨h3, h4⟩ := andFold_sized (andOp a x) l h1 hl.2
    exact ⟨h3, by omega⟩
end

theorem andOp_empty_left (b : Rx) : andOp .empty b = b := by
  cases b <;> simp [andOp, andStep]

theorem andJoin_sized (l : List Rx) (hl : Sizeds l) :
    Sized (andJoin l) ∧ sz (andJoin l) ≤ max 1 (szs l) := by
  cases l with
  | nil => simp [andJoin, Sized, sz]; omega
  | cons r l =>
    simp only [Sizeds] at hl
    simp only [andJoin]
    obtain ⟨h1, h2⟩ := hl
    have : Sized (l.foldl andOp r) ∧ sz (l.foldl andOp r) ≤ sz r + szs l := by
      induction l generalizing r with
      | nil => exact ⟨h1, by simp⟩
      | cons x l ih =>
        simp only [Sizeds] at h2
        obtain ⟨g1, g2⟩ := andOp_sized r x h1 h2.1
        obtain ⟨g3, g4⟩ := ih (andOp r x) g1 h2.2
        exact ⟨g3, by simp only [List.foldl_cons, szs]; omega⟩
    exact ⟨this.1, by simp only [szs]; omega⟩

theorem createString_join_sized (s : List Nat) (l : List Rx) (hl : Sizeds l) :
    Sized (andOp (createString s) (andJoin l)) ∧
      sz (andOp (createString s) (andJoin l)) ≤ max 1 (s.length + szs l) := by
  obtain ⟨h1, h2⟩ := andJoin_sized l hl
  unfold createString
  split
  · rename_i hs; subst hs
    rw [andOp_empty_left]
    exact ⟨h1, by simpa using h2⟩
  · rename_i hs
    have hp : 1 ≤ s.length := List.length_pos_iff.2 hs
    obtain ⟨h3, h4⟩ := andOp_sized (.str s) (andJoin l) (by simpa only [Sized] using hs) h1
    refine ⟨h3, ?_⟩
    cases l with
    | nil => simp only [andJoin, andOp, sz, szs]; omega
    | cons x l =>
      have := szs_len _ hl
      simp only [List.length_cons] at this
      simp only [sz] at h4
      omega

theorem findPrefix_sized (s t : List Nat) (hs : s ≠ []) (ht : t ≠ []) (c x y : Rx)
    (h : findPrefix s t = some (c, x, y)) :
    Sized c ∧
      ((∃ p s' t', 1 ≤ p ∧ sz c = p ∧ s.length = p + s'.length ∧ t.length = p + t'.length ∧
          x = createString s' ∧ y = createString t' ∧ (s' = [] → t' = [] → s = t)) ∨
        (sz c = 1 ∧ x = .empty ∧ y = .empty)) := by
  unfold findPrefix at h
  split at h
  · simp only [Option.some.injEq, Prod.mk.injEq] at h
    obtain ⟨rfl, rfl, rfl⟩ := h
    exact ⟨by simp [createRange, mkRange, Sized], Or.inr ⟨by simp [createRange, mkRange, sz], rfl, rfl⟩⟩
  · simp only at h
    split at h
    · cases h
    · rename_i hn
      simp only [Option.some.injEq, Prod.mk.injEq] at h
      obtain ⟨rfl, rfl, rfl⟩ := h
      have hle : ∀ s t : List Nat, commonLen s t ≤ s.length ∧ commonLen s t ≤ t.length := by
        intro s
        induction s with
        | nil => simp [commonLen]
        | cons a s ih =>
          intro t
          cases t with
          | nil => simp [commonLen]
          | cons b t =>
            simp only [commonLen]
            split
            · have := ih t; simp only [List.length_cons]; omega
            · simp
      have htake : ∀ s t : List Nat, s.take (commonLen s t) = t.take (commonLen s t) := by
        intro s
        induction s with
        | nil => simp [commonLen]
        | cons a s ih =>
          intro t
          cases t with
          | nil => simp [commonLen]
          | cons b t =>
            simp only [commonLen]
            split
            · rename_i h; subst h; simp [ih t]
            · simp
      obtain ⟨l1, l2⟩ := hle s t
      refine ⟨?_, Or.inl ⟨commonLen s t, s.drop (commonLen s t), t.drop (commonLen s t), by omega,
        by simp [sz]; omega, by simp; omega, by simp; omega, rfl, rfl, ?_⟩⟩
      · simp only [Sized]
        intro h
        rcases List.take_eq_nil_iff.1 h with h | h
        · exact hn h
        · exact hs h
      · intro h1 h2
        have e1 := List.take_append_drop (commonLen s t) s
        have e2 := List.take_append_drop (commonLen s t) t
        rw [h1, List.append_nil] at e1
        rw [h2, List.append_nil] at e2
        rw [← e1, htake s t, e2]

/-- What a terminating `|` gives. -/
def Small (a b : Rx) (r : Rx) : Prop := Sized r ∧ sz r ≤ sz a + sz b

theorem orItems_total (f : Rx → Option (Option Rx)) (b : Rx) (l : List Rx) (hl : Sizeds l)
    (hf : ∀ x ∈ l, Sized x → ∃ o, f x = some o ∧ ∀ r, o = some r → Small x b r) :
    ∃ o, orItems f l = some o ∧ ∀ l', o = some l' →
      l'.length = l.length ∧ Sizeds l' ∧ szs l' ≤ szs l + sz b := by
  induction l with
  | nil => exact ⟨none, rfl, by simp⟩
  | cons x l ih =>
    simp only [Sizeds] at hl
    obtain ⟨o, h1, h2⟩ := hf x (by simp) hl.1
    simp only [orItems, h1]
    cases o with
    | some r =>
      obtain ⟨g1, g2⟩ := h2 r rfl
      refine ⟨_, rfl, ?_⟩
      intro l' hl'
      simp only [Option.some.injEq] at hl'; subst hl'
      simp only [Sizeds, szs]
      exact ⟨rfl, ⟨g1, hl.2⟩, by omega⟩
    | none =>
      obtain ⟨o', g1, g2⟩ := ih hl.2 fun x hx => hf x (by simp [hx])
      simp only [g1]
      cases o' with
      | none => exact ⟨none, rfl, by simp⟩
      | some l'' =>
        refine ⟨_, rfl, ?_⟩
        intro l' hl'
        simp only [Option.some.injEq] at hl'; subst hl'
        obtain ⟨e1, e2, e3⟩ := g2 l'' rfl
        simp only [Sizeds, szs]
        exact ⟨by simp [e1], ⟨hl.1, e2⟩, by omega⟩

theorem mem_szs (x : Rx) (l : List Rx) (hl : Sizeds l) (hx : x ∈ l) :
    sz x + (l.length - 1) ≤ szs l := by
  induction l with
  | nil => cases hx
  | cons y l ih =>
    simp only [Sizeds] at hl
    have h1 := szs_len l hl.2
    have h2 := sz_pos y hl.1
    simp only [szs, List.length_cons]
    rcases List.mem_cons.1 hx with rfl | hx
    · omega
    · have := ih hl.2 hx
      have := List.length_pos_of_mem hx
      omega

theorem foldBar_total (g : Rx → Rx → Option Rx) (S B : Nat)
    (hg : ∀ a b, Sized a → Sized b → sz a + sz b ≤ S → sz b < B →
      ∃ r, g a b = some r ∧ Small a b r)
    (l : List Rx) (hl : Sizeds l) (hB : ∀ x ∈ l, sz x < B) (total : Rx) (ht : Sized total)
    (hS : sz total + szs l ≤ S) :
    ∃ r, foldBar g total l = some r ∧ Sized r ∧ sz r ≤ sz total + szs l := by
  induction l generalizing total with
  | nil => exact ⟨total, rfl, ht, by omega⟩
  | cons x l ih =>
    simp only [Sizeds] at hl
    simp only [szs] at hS
    obtain ⟨r, h1, h2, h3⟩ := hg total x ht hl.1 (by omega) (hB x (by simp))
    obtain ⟨r', g1, g2, g3⟩ := ih hl.2 (fun y hy => hB y (by simp [hy])) r h2 (by omega)
    refine ⟨r', by simp only [foldBar, h1, g1], g2, ?_⟩
    simp only [szs]; omega

theorem bar_empty (same : List Item → List Item → Bool) (n : Nat) (r : Rx)
    (h : bar same n .empty .empty = some r) : r = .empty := by
  match n with
  | 0 => simp [bar] at h
  | 1 => simp [bar, orU] at h
  | n + 2 => simp [bar, orU, eqv] at h; exact h.symm

theorem splitCommon_sound (same : List Item → List Item → Bool) (l m : List Rx) :
    szs l = szs (splitCommon same l m).1 + szs (splitCommon same l m).2.1 ∧
      (Sizeds l → Sizeds (splitCommon same l m).1 ∧ Sizeds (splitCommon same l m).2.1) ∧
      (Sizeds m → Sizeds (splitCommon same l m).2.2 ∧
        (splitCommon same l m).1.length + szs (splitCommon same l m).2.2 ≤ szs m) ∧
      l.length = (splitCommon same l m).1.length + (splitCommon same l m).2.1.length ∧
      m.length = (splitCommon same l m).1.length + (splitCommon same l m).2.2.length := by
  induction l generalizing m with
  | nil => simp [splitCommon, szs, Sizeds]
  | cons a l ih =>
    cases m with
    | nil => simp [splitCommon, szs, Sizeds]
    | cons b m =>
      simp only [splitCommon]
      split
      · have ihm := ih m
        rcases hh : splitCommon same l m with ⟨p, x, y⟩
        simp only [hh] at ihm
        obtain ⟨h1, h2, h3, h4, h5⟩ := ihm
        simp only [szs, Sizeds, List.length_cons]
        refine ⟨by omega, fun h => ⟨⟨h.1, (h2 h.2).1⟩, (h2 h.2).2⟩, fun h => ?_, by omega, by omega⟩
        have := sz_pos b h.1
        exact ⟨(h3 h.2).1, by have := (h3 h.2).2; omega⟩
      · simp [szs, Sizeds]

theorem orAnd_total (same : List Item → List Item → Bool) (g : Rx → Rx → Option Rx)
    (la lb : List Rx) (ha : Sizeds la) (hb : Sizeds lb) (hla : 1 ≤ la.length)
    (hlb : 1 ≤ lb.length) (hlen : 3 ≤ la.length + lb.length)
    (hg : ∀ a b, Sized a → Sized b → sz a + sz b < szs la + szs lb →
      ∃ r, g a b = some r ∧ Small a b r) :
    ∃ o, orAnd same g la lb = some o ∧
      ∀ r, o = some r → Sized r ∧ sz r ≤ szs la + szs lb := by
  unfold orAnd
  have sp := splitCommon_sound same la lb
  rcases hh : splitCommon same la lb with ⟨p, x, y⟩
  simp only [hh] at sp
  obtain ⟨h1, h2, h3, h4, h5⟩ := sp
  have ea := szs_len la ha
  have eb := szs_len lb hb
  cases p with
  | cons p ps =>
    simp only
    obtain ⟨p1, x1⟩ := h2 ha
    obtain ⟨y1, y2⟩ := h3 hb
    obtain ⟨jx1, jx2⟩ := andJoin_sized x x1
    obtain ⟨jy1, jy2⟩ := andJoin_sized y y1
    obtain ⟨jp1, jp2⟩ := andJoin_sized (p :: ps) p1
    have lp := szs_len _ p1
    have lx := szs_len _ x1
    have ly := szs_len _ y1
    simp only [List.length_cons] at *
    have hx0 : x.length = 0 → szs x = 0 := by
      intro h; rw [List.length_eq_zero_iff.1 h]; simp [szs]
    have hy0 : y.length = 0 → szs y = 0 := by
      intro h; rw [List.length_eq_zero_iff.1 h]; simp [szs]
    obtain ⟨r, r1, r2, r3⟩ := hg (andJoin x) (andJoin y) jx1 jy1 (by omega)
    refine ⟨_, by rw [r1], ?_⟩
    intro r' hr'
    simp only [Option.some.injEq] at hr'; subst hr'
    obtain ⟨q1, q2⟩ := andOp_sized (andJoin (p :: ps)) r jp1 r2
    exact ⟨q1, by omega⟩
  | nil =>
    simp only
    cases hp : headPrefix la lb with
    | none => exact ⟨none, rfl, by simp⟩
    | some o =>
      obtain ⟨c, x', y'⟩ := o
      unfold headPrefix at hp
      split at hp
      · rename_i s ta t tb
        simp only [List.tail_cons]
        simp only [Sizeds] at ha hb
        simp only [Sized] at ha hb
        have hs1 : 1 ≤ s.length := List.length_pos_iff.2 ha.1
        have ht1 : 1 ≤ t.length := List.length_pos_iff.2 hb.1
        obtain ⟨f1, f2⟩ := findPrefix_sized s t ha.1 hb.1 c x' y' hp
        have lta := szs_len ta ha.2
        have ltb := szs_len tb hb.2
        simp only [List.length_cons] at hlen
        simp only [szs, sz] at hg ⊢
        rcases f2 with ⟨p, s', t', q1, q2, q3, q4, rfl, rfl, q5⟩ | ⟨q1, rfl, rfl⟩
        · obtain ⟨u1, u2⟩ := createString_join_sized s' ta ha.2
          obtain ⟨v1, v2⟩ := createString_join_sized t' tb hb.2
          obtain ⟨r, r1, r2, r3⟩ := hg _ _ u1 v1 (by omega)
          rw [r1]
          simp only
          split
          · refine ⟨_, rfl, ?_⟩
            intro r' hr'
            simp only [Option.some.injEq] at hr'; subst hr'
            obtain ⟨w1, w2⟩ := andOp_sized c r f1 r2
            exact ⟨w1, by omega⟩
          · exact ⟨none, rfl, by simp⟩
        · rw [andOp_empty_left, andOp_empty_left]
          obtain ⟨u1, u2⟩ := andJoin_sized ta ha.2
          obtain ⟨v1, v2⟩ := andJoin_sized tb hb.2
          obtain ⟨r, r1, r2, r3⟩ := hg _ _ u1 v1 (by omega)
          rw [r1]
          simp only
          split
          · refine ⟨_, rfl, ?_⟩
            intro r' hr'
            simp only [Option.some.injEq] at hr'; subst hr'
            obtain ⟨w1, w2⟩ := andOp_sized c r f1 r2
            exact ⟨w1, by omega⟩
          · exact ⟨none, rfl, by simp⟩
      · cases hp

theorem sq_lt (s t : Nat) (h : s < t) : s * s + s < t * t := by
  have h1 : s + 1 ≤ t := h
  have h2 : (s + 1) * (s + 1) ≤ t * t := Nat.mul_le_mul h1 h1
  have h3 : (s + 1) * (s + 1) = s * s + s + s + 1 := by
    rw [Nat.add_mul, Nat.mul_add]; omega
  omega

theorem andContent_sized (b : Rx) (m : List Rx) (h : andContent b = some m) (hb : Sized b) :
    Sizeds m ∧ szs m = sz b ∧ 1 ≤ m.length := by
  cases b <;> simp [andContent] at h
  · subst h
    simp only [Sizeds, szs, sz]
    exact ⟨⟨hb, trivial⟩, by omega, by simp⟩
  · subst h
    simp only [Sized] at hb
    exact ⟨hb.2, rfl, by omega⟩

/-- Both operands are `RegexOr`. -/
def bothOr : Rx → Rx → Bool
  | .or _, .or _ => true
  | _, _ => false

theorem bar_total (same : List Item → List Item → Bool) (n : Nat) :
    (∀ S B a b, Sized a → Sized b → sz a + sz b ≤ S → sz b ≤ B → 3 * (S * S + B) + 3 ≤ n →
        ∃ r, bar same n a b = some r ∧ Small a b r) ∧
      (∀ S B a b, Sized a → Sized b → sz a + sz b ≤ S → sz b ≤ B → 3 * (S * S + B) + 2 ≤ n →
        ∃ o, orU same n a b = some o ∧ ∀ r, o = some r → Small a b r) ∧
      (∀ S B a b rev, Sized a → Sized b → sz a + sz b ≤ S → sz b ≤ B →
        3 * (S * S + (if bothOr a b then B else 0)) + 1 ≤ n →
        (∀ s t, a = .str s → b = .str t → s ≠ t) →
        ∃ o, orM same n a b rev = some o ∧ ∀ r, o = some r → Small a b r) := by
  induction n with
  | zero => refine ⟨fun S B a b _ _ _ _ h => by omega, fun S B a b _ _ _ _ h => by omega,
      fun S B a b rev _ _ _ _ h => by omega⟩
  | succ n ih =>
    obtain ⟨ih1, ih2, ih3⟩ := ih
    refine ⟨fun S B a b ha hb hS hB hn => ?_, fun S B a b ha hb hS hB hn => ?_,
      fun S B a b rev ha hb hS hB hn hst => ?_⟩
    · obtain ⟨o, h1, h2⟩ := ih2 S B a b ha hb hS hB (by omega)
      simp only [bar, h1]
      cases o with
      | some r => exact ⟨r, rfl, h2 r rfl⟩
      | none =>
        refine ⟨_, rfl, ?_, ?_⟩
        · simp only [Sized, Sizeds]; exact ⟨by simp, ha, hb, trivial⟩
        · simp only [sz, szs]; omega
    · simp only [orU]
      split
      · exact ⟨_, rfl, by rintro r ⟨⟩; exact ⟨ha, by omega⟩⟩
      rename_i hne
      split
      · exact ⟨_, rfl, by rintro r ⟨⟩; exact ⟨ha, by omega⟩⟩
      split
      · exact ⟨_, rfl, by rintro r ⟨⟩; exact ⟨hb, by omega⟩⟩
      have h0 : ∀ a' b' : Rx, 3 * (S * S + (if bothOr a' b' then B else 0)) + 1 ≤ n := by
        intro a' b'; split <;> omega
      have hst : ∀ s t, a = .str s → b = .str t → s ≠ t := by
        rintro s t rfl rfl rfl
        simp [eqv] at hne
      split
      · exact ih3 S B a b false ha hb hS hB (h0 a b) hst
      · rename_i hcls
        obtain ⟨o, h1, h2⟩ := ih3 S B a b false ha hb hS hB (h0 a b) hst
        rw [h1]
        cases o with
        | some r => exact ⟨_, rfl, h2⟩
        | none =>
          simp only
          obtain ⟨o, h3, h4⟩ := ih3 S S b a true hb ha (by omega) (by omega)
            (by
              have : bothOr b a = false := by
                cases a <;> cases b <;> simp [bothOr, sameClass] at hcls ⊢
              rw [this]; simp; omega)
            (by rintro s t rfl rfl; simp [sameClass] at hcls)
          exact ⟨o, h3, fun r hr => ⟨(h4 r hr).1, by have := (h4 r hr).2; omega⟩⟩
    · have pa := sz_pos a ha
      have pb := sz_pos b hb
      -- a recursive call on smaller operands
      have small : ∀ S', S' < S → 3 * (S' * S' + S') + 3 ≤ n := by
        intro S' h
        have := sq_lt S' S h
        split at hn <;> omega
      have sub : ∀ a' b', Sized a' → Sized b' → sz a' + sz b' < S →
          ∃ r, bar same n a' b' = some r ∧ Small a' b' r := by
        intro a' b' ha' hb' h
        exact ih1 (sz a' + sz b') (sz a' + sz b') a' b' ha' hb' (Nat.le_refl _) (by omega)
          (small _ h)
      have subU : ∀ a' b', Sized a' → Sized b' → sz a' + sz b' < S →
          ∃ o, orU same n a' b' = some o ∧ ∀ r, o = some r → Small a' b' r := by
        intro a' b' ha' hb' h
        exact ih2 (sz a' + sz b') (sz a' + sz b') a' b' ha' hb' (Nat.le_refl _) (by omega)
          (by have := small _ h; omega)
      cases a with
      | str s =>
        cases b with
        | str t =>
          simp only [orM]
          cases hp : findPrefix s t with
          | none => exact ⟨none, rfl, by simp⟩
          | some o =>
            obtain ⟨c, x, y⟩ := o
            simp only [Sized] at ha hb
            simp only
            have hs1 : 1 ≤ s.length := List.length_pos_iff.2 ha
            have ht1 : 1 ≤ t.length := List.length_pos_iff.2 hb
            obtain ⟨f1, f2⟩ := findPrefix_sized s t ha hb c x y hp
            simp only [sz] at hS
            have fin : ∀ r : Rx, Sized r →
                ((r = .empty ∧ sz c ≤ s.length + t.length) ∨ sz c + sz r ≤ s.length + t.length) →
                ∀ r', some (andOp c r) = some r' → Small (.str s) (.str t) r' := by
              rintro r hr hle r' ⟨⟩
              obtain ⟨w1, w2⟩ := andOp_sized c r f1 hr
              refine ⟨w1, ?_⟩
              simp only [sz]
              rcases hle with ⟨rfl, hle⟩ | hle
              · simp only [andOp]; omega
              · omega
            rcases f2 with ⟨p, s', t', q1, q2, q3, q4, rfl, rfl, q5⟩ | ⟨q1, rfl, rfl⟩
            · have cs : ∀ u, Sized (createString u) ∧ sz (createString u) = max 1 u.length := by
                intro u
                unfold createString
                split
                · rename_i h; subst h; simp [Sized, sz]
                · rename_i h
                  have := List.length_pos_iff.2 h
                  exact ⟨by simpa only [Sized] using h, by simp only [sz]; omega⟩
              obtain ⟨c1, c2⟩ := cs s'
              obtain ⟨d1, d2⟩ := cs t'
              have hne : s'.length = 0 → t'.length = 0 → False := by
                intro h1 h2
                exact hst s t rfl rfl (q5 (List.length_eq_zero_iff.1 h1) (List.length_eq_zero_iff.1 h2))
              have hnb : 1 ≤ s'.length + t'.length := by
                rcases Nat.eq_zero_or_pos (s'.length + t'.length) with h | h
                · exact (hne (by omega) (by omega)).elim
                · exact h
              cases rev with
              | true =>
                simp only [if_true]
                obtain ⟨r, r1, r2, r3⟩ := sub _ _ d1 c1 (by omega)
                rw [r1]
                exact ⟨_, rfl, fin r r2 (Or.inr (by omega))⟩
              | false =>
                simp only [Bool.false_eq_true, if_false]
                obtain ⟨r, r1, r2, r3⟩ := sub _ _ c1 d1 (by omega)
                rw [r1]
                exact ⟨_, rfl, fin r r2 (Or.inr (by omega))⟩
            · have hbar : (if rev = true then bar same n .empty .empty
                  else bar same n .empty .empty) = bar same n .empty .empty := by
                cases rev <;> rfl
              have : ∃ r, bar same n .empty .empty = some r := by
                obtain ⟨m, rfl⟩ : ∃ m, n = m + 2 := ⟨n - 2, by
                  have : 2 ≤ S := by omega
                  have : 2 * 2 ≤ S * S := Nat.mul_le_mul this this
                  split at hn <;> omega⟩
                exact ⟨.empty, by simp [bar, orU, eqv]⟩
              obtain ⟨r, hr⟩ := this
              have := bar_empty same n r hr
              subst this
              rw [hbar, hr]
              exact ⟨_, rfl, fin .empty (by simp [Sized]) (Or.inl ⟨rfl, by omega⟩)⟩
        | _ => exact ⟨none, by simp [orM], by simp⟩
      | range rs e =>
        simp only [orM]
        cases otherItems e b with
        | none => exact ⟨none, rfl, by simp⟩
        | some items =>
          refine ⟨_, rfl, ?_⟩
          rintro r ⟨⟩
          exact ⟨by simp [Sized], by simp only [sz] at *; omega⟩
      | and l =>
        simp only [orM]
        cases hm : andContent b with
        | none => exact ⟨none, rfl, by simp⟩
        | some m =>
          obtain ⟨m1, m2, m3⟩ := andContent_sized b m hm hb
          simp only [Sized] at ha
          simp only [sz] at hS
          simp only
          cases rev with
          | true =>
            simp only [if_true]
            obtain ⟨o, h1, h2⟩ := orAnd_total same (bar same n) m l m1 ha.2 m3 (by omega) (by omega)
              (fun a b ha hb h => sub a b ha hb (by omega))
            exact ⟨o, h1, fun r hr => ⟨(h2 r hr).1, by have := (h2 r hr).2; simp only [sz]; omega⟩⟩
          | false =>
            simp only [Bool.false_eq_true, if_false]
            obtain ⟨o, h1, h2⟩ := orAnd_total same (bar same n) l m ha.2 m1 (by omega) m3 (by omega)
              (fun a b ha hb h => sub a b ha hb (by omega))
            exact ⟨o, h1, fun r hr => ⟨(h2 r hr).1, by have := (h2 r hr).2; simp only [sz]; omega⟩⟩
      | or l =>
        have ha' := ha
        simp only [Sized] at ha'
        by_cases hor : ∃ m, b = .or m
        · obtain ⟨m, rfl⟩ := hor
          have hb' := hb
          simp only [Sized] at hb'
          simp only [orM]
          simp only [bothOr, if_true] at hn
          obtain ⟨r, h1, h2, h3⟩ := foldBar_total (bar same n) S B
            (fun a b ha hb h1 h2 => ih1 S (B - 1) a b ha hb h1 (by omega) (by omega)) m hb'.2
            (fun x hx => by
              have := mem_szs x m hb'.2 hx
              simp only [sz] at hB
              omega)
            (.or l) ha (by simpa only [sz] using hS)
          refine ⟨some r, by rw [h1], ?_⟩
          rintro r' ⟨⟩
          exact ⟨h2, by simpa only [sz] using h3⟩
        · have hi := orItems_total (fun x => orU same n x b) b l ha'.2
            (fun x hx hsx => subU x b hsx hb (by
              have := mem_szs x l ha'.2 hx
              simp only [sz] at hS
              omega))
          obtain ⟨o, h1, h2⟩ := hi
          have horM : orM same (n + 1) (.or l) b rev =
              (match orItems (fun x => orU same n x b) l with
                | none => none
                | some (some l') => some (some (.or l'))
                | some none => some (some (if rev then .or (b :: l) else .or (l ++ [b])))) := by
            cases b with
            | or m => exact absurd ⟨m, rfl⟩ hor
            | _ => simp only [orM] <;> rfl
          rw [horM, h1]
          cases o with
          | some l' =>
            obtain ⟨g1, g2, g3⟩ := h2 l' rfl
            refine ⟨_, rfl, ?_⟩
            rintro r ⟨⟩
            exact ⟨by simp only [Sized]; exact ⟨by omega, g2⟩, by simpa only [sz] using g3⟩
          | none =>
            refine ⟨_, rfl, ?_⟩
            intro r hr
            simp only [Option.some.injEq] at hr
            cases rev with
            | true =>
              simp only [if_true] at hr; subst hr
              simp only [Small, Sized, Sizeds, sz, szs]
              exact ⟨⟨by simp; omega, hb, ha'.2⟩, by omega⟩
            | false =>
              simp only [Bool.false_eq_true, if_false] at hr; subst hr
              simp only [Small, Sized, sizeds_append, Sizeds, sz, szs_append, szs]
              exact ⟨⟨by simp; omega, ha'.2, hb, trivial⟩, by omega⟩
      | empty => exact ⟨none, by simp [orM], by simp⟩
      | word => exact ⟨none, by simp [orM], by simp⟩
      | start => exact ⟨none, by simp [orM], by simp⟩
      | stop => exact ⟨none, by simp [orM], by simp⟩
      | dot => exact ⟨none, by simp [orM], by simp⟩
      | rep r m mx => exact ⟨none, by simp [orM], by simp⟩

end Hachoir.Regex
