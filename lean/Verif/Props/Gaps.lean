import Verif.Field.Gaps

/-!
# Property C26: gaps between blocks
-/

set_option linter.unusedVariables false

namespace Hachoir.Props
open Hachoir Hachoir.Gaps

/-- Position `x` lies in the block (or gap) `b`. -/
def Inside (x : Int) (b : Int × Int) : Prop := b.1 ≤ x ∧ x < b.1 + b.2

theorem gapsLoop_ge (start end_ : Int) (l : List (Int × Int)) :
    ∀ g ∈ gapsLoop start end_ l, start ≤ g.1 ∧ 0 < g.2 := by
  induction l generalizing start with
  | nil =>
    intro g hg
    unfold gapsLoop at hg
    split at hg
    · simp at hg; subst hg; simp; omega
    · cases hg
  | cons b rest ih =>
    obtain ⟨s, n⟩ := b
    intro g hg
    unfold gapsLoop at hg
    simp only [List.mem_append] at hg
    rcases hg with hg | hg
    · split at hg
      · simp at hg; subst hg; simp; omega
      · cases hg
    · obtain ⟨h1, h2⟩ := ih _ g hg
      refine ⟨?_, h2⟩
      revert h1
      split <;> split <;> intros <;> omega

theorem gapsLoop_disjoint (start end_ : Int) (l : List (Int × Int)) :
    (gapsLoop start end_ l).Pairwise (fun g g' => g.1 + g.2 ≤ g'.1) := by
  induction l generalizing start with
  | nil => unfold gapsLoop; split <;> simp
  | cons b rest ih =>
    obtain ⟨s, n⟩ := b
    unfold gapsLoop
    rw [List.pairwise_append]
    refine ⟨by split <;> simp, ih _, ?_⟩
    intro g hg g' hg'
    split at hg
    · simp at hg; subst hg
      have := (gapsLoop_ge _ _ _ g' hg').1
      rename_i h
      simp only [h, if_true] at this
      simp only
      split at this <;> omega
    · cases hg

theorem gapsLoop_separate (start end_ : Int) (l : List (Int × Int)) (hl : ∀ b ∈ l, 0 < b.2) :
    (gapsLoop start end_ l).Pairwise (fun g g' => g.1 + g.2 < g'.1) := by
  induction l generalizing start with
  | nil => unfold gapsLoop; split <;> simp
  | cons b rest ih =>
    obtain ⟨s, n⟩ := b
    have hn := hl _ List.mem_cons_self
    unfold gapsLoop
    rw [List.pairwise_append]
    refine ⟨by split <;> simp, ih _ (fun b hb => hl b (List.mem_cons_of_mem _ hb)), ?_⟩
    intro g hg g' hg'
    split at hg
    · simp at hg; subst hg
      have := (gapsLoop_ge _ _ _ g' hg').1
      rename_i h
      simp only [h, if_true] at this
      simp only at hn ⊢
      split at this <;> omega
    · cases hg

theorem gapsLoop_covers (start end_ : Int) (l : List (Int × Int)) (hl : l.Pairwise (fun a b => a.1 ≤ b.1)) (x : Int) :
    (∃ g ∈ gapsLoop start end_ l, Inside x g) ↔
      start ≤ x ∧ (x < end_ ∨ ∃ b ∈ l, x < b.1) ∧ ∀ b ∈ l, ¬ Inside x b := by
  induction l generalizing start with
  | nil =>
    unfold gapsLoop Inside
    split
    · simp; omega
    · simp; intros; omega
  | cons b rest ih =>
    obtain ⟨s, n⟩ := b
    have hs := List.pairwise_cons.mp hl
    unfold gapsLoop
    have happ : ∀ a b : List (Int × Int), (∃ g ∈ a ++ b, Inside x g) ↔ (∃ g ∈ a, Inside x g) ∨ ∃ g ∈ b, Inside x g := by
      intro a b
      simp only [List.mem_append]
      constructor
      · rintro ⟨g, h | h, h'⟩
        · exact Or.inl ⟨g, h, h'⟩
        · exact Or.inr ⟨g, h, h'⟩
      · rintro (⟨g, h, h'⟩ | ⟨g, h, h'⟩)
        · exact ⟨g, Or.inl h, h'⟩
        · exact ⟨g, Or.inr h, h'⟩
    simp only
    rw [happ, ih _ hs.2]
    have hfirst : (∃ g ∈ (if start < s then [(start, s - start)] else []), Inside x g) ↔ start ≤ x ∧ x < s := by
      split
      · simp [Inside]; omega
      · simp; intros; omega
    rw [hfirst]
    constructor
    · rintro (⟨h1, h2⟩ | ⟨h1, h2, h3⟩)
      · refine ⟨h1, Or.inr ⟨_, List.mem_cons_self, h2⟩, ?_⟩
        intro b hb hin
        rcases List.mem_cons.mp hb with rfl | hb
        · have := hin.1; simp only at this; omega
        · have h4 := hs.1 b hb; have h5 := hin.1; simp only at h4; omega
      · refine ⟨?_, ?_, ?_⟩
        · split at h1 <;> split at h1 <;> omega
        · rcases h2 with h2 | ⟨b, hb, h2⟩
          · exact Or.inl h2
          · exact Or.inr ⟨b, List.mem_cons_of_mem _ hb, h2⟩
        · intro b hb
          rcases List.mem_cons.mp hb with rfl | hb
          · rintro ⟨h4, h5⟩
            simp only at h4 h5
            split at h1 <;> split at h1 <;> omega
          · exact h3 b hb
    · rintro ⟨h1, h2, h3⟩
      by_cases hx : x < s
      · exact Or.inl ⟨h1, hx⟩
      · right
        have hn := h3 _ List.mem_cons_self
        unfold Inside at hn
        simp only [not_and] at hn
        have := hn (by omega)
        refine ⟨?_, ?_, fun b hb => h3 b (List.mem_cons_of_mem _ hb)⟩
        · split <;> split <;> omega
        · rcases h2 with h2 | ⟨b, hb, h2⟩
          · exact Or.inl h2
          · rcases List.mem_cons.mp hb with rfl | hb
            · exact absurd h2 hx
            · exact Or.inr ⟨b, hb, h2⟩

theorem sorted_blocks (blocks : List (Int × Int)) :
    (blocks.insertionSort (fun a b => a.1 ≤ b.1)).Pairwise (fun a b => a.1 ≤ b.1) := by
  have t : IsTrans (Int × Int) (fun a b => a.1 ≤ b.1) := ⟨fun a b c h h' => by omega⟩
  have t' : Std.Total (fun a b : Int × Int => a.1 ≤ b.1) := ⟨fun a b => by omega⟩
  exact List.pairwise_insertionSort _ _

/-- **C26.**  The gaps cover exactly the positions of the range that no block
covers (for blocks beginning in any order, anywhere up to the end of the range,
overlapping or not, of any length). -/
theorem C26_gaps_cover (start length : Int) (blocks : List (Int × Int)) (hb : ∀ b ∈ blocks, b.1 ≤ start + length)
    (x : Int) :
    (∃ g ∈ getgaps start length blocks, Inside x g) ↔
      (start ≤ x ∧ x < start + length) ∧ ∀ b ∈ blocks, ¬ Inside x b := by
  unfold getgaps
  rw [gapsLoop_covers _ _ _ (sorted_blocks blocks) x]
  simp only [List.mem_insertionSort]
  constructor
  · rintro ⟨h1, h2 | ⟨b, h2, h3⟩, h4⟩
    · exact ⟨⟨h1, h2⟩, h4⟩
    · exact ⟨⟨h1, by have := hb b h2; omega⟩, h4⟩
  · rintro ⟨⟨h1, h2⟩, h3⟩
    exact ⟨h1, Or.inl h2, h3⟩

/-- **C26.**  The gaps are not empty, they come in increasing order and do not
overlap; if no block is empty there is at least one position between two gaps. -/
theorem C26_gaps_ordered (start length : Int) (blocks : List (Int × Int)) :
    (∀ g ∈ getgaps start length blocks, start ≤ g.1 ∧ 0 < g.2) ∧
    (getgaps start length blocks).Pairwise (fun g g' => g.1 + g.2 ≤ g'.1) ∧
    ((∀ b ∈ blocks, 0 < b.2) → (getgaps start length blocks).Pairwise (fun g g' => g.1 + g.2 < g'.1)) := by
  refine ⟨gapsLoop_ge _ _ _, gapsLoop_disjoint _ _ _, fun h => gapsLoop_separate _ _ _ ?_⟩
  intro b hb
  exact h b ((List.mem_insertionSort _).mp hb)

/-- The example of the docstring. -/
example : getgaps 0 20 [(15, 3), (6, 2), (6, 2), (1, 2), (2, 3), (11, 2), (9, 5)] =
    [(0, 1), (5, 1), (8, 1), (14, 1), (18, 2)] := by decide +kernel

/-- Without the condition on the blocks a gap reaches beyond the range. -/
theorem C26_block_behind_end : getgaps 0 10 [(20, 5)] = [(0, 20)] := by decide +kernel

/-! ### Use in seekable field sets -/

theorem maxEnd_ok {l : List (Int × Int)} {m : Int} (h : maxEnd l = .ok m) : ∀ b ∈ l, b.1 + b.2 ≤ m := by
  induction l generalizing m with
  | nil => cases h
  | cons b rest ih =>
    cases rest with
    | nil => simp [maxEnd] at h; simp [h]
    | cons c r =>
      unfold maxEnd at h
      cases hm : maxEnd (c :: r) with
      | error e => rw [hm] at h; cases h
      | ok m' =>
        rw [hm] at h
        injection h with h
        intro x hx
        rcases List.mem_cons.mp hx with rfl | hx
        · omega
        · have := ih hm x hx; omega

/-- **C26.**  When a seekable field set is finished, every position of it is
covered: by the fields of the parser or by exactly the added `unparsed` fields,
and these overlap neither the parser's fields nor each other. -/
theorem C26_seekable_covered (base size current : Int) (fields kept added : List (Int × Int)) (size' : Int)
    (hf : ∀ f ∈ fields, 0 ≤ f.2) (h : fixLastField base size current fields = .ok (kept, added, size')) :
    size ≤ size' ∧
    (∀ x, 0 ≤ x → x < size' → (∃ f ∈ kept, Inside x f) ∨ ∃ f ∈ added, Inside x f) ∧
    (∀ f ∈ added, 0 < f.2 ∧ 0 ≤ f.1 ∧ f.1 + f.2 ≤ size' ∧ ∀ x, Inside x f → ∀ f' ∈ kept, ¬ Inside x f') ∧
    added.Pairwise (fun g g' => g.1 + g.2 ≤ g'.1) := by
  unfold fixLastField at h
  cases hd : deleteTooBig size fields.reverse current with
  | error e => rw [hd] at h; cases h
  | ok r =>
    obtain ⟨k, c⟩ := r
    rw [hd] at h
    simp only at h
    cases hm : maxEnd (k.reverse.map (fun f => (base + f.1, f.2))) with
    | error e => rw [hm] at h; cases h
    | ok m =>
      rw [hm] at h
      simp only at h
      injection h with h
      injection h with h1 h2
      injection h2 with h2 h3
      have hk : ∀ f ∈ kept, 0 ≤ f.2 := by
        have key : ∀ (l : List (Int × Int)) (cur : Int) (k : List (Int × Int)) (c : Int),
            deleteTooBig size l cur = .ok (k, c) → ∀ f ∈ k, f ∈ l := by
          intro l
          induction l with
          | nil =>
            intro cur k c hh f hf
            unfold deleteTooBig at hh
            split at hh
            · cases hh
            · injection hh with hh; injection hh with hh; rw [← hh] at hf; exact hf
          | cons b rest ih =>
            intro cur k c hh f hf
            unfold deleteTooBig at hh
            split at hh
            · exact List.mem_cons_of_mem _ (ih _ _ _ hh f hf)
            · injection hh with hh; injection hh with hh; rw [← hh] at hf; exact hf
        intro f hfk
        rw [← h1] at hfk
        exact hf f (List.mem_reverse.mp (key _ _ _ _ hd f (List.mem_reverse.mp hfk)))
      rw [h1] at hm h2
      have hend := maxEnd_ok hm
      have hb : ∀ b ∈ kept.map (fun f => (base + f.1, f.2)), b.1 ≤ base + size' := by
        intro b hb
        obtain ⟨f, hf1, rfl⟩ := List.mem_map.mp hb
        have := hend _ hb
        have := hk f hf1
        simp only at *
        omega
      have hcov := C26_gaps_cover base size' _ hb
      obtain ⟨o1, o2, _⟩ := C26_gaps_ordered base size' (kept.map (fun f => (base + f.1, f.2)))
      rw [h3] at h2
      subst h2
      refine ⟨by omega, ?_, ?_, ?_⟩
      · intro x hx0 hx1
        by_cases hin : ∃ f ∈ kept, Inside x f
        · exact Or.inl hin
        · right
          obtain ⟨g, hg1, hg2⟩ := (hcov (base + x)).mpr ⟨⟨by omega, by omega⟩, by
            intro b hb hi
            obtain ⟨f, hf1, rfl⟩ := List.mem_map.mp hb
            exact hin ⟨f, hf1, by unfold Inside at *; simp only at hi; omega⟩⟩
          refine ⟨_, List.mem_map_of_mem hg1, ?_⟩
          unfold Inside at *; simp only; omega
      · intro f hf1
        obtain ⟨g, hg1, rfl⟩ := List.mem_map.mp hf1
        obtain ⟨p1, p2⟩ := o1 g hg1
        have hlast := (hcov (g.1 + g.2 - 1)).mp ⟨g, hg1, by unfold Inside; omega⟩
        simp only
        refine ⟨p2, by omega, by omega, ?_⟩
        intro x hx f' hf' hx'
        refine ((hcov (base + x)).mp ⟨g, hg1, ?_⟩).2 _ (List.mem_map_of_mem hf') ?_
        · unfold Inside at *; simp only at hx; omega
        · unfold Inside at *; simp only; omega
      · rw [List.pairwise_map]
        refine o2.imp ?_
        intro a b hab; simp only; omega

/-- Fields read in any order with overlaps and holes. -/
example : fixLastField 16 100 70 [(0, 8), (40, 20), (50, 20)] =
    .ok ([(0, 8), (40, 20), (50, 20)], [(8, 32), (70, 30)], 100) := by decide +kernel

/-- A seekable field set without any field ends with ValueError. -/
theorem C26_seekable_empty_raises (base size : Int) (hs : 0 ≤ size) : fixLastField base size 0 [] = .error .value := by
  unfold fixLastField
  simp only [List.reverse_nil]
  unfold deleteTooBig
  rw [if_neg (by omega)]
  rfl

end Hachoir.Props
