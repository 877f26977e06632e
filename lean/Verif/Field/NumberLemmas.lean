import Verif.Field.ReadLemmas

/-!
# Numbered names have no gaps
-/

set_option linter.unusedVariables false

namespace Hachoir.FieldSet
open Hachoir

variable {A : Name → Prop}

/-- The numbers in use for a key are 0 up to its counter. -/
def Counted (A : Name → Prop) (l : List Name) (counts : List (Name × Nat)) : Prop :=
  ∀ k i, A k → (indexed k i ∈ l ↔ ∃ c, lookup counts k = some c ∧ i ≤ c)

/-- Numbers of one key have no gaps. -/
def NoGaps (A : Name → Prop) (l : List Name) : Prop := ∀ k i, A k → indexed k (i + 1) ∈ l → indexed k i ∈ l

theorem Counted.noGaps {l : List Name} {counts : List (Name × Nat)} (h : Counted A l counts) : NoGaps A l := by
  intro k i hA hi
  obtain ⟨c, h1, h2⟩ := (h k (i + 1) hA).mp hi
  exact (h k i hA).mpr ⟨c, h1, by omega⟩

theorem counted_plain {l : List Name} {counts : List (Name × Nat)} {n : Name} (hn : ∀ k i, A k → n ≠ indexed k i) :
    Counted A (l ++ [n]) counts ↔ Counted A l counts := by
  unfold Counted
  constructor
  · intro h k i hA
    rw [← h k i hA]
    simp only [List.mem_append, List.mem_singleton]
    exact ⟨Or.inl, fun e => e.elim id (fun e => absurd e.symm (hn k i hA))⟩
  · intro h k i hA
    rw [← h k i hA]
    simp only [List.mem_append, List.mem_singleton]
    exact ⟨fun e => e.elim id (fun e => absurd e.symm (hn k i hA)), Or.inl⟩

/-- The next number of a key. -/
def next (counts : List (Name × Nat)) (key : Name) : Nat :=
  match lookup counts key with
  | none => 0
  | some n => n + 1

theorem uniqueName_eq (counts : List (Name × Nat)) (name : Name) :
    uniqueName counts name =
      (indexed (arrayKey name) (next counts (arrayKey name)),
        (arrayKey name, next counts (arrayKey name)) :: counts) := rfl

theorem counted_next {l : List Name} {counts : List (Name × Nat)} (key : Name) (h : Counted A l counts) :
    Counted A (l ++ [indexed key (next counts key)]) ((key, next counts key) :: counts) := by
  intro k i hA
  simp only [List.mem_append, List.mem_singleton]
  by_cases hk : key = k
  · subst hk
    rw [lookup_cons_self]
    constructor
    · rintro (h1 | h1)
      · obtain ⟨c, h2, h3⟩ := (h key i hA).mp h1
        refine ⟨_, rfl, ?_⟩
        simp only [next, h2]; omega
      · obtain ⟨_, h2⟩ := indexed_inj h1
        exact ⟨_, rfl, by omega⟩
    · rintro ⟨c, h1, h2⟩
      injection h1 with h1
      by_cases he : i = next counts key
      · right; rw [he]
      · left
        rw [h key i hA]
        unfold next at h1 he
        split at h1
        · rename_i hl; rw [hl] at he; simp at he; omega
        · rename_i c' hl
          rw [hl] at he
          exact ⟨c', hl, by simp at he; omega⟩
  · rw [lookup_cons_ne _ _ _ _ hk, ← h k i hA]
    constructor
    · rintro (h1 | h1)
      · exact h1
      · exact absurd (indexed_inj h1).1.symm hk
    · exact Or.inl

theorem fixFieldSize_same {fuel : Nat} {af : Bool} {ctx : Int} {fs fs' : FS} {f f' : Fld} {isSet : Bool}
    (h : fixFieldSize fuel af ctx fs f isSet = (fs', .ok f')) : fs' = fs ∧ f'.name = f.name := by
  unfold fixFieldSize at h
  simp only at h
  split at h
  · split at h
    · split at h
      · split at h
        · split at h
          · split at h
            · injection h with h1 h2; injection h2 with h2; subst h1; subst h2; exact ⟨rfl, rfl⟩
            · injection h with h1 h2; cases h2
            · injection h with h1 h2; cases h2
          · injection h with h1 h2; cases h2
        · split at h
          · injection h with h1 h2; cases h2
          · injection h with h1 h2; cases h2
      · injection h with h1 h2; cases h2
    · injection h with h1 h2; cases h2
  · injection h with h1 h2; injection h2 with h2; subst h1; subst h2; exact ⟨rfl, rfl⟩

/-- Names after adding a field: counted, or unchanged apart from counters. -/
def NamesAfter (A : Name → Prop) (fs : FS) (r : FS × Added) : Prop :=
  r.1.fields.map Fld.name = fs.fields.map Fld.name ∧ (∀ n, r.2 ≠ .ok n) ∨
    Counted A (r.1.fields.map Fld.name) r.1.counts

theorem appendPart_counted {fs : FS} {f : Fld} {ask : Bool} (hs : Free A f.name ∨ f.name ∉ fs.fields.map Fld.name)
    (h : Counted A (fs.fields.map Fld.name ++ [f.name]) fs.counts) : NamesAfter A fs (appendPart fs f ask) := by
  unfold appendPart
  by_cases hm : f.name ∈ fs.fields.map Fld.name
  · have hp : Free A f.name := by
      rcases hs with h1 | h1
      · exact h1
      · exact absurd hm h1
    simp only [appendField, hm, if_true]
    rw [uniqueName_eq, arrayKey_append]
    simp only [rename_name]
    split
    · rename_i fs' hh
      split at hh
      · cases hh
      · injection hh with hh
        subst hh
        right
        simp only [List.map_append, List.map_cons, List.map_nil, rename_name]
        exact counted_next _ ((counted_plain hp.1).mp h)
    · left; exact ⟨rfl, by simp⟩
  · simp only [appendField, hm, if_false]
    right
    simpa using h

theorem placeField_counted {fuel : Nat} {af : Bool} {ctx : Int} {fs : FS} {f : Fld} {isSet ask : Bool}
    (hs : Free A f.name ∨ f.name ∉ fs.fields.map Fld.name)
    (h : Counted A (fs.fields.map Fld.name ++ [f.name]) fs.counts) :
    NamesAfter A fs (placeField fuel af ctx fs f isSet ask) := by
  unfold placeField
  rcases hr : fixFieldSize fuel af ctx fs f isSet with ⟨fs', r⟩
  cases r with
  | ok f' =>
    obtain ⟨rfl, e⟩ := fixFieldSize_same hr
    exact appendPart_counted (by rw [e]; exact hs) (by rw [e]; exact h)
  | error a =>
    left
    refine ⟨?_, ?_⟩
    · unfold fixFieldSize at hr
      simp only at hr
      repeat' split at hr
      all_goals (injection hr with h1 h2; subst h1; rfl)
    · intro n he
      simp only at he
      subst he
      unfold fixFieldSize at hr
      simp only at hr
      repeat' split at hr
      all_goals (injection hr with h1 h2; cases h2)

theorem nameItem_counted {fs : FS} (hO : Ok A fs) (hg : fs.gen ≠ none) (name : Name) (hn : GoodName A name)
    (h : Counted A (fs.fields.map Fld.name) fs.counts) :
    (Free A (nameItem fs name).1 ∨ (nameItem fs name).1 ∉ fs.fields.map Fld.name) ∧
    Counted A (fs.fields.map Fld.name ++ [(nameItem fs name).1]) (nameItem fs name).2 := by
  have h1 := (nameItem_ok hO hg name hn).2
  refine ⟨h1.imp (fun e => e.2) (fun e => e.1), ?_⟩
  unfold nameItem at *
  by_cases ha : isArray name = true
  · rw [if_pos ha, uniqueName_eq]
    exact counted_next _ h
  · rw [if_neg ha]
    simp only
    rcases hn with hn | hn
    · exact absurd hn.1 ha
    · exact (counted_plain hn.2.2).mpr h

theorem addField_counted {fuel : Nat} {af : Bool} {ctx : Int} {fs : FS} {item : Item} (hO : Ok A fs) (hg : fs.gen ≠ none)
    (hi : GoodItem A item) (h : Counted A (fs.fields.map Fld.name) fs.counts) :
    NamesAfter A fs (addField fuel af ctx fs item) := by
  cases fuel with
  | zero => rw [addField]; exact Or.inl ⟨rfl, by simp⟩
  | succ fuel =>
    cases hi with
    | leaf _ name size hn =>
      rw [addField]
      obtain ⟨e1, e2⟩ := nameItem_counted hO hg name hn h
      rcases hu : nameItem fs name with ⟨n, counts⟩
      rw [hu] at e1 e2
      simp only at e1 e2 ⊢
      cases size with
      | error e => exact Or.inl ⟨rfl, by simp⟩
      | ok s => exact placeField_counted (fs := { fs with counts := counts }) e1 e2
    | set _ name declared A' gen hn hgen =>
      rw [addField]
      obtain ⟨e1, e2⟩ := nameItem_counted hO hg name hn h
      rcases hu : nameItem fs name with ⟨n, counts⟩
      rw [hu] at e1 e2
      simp only at e1 e2 ⊢
      cases declared with
      | some z => exact placeField_counted (fs := { fs with counts := counts }) e1 e2
      | none =>
        simp only
        split
        · exact placeField_counted (fs := { fs with counts := counts }) e1 e2
        · exact Or.inl ⟨rfl, by simp⟩
        · split
          · split
            · exact placeField_counted (fs := { fs with counts := counts }) e1 e2
            · exact Or.inl ⟨rfl, by simp⟩
          · exact Or.inl ⟨rfl, by simp⟩

theorem noGaps_raw {l : List Name} {o : Option Fld} (hl : NoGaps A l) (ho : ∀ f, o = some f → f.name = rawName) :
    NoGaps A (l ++ o.toList.map Fld.name) := by
  cases o with
  | none => simpa using hl
  | some f =>
    intro k i hA hi
    simp only [Option.toList_some, List.map_cons, List.map_nil, List.mem_append, List.mem_singleton,
      ho f rfl] at hi ⊢
    rcases hi with hi | hi
    · exact Or.inl (hl k i hA hi)
    · exact absurd hi (indexed_ne_raw _ _)

theorem fixLastField_name {fs : FS} {z : Nat} {fs' : FS} {new : Option Fld} (hO : Ok A fs) (hg : fs.gen ≠ none)
    (hz : fs.size = some z) (h : fixLastField fs z = .ok (fs', new)) :
    fs'.fields = fs.fields ++ new.toList ∧ ∀ f, new = some f → f.name = rawName := by
  obtain ⟨a, b, e1, e2, e3, e4, e5, e6, e7⟩ := fixLastField_ok hO hg z hz
  rw [h] at e1
  injection e1 with e1; injection e1 with e1 e1'
  subst e1; subst e1'
  refine ⟨e6, ?_⟩
  intro f hf
  rw [e7] at hf
  split at hf
  · cases hf
  · injection hf with hf; subst hf; rfl

theorem stop_noGaps {af : Bool} {fs : FS} (hO : Ok A fs) (hg : fs.gen ≠ none) (h : NoGaps A (fs.fields.map Fld.name)) :
    NoGaps A ((stopFeeding af fs).1.fields.map Fld.name) := by
  unfold stopFeeding
  cases hz : fs.size with
  | none => exact h
  | some z =>
    simp only
    split
    · split
      · split
        · rename_i hfix
          obtain ⟨e1, e2⟩ := fixLastField_name hO hg hz hfix
          simp only
          rw [e1, List.map_append]
          exact noGaps_raw h e2
        · exact h
      · exact h
    · exact h

theorem error_noGaps {af : Bool} {e : PyErr} {fs : FS} (hO : Ok A fs) (hg : fs.gen ≠ none)
    (h : NoGaps A (fs.fields.map Fld.name)) : NoGaps A ((fixFeedError af fs e).1.fields.map Fld.name) := by
  unfold fixFeedError
  cases hz : fs.size with
  | none => exact h
  | some z =>
    simp only
    split
    · split
      · rename_i hfix
        obtain ⟨e1, e2⟩ := fixLastField_name hO hg hz hfix
        simp only
        rw [e1, List.map_append]
        exact noGaps_raw h e2
      · exact h
    · exact h

theorem finish_fst (r : FS × Except PyErr (Option Fld)) : (finish r).1 = r.1 := by
  obtain ⟨a, b⟩ := r
  cases b <;> rfl

theorem finish_not_more (r : FS × Except PyErr (Option Fld)) (n : Name) : (finish r).2 ≠ .more n := by
  obtain ⟨a, b⟩ := r
  cases b <;> simp [finish]

theorem feedStep_counted {fuel : Nat} {af : Bool} {ctx : Int} {fs fs' : FS} {g : Gen} {res : Step} (hO : Ok A fs)
    (hg : fs.gen = some g) (h : Counted A (fs.fields.map Fld.name) fs.counts)
    (hr : feedStep fuel af ctx fs g = (fs', res)) :
    NoGaps A (fs'.fields.map Fld.name) ∧ ∀ n, res = .more n → Counted A (fs'.fields.map Fld.name) fs'.counts := by
  cases fuel with
  | zero =>
    rw [feedStep] at hr
    injection hr with h1 h2
    subst h1; subst h2
    exact ⟨h.noGaps, by simp⟩
  | succ fuel =>
    rw [feedStep] at hr
    have fin : ∀ r : FS × Except PyErr (Option Fld), finish r = (fs', res) → NoGaps A (r.1.fields.map Fld.name) →
        NoGaps A (fs'.fields.map Fld.name) ∧ ∀ n, res = .more n → Counted A (fs'.fields.map Fld.name) fs'.counts := by
      intro r hf hng
      have e1 : fs' = r.1 := by rw [← finish_fst r, hf]
      have e2 : res = (finish r).2 := by rw [hf]
      refine ⟨by rw [e1]; exact hng, ?_⟩
      intro n hn
      exact absurd (e2.symm.trans hn) (finish_not_more r n)
    cases hn : genNext g fs.view with
    | stop =>
      simp only [hn] at hr
      exact fin _ hr (stop_noGaps ((hO.calls (fs.calls + 1)).dead (by simp [hg])) (by simp) h.noGaps)
    | raise e =>
      simp only [hn] at hr
      exact fin _ hr (error_noGaps ((hO.calls (fs.calls + 1)).dead (by simp [hg])) (by simp) h.noGaps)
    | yield item =>
      simp only [hn] at hr
      have hA := (feed_ok fuel).1 _ af ctx { fs with calls := fs.calls + 1 } item (hO.calls _) (by simp [hg])
        (genNext_good (hO.good g hg) hn)
      have hC := addField_counted (fuel := fuel) (af := af) (ctx := ctx) (fs := { fs with calls := fs.calls + 1 })
        (hO.calls _) (by simp [hg]) (genNext_good (hO.good g hg) hn) h
      rcases hrr : addField fuel af ctx { fs with calls := fs.calls + 1 } item with ⟨a, r⟩
      rw [hrr] at hr hA hC
      have hga : a.gen ≠ none := by rw [hA.2.1]; simp [hg]
      have hng : NoGaps A (a.fields.map Fld.name) := by
        rcases hC with ⟨h1, _⟩ | h1
        · rw [h1]; exact h.noGaps
        · exact h1.noGaps
      cases r with
      | ok n =>
        simp only at hr
        injection hr with h1 h2
        subst h1; subst h2
        refine ⟨hng, fun m hm => ?_⟩
        rcases hC with ⟨_, h1⟩ | h1
        · exact absurd rfl (h1 n)
        · exact h1
      | stop => exact fin _ hr (stop_noGaps hA.1 hga hng)
      | raise e => exact fin _ hr (error_noGaps hA.1 hga hng)
      | fuel =>
        simp only at hr
        injection hr with h1 h2
        subst h1; subst h2
        exact ⟨hng, by simp⟩

theorem feedAll_noGaps {af : Bool} {ctx : Int} (fuel : Nat) :
    ∀ {fs fs' : FS} {res : Fed}, Ok A fs → Counted A (fs.fields.map Fld.name) fs.counts →
      feedAll fuel af ctx fs = (fs', res) → NoGaps A (fs'.fields.map Fld.name) := by
  induction fuel with
  | zero =>
    intro fs fs' res hO h hr
    rw [feedAll] at hr
    injection hr with h1 h2
    subst h1
    exact h.noGaps
  | succ fuel ih =>
    intro fs fs' res hO h hr
    rw [feedAll] at hr
    cases hg : fs.gen with
    | none =>
      simp only [hg] at hr
      injection hr with h1 h2
      subst h1
      exact h.noGaps
    | some g =>
      simp only [hg] at hr
      rcases hs : feedStep fuel af ctx fs g with ⟨a, r⟩
      rw [hs] at hr
      obtain ⟨c1, c2⟩ := feedStep_counted hO hg h hs
      have hO' := step_grows fuel af ctx hO hg hs
      cases r with
      | more n => exact ih hO'.1 (c2 n rfl) hr
      | done new => simp only at hr; injection hr with h1 h2; subst h1; exact c1
      | raise e => simp only at hr; injection hr with h1 h2; subst h1; exact c1
      | fuel => simp only at hr; injection hr with h1 h2; subst h1; exact c1

/-- Gaps do not appear in a shorter list either, as numbers grow. -/
theorem NoGaps.prefix {l m : List Name} (h : NoGaps A m) (hi : m.Pairwise (Before A)) (hp : l <+: m) : NoGaps A l := by
  obtain ⟨t, rfl⟩ := hp
  intro k i hA hm
  have h1 := h k i hA (List.mem_append_left _ hm)
  rcases List.mem_append.mp h1 with h2 | h2
  · exact h2
  · have := (List.pairwise_append.mp hi).2.2 _ hm _ h2 k (i + 1) i hA rfl rfl
    omega

end Hachoir.FieldSet
