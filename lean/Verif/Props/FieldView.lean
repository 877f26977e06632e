import Verif.Wx.FieldView
import Verif.Props.Path

/-!
# C186: the list of fields in the window
-/

namespace Hachoir.Props
open Hachoir Hachoir.FieldSet Hachoir.Wx

/-! ### Specification -/

/-- The row that a list with all rows has there. -/
def rowOf (parent : Bool) (item : Nat) : ListRow :=
  match parent, item with
  | true, 0 => .up
  | true, i + 1 => .field i
  | false, i => .field i

/-- All rows of a field set. -/
def allRows (total : Nat) (parent : Bool) : Nat := total + if parent then 1 else 0

/-! ### Proofs -/

theorem count_fields : ∀ (left count : Nat), count ≤ 1000 → countFields left count = min (left + count) 1001
  | 0, count, h => by rw [countFields]; omega
  | left + 1, count, h => by
    rw [countFields]
    split
    · omega
    · rw [count_fields left (count + 1) (by omega)]
      omega

/-- What holds of every list. -/
structure ListGood (v : ListView) : Prop where
  le : v.count ≤ v.total + v.above
  start : v.count = v.total + v.above ∨ 1001 + v.above ≤ v.count

theorem fill_good (total : Nat) (parent : Bool) : ListGood (fillView total parent) := by
  have h := count_fields total 0 (by omega)
  constructor
  · simp only [fillView, ListView.above, h]
    omega
  · simp only [fillView, ListView.above, h]
    omega

theorem more_rows (v : ListView) (i : Nat) (h : ListGood v) : ListGood (moreRows v i) ∧ v.count ≤ (moreRows v i).count ∧ (moreRows v i).total = v.total ∧ (moreRows v i).parent = v.parent := by
  have hle := h.le
  have hst := h.start
  unfold moreRows
  by_cases h1 : i + 1000 < v.total
  · rw [if_pos h1]
    by_cases h2 : v.count < i + 1000 + v.above
    · rw [if_pos h2]
      have ha : ({ v with count := i + 1000 + v.above } : ListView).above = v.above := rfl
      refine ⟨⟨?_, ?_⟩, ?_, rfl, rfl⟩
      · rw [ha]
        simp only
        omega
      · rw [ha]
        simp only
        omega
      · simp only
        omega
    · rw [if_neg h2]
      exact ⟨h, Nat.le_refl _, rfl, rfl⟩
  · rw [if_neg h1]
    exact ⟨⟨Nat.le_refl _, .inl rfl⟩, hle, rfl, rfl⟩

theorem look_good (v : ListView) (item : Nat) (h : ListGood v) : ListGood (lookAt v item).1 ∧ v.count ≤ (lookAt v item).1.count ∧ (lookAt v item).1.total = v.total ∧ (lookAt v item).1.parent = v.parent := by
  unfold lookAt
  split
  · exact ⟨h, Nat.le_refl _, rfl, rfl⟩
  · exact more_rows v _ h

theorem looks_good : ∀ (items : List Nat) (v : ListView), ListGood v → ListGood (items.foldl (fun v i => (lookAt v i).1) v) ∧ v.count ≤ (items.foldl (fun v i => (lookAt v i).1) v).count ∧
    (items.foldl (fun v i => (lookAt v i).1) v).total = v.total ∧ (items.foldl (fun v i => (lookAt v i).1) v).parent = v.parent
  | [], v, h => ⟨h, Nat.le_refl _, rfl, rfl⟩
  | i :: items, v, h => by
    have h1 := look_good v i h
    have h2 := looks_good items (lookAt v i).1 h1.1
    exact ⟨h2.1, Nat.le_trans h1.2.1 h2.2.1, h2.2.2.1.trans h1.2.2.1, h2.2.2.2.trans h1.2.2.2⟩

/-- **C186**: whatever was looked at before, the list has no more rows than there are, no fewer than before, and each of them shows its field (or the parent). -/
theorem C186_rows (total : Nat) (parent : Bool) (items : List Nat) (item : Nat) (v : ListView) (hv : v = items.foldl (fun v i => (lookAt v i).1) (fillView total parent)) (hi : item < v.count) :
    v.count ≤ allRows total parent ∧ v.count ≤ (lookAt v item).1.count ∧ (lookAt v item).2 = rowOf parent item := by
  obtain ⟨h1, h2, h3, h4⟩ := looks_good items (fillView total parent) (fill_good total parent)
  rw [← hv] at h1 h2 h3 h4
  have ht : v.total = total := h3
  have hp : v.parent = parent := h4
  have hle := h1.le
  rw [ht, ListView.above, hp] at hle
  refine ⟨hle, (look_good v item h1).2.1, ?_⟩
  unfold lookAt
  cases parent with
  | true =>
    rw [hp]
    cases item with
    | zero => rfl
    | succ i =>
      rw [if_neg (by simp), ListView.above, hp, ht]
      simp only [if_true] at hle ⊢
      rw [if_pos (by omega)]
      rfl
  | false =>
    rw [hp, if_neg (by simp), ListView.above, hp, ht]
    simp only [Bool.false_eq_true, if_false, Nat.sub_zero] at hle ⊢
    rw [if_pos (by omega)]
    rfl

/-- A look at the last row. -/
def lookLast (v : ListView) : ListView := (lookAt v (v.count - 1)).1

theorem last_more (v : ListView) (h : ListGood v) (hc : v.count < v.total + v.above) : v.count < (lookLast v).count := by
  have hst := h.start.resolve_left (by omega)
  unfold lookLast lookAt
  rw [if_neg (by omega)]
  unfold moreRows
  split
  · split
    · simp only
      omega
    · omega
  · exact hc

/-- **C186**: who goes to the last row again and again comes to the last field. -/
theorem C186_end (total : Nat) (parent : Bool) : (Nat.repeat lookLast total (fillView total parent)).count = allRows total parent := by
  have key : ∀ k, ListGood (Nat.repeat lookLast k (fillView total parent)) ∧ (Nat.repeat lookLast k (fillView total parent)).total = total ∧ (Nat.repeat lookLast k (fillView total parent)).parent = parent ∧
      ((Nat.repeat lookLast k (fillView total parent)).count = allRows total parent ∨ k ≤ (Nat.repeat lookLast k (fillView total parent)).count - (if parent then 1 else 0)) := by
    intro k
    induction k with
    | zero => exact ⟨fill_good total parent, rfl, rfl, .inr (Nat.zero_le _)⟩
    | succ k ih =>
      obtain ⟨h1, h2, h3, h4⟩ := ih
      rw [Nat.repeat]
      generalize Nat.repeat lookLast k (fillView total parent) = v at *
      have hg := look_good v (v.count - 1) h1
      refine ⟨hg.1, hg.2.2.1.trans h2, hg.2.2.2.trans h3, ?_⟩
      have hall : v.total + v.above = allRows total parent := by rw [h2, ListView.above, h3]; rfl
      have hle := hg.1.le
      have hab : (lookAt v (v.count - 1)).1.above = v.above := by rw [ListView.above, hg.2.2.2]; rfl
      rw [hab, hg.2.2.1, hall] at hle
      by_cases hc : v.count < v.total + v.above
      · have := last_more v h1 hc
        rw [hall] at hc
        unfold lookLast at this ⊢
        rcases h4 with h4 | h4
        · omega
        · right
          have hst := h1.start.resolve_left (by omega)
          rw [ListView.above, h3] at hst
          omega
      · left
        have := hg.2.1
        unfold lookLast
        omega
  obtain ⟨h1, h2, h3, h4⟩ := key total
  rcases h4 with h4 | h4
  · exact h4
  · have hle := h1.le
    rw [h2, ListView.above, h3] at hle
    have hst := h1.start
    rw [h2, ListView.above, h3] at hst
    rcases hst with h | h
    · exact h
    · rw [allRows]
      omega

theorem split_slash (n : Name) (h : '/' ∉ n) : split (n ++ ['/']) = [n, []] := by
  have := split_append n []
  rw [this, split_plain _ h]
  rfl

/-- **C186**: the field selected is the one whose row it is, for every existing field of a field set. -/
theorem C186_selected (fuel : Nat) (af const : Bool) (root sub : FS) (p : List Nat) (n : Name) (a : Nat) (j : Nat) (f : Fld)
    (hp : fieldAt root p = some (.set n a sub)) (hn : (sub.fields.map Fld.name).Nodup) (hj : sub.fields[j]? = some f) (hf : Proper f.name) :
    getField fuel af const root p (rowName f) = (root, .at (p ++ [j])) := by
  obtain ⟨c, hc, hc'⟩ := hf.2
  have hne : f.name ≠ [] := by intro e; rw [e] at hc; cases hc
  have hfirst : ∀ (x : Char) (r t : Name), f.name ++ t = x :: r → x ≠ '/' := by
    rintro x r t he rfl
    cases hnm : f.name with
    | nil => exact hne hnm
    | cons y s =>
      rw [hnm] at he
      have : y = '/' := by injection he
      exact hf.1 (by rw [hnm, this]; exact List.mem_cons_self)
  have hgo : ∀ t, getField fuel af const root p (f.name ++ t) = getParts fuel af const root p (split (f.name ++ t)) := by
    intro t
    cases hk : f.name ++ t with
    | nil =>
      simp only [List.append_eq_nil_iff] at hk
      exact absurd hk.1 hne
    | cons x r =>
      unfold getField
      simp only
      rw [if_neg (hfirst x r t hk)]
  have hone : getPart fuel af const root p f.name = (root, .at (p ++ [j])) := by
    rw [getPart_proper _ _ _ _ _ hf, childOf_existing fuel af const hp hn hj]
  cases f with
  | leaf m b c =>
    have := hgo []
    rw [List.append_nil, split_plain _ hf.1, getParts, hone] at this
    exact this
  | set m b s =>
    have := hgo ['/']
    rw [split_slash _ hf.1, getParts, hone] at this
    rw [show rowName (.set m b s) = (Fld.set m b s).name ++ ['/'] from rfl, this]
    simp only [getParts, getPart]
    rw [if_pos ⟨rfl, by simp⟩]
    simp only [List.length_nil, Nat.zero_sub, Nat.sub_zero, List.take_length]

/-- **C186**: the row `../` selects the parent. -/
theorem C186_parent (fuel : Nat) (af const : Bool) (root : FS) (p : List Nat) (i : Nat) : getField fuel af const root (p ++ [i]) "../".toList = (root, .at p) := by
  have hs : split "../".toList = [['.', '.'], []] := by decide
  have hc : "../".toList = '.' :: ['.', '/'] := by decide
  rw [hc] at hs ⊢
  unfold getField
  simp only
  rw [if_neg (by decide), hs]
  have : getPart fuel af const root (p ++ [i]) ['.', '.'] = (root, .at p) := by
    unfold getPart
    rw [if_pos ⟨by decide, by simp⟩]
    simp
  rw [getParts, this]
  simp [getParts, getPart]

/-! ### Examples -/

example : (lookAt (fillView 3000 true) 1001) = (⟨3000, true, 2001⟩, .field 1000) := by decide +kernel

example : allRows 3000 true = 3001 ∧ (lookLast (lookLast (fillView 3000 true))).count = 3000 ∧ (lookLast (lookLast (lookLast (fillView 3000 true)))).count = 3001 := by decide +kernel

end Hachoir.Props
