import Verif.Subfile.Search
import Verif.Props.Pattern
import Verif.Props.InputStream

/-!
# Property C40: the search for embedded files
-/

set_option linter.unusedVariables false
set_option linter.unusedSimpArgs false

namespace Hachoir.Props
open Hachoir Hachoir.Stream Hachoir.Regex Hachoir.Subfile

/-! ## Specification -/

/-- The text `t` occurs in the file at byte `i`. -/
def OccursAt (data : Bytes) (i : Nat) (t : List Nat) : Prop := t <+: (data.drop i).map UInt8.toNat

/-- What is assumed of the engine: at each position it reports one of the signatures beginning
there, and reports nothing only if none begins there. -/
def HitOk {C : Type} (adds : List (List Nat × User C)) (hit : List Nat → Nat → Option Nat) : Prop :=
  ∀ w i, match hit w i with
    | some j => ∃ x ∈ adds, j = i + x.1.length ∧ x.1 <+: w.drop i
    | none => ∀ x ∈ adds, ¬ x.1 <+: w.drop i

/-- The search over `data` with the signatures `adds`. -/
structure Searching {C : Type} (env : Env C) (data : Bytes) (adds : List (List Nat × User C)) : Prop where
  stream : stringInputStream data = .ok env.stream
  patterns : env.patterns = addStrings adds
  hit : HitOk adds env.hit
  ne : ∀ x ∈ adds, x.1 ≠ []
  len : env.maxLength ≠ 0

/-- A reported file that makes the search jump to `n`. -/
def SkipsTo {C : Type} (h : Hit C) (n : Int) : Prop :=
  h.obj.skip = true ∧ ∃ s, h.obj.contentSize = some s ∧ n = h.offset + s

/-- An engine that finds a match of the merged expression wherever there is one satisfies `HitOk`. -/
theorem hitOk_of_engine {C : Type} (isWord : Nat → Bool) (same : List Item → List Item → Bool)
    (hs : SoundSame same) (n : Nat) (adds : List (List Nat × User C)) (hne : adds ≠ []) (r : Rx) (len : Nat)
    (h : (addStrings adds).commit same n = some (r, len)) (hit : List Nat → Nat → Option Nat)
    (h1 : ∀ w i j, hit w i = some j → Matches isWord w r i j)
    (h2 : ∀ w i, hit w i = none → ∀ j, ¬ Matches isWord w r i j) : HitOk adds hit := by
  intro w i
  cases hh : hit w i with
  | some j => exact (C49_strings isWord w same hs n adds hne r len h i j).1 (h1 w i j hh)
  | none =>
    intro x hx hp
    exact h2 w i hh (i + x.1.length)
      ((C49_strings isWord w same hs n adds hne r len h i _).2 ⟨x, hx, rfl, hp⟩)

/-! ## One slice -/

theorem finditer_sound {C : Type} (adds : List (List Nat × User C)) (hit : List Nat → Nat → Option Nat)
    (hh : HitOk adds hit) (w : List Nat) : ∀ pos, ∀ m ∈ finditer hit w pos,
      pos ≤ m.1 ∧ ∃ x ∈ adds, m.2 = m.1 + x.1.length ∧ x.1 <+: w.drop m.1 := by
  intro pos
  induction hn : w.length - pos using Nat.strongRecOn generalizing pos with
  | _ n ih =>
    intro m hm
    rw [finditer.eq_def] at hm
    split at hm
    · rename_i hp
      have hk := hh w pos
      cases hq : hit w pos with
      | none =>
        rw [hq] at hm
        simp only at hm
        obtain ⟨a, b⟩ := ih _ (by omega) (pos + 1) rfl m hm
        exact ⟨by omega, b⟩
      | some j =>
        rw [hq] at hm hk
        simp only at hm hk
        split at hm
        · rename_i hj
          rcases List.mem_cons.1 hm with rfl | hm
          · exact ⟨Nat.le_refl _, hk⟩
          · obtain ⟨a, b⟩ := ih _ (by omega) j rfl m hm
            exact ⟨by omega, b⟩
        · obtain ⟨a, b⟩ := ih _ (by omega) (pos + 1) rfl m hm
          exact ⟨by omega, b⟩
    · simp at hm

/-- Every occurrence lies at or inside one of the matches. -/
theorem finditer_complete {C : Type} (adds : List (List Nat × User C)) (hit : List Nat → Nat → Option Nat)
    (hh : HitOk adds hit) (hne : ∀ x ∈ adds, x.1 ≠ []) (w : List Nat) (x : List Nat × User C) (hx : x ∈ adds) (i : Nat)
    (hi : x.1 <+: w.drop i) : ∀ pos, pos ≤ i → ∃ m ∈ finditer hit w pos, m.1 ≤ i ∧ i < m.2 := by
  have hlen : i < w.length := by
    have h1 := hi.length_le
    have h2 := List.length_pos_iff.2 (hne x hx)
    simp only [List.length_drop] at h1
    omega
  intro pos
  induction hn : w.length - pos using Nat.strongRecOn generalizing pos with
  | _ n ih =>
    intro hpi
    rw [finditer.eq_def]
    have hp : pos < w.length := by omega
    rw [dif_pos hp]
    have hk := hh w pos
    cases hq : hit w pos with
    | none =>
      rw [hq] at hk
      simp only at hk ⊢
      have : pos ≠ i := by rintro rfl; exact hk x hx hi
      exact ih _ (by omega) (pos + 1) rfl (by omega)
    | some j =>
      rw [hq] at hk
      simp only at hk ⊢
      obtain ⟨y, hy, hj, hpre⟩ := hk
      have := List.length_pos_iff.2 (hne y hy)
      rw [if_pos (by omega)]
      by_cases hij : i < j
      · exact ⟨(pos, j), by simp, hpi, hij⟩
      · obtain ⟨m, hm, h⟩ := ih _ (by omega) j rfl (by omega)
        exact ⟨m, by simp [hm], h⟩

/-- Every match has a pattern: `items` never raises and keeps the matches. -/
theorem items_ok {C : Type} (env : Env C) (data : Bytes) (adds : List (List Nat × User C)) (hs : Searching env data adds)
    (w : List Nat) (l : List (Nat × Nat))
    (hl : ∀ m ∈ l, ∃ x ∈ adds, m.2 = m.1 + x.1.length ∧ x.1 <+: w.drop m.1) :
    ∃ r, items env w l = .ok r ∧ ∀ y, y ∈ r ↔ ∃ m ∈ l, ∃ x,
      adds.find? (fun z => z.1 = (w.drop m.1).take (m.2 - m.1)) = some x ∧
      y = (x.2.2, (m.1 : Int) * 8 - x.2.1) := by
  induction l with
  | nil => exact ⟨[], rfl, by simp⟩
  | cons m l ih =>
    obtain ⟨r, hr, hmem⟩ := ih (fun m hm => hl m (by simp [hm]))
    obtain ⟨a, b⟩ := m
    obtain ⟨x, hx, hb, hpre⟩ := hl (a, b) (by simp)
    simp only at hb hpre
    have ht : (w.drop a).take (b - a) = x.1 := by
      obtain ⟨t, ht⟩ := hpre
      rw [← ht, hb]
      simp
    have : (adds.find? (fun z => z.1 = (w.drop a).take (b - a))).isSome := by
      rw [List.find?_isSome]; exact ⟨x, hx, by simp [ht]⟩
    obtain ⟨y, hy⟩ := Option.isSome_iff_exists.1 this
    have hg : env.patterns.getPattern env.hitOne ((w.drop a).take (b - a)) = some y.2 := by
      unfold Patterns.getPattern
      rw [hs.patterns, (addStrings_spec adds).2.2.2, hy]
    refine ⟨(y.2.2, (a : Int) * 8 - y.2.1) :: r, by simp only [items, hg, hr], ?_⟩
    intro z
    simp only [List.mem_cons, hmem, exists_eq_or_imp, hy, Option.some.injEq, exists_eq_left']

theorem prefix_slice (w t : List Nat) (ht : t ≠ []) (p n i : Nat) :
    t <+: ((w.drop p).take n).drop i ↔ t <+: w.drop (p + i) ∧ i + t.length ≤ n := by
  have h0 := List.length_pos_iff.2 ht
  rw [List.drop_take, List.drop_drop, List.prefix_take_iff]
  constructor
  · rintro ⟨a, b⟩; exact ⟨a, by omega⟩
  · rintro ⟨a, b⟩; exact ⟨a, by omega⟩

theorem readBytes_ok (data : Bytes) (s : InputStream) (hs : stringInputStream data = .ok s) (a n : Nat) (d : Bytes)
    (h : readBytes s (a : Int) n = .ok d) : a % 8 = 0 ∧ d = (data.drop (a / 8)).take n := by
  by_cases ha : a % 8 = 0
  · refine ⟨ha, ?_⟩
    obtain ⟨p, rfl⟩ : ∃ p, a = 8 * p := ⟨a / 8, by omega⟩
    rw [_root_.Props.C04_readBytes data s hs p n] at h
    split at h
    · have : 8 * p / 8 = p := by omega
      rw [this]
      cases h; rfl
    · cases h
  · rcases _root_.Props.C04_readBytes_unaligned data s hs a n ha with h1 | h1 <;> rw [h1] at h <;> cases h

/-- The candidates of one slice are exactly the non-overlapping matches in it. -/
theorem search_slice {C : Type} (env : Env C) (data : Bytes) (adds : List (List Nat × User C)) (hs : Searching env data adds)
    (p n : Nat) : ∃ l, search env ((data.drop p).take n) = .ok l ∧
      (∀ y ∈ l, ∃ i x, x ∈ adds ∧ OccursAt data (p + i) x.1 ∧ i + x.1.length ≤ n ∧
        adds.find? (fun z => z.1 = x.1) = some x ∧ y = (x.2.2, (i : Int) * 8 - x.2.1)) ∧
      ∀ i x, x ∈ adds → OccursAt data (p + i) x.1 → i + x.1.length ≤ n → ∃ j y, y ∈ adds ∧ j ≤ i ∧ i < j + y.1.length ∧
        OccursAt data (p + j) y.1 ∧ j + y.1.length ≤ n ∧ adds.find? (fun z => z.1 = y.1) = some y ∧
        (y.2.2, (j : Int) * 8 - y.2.1) ∈ l := by
  obtain ⟨w, hw⟩ : ∃ w, w = ((data.drop p).take n).map UInt8.toNat := ⟨_, rfl⟩
  have hocc : ∀ i t, t ≠ [] → (t <+: w.drop i ↔ OccursAt data (p + i) t ∧ i + t.length ≤ n) := by
    intro i t ht
    have := prefix_slice (data.map UInt8.toNat) t ht p n i
    rw [hw, List.map_take, List.map_drop, this]
    unfold OccursAt
    rw [List.map_drop]
  have hsound := finditer_sound adds env.hit hs.hit w 0
  obtain ⟨l, hl, hmem⟩ := items_ok env data adds hs w (finditer env.hit w 0) (fun m hm => (hsound m hm).2)
  have key : ∀ m ∈ finditer env.hit w 0, ∃ x ∈ adds, m.2 = m.1 + x.1.length ∧ OccursAt data (p + m.1) x.1 ∧
      m.1 + x.1.length ≤ n ∧ adds.find? (fun z => z.1 = x.1) = some x ∧
      (w.drop m.1).take (m.2 - m.1) = x.1 := by
    intro m hm
    obtain ⟨_, x, hx, h1, h2⟩ := hsound m hm
    have ht : (w.drop m.1).take (m.2 - m.1) = x.1 := by
      obtain ⟨t, ht⟩ := h2
      rw [← ht, h1]
      simp
    obtain ⟨y, hy⟩ := Option.isSome_iff_exists.1 (show (adds.find? (fun z => z.1 = x.1)).isSome by
      rw [List.find?_isSome]; exact ⟨x, hx, by simp⟩)
    have hyx : y.1 = x.1 := by simpa using List.find?_some hy
    have := (hocc m.1 x.1 (hs.ne x hx)).1 h2
    refine ⟨y, List.mem_of_find?_eq_some hy, ?_, ?_, ?_, ?_, ?_⟩ <;> rw [hyx]
    · exact h1
    · exact this.1
    · exact this.2
    · exact hy
    · exact ht
  refine ⟨l, by unfold search; rw [if_neg hs.len, ← hw, hl], ?_, ?_⟩
  · intro y hy
    obtain ⟨m, hm, x, hx, rfl⟩ := (hmem y).1 hy
    obtain ⟨x', hx', h1, h2, h3, h4, h5⟩ := key m hm
    rw [h5, h4] at hx
    have hxx : x' = x := by simpa using hx
    subst hxx
    exact ⟨m.1, x', hx', h2, h3, h4, rfl⟩
  · intro i x hx h1 h2
    obtain ⟨m, hm, h3, h4⟩ := finditer_complete adds env.hit hs.hit hs.ne w x hx i
      ((hocc i x.1 (hs.ne x hx)).2 ⟨h1, h2⟩) 0 (Nat.zero_le _)
    obtain ⟨y, hy, k1, k2, k3, k4, k5⟩ := key m hm
    refine ⟨m.1, y, hy, h3, by omega, k2, k3, k4, ?_⟩
    exact (hmem _).2 ⟨m, hm, y, by rw [k5, k4], rfl⟩

/-! ## The loop over the candidates of a slice -/

theorem magicLoop_sound {C : Type} (env : Env C) (start stop : Nat) (l : List (C × Int)) : ∀ next,
    ∀ h ∈ (magicLoop env start stop next l).1, (h.cls, h.offset - start) ∈ l ∧ 0 ≤ h.offset ∧
      env.guess h.offset h.cls = some h.obj := by
  induction l with
  | nil => intro next h hh; simp [magicLoop] at hh
  | cons a l ih =>
    obtain ⟨c, o⟩ := a
    intro next h hh
    have weak : ∀ next, h ∈ (magicLoop env start stop next l).1 →
        (h.cls, h.offset - start) ∈ (c, o) :: l ∧ 0 ≤ h.offset ∧ env.guess h.offset h.cls = some h.obj :=
      fun next h1 => ⟨by simp [(ih next h h1).1], (ih next h h1).2⟩
    simp only [magicLoop] at hh
    split at hh
    · exact weak _ hh
    split at hh
    · exact weak _ hh
    rename_i h0 hb
    cases hg : env.guess (o + start) c with
    | none => rw [hg] at hh; exact weak _ hh
    | some obj =>
      rw [hg] at hh
      have top : h = ⟨o + start, c, obj⟩ → (h.cls, h.offset - start) ∈ (c, o) :: l ∧ 0 ≤ h.offset ∧
          env.guess h.offset h.cls = some h.obj := by
        rintro rfl
        refine ⟨?_, by simpa using h0, hg⟩
        have : o + (start : Int) - start = o := by omega
        simp [this]
      simp only at hh
      cases hc : obj.contentSize with
      | none =>
        rw [hc] at hh
        rcases List.mem_cons.1 hh with hh | hh
        · exact top hh
        · exact weak _ hh
      | some size =>
        rw [hc] at hh
        simp only at hh
        split at hh
        · split at hh
          · exact top (by simpa using hh)
          · rcases List.mem_cons.1 hh with hh | hh
            · exact top hh
            · exact weak _ hh
        · rcases List.mem_cons.1 hh with hh | hh
          · exact top hh
          · exact weak _ hh

theorem magicLoop_next {C : Type} (env : Env C) (start stop : Nat) (l : List (C × Int)) : ∀ next,
    (magicLoop env start stop next l).2 = next ∨
      ∃ h ∈ (magicLoop env start stop next l).1, ∃ n, SkipsTo h n ∧ (magicLoop env start stop next l).2 = some n := by
  induction l with
  | nil => intro next; left; rfl
  | cons a l ih =>
    obtain ⟨c, o⟩ := a
    intro next
    simp only [magicLoop]
    split
    · exact ih next
    split
    · exact ih next
    cases hg : env.guess (o + start) c with
    | none => exact ih next
    | some obj =>
      simp only
      have weak : ∀ next, ((magicLoop env start stop next l).2 = next ∨
          ∃ h ∈ (magicLoop env start stop next l).1, ∃ n, SkipsTo h n ∧ (magicLoop env start stop next l).2 = some n) →
          ((magicLoop env start stop next l).2 = next ∨
          ∃ h ∈ (⟨o + start, c, obj⟩ : Hit C) :: (magicLoop env start stop next l).1, ∃ n, SkipsTo h n ∧
            (magicLoop env start stop next l).2 = some n) := by
        rintro next (h | ⟨h, hh, r⟩)
        · exact Or.inl h
        · exact Or.inr ⟨h, by simp [hh], r⟩
      cases hc : obj.contentSize with
      | none => exact weak _ (ih next)
      | some size =>
        simp only
        split
        · rename_i hsk
          have hskip : SkipsTo (⟨o + start, c, obj⟩ : Hit C) (o + start + size) := ⟨hsk, size, hc, rfl⟩
          split
          · exact Or.inr ⟨_, by simp, _, hskip, rfl⟩
          · rcases weak _ (ih (some (o + start + size))) with h | h
            · exact Or.inr ⟨_, by simp, _, hskip, h⟩
            · exact Or.inr h
        · exact weak _ (ih next)

theorem magicLoop_complete {C : Type} (env : Env C) (start stop : Nat) (l : List (C × Int)) (c : C) (o : Int) (obj : Obj)
    (hm : (c, o) ∈ l) (h0 : 0 ≤ o + start) (h1 : o + start < stop) (hg : env.guess (o + start) c = some obj) : ∀ next,
    (⟨o + start, c, obj⟩ : Hit C) ∈ (magicLoop env start stop next l).1 ∨
      (∃ n, next = some n ∧ o + start < n) ∨
      ∃ h ∈ (magicLoop env start stop next l).1, ∃ n, SkipsTo h n ∧ o + start < n := by
  induction l with
  | nil => simp at hm
  | cons a l ih =>
    obtain ⟨c', o'⟩ := a
    intro next
    have hbl : ∀ x : Int, blocked next x = true → ∃ n, next = some n ∧ x < n := by
      intro x hx
      unfold blocked at hx
      cases next with
      | none => simp at hx
      | some n => exact ⟨n, rfl, by simp at hx; exact hx.2⟩
    rcases List.mem_cons.1 hm with he | hm'
    · cases he
      simp only [magicLoop]
      rw [if_neg (by omega)]
      split
      · rename_i hb
        exact Or.inr (Or.inl (hbl _ hb))
      · rw [hg]
        simp only
        left
        cases hc : obj.contentSize with
        | none => simp
        | some size =>
          simp only
          split
          · split <;> simp
          · simp
    · specialize ih hm'
      simp only [magicLoop]
      split
      · exact ih next
      split
      · exact ih next
      cases hg' : env.guess (o' + start) c' with
      | none => exact ih next
      | some obj' =>
        simp only
        have weak : ∀ next', (∃ n, next' = some n ∧ o + start < n) ∨ (⟨o + start, c, obj⟩ : Hit C) ∈ (magicLoop env start stop next' l).1 ∨
            (∃ h ∈ (magicLoop env start stop next' l).1, ∃ n, SkipsTo h n ∧ o + start < n) →
            (∃ n, next' = some n ∧ o + start < n) ∨
            (⟨o + start, c, obj⟩ : Hit C) ∈ (⟨o' + start, c', obj'⟩ : Hit C) :: (magicLoop env start stop next' l).1 ∨
            ∃ h ∈ (⟨o' + start, c', obj'⟩ : Hit C) :: (magicLoop env start stop next' l).1, ∃ n, SkipsTo h n ∧ o + start < n := by
          rintro next' (h | h | ⟨h, hh, r⟩)
          · exact Or.inl h
          · exact Or.inr (Or.inl (by simp [h]))
          · exact Or.inr (Or.inr ⟨h, by simp [hh], r⟩)
        have plain := weak next (by rcases ih next with h | h | h
                                    · exact Or.inr (Or.inl h)
                                    · exact Or.inl h
                                    · exact Or.inr (Or.inr h))
        cases hc : obj'.contentSize with
        | none =>
          rcases plain with h | h | h
          · exact Or.inr (Or.inl h)
          · exact Or.inl h
          · exact Or.inr (Or.inr h)
        | some size =>
          simp only
          split
          · rename_i hsk
            have hskip : SkipsTo (⟨o' + start, c', obj'⟩ : Hit C) (o' + start + size) := ⟨hsk, size, hc, rfl⟩
            split
            · exact Or.inr (Or.inr ⟨_, by simp, _, hskip, by omega⟩)
            · rcases weak (some (o' + start + size)) (by
                rcases ih (some (o' + start + size)) with h | h | h
                · exact Or.inr (Or.inl h)
                · exact Or.inl h
                · exact Or.inr (Or.inr h)) with h | h | h
              · obtain ⟨n, h1, h2⟩ := h
                cases h1
                exact Or.inr (Or.inr ⟨_, by simp, _, hskip, h2⟩)
              · exact Or.inl h
              · exact Or.inr (Or.inr h)
          · rcases plain with h | h | h
            · exact Or.inr (Or.inl h)
            · exact Or.inl h
            · exact Or.inr (Or.inr h)

/-! ## The loop over the slices -/

theorem findMagic_ok {C : Type} (env : Env C) (size : Nat) (next next' : Option Int) (start : Nat) (v : Visit C)
    (h : findMagic env size next start = .ok (v, next')) :
    v.start = start ∧ v.stop = min (start + sliceSize env) size ∧
      ∃ d l, readBytes env.stream (start : Int) ((v.stop - start) / 8) = .ok d ∧ search env d = .ok l ∧
        magicLoop env start v.stop next l = (v.found, next') := by
  unfold findMagic at h
  simp only at h
  split at h
  · cases h
  · rename_i d hd
    split at h
    · cases h
    · rename_i l hl
      cases h
      exact ⟨rfl, rfl, d, l, hd, hl, rfl⟩

theorem sliceLoop_cases {C : Type} (env : Env C) (size : Nat) (next : Option Int) (current : Nat) (vs : List (Visit C))
    (h : sliceLoop env size next current = .ok vs) :
    (size ≤ current ∧ vs = []) ∨ (current < size ∧ ∃ v next' l, findMagic env size next current = .ok (v, next') ∧
      sliceLoop env size next' (nextCurrent env size current next') = .ok l ∧ vs = v :: l) := by
  rw [sliceLoop.eq_def] at h
  split at h
  · rename_i hc
    right
    refine ⟨hc, ?_⟩
    split at h
    · cases h
    · rename_i v next' hf
      split at h
      · cases h
      · rename_i l hl
        cases h
        exact ⟨v, next', l, hf, hl, rfl⟩
  · left
    cases h
    exact ⟨by omega, rfl⟩

theorem sliceLoop_visits {C : Type} (env : Env C) (size : Nat) : ∀ (k : Nat) (next : Option Int) (current : Nat) (vs : List (Visit C)),
    size - current = k → sliceLoop env size next current = .ok vs → ∀ v ∈ vs, current ≤ v.start ∧ v.start < size ∧
      ∃ n n', findMagic env size n v.start = .ok (v, n') ∧
        (n = next ∨ ∃ u ∈ vs, ∃ h ∈ u.found, ∃ t, SkipsTo h t ∧ n = some t) := by
  intro k
  induction k using Nat.strongRecOn with
  | _ k ih =>
    intro next current vs hk h v hv
    rcases sliceLoop_cases env size next current vs h with ⟨_, rfl⟩ | ⟨hc, w, next', l, hf, hl, rfl⟩
    · simp at hv
    · have hlt := nextCurrent_lt env size current next' hc
      obtain ⟨f1, f2, d, lst, f3, f4, f5⟩ := findMagic_ok env size next next' current w hf
      rcases List.mem_cons.1 hv with rfl | hv
      · refine ⟨by omega, by omega, next, next', ?_, Or.inl rfl⟩
        rw [f1]; exact hf
      · obtain ⟨a, b, n, n', c, d'⟩ := ih _ (by omega) next' _ l rfl hl v hv
        refine ⟨by omega, b, n, n', c, ?_⟩
        rcases d' with rfl | ⟨u, hu, h, hh, t, r⟩
        · have := magicLoop_next env current w.stop lst next
          rw [f5] at this
          rcases this with h | ⟨h, hh, t, ht, hn⟩
          · exact Or.inl h
          · exact Or.inr ⟨w, by simp, h, hh, t, ht, hn⟩
        · exact Or.inr ⟨u, by simp [hu], h, hh, t, r⟩

theorem sliceLoop_cover {C : Type} (env : Env C) (size : Nat) : ∀ (k : Nat) (next : Option Int) (current : Nat) (vs : List (Visit C)),
    size - current = k → (∀ n, next = some n → n ≤ current ∨ size ≤ current) →
    sliceLoop env size next current = .ok vs → ∀ a, current ≤ a → a < size →
      (∃ v ∈ vs, v.start ≤ a ∧ a < v.stop) ∨
      ∃ v ∈ vs, v.stop ≤ a ∧ ∃ h ∈ v.found, ∃ t, SkipsTo h t ∧ (a : Int) < t := by
  intro k
  induction k using Nat.strongRecOn with
  | _ k ih =>
    intro next current vs hk hn h a ha1 ha2
    rcases sliceLoop_cases env size next current vs h with ⟨_, rfl⟩ | ⟨hc, w, next', l, hf, hl, rfl⟩
    · omega
    · have hlt := nextCurrent_lt env size current next' hc
      obtain ⟨f1, f2, d, lst, f3, f4, f5⟩ := findMagic_ok env size next next' current w hf
      by_cases hs : a < w.stop
      · exact Or.inl ⟨w, by simp, by omega, hs⟩
      · by_cases hnc : nextCurrent env size current next' ≤ a
        · rcases ih _ (by omega) next' _ l rfl (by
            intro n hn'
            subst hn'
            unfold nextCurrent
            simp only
            omega) hl a hnc ha2 with ⟨v, hv, r⟩ | ⟨v, hv, r⟩
          · exact Or.inl ⟨v, by simp [hv], r⟩
          · exact Or.inr ⟨v, by simp [hv], r⟩
        · right
          refine ⟨w, by simp, by omega, ?_⟩
          have := magicLoop_next env current w.stop lst next
          rw [f5] at this
          simp only at this
          unfold nextCurrent at hnc
          cases hx : next' with
          | none => rw [hx] at hnc; simp only at hnc; omega
          | some n =>
            rw [hx] at hnc this
            simp only at hnc
            rcases this with h | ⟨h, hh, t, ht, hnt⟩
            · have := hn n h.symm
              omega
            · cases hnt
              exact ⟨h, hh, n, ht, by omega⟩

theorem sliceLoop_slices {C : Type} (env : Env C) (size : Nat) : ∀ (k : Nat) (next : Option Int) (current : Nat) (vs : List (Visit C)),
    size - current = k → sliceLoop env size next current = .ok vs →
      vs.Pairwise (fun v w => v.stop ≤ w.start) ∧ (vs ≠ [] → vs.length * sliceSize env < size - current + sliceSize env) := by
  intro k
  induction k using Nat.strongRecOn with
  | _ k ih =>
    intro next current vs hk h
    rcases sliceLoop_cases env size next current vs h with ⟨_, rfl⟩ | ⟨hc, w, next', l, hf, hl, rfl⟩
    · simp
    · have hlt := nextCurrent_lt env size current next' hc
      obtain ⟨f1, f2, d, lst, f3, f4, f5⟩ := findMagic_ok env size next next' current w hf
      obtain ⟨i1, i2⟩ := ih _ (by omega) next' _ l rfl hl
      have hmin : min (current + sliceSize env) size ≤ nextCurrent env size current next' := by
        unfold nextCurrent
        cases next' <;> simp only <;> omega
      refine ⟨List.pairwise_cons.2 ⟨?_, i1⟩, fun _ => ?_⟩
      · intro v hv
        have := (sliceLoop_visits env size _ next' _ l rfl hl v hv).1
        omega
      · cases l with
        | nil => simp only [List.length_cons, List.length_nil]; omega
        | cons x xs =>
          have := i2 (by simp)
          obtain ⟨a, b, _⟩ := sliceLoop_visits env size _ next' _ _ rfl hl x (by simp)
          rw [List.length_cons, Nat.add_mul]
          omega

/-! ## Theorems -/

/-- The end of the searched range in bits. -/
def rangeEnd (data : Bytes) (offset : Nat) (size : Option Nat) : Nat :=
  match size with
  | none => 8 * data.length
  | some n => min (8 * data.length) (8 * (offset + n))

theorem run_eq {C : Type} (env : Env C) (data : Bytes) (offset : Nat) (size : Option Nat) :
    run env (8 * data.length) offset size = sliceLoop env (rangeEnd data offset size) none (8 * offset) := by
  unfold run rangeEnd
  cases size <;> simp only [Nat.mul_comm]

/-- What a visited slice contains. -/
theorem visit_spec {C : Type} (env : Env C) (data : Bytes) (adds : List (List Nat × User C)) (hs : Searching env data adds)
    (size : Nat) (next next' : Option Int) (v : Visit C) (h : findMagic env size next v.start = .ok (v, next')) :
    ∃ p l, v.start = 8 * p ∧ v.stop = min (v.start + sliceSize env) size ∧
      magicLoop env v.start v.stop next l = (v.found, next') ∧
      (∀ y ∈ l, ∃ i x, x ∈ adds ∧ OccursAt data (p + i) x.1 ∧ i + x.1.length ≤ (v.stop - v.start) / 8 ∧
        adds.find? (fun z => z.1 = x.1) = some x ∧ y = (x.2.2, (i : Int) * 8 - x.2.1)) ∧
      ∀ i x, x ∈ adds → OccursAt data (p + i) x.1 → i + x.1.length ≤ (v.stop - v.start) / 8 →
        ∃ j y, y ∈ adds ∧ j ≤ i ∧ i < j + y.1.length ∧
        OccursAt data (p + j) y.1 ∧ j + y.1.length ≤ (v.stop - v.start) / 8 ∧ adds.find? (fun z => z.1 = y.1) = some y ∧
        (y.2.2, (j : Int) * 8 - y.2.1) ∈ l := by
  obtain ⟨f1, f2, d, l, f3, f4, f5⟩ := findMagic_ok env size next next' v.start v h
  obtain ⟨ha, hd⟩ := readBytes_ok data env.stream hs.stream _ _ d f3
  obtain ⟨l', g1, g2, g3⟩ := search_slice env data adds hs (v.start / 8) ((v.stop - v.start) / 8)
  rw [← hd, f4] at g1
  cases g1
  exact ⟨v.start / 8, l, by omega, f2, f5, g2, g3⟩

/-- Everything reported is real: there is an occurrence of a signature in the searched range, the
file offset is where that signature puts the start of the file, the class is the one registered
first with that signature and it accepted the data. -/
theorem C40_sound {C : Type} (env : Env C) (data : Bytes) (adds : List (List Nat × User C)) (hs : Searching env data adds)
    (offset : Nat) (size : Option Nat) (vs : List (Visit C)) (h : run env (8 * data.length) offset size = .ok vs)
    (v : Visit C) (hv : v ∈ vs) (f : Hit C) (hf : f ∈ v.found) :
    ∃ I x, adds.find? (fun z => z.1 = x.1) = some x ∧ OccursAt data I x.1 ∧ offset ≤ I ∧
      8 * (I + x.1.length) ≤ rangeEnd data offset size ∧ v.start ≤ 8 * I ∧ 8 * (I + x.1.length) ≤ v.stop ∧
      f.offset = 8 * I - x.2.1 ∧ f.cls = x.2.2 ∧ 0 ≤ f.offset ∧ env.guess f.offset f.cls = some f.obj := by
  rw [run_eq] at h
  obtain ⟨h1, h2, n, n', h3, _⟩ := sliceLoop_visits env _ _ _ _ vs rfl h v hv
  obtain ⟨p, l, k1, k2, k3, k4, _⟩ := visit_spec env data adds hs _ n n' v h3
  have hsnd := magicLoop_sound env v.start v.stop l n f (by rw [k3]; exact hf)
  obtain ⟨i, x, hx, g1, g2, g3, g4⟩ := k4 _ hsnd.1
  simp only [Prod.mk.injEq] at g4
  refine ⟨p + i, x, g3, g1, by omega, by omega, by omega, by omega, by push_cast; omega, g4.1, hsnd.2⟩

/-- The slices do not overlap and cover the range, except for what lies inside a reported file
that the search skips; there are at most `range / slice size`, rounded up, of them. -/
theorem C40_cover {C : Type} (env : Env C) (data : Bytes) (adds : List (List Nat × User C)) (hs : Searching env data adds)
    (hm : ∀ x ∈ adds, 0 ≤ x.2.1)
    (offset : Nat) (size : Option Nat) (vs : List (Visit C)) (h : run env (8 * data.length) offset size = .ok vs) :
    vs.Pairwise (fun v w => v.stop ≤ w.start) ∧
      (vs ≠ [] → vs.length * sliceSize env < rangeEnd data offset size - 8 * offset + sliceSize env) ∧
      ∀ a, 8 * offset ≤ a → a < rangeEnd data offset size →
        (∃ v ∈ vs, v.start ≤ a ∧ a < v.stop) ∨
        ∃ v ∈ vs, ∃ f ∈ v.found, f.offset ≤ a ∧ ∃ t, SkipsTo f t ∧ (a : Int) < t := by
  have h' := h
  rw [run_eq] at h
  obtain ⟨s1, s2⟩ := sliceLoop_slices env _ _ _ _ vs rfl h
  refine ⟨s1, s2, fun a ha1 ha2 => ?_⟩
  rcases sliceLoop_cover env _ _ none _ vs rfl (by simp) h a ha1 ha2 with r | ⟨v, hv, h1, f, hf, r⟩
  · exact Or.inl r
  · refine Or.inr ⟨v, hv, f, hf, ?_, r⟩
    obtain ⟨I, x, g1, g2, g3, g4, g5, g6, g7, _⟩ := C40_sound env data adds hs offset size vs h' v hv f hf
    have := hm x (List.mem_of_find?_eq_some g1)
    omega

/-- Every occurrence of a signature in the range that no other occurrence overlaps from the left
is reported if its class accepts the data, unless it straddles the end of a slice or the file
would begin before the end of a skipped file.  (The full statement has none of these exceptions:
see `C40_boundary_lost`, `C40_overlap_lost`, `C40_same_magic_lost`, `C40_enclosing_lost`.) -/
theorem C40_complete_partial {C : Type} (env : Env C) (data : Bytes) (adds : List (List Nat × User C)) (hs : Searching env data adds)
    (hm : ∀ x ∈ adds, 0 ≤ x.2.1)
    (offset : Nat) (size : Option Nat) (vs : List (Visit C)) (h : run env (8 * data.length) offset size = .ok vs)
    (x : List Nat × User C) (hx : adds.find? (fun z => z.1 = x.1) = some x) (I : Nat) (hI : OccursAt data I x.1)
    (hlo : offset ≤ I) (hhi : 8 * I < rangeEnd data offset size)
    (hiso : ∀ y ∈ adds, ∀ J, OccursAt data J y.1 → J ≤ I → I < J + y.1.length → J = I ∧ y.1 = x.1)
    (h0 : x.2.1 ≤ 8 * I) (obj : Obj) (hg : env.guess (8 * I - x.2.1) x.2.2 = some obj) :
    (∃ v ∈ vs, ∃ f ∈ v.found, f.offset = 8 * I - x.2.1 ∧ f.cls = x.2.2 ∧ f.obj = obj) ∨
    (∃ v ∈ vs, v.start ≤ 8 * I ∧ 8 * I < v.stop ∧ v.stop < 8 * (I + x.1.length)) ∨
    ∃ v ∈ vs, ∃ f ∈ v.found, ∃ t, SkipsTo f t ∧ 8 * I - x.2.1 < t := by
  have hxm := List.mem_of_find?_eq_some hx
  have hx0 := hm x hxm
  rcases (C40_cover env data adds hs hm offset size vs h).2.2 (8 * I) (by omega) hhi with
    ⟨v, hv, h1, h2⟩ | ⟨v, hv, f, hf, _, t, ht, hlt⟩
  · by_cases hfit : 8 * (I + x.1.length) ≤ v.stop
    · rw [run_eq] at h
      obtain ⟨_, _, n, n', h3, hn⟩ := sliceLoop_visits env _ _ _ _ vs rfl h v hv
      obtain ⟨p, l, k1, k2, k3, _, k5⟩ := visit_spec env data adds hs _ n n' v h3
      obtain ⟨j, y, hy, j1, j2, j3, j4, j5, j6⟩ := k5 (I - p) x hxm
        (by rwa [show p + (I - p) = I from by omega]) (by omega)
      obtain ⟨e1, e2⟩ := hiso y hy (p + j) j3 (by omega) (by omega)
      rw [e2, hx] at j5
      cases j5
      have hoff : (j : Int) * 8 - x.2.1 + (v.start : Int) = 8 * I - x.2.1 := by omega
      have := magicLoop_complete env v.start v.stop l x.2.2 ((j : Int) * 8 - x.2.1) obj j6
        (by omega) (by omega) (by rw [hoff]; exact hg) n
      rw [hoff, k3] at this
      rcases this with r | ⟨m, rfl, r⟩ | ⟨f, hf, m, hk, r⟩
      · exact Or.inl ⟨v, hv, _, r, rfl, rfl, rfl⟩
      · rcases hn with hn | ⟨u, hu, f, hf, t, ht, hn⟩
        · cases hn
        · cases hn
          exact Or.inr (Or.inr ⟨u, hu, f, hf, _, ht, r⟩)
      · exact Or.inr (Or.inr ⟨v, hv, f, hf, m, hk, r⟩)
    · exact Or.inr (Or.inl ⟨v, hv, h1, h2, by omega⟩)
  · exact Or.inr (Or.inr ⟨v, hv, f, hf, t, ht, by omega⟩)

/-- The search ends without an error when signatures and skipped files are made of whole bytes. -/
theorem C40_returns {C : Type} (env : Env C) (data : Bytes) (adds : List (List Nat × User C)) (hs : Searching env data adds)
    (ha : ∀ x ∈ adds, x.2.1 % 8 = 0)
    (hc : ∀ o c obj s, env.guess o c = some obj → obj.contentSize = some s → s % 8 = 0)
    (offset : Nat) (size : Option Nat) : ∃ vs, run env (8 * data.length) offset size = .ok vs := by
  rw [run_eq]
  have hE : rangeEnd data offset size % 8 = 0 ∧ rangeEnd data offset size ≤ 8 * data.length := by
    unfold rangeEnd
    cases size <;> simp only <;> omega
  generalize rangeEnd data offset size = E at hE
  have hcur : 8 * offset % 8 = 0 := by omega
  have hnone : ∀ n, (none : Option Int) = some n → n % 8 = 0 := by simp
  have main : ∀ (k : Nat) (next : Option Int) (current : Nat), E - current = k → current % 8 = 0 →
      (∀ n, next = some n → n % 8 = 0) → ∃ vs, sliceLoop env E next current = .ok vs := by
    intro k
    induction k using Nat.strongRecOn with
    | _ k ih =>
      intro next current hk h8 hn
      rw [sliceLoop.eq_def]
      split
      · rename_i hlt
        obtain ⟨stop, hstop⟩ : ∃ s, min (current + sliceSize env) E = s := ⟨_, rfl⟩
        have hsl : sliceSize env % 8 = 0 := by unfold sliceSize; omega
        obtain ⟨l, g1, g2, _⟩ := search_slice env data adds hs (current / 8) ((stop - current) / 8)
        obtain ⟨r, hr⟩ : ∃ r, magicLoop env current stop next l = r := ⟨_, rfl⟩
        have hfm : findMagic env E next current = .ok (⟨current, stop, r.1⟩, r.2) := by
          unfold findMagic
          simp only [hstop]
          obtain ⟨p, rfl⟩ : ∃ p, current = 8 * p := ⟨current / 8, by omega⟩
          rw [_root_.Props.C04_readBytes data env.stream hs.stream, if_pos (by omega)]
          simp only
          rw [show 8 * p / 8 = p from by omega] at g1
          rw [g1]
          simp only [hr]
        rw [hfm]
        simp only
        have hn' : ∀ n, r.2 = some n → n % 8 = 0 := by
          intro n hr2
          have h1 := magicLoop_next env current stop l next
          rw [hr] at h1
          rcases h1 with h1 | ⟨f, hf, t, ⟨_, s, hcs, hts⟩, hrt⟩
          · exact hn n (by rw [← h1, hr2])
          · rw [hr2] at hrt
            cases hrt
            have hsd := magicLoop_sound env current stop l next f (by rw [hr]; exact hf)
            obtain ⟨i, x, hx, _, _, _, he⟩ := g2 _ hsd.1
            have := ha x hx
            have := hc _ _ _ s hsd.2.2 hcs
            simp only [Prod.mk.injEq] at he
            omega
        have hlt' := nextCurrent_lt env E current r.2 hlt
        obtain ⟨vs, hvs⟩ := ih _ (by omega) r.2 (nextCurrent env E current r.2) rfl (by
          unfold nextCurrent
          cases hr2 : r.2 with
          | none => simp only; omega
          | some n => have := hn' n hr2; simp only; omega) hn'
        exact ⟨_, by rw [hvs]⟩
      · exact ⟨[], rfl⟩
  exact main _ none _ rfl hcur hnone

/-! ## Registration -/

/-- The signatures of the parsers in registration order. -/
def signatures {C : Type} (l : List (C × List (List Nat × Option Int))) : List (List Nat × User C) :=
  l.flatMap fun p => p.2.map fun e => (e.1, (e.2.getD 0, p.1))

theorem addEntries_spec {C : Type} (c : C) (e : List (List Nat × Option Int)) : ∀ (adds : List (List Nat × User C)),
    addEntries c (addStrings adds) e = if ∃ x ∈ e, x.2 = none then .error .value
      else .ok (addStrings (adds ++ e.map fun e => (e.1, (e.2.getD 0, c)))) := by
  induction e with
  | nil => intro adds; simp [addEntries]
  | cons a e ih =>
    intro adds
    obtain ⟨m, o⟩ := a
    cases o with
    | none => simp [addEntries]
    | some o =>
      have : (addStrings adds).addString m (o, c) = addStrings (adds ++ [(m, (o, c))]) := by
        unfold addStrings; rw [List.foldl_append]; rfl
      have he : (∃ x ∈ (m, some o) :: e, x.2 = none) ↔ ∃ x ∈ e, x.2 = none := by simp
      simp only [addEntries, this, ih]
      by_cases h : ∃ x ∈ e, x.2 = none
      · rw [if_pos h, if_pos (he.2 h)]
      · rw [if_neg h, if_neg (fun h' => h (he.1 h'))]
        simp [List.append_assoc]

/-- All signatures of the chosen parsers are registered in order, or, if any parser has an entry
without an offset (as `(b'PACK',)` in parser/misc/git_pack.py:219), nothing is:
the construction raises ValueError and no search is possible. -/
theorem C40_load {C : Type} (l : List (C × List (List Nat × Option Int))) :
    loadMagics (Patterns.new (User C)) l = if ∃ p ∈ l, ∃ e ∈ p.2, e.2 = none then .error .value
      else .ok (addStrings (signatures l)) := by
  have main : ∀ (l : List (C × List (List Nat × Option Int))) (adds : List (List Nat × User C)),
      loadMagics (addStrings adds) l = if ∃ p ∈ l, ∃ e ∈ p.2, e.2 = none then .error .value
        else .ok (addStrings (adds ++ signatures l)) := by
    intro l
    induction l with
    | nil => intro adds; simp [loadMagics, signatures]
    | cons a l ih =>
      intro adds
      obtain ⟨c, e⟩ := a
      simp only [loadMagics, addEntries_spec]
      by_cases h : ∃ x ∈ e, x.2 = none
      · rw [if_pos h, if_pos ⟨(c, e), by simp, h⟩]
      · rw [if_neg h]
        simp only [ih]
        have : (∃ p ∈ (c, e) :: l, ∃ e ∈ p.2, e.2 = none) ↔ ∃ p ∈ l, ∃ e ∈ p.2, e.2 = none := by
          simp only [List.mem_cons, exists_eq_or_imp]
          exact ⟨fun h' => h'.resolve_left h, Or.inr⟩
        by_cases h2 : ∃ p ∈ l, ∃ e ∈ p.2, e.2 = none
        · rw [if_pos h2, if_pos (this.2 h2)]
        · rw [if_neg h2, if_neg (fun h3 => h2 (this.1 h3))]
          simp [signatures, List.append_assoc]
  have := main l []
  simpa [addStrings] using this

/-! ## Examples and counterexamples -/

/-- An engine that takes the first signature that matches. -/
def firstHit {C : Type} (adds : List (List Nat × User C)) (w : List Nat) (i : Nat) : Option Nat :=
  (adds.find? fun x => x.1.isPrefixOf (w.drop i)).map fun x => i + x.1.length

theorem firstHit_ok {C : Type} (adds : List (List Nat × User C)) : HitOk adds (firstHit adds) := by
  intro w i
  unfold firstHit
  cases h : adds.find? fun x => x.1.isPrefixOf (w.drop i) with
  | none =>
    simp only [Option.map_none]
    intro x hx hp
    have := List.find?_eq_none.1 h x hx
    exact this (List.isPrefixOf_iff_prefix.2 hp)
  | some x =>
    simp only [Option.map_some]
    have hp : x.1.isPrefixOf (w.drop i) = true := by simpa using List.find?_some h
    exact ⟨x, List.mem_of_find?_eq_some h, rfl, List.isPrefixOf_iff_prefix.1 hp⟩

def demo (s : InputStream) (adds : List (List Nat × User Nat)) (guess : Int → Nat → Option Obj) : Env Nat :=
  ⟨s, addStrings adds, 2, firstHit adds, fun _ _ => false, guess⟩

/-- The reported files: offset in bits and class. -/
def report (r : Except PyErr (List (Visit Nat))) : Option (List (Int × Nat)) :=
  match r with
  | .error _ => none
  | .ok vs => some (vs.flatMap fun v => v.found.map fun f => (f.offset, f.cls))

theorem demo_searching (data : Bytes) (s : InputStream) (h : stringInputStream data = .ok s) (adds : List (List Nat × User Nat))
    (hne : ∀ x ∈ adds, x.1 ≠ []) (guess : Int → Nat → Option Obj) : Searching (demo s adds guess) data adds :=
  ⟨h, rfl, firstHit_ok adds, hne, by simp [demo]⟩

/-- "AB" twice and "C" with the file starting 1 byte before. -/
example : ∃ s, stringInputStream [65, 66, 0, 67, 65, 66] = .ok s ∧
    report (run (demo s [([65, 66], (0, 1)), ([67], (8, 2))] fun _ _ => some ⟨none, false⟩) 48 0 none)
      = some [(0, 1), (16, 2), (32, 1)] := ⟨_, rfl, by decide +kernel⟩

/-- A skipped file hides what it contains. -/
example : ∃ s, stringInputStream [65, 66, 67, 67, 65, 66] = .ok s ∧
    report (run (demo s [([65, 66], (0, 1)), ([67], (0, 2))] fun _ c => some ⟨some 24, c == 1⟩) 48 0 none)
      = some [(0, 1), (24, 2), (32, 1)] := ⟨_, rfl, by decide +kernel⟩

/-- Overlapping signatures: only the leftmost is tried. -/
theorem C40_overlap_lost : ∃ s, stringInputStream [65, 66, 67] = .ok s ∧
    OccursAt [65, 66, 67] 1 [66, 67] ∧
    report (run (demo s [([65, 66], (0, 1)), ([66, 67], (0, 2))] fun _ _ => some ⟨none, false⟩) 24 0 none)
      = some [(0, 1)] := ⟨_, rfl, by simp [OccursAt], by decide +kernel⟩

/-- Two classes with the same signature: the second is never tried, even if the first refuses. -/
theorem C40_same_magic_lost : ∃ s, stringInputStream [65, 66] = .ok s ∧
    report (run (demo s [([65, 66], (0, 1)), ([65, 66], (0, 2))]
      fun _ c => if c = 2 then some ⟨none, false⟩ else none) 16 0 none) = some [] := ⟨_, rfl, by decide +kernel⟩

/-- A file that begins before a skipped file but has its signature after it is not reported. -/
theorem C40_enclosing_lost : ∃ s, stringInputStream [0, 65, 66, 67] = .ok s ∧
    report (run (demo s [([65, 66], (0, 1)), ([67], (24, 2))] fun _ c => some ⟨some 16, c == 1⟩) 32 0 none)
      = some [(8, 1)] ∧
    report (run (demo s [([67], (24, 2))] fun _ c => some ⟨some 16, c == 1⟩) 32 0 none) = some [(0, 2)] :=
  ⟨_, rfl, by decide +kernel, by decide +kernel⟩

theorem magicLoop_none {C : Type} (env : Env C) (start stop : Nat) (l : List (C × Int)) : ∀ next,
    (magicLoop env start stop next l).2 = none →
      next = none ∧ ∀ h ∈ (magicLoop env start stop next l).1, ∀ n, ¬ SkipsTo h n := by
  induction l with
  | nil => intro next h; exact ⟨h, by simp [magicLoop]⟩
  | cons a l ih =>
    obtain ⟨c, o⟩ := a
    intro next
    simp only [magicLoop]
    split
    · exact ih next
    split
    · exact ih next
    cases hg : env.guess (o + start) c with
    | none => exact ih next
    | some obj =>
      simp only
      cases hc : obj.contentSize with
      | none =>
        intro h
        obtain ⟨i1, i2⟩ := ih next h
        refine ⟨i1, ?_⟩
        intro f hf n hs
        rcases List.mem_cons.1 hf with rfl | hf
        · obtain ⟨_, s, hs, _⟩ := hs
          rw [hc] at hs; cases hs
        · exact i2 f hf n hs
      | some size =>
        simp only
        split
        · split
          · intro h; cases h
          · intro h; cases (ih _ h).1
        · rename_i hsk
          intro h
          obtain ⟨i1, i2⟩ := ih next h
          refine ⟨i1, ?_⟩
          intro f hf n hs
          rcases List.mem_cons.1 hf with rfl | hf
          · exact hsk hs.1
          · exact i2 f hf n hs

/-- A signature across the end of a 64 KiB slice is never found, whatever the class thinks of it. -/
theorem C40_boundary_lost (guess : Int → Nat → Option Obj) (N : Nat) (hN : N = 65535) (data : Bytes)
    (hd : data = List.replicate N 0 ++ [65, 66])
    (s : InputStream) (h : stringInputStream data = .ok s) (vs : List (Visit Nat))
    (hr : run (demo s [([65, 66], (0, 1))] guess) (8 * data.length) 0 none = .ok vs) :
    OccursAt data 65535 [65, 66] ∧ ∀ v ∈ vs, v.found = [] := by
  have hs := demo_searching data s h [([65, 66], (0, 1))] (by simp) guess
  have hocc : ∀ I, OccursAt data I [65, 66] → I = 65535 := by
    intro I hI
    unfold OccursAt at hI
    have hl := hI.length_le
    simp only [List.length_cons, List.length_nil, List.length_map, List.length_drop, hd, List.length_append,
      List.length_replicate] at hl
    by_cases hlt : I < 65535
    · exfalso
      rw [hd, List.drop_append_of_le_length (by simp; omega), List.drop_replicate,
        show N - I = (N - I - 1) + 1 from by omega, List.replicate_succ] at hI
      obtain ⟨r, hr⟩ := hI
      simp at hr
    · omega
  refine ⟨?_, ?_⟩
  · unfold OccursAt
    rw [hd, ← hN, List.drop_append_of_le_length (by simp)]
    simp [List.drop_replicate]
  · intro v hv
    apply List.eq_nil_iff_forall_not_mem.2
    intro f hf
    obtain ⟨I, x, g1, g2, g3, g4, g5, g6, _⟩ := C40_sound _ data _ hs 0 none vs hr v hv f hf
    have hx := List.mem_of_find?_eq_some g1
    simp only [List.mem_singleton] at hx
    subst hx
    have hI := hocc I g2
    subst hI
    simp only [List.length_cons, List.length_nil] at g6
    rw [run_eq] at hr
    have hsl : sliceSize (demo s [([65, 66], (0, 1))] guess) = 524288 := by simp [sliceSize, demo]
    rcases sliceLoop_cases _ _ _ _ _ hr with ⟨_, rfl⟩ | ⟨hc, w, next', l, hf', hl, rfl⟩
    · simp at hv
    · obtain ⟨f1, f2, _⟩ := findMagic_ok _ _ _ _ _ w hf'
      rw [hsl] at f2
      have hlow : 524288 ≤ nextCurrent (demo s [([65, 66], (0, 1))] guess) (rangeEnd data 0 none) (8 * 0) next' := by
        have hE : rangeEnd data 0 none = 524296 := by simp [rangeEnd, hd]; omega
        unfold nextCurrent
        rw [hsl, hE]
        cases next' <;> simp only <;> omega
      rcases List.mem_cons.1 hv with rfl | hv
      · omega
      · have := (sliceLoop_visits _ _ _ _ _ l rfl hl v hv).1
        omega

/-- The hypotheses of `C40_boundary_lost` can be met. -/
example (N : Nat) : ∃ s vs, stringInputStream (List.replicate N 0 ++ [65, 66]) = .ok s ∧
    run (demo s [([65, 66], (0, 1))] fun _ _ => some ⟨none, false⟩)
      (8 * (List.replicate N (0 : UInt8) ++ [65, 66]).length) 0 none = .ok vs := by
  obtain ⟨s, hs⟩ : ∃ s, stringInputStream (List.replicate N 0 ++ [65, 66]) = .ok s := by
    unfold stringInputStream
    rw [if_neg (by simp)]
    exact ⟨_, rfl⟩
  obtain ⟨vs, hvs⟩ := C40_returns _ _ _ (demo_searching _ s hs [([65, 66], (0, 1))] (by simp)
    fun _ _ => some ⟨none, false⟩) (by simp) (by intro o c obj k h hk; simp [demo] at h; subst h; cases hk) 0 none
  exact ⟨s, vs, hs, hvs⟩

/-- A skipped file that reaches beyond its slice and whose size is not a whole number of bytes
makes the search stop with an error. -/
theorem C40_unaligned_error (N : Nat) (hN : N = 70000) (data : Bytes) (hd : data = 65 :: List.replicate N 0)
    (s : InputStream) (h : stringInputStream data = .ok s) (vs : List (Visit Nat)) :
    run (demo s [([65], (0, 1))] fun _ _ => some ⟨some 524292, true⟩) (8 * data.length) 0 none ≠ .ok vs := by
  intro hr
  have hs := demo_searching data s h [([65], (0, 1))] (by simp) fun _ _ => some ⟨some 524292, true⟩
  generalize hen : demo s [([65], (0, 1))] (fun _ _ => some ⟨some 524292, true⟩) = env at hs hr
  have hsl : sliceSize env = 524288 := by rw [← hen]; simp [sliceSize, demo]
  have hgu : ∀ o c, env.guess o c = some ⟨some 524292, true⟩ := by intro o c; rw [← hen]; rfl
  have hocc0 : OccursAt data 0 [65] := by rw [hd]; simp [OccursAt]
  have hocc : ∀ I, OccursAt data I [65] → I = 0 := by
    intro I hI
    cases I with
    | zero => rfl
    | succ I =>
      exfalso
      rw [hd] at hI
      unfold OccursAt at hI
      simp only [List.drop_succ_cons, List.drop_replicate, List.map_replicate] at hI
      obtain ⟨r, hr⟩ := hI
      have : (65 : Nat) ∈ List.replicate (N - I) (UInt8.toNat 0) := by rw [← hr]; simp
      simp at this
  have hE : rangeEnd data 0 none = 560008 := by simp [rangeEnd, hd]; omega
  rw [run_eq, hE] at hr
  rcases sliceLoop_cases _ _ _ _ _ hr with ⟨hc, _⟩ | ⟨hc, v, next', l, hf, hl, rfl⟩
  · omega
  · obtain ⟨f1, f2, _⟩ := findMagic_ok _ _ _ _ _ v hf
    have f0 : v.start = 0 := by omega
    obtain ⟨p, cand, k1, k2, k3, k4, k5⟩ := visit_spec env data _ hs _ _ _ v (by rw [f1]; exact hf)
    obtain ⟨j, y, hy, j1, j2, j3, j4, j5, j6⟩ := k5 0 ([65], (0, 1)) (by simp)
      (by rw [show p + 0 = 0 from by omega]; exact hocc0) (by simp; omega)
    simp only [List.mem_singleton] at hy
    subst hy
    have hj : j = 0 := by omega
    subst hj
    have hfound := magicLoop_complete env v.start v.stop cand 1 0 ⟨some 524292, true⟩ (by simpa using j6)
      (by omega) (by omega) (hgu _ _) none
    rw [k3] at hfound
    have hn : next' = some 524292 := by
      have h1 := magicLoop_next env v.start v.stop cand none
      have h2 := magicLoop_none env v.start v.stop cand none
      rw [k3] at h1 h2
      have hev : ∀ f ∈ v.found, ∀ n, SkipsTo f n → n = 524292 := by
        intro f hf n hk
        have hsd := magicLoop_sound env v.start v.stop cand none f (by rw [k3]; exact hf)
        obtain ⟨i, x, hx, o1, _, _, he⟩ := k4 _ hsd.1
        simp only [List.mem_singleton] at hx
        subst hx
        have := hocc _ o1
        rw [hgu] at hsd
        obtain ⟨_, t, ht, rfl⟩ := hk
        have h3 : f.obj = ⟨some 524292, true⟩ := by simpa using hsd.2.2.symm
        rw [h3] at ht
        cases ht
        simp only [Prod.mk.injEq] at he
        omega
      rcases h1 with h1 | ⟨f, hf, n, hk, h1⟩
      · exfalso
        have h3 := (h2 h1).2
        rcases hfound with h4 | ⟨n, h4, _⟩ | ⟨f, hf, n, hk, _⟩
        · exact h3 _ h4 _ ⟨rfl, _, rfl, rfl⟩
        · cases h4
        · exact h3 f hf n hk
      · simp only at h1
        rw [h1, hev f hf n hk]
    subst hn
    have hnc : nextCurrent env 560008 (8 * 0) (some 524292) = 524292 := by
      simp only [nextCurrent, hsl]; decide
    rw [hnc] at hl
    rcases sliceLoop_cases _ _ _ _ _ hl with ⟨hc, _⟩ | ⟨hc, v2, n2, l2, hf2, _, _⟩
    · omega
    · obtain ⟨e1, _⟩ := findMagic_ok _ _ _ _ _ v2 hf2
      obtain ⟨p2, _, e2, _⟩ := visit_spec env data _ hs _ _ _ v2 (by rw [e1]; exact hf2)
      omega

end Hachoir.Props
