import Verif.Field.NameLemmas

/-!
# Invariant of field sets
-/

set_option linter.unusedVariables false

namespace Hachoir.FieldSet
open Hachoir

/-- The fields are contiguous from `a` to `b`. -/
def Tiled : List Fld → (a b : Nat) → Prop
  | [], a, b => a = b
  | f :: r, a, b => f.addr = a ∧ Tiled r (a + f.size) b

/-- A name that no automatic numbering of a key in `A` can produce. -/
def Free (A : Name → Prop) (n : Name) : Prop := (∀ k i, A k → n ≠ indexed k i) ∧ n ≠ rawName

/-- A name a parser may use: `x[]` for a key `x` that is numbered automatically
(one of `A`), or any other name that is not one of the numbered ones.  As a clash
makes it a key as well it must be in `A`. -/
def GoodName (A : Name → Prop) (n : Name) : Prop :=
  (isArray n = true ∧ A (arrayKey n)) ∨ (isArray n = false ∧ A n ∧ ∀ k i, A k → n ≠ indexed k i)

/-- All names used by an item and, with their own sets of keys, by its generator
are good. -/
inductive GoodItem : (Name → Prop) → Item → Prop
  | leaf (A n s) : GoodName A n → GoodItem A (.leaf n s)
  | set (A n d A') (g : Gen) : GoodName A n → (∀ v i, g v = .yield i → GoodItem A' i) → GoodItem A (.set n d g)

/-- All names used by a generator are good for the keys `A`. -/
def GoodFor (A : Name → Prop) (g : Gen) : Prop := ∀ v i, g v = .yield i → GoodItem A i

/-- All names used by a generator are good, for some set of keys numbered
automatically. -/
def GoodGen (g : Gen) : Prop := ∃ A, GoodFor A g

/-- Two names of fields in this order: numbers of one array grow. -/
def Before (A : Name → Prop) (a b : Name) : Prop := ∀ k i j, A k → a = indexed k i → b = indexed k j → i < j

/-- Names of the fields against the counters. -/
structure NamesOk (A : Name → Prop) (l : List Name) (counts : List (Name × Nat)) (finished : Prop) : Prop where
  nodup : l.Nodup
  shape : ∀ n ∈ l, Free A n ∨ (∃ k i c, A k ∧ n = indexed k i ∧ lookup counts k = some c ∧ i ≤ c) ∨
    (n = rawName ∧ finished)
  rawLast : ∀ n ∈ l.dropLast, n ≠ rawName
  incr : l.Pairwise (Before A)

mutual
/-- The invariant of a field set with automatic keys `A`, with everything below
it. -/
inductive Ok : (Name → Prop) → FS → Prop
  | mk (A) (fs : FS) : Tiled fs.fields 0 fs.cur → NamesOk A (fs.fields.map Fld.name) fs.counts (fs.gen = none) →
      (fs.gen = none → fs.size = some fs.cur) → (∀ z, fs.size = some z → fs.cur ≤ z) →
      (∀ g, fs.gen = some g → GoodFor A g) →
      (∀ n a sub, Fld.set n a sub ∈ fs.fields → OkSome sub) →
      (∀ n a sub, Fld.set n a sub ∈ fs.fields → ∃ z, sub.size = some z ∧ 0 < z) → Ok A fs
/-- The invariant for some set of automatic keys. -/
inductive OkSome : FS → Prop
  | mk (A) (fs : FS) : Ok A fs → OkSome fs
end

variable {A : Name → Prop}

theorem OkSome.get {fs : FS} (h : OkSome fs) : ∃ A, Ok A fs := by cases h with | mk A _ h => exact ⟨A, h⟩
theorem Ok.any {fs : FS} (h : Ok A fs) : OkSome fs := .mk _ _ h
theorem Ok.tiled {fs : FS} (h : Ok A fs) : Tiled fs.fields 0 fs.cur := by cases h; assumption
theorem Ok.names {fs : FS} (h : Ok A fs) : NamesOk A (fs.fields.map Fld.name) fs.counts (fs.gen = none) := by
  cases h; assumption
theorem Ok.closed {fs : FS} (h : Ok A fs) : fs.gen = none → fs.size = some fs.cur := by cases h; assumption
theorem Ok.inside {fs : FS} (h : Ok A fs) : ∀ z, fs.size = some z → fs.cur ≤ z := by cases h; assumption
theorem Ok.good {fs : FS} (h : Ok A fs) : ∀ g, fs.gen = some g → GoodFor A g := by cases h; assumption
theorem Ok.sub {fs : FS} (h : Ok A fs) : ∀ n a sub, Fld.set n a sub ∈ fs.fields → OkSome sub := by
  cases h; assumption
theorem Ok.subsize {fs : FS} (h : Ok A fs) :
    ∀ n a sub, Fld.set n a sub ∈ fs.fields → ∃ z, sub.size = some z ∧ 0 < z := by cases h; assumption

/-! ### Tilings -/

theorem tiled_append (l m : List Fld) (a b : Nat) :
    Tiled (l ++ m) a b ↔ ∃ c, Tiled l a c ∧ Tiled m c b := by
  induction l generalizing a with
  | nil => simp [Tiled]
  | cons f r ih =>
    simp only [List.cons_append, Tiled, ih]
    constructor
    · rintro ⟨h1, c, h2, h3⟩; exact ⟨c, ⟨h1, h2⟩, h3⟩
    · rintro ⟨c, ⟨h1, h2⟩, h3⟩; exact ⟨h1, c, h2, h3⟩

theorem tiled_le {l : List Fld} {a b : Nat} (h : Tiled l a b) : a ≤ b := by
  induction l generalizing a with
  | nil => simp [Tiled] at h; omega
  | cons f r ih => have := ih h.2; omega

theorem tiled_addr {l : List Fld} {a b : Nat} (h : Tiled l a b) : ∀ f ∈ l, a ≤ f.addr ∧ f.addr + f.size ≤ b := by
  induction l generalizing a with
  | nil => simp
  | cons f r ih =>
    intro x hx
    rcases List.mem_cons.mp hx with rfl | hx
    · have := tiled_le h.2; have := h.1; omega
    · have := ih h.2 x hx; omega

/-- Cutting a tiling at `n`: the loop of `_truncate`. -/
theorem tiled_cut (l : List Fld) (b n : Nat) (h : Tiled l 0 b) (hn : 0 < n) (hb : n < b) :
    ∃ pre last post, l = pre ++ last :: post ∧ last.addr < n ∧ n ≤ last.addr + last.size ∧
      Tiled pre 0 last.addr ∧
      l.reverse.dropWhile (fun f => decide (n ≤ f.addr)) = last :: pre.reverse := by
  obtain ⟨dw, hdw⟩ : ∃ dw, l.reverse.dropWhile (fun f => decide (n ≤ f.addr)) = dw := ⟨_, rfl⟩
  obtain ⟨tw, htw⟩ : ∃ tw, l.reverse.takeWhile (fun f => decide (n ≤ f.addr)) = tw := ⟨_, rfl⟩
  have hsplit : l.reverse = tw ++ dw := by rw [← htw, ← hdw, List.takeWhile_append_dropWhile]
  have hall : ∀ f ∈ tw, n ≤ f.addr := by
    intro f hf
    rw [← htw] at hf
    have h1 := List.all_takeWhile (l := l.reverse) (p := fun f => decide (n ≤ f.addr))
    rw [List.all_eq_true] at h1
    simpa using h1 f hf
  have hl : l = dw.reverse ++ tw.reverse := by
    have := congrArg List.reverse hsplit
    simpa using this
  cases hd : dw with
  | nil =>
    exfalso
    rw [hd] at hl
    simp at hl
    cases l with
    | nil => simp [Tiled] at h; omega
    | cons f r =>
      have h0 := h.1
      have : f ∈ tw := by
        rw [← List.mem_reverse, ← hl]; simp
      have := hall f this
      omega
  | cons last before =>
    have hlast : last.addr < n := by
      have h1 : (dw.head (by rw [hd]; simp)) = last := by simp [hd]
      have h2 := List.head_dropWhile_not (l := l.reverse) (fun f : Fld => decide (n ≤ f.addr)) (by rw [hdw, hd]; simp)
      have h3 : (List.dropWhile (fun f : Fld => decide (n ≤ f.addr)) l.reverse).head (by rw [hdw, hd]; simp) = last := by
        simp [hdw, hd]
      rw [h3] at h2
      simp at h2
      exact h2
    have hl2 : l = before.reverse ++ last :: tw.reverse := by
      rw [hl, hd]; simp
    refine ⟨before.reverse, last, tw.reverse, hl2, hlast, ?_, ?_, ?_⟩
    · rw [hl2, tiled_append] at h
      obtain ⟨c, h1, h2⟩ := h
      simp only [Tiled] at h2
      cases ht : tw.reverse with
      | nil => rw [ht] at h2; simp [Tiled] at h2; omega
      | cons f r =>
        rw [ht] at h2
        simp only [Tiled] at h2
        have := hall f (by rw [← List.mem_reverse, ht]; simp)
        omega
    · rw [hl2, tiled_append] at h
      obtain ⟨c, h1, h2⟩ := h
      simp only [Tiled] at h2
      rw [h2.1]; exact h1
    · rw [hdw, hd]; simp

/-! ### Names -/

theorem NamesOk.mono {l : List Name} {c : List (Name × Nat)} {p q : Prop} (h : NamesOk A l c p) (hpq : p → q) :
    NamesOk A l c q :=
  ⟨h.nodup, fun f hf => by
    rcases h.shape f hf with h1 | h1 | ⟨h1, h2⟩
    · exact Or.inl h1
    · exact Or.inr (Or.inl h1)
    · exact Or.inr (Or.inr ⟨h1, hpq h2⟩), h.rawLast, h.incr⟩

theorem uniqueName_fst (counts : List (Name × Nat)) (name : Name) :
    ∃ n, (uniqueName counts name).1 = indexed (arrayKey name) n ∧
      (uniqueName counts name).2 = (arrayKey name, n) :: counts ∧
      (∀ c, lookup counts (arrayKey name) = some c → c < n) := by
  cases h : lookup counts (arrayKey name) with
  | none => exact ⟨0, by simp [uniqueName, h], by simp [uniqueName, h], by simp⟩
  | some c => exact ⟨c + 1, by simp [uniqueName, h], by simp [uniqueName, h], by simp⟩

/-- Counting up keeps the names in order. -/
theorem NamesOk.count {l : List Name} {counts : List (Name × Nat)} {p : Prop} (h : NamesOk A l counts p) (k : Name)
    (n : Nat) (hn : ∀ c, lookup counts k = some c → c < n) : NamesOk A l ((k, n) :: counts) p := by
  refine ⟨h.nodup, fun f hf => ?_, h.rawLast, h.incr⟩
  rcases h.shape f hf with h1 | ⟨k', i, c, h0, h1, h2, h3⟩ | h1
  · exact Or.inl h1
  · right; left
    by_cases hk : k = k'
    · subst hk
      have := hn c h2
      exact ⟨k, i, n, h0, h1, lookup_cons_self _ _ _, by omega⟩
    · exact ⟨k', i, c, h0, h1, by rw [lookup_cons_ne _ _ _ _ hk]; exact h2, h3⟩
  · exact Or.inr (Or.inr h1)

/-- A name made by the counter is new. -/
theorem NamesOk.fresh {l : List Name} {counts : List (Name × Nat)} {p : Prop} (h : NamesOk A l counts p) (k : Name)
    (hk : A k) (n : Nat) (hn : ∀ c, lookup counts k = some c → c < n) : indexed k n ∉ l := by
  intro hf
  rcases h.shape _ hf with h1 | ⟨k', i, c, h0, h1, h2, h3⟩ | ⟨h1, _⟩
  · exact h1.1 k n hk rfl
  · obtain ⟨e1, e2⟩ := indexed_inj h1
    subst e1; subst e2
    have := hn c h2; omega
  · exact indexed_ne_raw _ _ h1

theorem NamesOk.append {l : List Name} {counts : List (Name × Nat)} (h : NamesOk A l counts False) (f : Name)
    (hf : f ∉ l)
    (hs : Free A f ∨ ∃ k i, A k ∧ f = indexed k i ∧ lookup counts k = some i) :
    NamesOk A (l ++ [f]) counts False := by
  refine ⟨?_, ?_, ?_, ?_⟩
  · rw [List.nodup_append]
    exact ⟨h.nodup, by simp, by
      intro a ha b hb; simp at hb; subst hb; rintro rfl; exact hf ha⟩
  · intro x hx
    rcases List.mem_append.mp hx with hx | hx
    · exact h.shape x hx
    · simp at hx; subst hx
      rcases hs with h1 | ⟨k, i, h0, h1, h2⟩
      · exact Or.inl h1
      · exact Or.inr (Or.inl ⟨k, i, i, h0, h1, h2, Nat.le_refl _⟩)
  · intro x hx
    rw [List.dropLast_concat] at hx
    rcases h.shape x hx with h1 | ⟨k, i, c, _, h1, _⟩ | ⟨_, h2⟩
    · exact h1.2
    · rw [h1]; exact indexed_ne_raw _ _
    · exact h2.elim
  · rw [List.pairwise_append]
    refine ⟨h.incr, List.pairwise_singleton _ _, ?_⟩
    intro a ha b hb k i j hk ea eb
    simp at hb; subst hb
    rcases hs with h1 | ⟨k', i', h0, h1, h2⟩
    · exact absurd eb (h1.1 k j hk)
    · rw [eb] at h1
      obtain ⟨e1, e2⟩ := indexed_inj h1
      subst e1; subst e2
      rcases h.shape a ha with h3 | ⟨k'', i'', c, _, h3, h4, h5⟩ | ⟨_, h3⟩
      · exact absurd ea (h3.1 k i hk)
      · rw [ea] at h3
        obtain ⟨e1, e2⟩ := indexed_inj h3
        subst e1; subst e2
        rw [h2] at h4
        injection h4 with h4
        rcases Nat.lt_or_ge i j with hlt | hge
        · exact hlt
        · exfalso
          have : i = j := by omega
          subst this
          exact hf (by rw [eb, ← ea]; exact ha)
      · exact h3.elim

theorem NamesOk.raw_notin {l : List Name} {counts : List (Name × Nat)} (h : NamesOk A l counts False) :
    rawName ∉ l := by
  intro hf
  rcases h.shape _ hf with h1 | ⟨k, i, c, _, h1, _⟩ | ⟨_, h2⟩
  · exact h1.2 rfl
  · exact indexed_ne_raw _ _ h1.symm
  · exact h2

theorem NamesOk.append_raw {l : List Name} {counts : List (Name × Nat)} {p : Prop} (h : NamesOk A l counts p) (f : Name)
    (hf : f = rawName) (hno : rawName ∉ l) : NamesOk A (l ++ [f]) counts True := by
  refine ⟨?_, ?_, ?_, ?_⟩
  · rw [List.nodup_append]
    exact ⟨h.nodup, by simp, by
      intro a ha b hb; simp at hb; subst hb; rintro rfl; rw [hf] at ha; exact hno ha⟩
  · intro x hx
    rcases List.mem_append.mp hx with hx | hx
    · exact (h.mono (fun _ => trivial)).shape x hx
    · simp at hx; subst hx
      exact Or.inr (Or.inr ⟨hf, trivial⟩)
  · intro x hx
    rw [List.dropLast_concat] at hx
    intro he
    exact hno (he ▸ hx)
  · rw [List.pairwise_append]
    refine ⟨h.incr, List.pairwise_singleton _ _, ?_⟩
    intro a ha b hb k i j hk ea eb
    simp at hb; subst hb
    rw [hf] at eb
    exact absurd eb.symm (indexed_ne_raw _ _)

/-- A prefix of the fields. -/
theorem NamesOk.prefix {l m : List Name} {counts : List (Name × Nat)} {p : Prop} (h : NamesOk A (l ++ m) counts p) :
    NamesOk A l counts p := by
  refine ⟨?_, fun f hf => h.shape f (by simp [hf]), ?_, (List.pairwise_append.mp h.incr).1⟩
  · exact (List.nodup_append.mp h.nodup).1
  · intro f hf
    apply h.rawLast f
    rcases List.eq_nil_or_concat m with rfl | ⟨m', x, rfl⟩
    · simpa using hf
    · rw [List.concat_eq_append, ← List.append_assoc, List.dropLast_concat]
      exact List.mem_append_left _ (List.dropLast_subset _ hf)

/-! ### `_truncate` -/

theorem truncate_ok (fuel : Nat) :
    ∀ (A : Name → Prop) (sub : FS) (z n : Nat), Ok A sub → sub.size = some z → 0 < n → n < z →
      truncate fuel sub n = .error .runtime ∨
      ∃ sub', truncate fuel sub n = .ok sub' ∧ Ok A sub' ∧ sub'.size = some n := by
  induction fuel with
  | zero => intro A sub z n _ _ _ _; left; rfl
  | succ fuel ih =>
    intro A sub z n h hz hn hnz
    rw [truncate, if_neg (by omega)]
    by_cases hc : n < sub.cur
    · rw [if_pos hc]
      obtain ⟨pre, last, post, hl, h1, h2, h3, h4⟩ := tiled_cut _ _ _ h.tiled hn hc
      rw [h4]
      dsimp only
      have hpre : NamesOk A (pre.map Fld.name ++ [last.name]) sub.counts (sub.gen = none) := by
        have := h.names
        rw [hl, show (pre ++ last :: post).map Fld.name = (pre.map Fld.name ++ [last.name]) ++ post.map Fld.name by simp] at this
        exact this.prefix
      have hmem : ∀ f ∈ pre ++ [last], f ∈ sub.fields := by
        intro f hf; rw [hl]; simp at hf ⊢; tauto
      -- the new list of fields is `pre ++ [last']`
      have fin : ∀ last' : Fld, last'.addr = last.addr → last'.addr + last'.size = n →
          NamesOk A (pre.map Fld.name ++ [last'.name]) sub.counts True →
          (∀ a b c, last' = .set a b c → OkSome c ∧ ∃ y, c.size = some y ∧ 0 < y) →
          Ok A { sub with size := some n, fields := (last' :: pre.reverse).reverse, cur := n, gen := none } := by
        intro last' e1 e2 e3 e4
        have hrev : (last' :: pre.reverse).reverse = pre ++ [last'] := by simp
        refine Ok.mk _ _ ?_ ?_ ?_ ?_ ?_ ?_ ?_
        · simp only [hrev]
          rw [tiled_append]
          exact ⟨last.addr, h3, e1, by simp only [Tiled]; omega⟩
        · simp only [hrev, List.map_append, List.map_cons, List.map_nil]
          exact e3.mono (fun _ => by trivial)
        · intro _; rfl
        · intro z' hz'; simp at hz'; subst hz'; simp
        · intro g hg; cases hg
        · intro a b c hm
          simp only [hrev] at hm
          rcases List.mem_append.mp hm with hm | hm
          · exact h.sub a b c (hmem _ (by simp [hm]))
          · simp at hm; exact (e4 a b c hm.symm).1
        · intro a b c hm
          simp only [hrev] at hm
          rcases List.mem_append.mp hm with hm | hm
          · exact h.subsize a b c (hmem _ (by simp [hm]))
          · simp at hm; exact (e4 a b c hm.symm).2
      by_cases hr : n - last.addr < last.size
      · rw [if_pos hr]
        cases last with
        | leaf nm a s =>
          simp only [Fld.addr, Fld.size] at h1 h2 h3 hr ⊢
          have hraw : rawName ∉ pre.map Fld.name := by
            intro hm
            refine hpre.rawLast _ ?_ rfl
            rw [List.dropLast_concat]; exact hm
          have hraw2 : rawName ∉ pre.reverse.map Fld.name := by
            simpa using hraw
          rw [if_neg hraw2]
          right
          refine ⟨_, rfl, fin (.leaf rawName a (n - a)) rfl ?_ ?_ ?_, rfl⟩
          · simp [Fld.addr, Fld.size]; omega
          · exact (hpre.prefix).append_raw _ rfl hraw
          · intro _ _ _ hc; cases hc
        | set nm a c =>
          simp only [Fld.addr, Fld.size] at h1 h2 h3 hr ⊢
          have hcm := hmem (.set nm a c) (by simp)
          obtain ⟨y, hy, hy0⟩ := h.subsize nm a c hcm
          rw [hy] at hr h2
          simp only [Option.getD_some] at hr h2
          obtain ⟨A', hc'⟩ := (h.sub nm a c hcm).get
          rcases ih A' c y (n - a) hc' hy (by omega) hr with he | ⟨c', e1, e2, e3⟩
          · left; rw [he]; rfl
          · right
            rw [e1]
            refine ⟨_, rfl, fin (.set nm a c') rfl ?_ ?_ ?_, rfl⟩
            · simp [Fld.addr, Fld.size, e3]; omega
            · exact hpre.mono (fun _ => trivial)
            · intro _ _ _ hc
              cases hc
              exact ⟨e2.any, _, e3, by omega⟩
      · rw [if_neg hr]
        right
        refine ⟨_, rfl, fin last rfl (by omega) (hpre.mono (fun _ => trivial)) ?_, rfl⟩
        intro a b c hc
        have := hmem last (by simp)
        rw [hc] at this
        exact ⟨h.sub a b c this, h.subsize a b c this⟩
    · rw [if_neg hc, hz]
      simp only [hnz, decide_true, Bool.true_eq_false, if_false]
      right
      refine ⟨_, rfl, ?_, rfl⟩
      have halive : sub.gen ≠ none := by
        intro hg
        have := h.closed hg
        rw [hz] at this
        injection this with this
        omega
      refine Ok.mk _ _ h.tiled ?_ ?_ ?_ ?_ h.sub h.subsize
      · exact h.names.mono (fun hg => absurd hg halive)
      · intro hg
        simp only at hg
        split at hg
        · rename_i he; simp [he]
        · exact absurd hg halive
      · intro z' hz'; simp at hz'; subst hz'; simp; omega
      · intro g hg
        simp only at hg
        split at hg
        · cases hg
        · exact h.good g hg

end Hachoir.FieldSet
