import Verif.Props.Path
import Verif.Props.Replace

/-!
# Property C47: absolute addresses, and the leaves of the tree
-/

set_option linter.unusedVariables false

namespace Hachoir.Props
open Hachoir Hachoir.FieldSet

variable {A : Name → Prop}

/-- Nothing of the tree is left to read. -/
def AllRead (root : FS) : Prop := ∀ t, InTree root t → t.gen = none

/-- Bit `x` of the stream belongs to the leaf at `pos`. -/
def LeafAt (root : FS) (pos : List Nat) (x : Nat) : Prop :=
  ∃ n a s, fieldAt root pos = some (.leaf n a s) ∧ absoluteAddress root pos ≤ x ∧ x < absoluteAddress root pos + s

theorem sizeOf_sub {fs : FS} {n : Name} {a : Nat} {sub : FS} (h : Fld.set n a sub ∈ fs.fields) : sizeOf sub < sizeOf fs := by
  have h1 := List.sizeOf_lt_of_mem h
  have h2 : sizeOf fs.fields < sizeOf fs := by cases fs; simp; omega
  have h3 : sizeOf sub < sizeOf (Fld.set n a sub) := by simp
  omega

theorem leafAt_one {root : FS} {i : Nat} {x : Nat} :
    LeafAt root [i] x ↔ ∃ n a s, root.fields[i]? = some (.leaf n a s) ∧ a ≤ x ∧ x < a + s := by
  unfold LeafAt
  rw [fieldAt_one]
  constructor
  · rintro ⟨n, a, s, h1, h2, h3⟩
    simp only [absoluteAddress, h1] at h2 h3
    exact ⟨n, a, s, h1, h2, h3⟩
  · rintro ⟨n, a, s, h1, h2, h3⟩
    refine ⟨n, a, s, h1, ?_⟩
    simp only [absoluteAddress, h1]
    exact ⟨h2, h3⟩

theorem leafAt_cons {root : FS} {i : Nat} {p : List Nat} (hp : p ≠ []) {x : Nat} :
    LeafAt root (i :: p) x ↔ ∃ n a sub, root.fields[i]? = some (.set n a sub) ∧ a ≤ x ∧ LeafAt sub p (x - a) := by
  unfold LeafAt
  rw [fieldAt_cons hp]
  constructor
  · rintro ⟨n, a, s, h1, h2, h3⟩
    cases hf : root.fields[i]? with
    | none => rw [hf] at h1; cases h1
    | some f =>
      cases f with
      | leaf => rw [hf] at h1; cases h1
      | set m b sub =>
        rw [hf] at h1
        simp only [absoluteAddress, hf] at h2 h3
        exact ⟨m, b, sub, rfl, by omega, n, a, s, h1, by omega, by omega⟩
  · rintro ⟨m, b, sub, hf, hb, n, a, s, h1, h2, h3⟩
    refine ⟨n, a, s, by rw [hf]; exact h1, ?_⟩
    simp only [absoluteAddress, hf]
    omega

theorem not_leafAt_nil {root : FS} {x : Nat} : ¬ LeafAt root [] x := by
  rintro ⟨n, a, s, h, _⟩
  simp [fieldAt] at h

theorem leaf_exists (k : Nat) : ∀ (A : Name → Prop) (root : FS), sizeOf root ≤ k → Ok A root → AllRead root → ∀ z, root.size = some z →
    ∀ x, x < z → ∃ pos, LeafAt root pos x := by
  induction k with
  | zero => intro A root hk; cases root; simp at hk
  | succ k ih =>
    intro A root hk hO hR z hz x hx
    have hc := hO.closed (hR root (.self _))
    rw [hz] at hc
    injection hc with hc
    obtain ⟨i, f, hi, h1, h2⟩ := tiled_finds hO.tiled (x := x) (by omega) (by omega)
    cases f with
    | leaf n a s => exact ⟨[i], leafAt_one.mpr ⟨n, a, s, hi, h1, h2⟩⟩
    | set n a sub =>
      have hm := List.mem_of_getElem? hi
      obtain ⟨A', hs⟩ := OkSome.get (hO.sub n a sub hm)
      obtain ⟨w, hw, _⟩ := hO.subsize n a sub hm
      simp only [Fld.addr, Fld.size, hw] at h1 h2
      obtain ⟨pos, hp⟩ := ih A' sub (by have := sizeOf_sub hm; omega) hs (fun t ht => hR t (.child _ _ _ _ _ hm ht)) w hw (x - a)
        (by simp at h2; omega)
      have hne : pos ≠ [] := by rintro rfl; exact not_leafAt_nil hp
      exact ⟨i :: pos, (leafAt_cons hne).mpr ⟨n, a, sub, hi, h1, hp⟩⟩

/-- Bits of leaves lie inside the field set. -/
theorem leaf_inside (p : List Nat) : ∀ (A : Name → Prop) (root : FS), Ok A root → ∀ x, LeafAt root p x → x < root.cur := by
  induction p with
  | nil => intro A root _ x h; exact absurd h not_leafAt_nil
  | cons i p ih =>
    intro A root hO x h
    cases p with
    | nil =>
      obtain ⟨n, a, s, h1, h2, h3⟩ := leafAt_one.mp h
      have := (tiled_addr hO.tiled _ (List.mem_of_getElem? h1)).2
      simp only [Fld.addr, Fld.size] at this
      omega
    | cons j p =>
      obtain ⟨n, a, sub, h1, h2, h3⟩ := (leafAt_cons (by simp)).mp h
      have hm := List.mem_of_getElem? h1
      obtain ⟨A', hs⟩ := OkSome.get (hO.sub n a sub hm)
      obtain ⟨w, hw, _⟩ := hO.subsize n a sub hm
      have h4 := ih A' sub hs _ h3
      have h5 := hs.inside w hw
      have := (tiled_addr hO.tiled _ hm).2
      simp [Fld.addr, Fld.size, hw] at this
      omega

theorem leaf_unique (p : List Nat) : ∀ (A : Name → Prop) (root : FS), Ok A root → ∀ (q : List Nat) (x : Nat),
    LeafAt root p x → LeafAt root q x → p = q := by
  induction p with
  | nil => intro A root _ q x h; exact absurd h not_leafAt_nil
  | cons i p ih =>
    intro A root hO q x h h'
    -- the field of the root holding the bit
    have hold : ∀ (i : Nat) (p : List Nat), LeafAt root (i :: p) x → ∃ f, root.fields[i]? = some f ∧ f.addr ≤ x ∧ x < f.addr + f.size := by
      intro i p h
      cases p with
      | nil =>
        obtain ⟨n, a, s, h1, h2, h3⟩ := leafAt_one.mp h
        exact ⟨_, h1, h2, h3⟩
      | cons j p =>
        obtain ⟨n, a, sub, h1, h2, h3⟩ := (leafAt_cons (by simp)).mp h
        have hm := List.mem_of_getElem? h1
        obtain ⟨A', hs⟩ := OkSome.get (hO.sub n a sub hm)
        obtain ⟨w, hw, _⟩ := hO.subsize n a sub hm
        have h4 := leaf_inside _ A' sub hs _ h3
        have h5 := hs.inside w hw
        refine ⟨_, h1, h2, ?_⟩
        simp [Fld.addr, Fld.size, hw]
        omega
    cases q with
    | nil => exact absurd h' not_leafAt_nil
    | cons j q =>
      obtain ⟨f, f1, f2, f3⟩ := hold i p h
      obtain ⟨f', g1, g2, g3⟩ := hold j q h'
      have hij : i = j := by
        rcases Nat.lt_trichotomy i j with e | e | e
        · have := tiled_index hO.tiled f1 g1 e; omega
        · exact e
        · have := tiled_index hO.tiled g1 f1 e; omega
      subst hij
      cases p with
      | nil =>
        obtain ⟨n, a, s, h1, _⟩ := leafAt_one.mp h
        cases q with
        | nil => rfl
        | cons k q =>
          obtain ⟨n', a', sub, h2, _⟩ := (leafAt_cons (by simp)).mp h'
          rw [h1] at h2; injection h2 with h2; cases h2
      | cons k p =>
        obtain ⟨n, a, sub, h1, h2, h3⟩ := (leafAt_cons (by simp)).mp h
        cases q with
        | nil =>
          obtain ⟨n', a', s, h4, _⟩ := leafAt_one.mp h'
          rw [h1] at h4; injection h4 with h4; cases h4
        | cons l q =>
          obtain ⟨n', a', sub', h4, h5, h6⟩ := (leafAt_cons (by simp)).mp h'
          rw [h1] at h4
          injection h4 with h4
          injection h4 with e1 e2 e3
          subst e1; subst e2; subst e3
          obtain ⟨A', hs⟩ := OkSome.get (hO.sub n a sub (List.mem_of_getElem? h1))
          rw [ih A' sub hs _ _ h3 h6]

/-- **C47.**  When a file of `z` bits is read completely, every bit of it belongs to
exactly one leaf of the tree (absolute addresses). -/
theorem C47_leaves_partition (fuel : Nat) (af : Bool) (z : Nat) (g : Gen) (hg : GoodGen g) (hist : List (List Nat × Op))
    (root : FS) (hroot : root = (accessesAt fuel af (FSet.new (some z) g) hist).1) (hR : AllRead root) (x : Nat) (hx : x < z) :
    ∃ pos, LeafAt root pos x ∧ ∀ pos', LeafAt root pos' x → pos' = pos := by
  obtain ⟨A, hg⟩ := hg
  have h := accessesAt_ok fuel af hist _ (Ok.new (some z) g hg)
  rw [← hroot] at h
  obtain ⟨pos, hp⟩ := leaf_exists _ A root (Nat.le_refl _) h.1 hR z (h.2 z rfl) x hx
  exact ⟨pos, hp, fun pos' hp' => leaf_unique pos' A root h.1 pos x hp' hp⟩

/-- **C47.**  While reading goes on, no bit belongs to two leaves, and no leaf reaches
behind the end of the file. -/
theorem C47_leaves_disjoint (fuel : Nat) (af : Bool) (z : Nat) (g : Gen) (hg : GoodGen g) (hist : List (List Nat × Op))
    (root : FS) (hroot : root = (accessesAt fuel af (FSet.new (some z) g) hist).1) (x : Nat) (pos : List Nat) (h : LeafAt root pos x) :
    x < z ∧ ∀ pos', LeafAt root pos' x → pos' = pos := by
  obtain ⟨A, hg⟩ := hg
  have hO := accessesAt_ok fuel af hist _ (Ok.new (some z) g hg)
  rw [← hroot] at hO
  have h1 := leaf_inside pos A root hO.1 x h
  have h2 := hO.1.inside z (hO.2 z rfl)
  exact ⟨by omega, fun pos' hp' => leaf_unique pos' A root hO.1 pos x hp' h⟩

theorem absolute_append {root sub : FS} {p q : List Nat} {n : Name} {a : Nat} (h : fieldAt root p = some (.set n a sub)) :
    absoluteAddress root (p ++ q) = absoluteAddress root p + absoluteAddress sub q := by
  induction p generalizing root with
  | nil => simp [fieldAt] at h; rw [h.2.2]; simp [absoluteAddress]
  | cons i p ih =>
    rw [List.cons_append]
    cases hf : root.fields[i]? with
    | none => simp [fieldAt, hf] at h
    | some f =>
      cases f with
      | leaf =>
        cases p with
        | nil => rw [fieldAt_one, hf] at h; cases h
        | cons => rw [fieldAt_cons (by simp), hf] at h; cases h
      | set m b s =>
        simp only [absoluteAddress, hf]
        cases p with
        | nil =>
          rw [fieldAt_one, hf] at h
          injection h with h
          injection h with _ _ h
          subst h
          simp [absoluteAddress]
        | cons j p =>
          rw [fieldAt_cons (by simp), hf] at h
          rw [ih h]
          omega

/-- **C47.**  The bits of a field lie within the bits of the field set holding it. -/
theorem C47_inside_parent (fuel : Nat) (af : Bool) (z : Nat) (g : Gen) (hg : GoodGen g) (hist : List (List Nat × Op))
    (root : FS) (hroot : root = (accessesAt fuel af (FSet.new (some z) g) hist).1) (p : List Nat) (n : Name) (a : Nat) (sub : FS)
    (hp : fieldAt root p = some (.set n a sub)) (i : Nat) (f : Fld) (hi : sub.fields[i]? = some f) :
    absoluteAddress root (p ++ [i]) = absoluteAddress root p + f.addr ∧
    absoluteAddress root (p ++ [i]) + f.size ≤ absoluteAddress root p + sub.cur := by
  obtain ⟨A, hg⟩ := hg
  have hO := (accessesAt_ok fuel af hist _ (Ok.new (some z) g hg)).1
  rw [← hroot] at hO
  obtain ⟨A', hs⟩ := okAt hO hp
  have h1 := (tiled_addr hs.tiled f (List.mem_of_getElem? hi)).2
  have h2 : absoluteAddress sub [i] = f.addr := by
    simp only [absoluteAddress, hi]
    cases f <;> rfl
  rw [absolute_append hp, h2]
  omega

/-- The leaves of the example file, all read. -/
example : (let root := (accessesAt 30 true (FSet.new (some 128) fileGen) [([], .len), ([1], .len), ([2], .len)]).1
    ([[0], [1, 0], [1, 1], [2, 0], [2, 1], [3], [4]] : List (List Nat)).map (fun p => (absoluteAddress root p,
      match fieldAt root p with
      | some f => f.size
      | none => 0))) = [(0, 32), (32, 8), (40, 16), (56, 8), (64, 32), (96, 8), (104, 4)] := by decide +kernel

/-! ### C20 for field sets that are too long

`_fixLastField` also handles field sets whose fields go beyond the declared size.
Reading never leads to such a state; the function does the right thing for all of
them. -/

theorem deleteLast_spec (size : Nat) (l : List Fld) : ∀ cur, Tiled l.reverse 0 cur →
    ∃ l' cur', deleteLast l cur size = .ok (l', cur') ∧ l' <:+ l ∧ Tiled l'.reverse 0 cur' ∧ cur' ≤ size ∧
      (l' ≠ l → ∀ f ∈ l, f ∉ l' → size < f.addr + f.size) := by
  induction l with
  | nil =>
    intro cur h
    simp [Tiled] at h
    rw [deleteLast, if_neg (by omega)]
    exact ⟨[], cur, rfl, List.suffix_refl _, by simp [Tiled, h], by omega, fun h => absurd rfl h⟩
  | cons f r ih =>
    intro cur h
    rw [deleteLast]
    by_cases hlt : size < cur
    · rw [if_pos hlt]
      rw [List.reverse_cons, tiled_append] at h
      obtain ⟨c, h1, h2, h3⟩ := h
      simp only [Tiled] at h3
      have hc : cur - f.size = c := by omega
      rw [hc]
      obtain ⟨l', cur', e1, e2, e3, e4, e5⟩ := ih c h1
      refine ⟨l', cur', e1, e2.trans (List.suffix_cons _ _), e3, e4, ?_⟩
      intro _ g hg hgn
      rcases List.mem_cons.mp hg with rfl | hg
      · omega
      · by_cases hl : l' = r
        · subst hl; exact absurd hg hgn
        · exact e5 hl g hg hgn
    · rw [if_neg hlt]
      exact ⟨f :: r, cur, rfl, List.suffix_refl _, h, by omega, fun h => absurd rfl h⟩

/-- **C20.**  `_fixLastField` keeps a prefix of the fields (dropping only fields that
go beyond the size) and fills the rest with one raw field, so that
the fields cover exactly the size. -/
theorem C20_fixLastField (fs : FS) (size : Nat) (ht : Tiled fs.fields 0 fs.cur) (hr : rawName ∉ fs.fields.map Fld.name) :
    ∃ fs' new kept, fixLastField fs size = .ok (fs', new) ∧ kept <+: fs.fields ∧ fs'.fields = kept ++ new.toList ∧
      Tiled fs'.fields 0 size ∧ fs'.cur = size ∧ fs'.gen = none ∧
      ∀ f ∈ fs.fields, f ∉ kept → size < f.addr + f.size := by
  obtain ⟨l', cur', e1, e2, e3, e4, e5⟩ := deleteLast_spec size fs.fields.reverse fs.cur (by rwa [List.reverse_reverse])
  have hpre : l'.reverse <+: fs.fields := by
    have := List.reverse_prefix.mpr e2
    rwa [List.reverse_reverse] at this
  have hdrop : ∀ f ∈ fs.fields, f ∉ l'.reverse → size < f.addr + f.size := by
    intro f hf hn
    have hf' : f ∈ fs.fields.reverse := List.mem_reverse.mpr hf
    have hn' : f ∉ l' := fun h => hn (List.mem_reverse.mpr h)
    refine e5 ?_ f hf' hn'
    rintro rfl
    exact hn' hf'
  unfold fixLastField
  rw [e1]
  simp only
  split
  · rename_i h0
    have : cur' = size := by omega
    subst this
    exact ⟨_, none, l'.reverse, rfl, hpre, by simp, e3, rfl, rfl, hdrop⟩
  · rename_i h0
    have hnot : rawName ∉ l'.reverse.map Fld.name := fun h => hr ((hpre.map Fld.name).subset h)
    unfold appendField
    rw [if_neg (show ¬ (Fld.leaf rawName cur' (size - cur')).name ∈ _ from hnot)]
    refine ⟨_, some (.leaf rawName cur' (size - cur')), l'.reverse, rfl, hpre, rfl, ?_, rfl, rfl, hdrop⟩
    simp only
    rw [tiled_append]
    refine ⟨cur', e3, rfl, ?_⟩
    simp only [Tiled, Fld.size]
    omega

example : (match fixLastField ⟨some 20, 32, [.leaf "a".toList 0 8, .leaf "b".toList 8 8, .leaf "c".toList 16 16], [], none, 0⟩ 20 with
    | .ok (fs, _) => fs.fields.map shape
    | .error _ => []) = [("a".toList, 0, 8), ("b".toList, 8, 8), ("raw[]".toList, 16, 4)] := by decide +kernel

end Hachoir.Props
