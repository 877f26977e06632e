import Verif.Field.PathLemmas
import Verif.Props.FieldSet

/-!
# Properties C25 and C27: paths and array views
-/

set_option linter.unusedVariables false

namespace Hachoir.Props
open Hachoir Hachoir.FieldSet

variable {A : Name → Prop}

/-! ### C25 -/

theorem pathOf_key {root : FS} {pos : List Nat} (hs : (fieldAt root pos).isSome) (hp : pos ≠ []) :
    namesTo root pos ≠ [] ∧ pathOf root pos = '/' :: join (namesTo root pos) := by
  have hne : namesTo root pos ≠ [] := by
    cases pos with
    | nil => exact absurd rfl hp
    | cons i p =>
      cases hf : root.fields[i]? with
      | none => simp [fieldAt, hf] at hs
      | some f =>
        cases f with
        | leaf => rw [namesTo_leaf hf]; simp
        | set => rw [namesTo_set hf]; simp
  refine ⟨hne, ?_⟩
  unfold pathOf
  rw [if_neg hp, join_cons _ _ hne]
  rfl

theorem join_ne_nil {l : List Name} (hl : l ≠ []) (h : ∀ x ∈ l, Proper x) : join l ≠ [] := by
  cases l with
  | nil => exact absurd rfl hl
  | cons n r =>
    obtain ⟨c, hc, _⟩ := (h n List.mem_cons_self).2
    cases r with
    | nil => intro e; simp only [join] at e; subst e; cases hc
    | cons m r => rw [join_cons _ _ (by simp)]; simp

/-- **C25.**  `x[field.path]` is `field`, for every existing field of the tree in
every state of reading, starting from any field `x`; nothing is read. -/
theorem C25_path_finds_field (fuel : Nat) (af : Bool) (z : Nat) (g : Gen) (hg : GoodGen g) (hist : List (List Nat × Op))
    (root : FS) (hroot : root = (accessesAt fuel af (FSet.new (some z) g) hist).1) (pos : List Nat)
    (hs : (fieldAt root pos).isSome) (hn : ∀ x ∈ namesTo root pos, Proper x) (fuel' : Nat) (af' const : Bool)
    (start : List Nat) :
    getField fuel' af' const root start (pathOf root pos) = (root, .at pos) := by
  obtain ⟨A, hg⟩ := hg
  have hO : Ok A root := by rw [hroot]; exact (accessesAt_ok fuel af hist _ (Ok.new _ _ hg)).1
  by_cases hp : pos = []
  · subst hp
    simp [pathOf, getField]
  · obtain ⟨hne, he⟩ := pathOf_key hs hp
    rw [he]
    unfold getField
    simp only [if_true]
    rw [if_neg (join_ne_nil hne hn), split_join _ hne (fun x hx => (hn x hx).1)]
    have := getParts_down fuel' af' const (root := root) pos (p := []) (n := []) (a := 0) hO rfl hs hn
    simpa using this

/-- **C25.**  Whatever an absolute key finds has that key as its path (also when
fields are read on the way). -/
theorem C25_found_has_path (root : FS) (hO : Ok A root) (fuel : Nat) (af const : Bool) (start : List Nat)
    (parts : List Name) (hne : parts ≠ []) (hn : ∀ x ∈ parts, Proper x) (root' : FS) (pos : List Nat)
    (h : getField fuel af const root start ('/' :: join parts) = (root', .at pos)) :
    (fieldAt root' pos).isSome ∧ pathOf root' pos = '/' :: join parts := by
  unfold getField at h
  simp only [if_true] at h
  rw [if_neg (join_ne_nil hne hn), split_join _ hne (fun x hx => (hn x hx).1)] at h
  obtain ⟨_, _, _, h1, _⟩ := getParts_spec fuel af const parts hO [] rfl hn h
  obtain ⟨h2, h3, h4⟩ := h1 pos rfl
  have hp : pos ≠ [] := by
    rintro rfl
    simp at h4
    exact hne (List.length_eq_zero_iff.mp h4.symm)
  refine ⟨h2, ?_⟩
  rw [(pathOf_key h2 hp).2, h3]
  rfl

/-- **C25.**  With `const` (nothing may be read), `root[key]` is the field with
these names on its path, and `MissingField` is raised exactly if there is none. -/
theorem C25_missing (fuel : Nat) (af : Bool) (z : Nat) (g : Gen) (hg : GoodGen g) (hist : List (List Nat × Op))
    (root : FS) (hroot : root = (accessesAt fuel af (FSet.new (some z) g) hist).1) (fuel' : Nat) (af' : Bool)
    (start : List Nat) (parts : List Name) (hne : parts ≠ []) (hn : ∀ x ∈ parts, Proper x) :
    (∀ pos, getField fuel' af' true root start ('/' :: join parts) = (root, .at pos) ↔
      pos.length = parts.length ∧ (fieldAt root pos).isSome ∧ namesTo root pos = parts) ∧
    (getField fuel' af' true root start ('/' :: join parts) = (root, .raise .missingField) ↔
      ∀ pos, (fieldAt root pos).isSome → namesTo root pos ≠ parts) := by
  obtain ⟨A, hg'⟩ := id hg
  have hO : Ok A root := by rw [hroot]; exact (accessesAt_ok fuel af hist _ (Ok.new _ _ hg')).1
  have hback : ∀ pos, (fieldAt root pos).isSome → namesTo root pos = parts →
      getField fuel' af' true root start ('/' :: join parts) = (root, .at pos) := by
    intro pos h1 h2
    have hp : pos ≠ [] := by
      rintro rfl
      exact hne h2.symm
    have := C25_path_finds_field fuel af z g hg hist root hroot pos h1 (by rw [h2]; exact hn) fuel' af' true start
    rwa [(pathOf_key h1 hp).2, h2] at this
  have hgo : getField fuel' af' true root start ('/' :: join parts) = getParts fuel' af' true root [] parts := by
    unfold getField
    simp only [if_true]
    rw [if_neg (join_ne_nil hne hn), split_join _ hne (fun x hx => (hn x hx).1)]
  rcases hr : getParts fuel' af' true root [] parts with ⟨root', r⟩
  obtain ⟨_, _, _, h1, h2⟩ := getParts_spec fuel' af' true parts hO [] rfl hn hr
  obtain ⟨h3, h4⟩ := h2 rfl
  subst h3
  constructor
  · intro pos
    constructor
    · intro h
      rw [hgo, hr] at h
      injection h with _ h
      obtain ⟨e1, e2, e3⟩ := h1 pos h
      exact ⟨by simpa using e3, e1, by simpa [namesTo] using e2⟩
    · rintro ⟨_, e1, e2⟩
      exact hback pos e1 e2
  · constructor
    · intro h pos e1 e2
      rw [hback pos e1 e2] at h
      injection h with _ h
      cases h
    · intro h
      rw [hgo, hr]
      rcases h4 with h4 | ⟨p', h4⟩
      · rw [h4]
      · obtain ⟨e1, e2, e3⟩ := h1 p' h4
        exact absurd (by simpa [namesTo] using e2) (h p' e1)

/-- **C25.**  `.` is the field itself, `..` its parent, `...` the parent of that:
`k + 1` dots go up `k` levels. -/
theorem C25_dots (fuel : Nat) (af const : Bool) (root : FS) (pos : List Nat) (k : Nat) (hk : k ≤ pos.length) :
    getField fuel af const root pos (List.replicate (k + 1) '.') = (root, .at (pos.take (pos.length - k))) := by
  have hs : split (List.replicate (k + 1) '.') = [List.replicate (k + 1) '.'] :=
    split_plain _ (by intro h; have := List.eq_of_mem_replicate h; revert this; decide)
  rw [List.replicate_succ] at hs ⊢
  unfold getField
  simp only
  rw [if_neg (by decide), hs, getParts]
  have : getPart fuel af const root pos ('.' :: List.replicate k '.') = (root, .at (pos.take (pos.length - k))) := by
    unfold getPart
    rw [if_pos]
    · simp
    · constructor
      · rw [List.all_eq_true]
        intro c hc
        rcases List.mem_cons.mp hc with rfl | hc
        · rfl
        · simp [List.eq_of_mem_replicate hc]
      · simpa using hk
  rw [this]
  rfl

/-- A lookup that continues at the field found. -/
def andThen (r : FS × Found) (next : FS → List Nat → FS × Found) : FS × Found :=
  match r with
  | (root, .at pos) => next root pos
  | (root, e) => (root, e)

theorem getParts_append (fuel : Nat) (af const : Bool) (a b : List Name) : ∀ (root : FS) (pos : List Nat),
    getParts fuel af const root pos (a ++ b) =
      andThen (getParts fuel af const root pos a) (fun root pos => getParts fuel af const root pos b) := by
  induction a with
  | nil => intro root pos; rfl
  | cons x a ih =>
    intro root pos
    rw [List.cons_append, getParts, getParts]
    rcases getPart fuel af const root pos x with ⟨r1, o⟩
    cases o with
    | «at» p => exact ih r1 p
    | raise e => rfl
    | fuel => rfl

/-- **C25.**  A key is followed part by part: `x["a/b"]` is `x["a"]["b"]`. -/
theorem C25_compose (fuel : Nat) (af const : Bool) (root : FS) (pos : List Nat) (a b : Name) (ha : a ≠ [])
    (hb : b ≠ []) (hb' : b.head? ≠ some '/') :
    getField fuel af const root pos (a ++ '/' :: b) =
      andThen (getField fuel af const root pos a) (fun root pos => getField fuel af const root pos b) := by
  have hB : ∀ root pos, getField fuel af const root pos b = getParts fuel af const root pos (split b) := by
    intro root pos
    cases b with
    | nil => exact absurd rfl hb
    | cons c r =>
      unfold getField
      simp only
      rw [if_neg]
      intro e; subst e; exact hb' rfl
  simp only [hB]
  cases a with
  | nil => exact absurd rfl ha
  | cons c r =>
    rw [List.cons_append]
    unfold getField
    simp only
    by_cases hc : c = '/'
    · rw [if_pos hc, if_pos hc, if_neg (by simp), split_append, getParts_append]
      by_cases hr : r = []
      · subst hr
        rw [if_pos rfl]
        have : getParts fuel af const root [] (split []) = (root, .at []) := by
          simp [split, getParts, getPart]
        rw [this]
      · rw [if_neg hr]
    · rw [if_neg hc, if_neg hc, ← List.cons_append, split_append, getParts_append]

/-- **C25.**  From a field, `../name` is its sibling of that name. -/
theorem C25_sibling (fuel : Nat) (af const : Bool) (root sub : FS) (p : List Nat) (n : Name) (a : Nat) (i j : Nat) (f : Fld)
    (hp : fieldAt root p = some (.set n a sub)) (hn : (sub.fields.map Fld.name).Nodup) (hj : sub.fields[j]? = some f)
    (hf : Proper f.name) :
    getField fuel af const root (p ++ [i]) ("../".toList ++ f.name) = (root, .at (p ++ [j])) := by
  obtain ⟨c, hc, hc'⟩ := hf.2
  have e : "../".toList ++ f.name = List.replicate 2 '.' ++ '/' :: f.name := rfl
  have hne : f.name ≠ [] := by intro e; rw [e] at hc; cases hc
  rw [e, C25_compose fuel af const root _ _ _ (by simp) hne (by
    intro h
    exact hf.1 (List.mem_of_head? h)), C25_dots fuel af const root (p ++ [i]) 1 (by simp)]
  simp only [andThen]
  have ht : (p ++ [i]).take ((p ++ [i]).length - 1) = p := by simp
  rw [ht]
  cases hnm : f.name with
  | nil => exact absurd hnm hne
  | cons c r =>
    unfold getField
    simp only
    rw [if_neg, ← hnm, split_plain _ hf.1, getParts, getPart_proper _ _ _ _ _ hf, childOf_existing fuel af const hp hn hj]
    · rfl
    · rintro rfl; exact hf.1 (by rw [hnm]; exact List.mem_cons_self)

/-- **C25.**  The empty key is refused. -/
theorem C25_empty_key (fuel : Nat) (af const : Bool) (root : FS) (pos : List Nat) :
    getField fuel af const root pos [] = (root, .raise .key) := rfl

theorem feedUntil_fixed (fuel : Nat) (ctx : Int) (name : Name) : ∀ (fs : FS), Ok A fs → fs.size ≠ none → fs.gen ≠ none →
    (feedUntil fuel true ctx name fs).2 = .fuel ∨ (feedUntil fuel true ctx name fs).2 = .raise .missingField ∨
    ∃ f, (feedUntil fuel true ctx name fs).2 = .field f ∧ findField (feedUntil fuel true ctx name fs).1 name = some f := by
  induction fuel with
  | zero => intro fs _ _ _; exact Or.inl rfl
  | succ fuel ih =>
    intro fs hO hs hg
    rw [feedUntil]
    cases hgen : fs.gen with
    | none => exact absurd hgen hg
    | some g =>
      simp only
      have hS := (feed_ok fuel).2.1 _ true ctx fs g hO hg (hO.good g hgen)
      rcases hr : feedStep fuel true ctx fs g with ⟨fs', res⟩
      rw [hr] at hS
      obtain ⟨s1, s2, s3, s4⟩ := hS
      cases res with
      | more n =>
        simp only at s4 ⊢
        obtain ⟨t1, t2, f, t3, t4, _⟩ := s4
        by_cases hn : n = name
        · subst hn
          rw [if_pos rfl]
          cases hff : findField fs' n with
          | none =>
            exfalso
            refine find_none hff ?_
            rw [t3]; simp [t4]
          | some f' => exact Or.inr (Or.inr ⟨f', rfl, hff⟩)
        · rw [if_neg hn]
          exact ih fs' s1 (by rw [t2]; exact hs) (by rw [t1]; exact hg)
      | done new => exact Or.inr (Or.inl rfl)
      | raise e =>
        exfalso
        simp only at s4
        rcases s4.2 with h | h
        · cases h
        · cases hz : fs.size with
          | none => exact hs hz
          | some z => rw [s2 z hz] at h; cases h
      | fuel => exact Or.inl rfl

theorem getByName_fixed (fuel : Nat) (ctx : Int) (fs : FS) (name : Name) (hO : Ok A fs) (hs : fs.size ≠ none) :
    (access fuel true ctx fs (.name name)).2 = .fuel ∨ (access fuel true ctx fs (.name name)).2 = .raise .missingField ∨
    ∃ f, (access fuel true ctx fs (.name name)).2 = .field f ∧
      findField (access fuel true ctx fs (.name name)).1 name = some f := by
  simp only [access, getByName]
  cases hf : findField fs name with
  | some f => exact Or.inr (Or.inr ⟨f, rfl, hf⟩)
  | none =>
    simp only
    cases hg : fs.gen with
    | none => exact Or.inr (Or.inl rfl)
    | some g => exact feedUntil_fixed fuel ctx name fs hO hs (by rw [hg]; simp)

/-- An access at a position is an access to the field set there. -/
theorem accessAt_node (fuel : Nat) (af : Bool) (op : Op) (p : List Nat) : ∀ {root sub : FS} {n : Name} {a : Nat},
    fieldAt root p = some (.set n a sub) →
    fieldAt (accessAt fuel af root p op).1 p = some (.set n a (access fuel af 0 sub op).1) ∧
    (accessAt fuel af root p op).2 = (access fuel af 0 sub op).2 := by
  induction p with
  | nil =>
    intro root sub n a h
    simp [fieldAt] at h
    obtain ⟨rfl, rfl, rfl⟩ := h
    exact ⟨rfl, rfl⟩
  | cons i p ih =>
    intro root sub n a h
    rw [accessAt]
    cases hf : root.fields[i]? with
    | none => simp [fieldAt, hf] at h
    | some g =>
      cases g with
      | leaf =>
        cases p with
        | nil => rw [fieldAt_one, hf] at h; cases h
        | cons => rw [fieldAt_cons (by simp), hf] at h; cases h
      | set m b s =>
        simp only
        have hlen := (List.getElem?_eq_some_iff.mp hf).1
        cases p with
        | nil =>
          rw [fieldAt_one, hf] at h
          injection h with h
          injection h with h1 h2 h3
          subst h1; subst h2; subst h3
          rw [fieldAt_one]
          simp only
          rw [List.getElem?_set_self hlen]
          exact ⟨rfl, rfl⟩
        | cons j p =>
          rw [fieldAt_cons (by simp), hf] at h
          obtain ⟨h1, h2⟩ := ih h
          rw [fieldAt_cons (by simp)]
          simp only
          rw [List.getElem?_set_self hlen]
          exact ⟨h1, h2⟩

theorem childOf_fixed (fuel : Nat) (const : Bool) (root : FS) (hO : Ok A root) (hz : root.size ≠ none) (p : List Nat) (name : Name)
    (root' : FS) (e : PyErr) (h : childOf fuel true const root p name = (root', .raise e)) : e = .missingField := by
  unfold childOf at h
  cases hp : fieldAt root p with
  | none => rw [hp] at h; injection h with _ h; injection h with h; exact h.symm
  | some g =>
    rw [hp] at h
    cases g with
    | leaf => injection h with _ h; injection h with h; exact h.symm
    | set n a sub =>
      simp only at h
      split at h
      · split at h
        · injection h with _ h; cases h
        · injection h with _ h; injection h with h; exact h.symm
      · obtain ⟨A', hsub⟩ := okAt hO hp
        have hsz : sub.size ≠ none := by
          have key : ∀ (p : List Nat) {A : Name → Prop} {root : FS}, Ok A root → root.size ≠ none →
              fieldAt root p = some (.set n a sub) → sub.size ≠ none := by
            intro p
            induction p with
            | nil => intro A root _ h0 h; simp [fieldAt] at h; rw [← h.2.2]; exact h0
            | cons i p ih =>
              intro A root hO h0 h
              cases hf : root.fields[i]? with
              | none => simp [fieldAt, hf] at h
              | some g =>
                cases g with
                | leaf =>
                  cases p with
                  | nil => rw [fieldAt_one, hf] at h; cases h
                  | cons => rw [fieldAt_cons (by simp), hf] at h; cases h
                | set m b s =>
                  have hm := List.mem_of_getElem? hf
                  obtain ⟨z, q1, _⟩ := hO.subsize m b s hm
                  cases p with
                  | nil =>
                    rw [fieldAt_one, hf] at h
                    injection h with h
                    injection h with _ _ h
                    subst h
                    rw [q1]; simp
                  | cons =>
                    rw [fieldAt_cons (by simp), hf] at h
                    obtain ⟨A', hs⟩ := OkSome.get (hO.sub m b s hm)
                    exact ih hs (by rw [q1]; simp) h
          exact key p hO hz hp
        obtain ⟨n1, n2⟩ := accessAt_node fuel true (.name name) p hp
        have hfix := getByName_fixed fuel 0 sub name hsub hsz
        rcases ha : accessAt fuel true root p (.name name) with ⟨r1, o⟩
        rw [ha] at n1 n2 h
        simp only at n1 n2
        rw [← n2] at hfix
        rcases hfix with hfix | hfix | ⟨f, q1, q2⟩
        · rw [hfix] at h; simp only at h; injection h with _ h; cases h
        · rw [hfix] at h; simp only at h; injection h with _ h; injection h with h; exact h.symm
        · rw [q1] at h
          simp only [n1] at h
          split at h
          · injection h with _ h; cases h
          · rename_i hnone
            exfalso
            obtain ⟨m1, m2⟩ := find_some q2
            rw [List.findIdx?_eq_none_iff] at hnone
            have := hnone f m1
            simp [m2] at this

/-- **C25.**  With automatic fixing, a lookup that reads fields raises nothing but
`MissingField`. -/
theorem C25_lazy_errors (fuel : Nat) (z : Nat) (g : Gen) (hg : GoodGen g) (hist : List (List Nat × Op)) (fuel' : Nat)
    (start : List Nat) (parts : List Name) (hne : parts ≠ []) (hn : ∀ x ∈ parts, Proper x) (root' : FS) (e : PyErr)
    (h : getField fuel' true false (accessesAt fuel true (FSet.new (some z) g) hist).1 start ('/' :: join parts) =
      (root', .raise e)) : e = .missingField := by
  obtain ⟨A, hg'⟩ := id hg
  obtain ⟨hO, hz⟩ := accessesAt_ok fuel true hist _ (Ok.new (some z) g hg')
  have hz := hz z rfl
  obtain ⟨root, hr⟩ : ∃ r, (accessesAt fuel true (FSet.new (some z) g) hist).1 = r := ⟨_, rfl⟩
  rw [hr] at hO hz h
  unfold getField at h
  simp only [if_true] at h
  rw [if_neg (join_ne_nil hne hn), split_join _ hne (fun x hx => (hn x hx).1)] at h
  have key : ∀ (parts : List Name) (root : FS) (p : List Nat), Ok A root → root.size ≠ none → (∀ x ∈ parts, Proper x) →
      getParts fuel' true false root p parts = (root', .raise e) → e = .missingField := by
    intro parts
    induction parts with
    | nil => intro root p _ _ _ h; rw [getParts] at h; injection h with _ h; cases h
    | cons x parts ih =>
      intro root p hO hz hn h
      rw [getParts, getPart_proper _ _ _ _ _ (hn x List.mem_cons_self)] at h
      rcases hc : childOf fuel' true false root p x with ⟨r1, o⟩
      rw [hc] at h
      cases o with
      | «at» p1 =>
        obtain ⟨c1, c2, _⟩ := childOf_spec fuel' true false hO p x hc
        refine ih r1 p1 c1 ?_ (fun y hy => hn y (List.mem_cons_of_mem _ hy)) h
        cases hs : root.size with
        | none => exact absurd hs hz
        | some w => rw [c2 w hs]; simp
      | raise e' =>
        simp only at h
        injection h with h1 h2
        injection h2 with h2
        subst h2
        exact childOf_fixed fuel' false root hO hz p x r1 e' hc
      | fuel => simp only at h; injection h with _ h; cases h
  exact key parts root [] hO (by rw [hz]; simp) hn h

/-- The second field of the second block, found by its path from inside the first
block, and by relative keys. -/
example : (getField 30 true false (feedAll 30 true 0 (FSet.new (some 128) fileGen)).1 [1, 0] "/block[1]/len".toList).2 = .at [2, 0] ∧
    (getField 30 true false (FSet.new (some 128) fileGen) [] "block[0]/data[0]".toList).2 = .at [1, 1] ∧
    (getField 30 true false (feedAll 30 true 0 (FSet.new (some 128) fileGen)).1 [1, 0] "..".toList).2 = .at [1] ∧
    (getField 30 true false (feedAll 30 true 0 (FSet.new (some 128) fileGen)).1 [1, 0] ".../magic".toList).2 = .at [0] ∧
    (getField 30 true false (feedAll 30 true 0 (FSet.new (some 128) fileGen)).1 [1, 0] "/block[2]".toList).2 = .raise .missingField := by
  decide +kernel

/-- The condition on the names is needed: a field named `a/b` is not found by its
path, one named `..` leads to the parent. -/
theorem C25_slash_in_name :
    pathOf ⟨some 8, 8, [.leaf "a/b".toList 0 8], [], none, 0⟩ [0] = "/a/b".toList ∧
    (getField 9 true false ⟨some 8, 8, [.leaf "a/b".toList 0 8], [], none, 0⟩ [] "/a/b".toList).2 = .raise .missingField ∧
    (getField 9 true false ⟨some 8, 8, [.set "s".toList 0 ⟨some 8, 8, [.leaf "..".toList 0 8], [], none, 0⟩], [], none, 0⟩ []
      (pathOf ⟨some 8, 8, [.set "s".toList 0 ⟨some 8, 8, [.leaf "..".toList 0 8], [], none, 0⟩], [], none, 0⟩ [0, 0])).2 = .at [] := by
  decide +kernel

end Hachoir.Props
