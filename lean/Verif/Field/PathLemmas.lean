import Verif.Field.Path
import Verif.Field.AccessLemmas
import Verif.Field.ReadLemmas

/-!
# Lemmas about paths
-/

set_option linter.unusedVariables false

namespace Hachoir.FieldSet
open Hachoir

variable {A : Name → Prop}

theorem split_ne_nil (n : Name) : split n ≠ [] := by
  cases n with
  | nil => simp [split]
  | cons c r => rw [split]; split <;> [simp; (split <;> simp)]

theorem split_plain (n : Name) (h : '/' ∉ n) : split n = [n] := by
  induction n with
  | nil => rfl
  | cons c r ih =>
    simp only [List.mem_cons, not_or] at h
    rw [split, if_neg (fun e => h.1 e.symm), ih h.2]

theorem split_append (a b : Name) : split (a ++ '/' :: b) = split a ++ split b := by
  induction a with
  | nil => simp [split]
  | cons c r ih =>
    rw [List.cons_append, split, split]
    by_cases hc : c = '/'
    · rw [if_pos hc, if_pos hc, ih]; rfl
    · rw [if_neg hc, if_neg hc, ih]
      cases hs : split r with
      | nil => exact absurd hs (split_ne_nil r)
      | cons p ps => rfl

theorem split_join (l : List Name) (hl : l ≠ []) (h : ∀ n ∈ l, '/' ∉ n) : split (join l) = l := by
  induction l with
  | nil => exact absurd rfl hl
  | cons n r ih =>
    cases r with
    | nil => exact split_plain n (h n List.mem_cons_self)
    | cons m r =>
      rw [join, split_append, split_plain n (h n List.mem_cons_self),
        ih (by simp) (fun x hx => h x (List.mem_cons_of_mem _ hx))]
      · rfl
      · intro e; cases e

theorem join_cons (n : Name) (r : List Name) (h : r ≠ []) : join (n :: r) = n ++ '/' :: join r := by
  cases r with
  | nil => exact absurd rfl h
  | cons m r => rfl

theorem fieldAt_cons {fs : FS} {i : Nat} {p : List Nat} (hp : p ≠ []) :
    fieldAt fs (i :: p) = match fs.fields[i]? with
      | some (.set _ _ sub) => fieldAt sub p
      | _ => none := by
  cases p with
  | nil => exact absurd rfl hp
  | cons j p =>
    rw [fieldAt]
    cases fs.fields[i]? with
    | none => rfl
    | some f => cases f <;> rfl

theorem fieldAt_one {fs : FS} {i : Nat} : fieldAt fs [i] = fs.fields[i]? := by
  rw [fieldAt]
  cases fs.fields[i]? with
  | none => rfl
  | some f => cases f <;> rfl

theorem fieldAt_append {root sub : FS} {p q : List Nat} {n : Name} {a : Nat}
    (h : fieldAt root p = some (.set n a sub)) (hq : q ≠ []) : fieldAt root (p ++ q) = fieldAt sub q := by
  induction p generalizing root with
  | nil =>
    simp [fieldAt] at h
    rw [List.nil_append, h.2.2]
  | cons i p ih =>
    rw [List.cons_append, fieldAt_cons (by simp [hq])]
    cases p with
    | nil =>
      rw [fieldAt_one] at h
      simp [h]
    | cons j p =>
      rw [fieldAt_cons (by simp)] at h
      cases hf : root.fields[i]? with
      | none => rw [hf] at h; cases h
      | some f =>
        rw [hf] at h
        cases f with
        | leaf => cases h
        | set m b s => exact ih h

theorem namesTo_set {fs : FS} {i : Nat} {p : List Nat} {n : Name} {a : Nat} {sub : FS}
    (hi : fs.fields[i]? = some (.set n a sub)) : namesTo fs (i :: p) = n :: namesTo sub p := by
  rw [namesTo, hi]

theorem namesTo_leaf {fs : FS} {i : Nat} {p : List Nat} {n : Name} {a s : Nat}
    (hi : fs.fields[i]? = some (.leaf n a s)) : namesTo fs (i :: p) = [n] := by
  rw [namesTo, hi]

theorem namesTo_one {fs : FS} {i : Nat} {f : Fld} (hi : fs.fields[i]? = some f) : namesTo fs [i] = [f.name] := by
  cases f with
  | leaf => exact namesTo_leaf hi
  | set => rw [namesTo_set hi]; rfl

theorem findIdx_nodup {l : List Fld} (hn : (l.map Fld.name).Nodup) {i : Nat} {f : Fld} (hi : l[i]? = some f) :
    l.findIdx? (fun x => decide (x.name = f.name)) = some i := by
  rw [List.findIdx?_eq_some_iff_getElem]
  obtain ⟨h1, h2⟩ := List.getElem?_eq_some_iff.mp hi
  refine ⟨h1, by simp [h2], ?_⟩
  intro j hj
  simp only [decide_eq_true_eq]
  intro e
  have := (List.Nodup.getElem_inj_iff hn (i := j) (j := i) (hi := by simp; omega) (hj := by simpa using h1)).mp (by simp [e, h2])
  omega

theorem findIdx_name {l : List Fld} {n : Name} {i : Nat} (h : l.findIdx? (fun x => decide (x.name = n)) = some i) :
    ∃ f, l[i]? = some f ∧ f.name = n := by
  rw [List.findIdx?_eq_some_iff_getElem] at h
  obtain ⟨h1, h2, _⟩ := h
  exact ⟨_, List.getElem?_eq_getElem h1, by simpa using h2⟩

theorem find_nodup {l : List Fld} (hn : (l.map Fld.name).Nodup) {i : Nat} {f : Fld} (hi : l[i]? = some f) :
    l.find? (fun x => decide (x.name = f.name)) = some f := by
  cases h : l.find? (fun x => decide (x.name = f.name)) with
  | none =>
    rw [List.find?_eq_none] at h
    have := h f (List.mem_of_getElem? hi)
    simp at this
  | some g =>
    have h1 := List.find?_some h
    have h2 := List.mem_of_find?_eq_some h
    rw [List.inj_on_of_nodup_map hn h2 (List.mem_of_getElem? hi) (by simpa using h1)]

theorem okAt {root sub : FS} {p : List Nat} {n : Name} {a : Nat} (hO : Ok A root)
    (h : fieldAt root p = some (.set n a sub)) : ∃ A', Ok A' sub := by
  induction p generalizing root A with
  | nil => simp [fieldAt] at h; exact ⟨A, h.2.2 ▸ hO⟩
  | cons i p ih =>
    cases hf : root.fields[i]? with
    | none => simp [fieldAt, hf] at h
    | some f =>
      cases p with
      | nil =>
        rw [fieldAt_one, hf] at h
        injection h with h
        subst h
        exact OkSome.get (hO.sub n a sub (List.mem_of_getElem? hf))
      | cons j p =>
        rw [fieldAt_cons (by simp), hf] at h
        cases f with
        | leaf => cases h
        | set m b s =>
          obtain ⟨A', hs⟩ := OkSome.get (hO.sub m b s (List.mem_of_getElem? hf))
          exact ih hs h

theorem set_same {l : List Fld} {i : Nat} {f : Fld} (hi : l[i]? = some f) : l.set i f = l := by
  obtain ⟨h, e⟩ := List.getElem?_eq_some_iff.mp hi
  subst e
  exact List.set_getElem_self h

/-- A field that exists is found without reading anything. -/
theorem accessAt_existing (fuel : Nat) (af : Bool) {root sub : FS} {p : List Nat} {n : Name} {a : Nat}
    (hp : fieldAt root p = some (.set n a sub)) (hn : (sub.fields.map Fld.name).Nodup) {i : Nat} {f : Fld}
    (hi : sub.fields[i]? = some f) : accessAt fuel af root p (.name f.name) = (root, .field f) := by
  induction p generalizing root with
  | nil =>
    simp [fieldAt] at hp
    obtain ⟨_, _, rfl⟩ := hp
    simp only [accessAt, access, getByName, findField]
    rw [find_nodup hn hi]
  | cons j p ih =>
    rw [accessAt]
    cases hf : root.fields[j]? with
    | none => simp [fieldAt, hf] at hp
    | some g =>
      cases g with
      | leaf =>
        cases p with
        | nil => rw [fieldAt_one, hf] at hp; cases hp
        | cons => rw [fieldAt_cons (by simp), hf] at hp; cases hp
      | set m b s =>
        have hp' : ∃ n' a', fieldAt s p = some (.set n' a' sub) := by
          cases p with
          | nil =>
            rw [fieldAt_one, hf] at hp
            injection hp with hp
            injection hp with _ _ hp
            subst hp
            exact ⟨_, _, rfl⟩
          | cons => rw [fieldAt_cons (by simp), hf] at hp; exact ⟨_, _, hp⟩
        obtain ⟨n', a', hp'⟩ := hp'
        have key : accessAt fuel af s p (.name f.name) = (s, .field f) := by
          cases p with
          | nil =>
            simp [fieldAt] at hp'
            obtain ⟨_, _, rfl⟩ := hp'
            simp only [accessAt, access, getByName, findField]
            rw [find_nodup hn hi]
          | cons => rw [fieldAt_cons (by simp), hf] at hp; exact ih hp
        simp only [key]
        rw [set_same hf]

theorem childOf_existing (fuel : Nat) (af const : Bool) {root sub : FS} {p : List Nat} {n : Name} {a : Nat}
    (hp : fieldAt root p = some (.set n a sub)) (hn : (sub.fields.map Fld.name).Nodup) {i : Nat} {f : Fld}
    (hi : sub.fields[i]? = some f) : childOf fuel af const root p f.name = (root, .at (p ++ [i])) := by
  unfold childOf
  rw [hp]
  simp only
  cases const with
  | true => simp [findIdx_nodup hn hi]
  | false =>
    simp only [Bool.false_eq_true, if_false]
    rw [accessAt_existing fuel af hp hn hi]
    simp [hp, findIdx_nodup hn hi]

/-- A name that is looked up: not empty, no slash, not only dots. -/
def Proper (n : Name) : Prop := '/' ∉ n ∧ ∃ c ∈ n, c ≠ '.'

theorem getPart_proper (fuel : Nat) (af const : Bool) (root : FS) (p : List Nat) {n : Name} (h : Proper n) :
    getPart fuel af const root p n = childOf fuel af const root p n := by
  unfold getPart
  rw [if_neg]
  rintro ⟨h1, _⟩
  obtain ⟨c, h2, h3⟩ := h.2
  rw [List.all_eq_true] at h1
  exact h3 (by simpa using h1 c h2)

theorem getParts_down (fuel : Nat) (af const : Bool) {root : FS} (q : List Nat) : ∀ {A : Name → Prop} {sub : FS} {p : List Nat} {n : Name}
    {a : Nat}, Ok A sub → fieldAt root p = some (.set n a sub) → (fieldAt sub q).isSome → (∀ x ∈ namesTo sub q, Proper x) →
    getParts fuel af const root p (namesTo sub q) = (root, .at (p ++ q)) := by
  induction q with
  | nil => intro A sub p n a hO hp hs hn; simp [namesTo, getParts]
  | cons i q ih =>
    intro A sub p n a hO hp hs hn
    cases hf : sub.fields[i]? with
    | none => simp [fieldAt, hf] at hs
    | some f =>
      cases q with
      | nil =>
        rw [namesTo_one hf] at hn ⊢
        rw [getParts, getPart_proper _ _ _ _ _ (hn _ List.mem_cons_self), childOf_existing fuel af const hp hO.names.nodup hf]
        rfl
      | cons j q =>
        rw [fieldAt_cons (by simp), hf] at hs
        cases f with
        | leaf => cases hs
        | set m b s =>
          rw [namesTo_set hf] at hn ⊢
          have hc := childOf_existing fuel af const hp hO.names.nodup hf
          rw [getParts, getPart_proper _ _ _ _ _ (hn _ List.mem_cons_self)]
          simp only [Fld.name] at hc
          rw [hc]
          simp only
          obtain ⟨A', hs'⟩ := OkSome.get (hO.sub m b s (List.mem_of_getElem? hf))
          rw [ih hs' (n := m) (a := b) (p := p ++ [i]) (by rw [fieldAt_append hp (by simp), fieldAt_one, hf]) hs
            (fun x hx => hn x (List.mem_cons_of_mem _ hx))]
          simp

/-! ### What is found has the name looked up -/

/-- Fields keep their place and name. -/
def Keeps (root root' : FS) : Prop :=
  ∀ q, (fieldAt root q).isSome → (fieldAt root' q).isSome ∧ namesTo root' q = namesTo root q

theorem Keeps.refl (root : FS) : Keeps root root := fun q h => ⟨h, rfl⟩
theorem Keeps.trans {a b c : FS} (h : Keeps a b) (h' : Keeps b c) : Keeps a c := fun q hq => by
  obtain ⟨h1, h2⟩ := h q hq
  obtain ⟨h3, h4⟩ := h' q h1
  exact ⟨h3, h4.trans h2⟩

theorem keeps_prefix {a b : FS} (h : a.fields <+: b.fields) : Keeps a b := by
  intro q hq
  cases q with
  | nil => exact ⟨rfl, rfl⟩
  | cons i q =>
    cases hf : a.fields[i]? with
    | none => simp [fieldAt, hf] at hq
    | some f =>
      have hf' : b.fields[i]? = some f := by
        obtain ⟨t, ht⟩ := h
        rw [← ht, List.getElem?_append_left (List.getElem?_eq_some_iff.mp hf).1, hf]
      constructor
      · rw [fieldAt, hf] at hq
        rw [fieldAt, hf']
        exact hq
      · rw [namesTo, namesTo, hf, hf']

theorem keeps_set {fs : FS} {j : Nat} {m : Name} {b : Nat} {s s' : FS} (hj : fs.fields[j]? = some (.set m b s))
    (h : Keeps s s') : Keeps fs { fs with fields := fs.fields.set j (.set m b s') } := by
  intro q hq
  cases q with
  | nil => exact ⟨rfl, rfl⟩
  | cons i q =>
    by_cases hij : i = j
    · subst hij
      have hs : ({ fs with fields := fs.fields.set i (.set m b s') } : FS).fields[i]? = some (.set m b s') := by
        simp only
        rw [List.getElem?_set_self (List.getElem?_eq_some_iff.mp hj).1]
      cases q with
      | nil =>
        rw [fieldAt_one, hs, namesTo_one hs, namesTo_one hj]
        exact ⟨rfl, rfl⟩
      | cons k q =>
        rw [fieldAt_cons (by simp), hj] at hq
        rw [fieldAt_cons (by simp), hs, namesTo_set hs, namesTo_set hj]
        obtain ⟨h1, h2⟩ := h _ hq
        exact ⟨h1, by rw [h2]⟩
    · have hs : ({ fs with fields := fs.fields.set j (.set m b s') } : FS).fields[i]? = fs.fields[i]? := by
        simp only
        rw [List.getElem?_set_ne (fun e => hij e.symm)]
      cases q with
      | nil =>
        rw [fieldAt_one] at hq ⊢
        rw [hs, namesTo, namesTo, hs]
        exact ⟨hq, rfl⟩
      | cons k q =>
        rw [fieldAt_cons (by simp)] at hq ⊢
        rw [hs, namesTo, namesTo, hs]
        exact ⟨hq, rfl⟩

theorem accessAt_keeps (fuel : Nat) (af : Bool) (op : Op) (p : List Nat) : ∀ (A : Name → Prop) (fs : FS), Ok A fs →
    Keeps fs (accessAt fuel af fs p op).1 := by
  induction p with
  | nil => intro A fs h; exact keeps_prefix (access_grows fuel af 0 fs op h).2.2
  | cons i p ih =>
    intro A fs h
    rw [accessAt]
    split
    · rename_i n a sub hi
      obtain ⟨A', hsub⟩ := OkSome.get (h.sub n a sub (List.mem_of_getElem? hi))
      exact keeps_set hi (ih A' sub hsub)
    · exact Keeps.refl _

theorem namesTo_append {root sub : FS} {p q : List Nat} {n : Name} {a : Nat}
    (h : fieldAt root p = some (.set n a sub)) : namesTo root (p ++ q) = namesTo root p ++ namesTo sub q := by
  induction p generalizing root with
  | nil => simp [fieldAt] at h; rw [h.2.2]; rfl
  | cons i p ih =>
    rw [List.cons_append]
    cases hf : root.fields[i]? with
    | none => simp [fieldAt, hf] at h
    | some f =>
      cases f with
      | leaf =>
        cases p with
        | nil => rw [fieldAt_one, hf] at h; cases h
        | cons => rw [fieldAt_cons (by simp), hf] at h; cases h
      | set m b s =>
        rw [namesTo_set hf, namesTo_set hf]
        cases p with
        | nil =>
          rw [fieldAt_one, hf] at h
          injection h with h
          injection h with _ _ h
          subst h
          rfl
        | cons j p =>
          rw [fieldAt_cons (by simp), hf] at h
          rw [ih h]
          rfl

/-- The state after a lookup, and what was found. -/
theorem childOf_spec (fuel : Nat) (af const : Bool) {root : FS} (hO : Ok A root) (p : List Nat) (name : Name) {root' : FS}
    {r : Found} (h : childOf fuel af const root p name = (root', r)) :
    Ok A root' ∧ (∀ z, root.size = some z → root'.size = some z) ∧ Keeps root root' ∧
    (∀ p', r = .at p' → ∃ i, p' = p ++ [i] ∧ (fieldAt root' p').isSome ∧ namesTo root' p' = namesTo root p ++ [name]) ∧
    (const = true → root' = root ∧ (r = .raise .missingField ∨ ∃ p', r = .at p')) := by
  unfold childOf at h
  split at h
  · rename_i n a sub hp
    split at h
    · rename_i hc
      split at h
      · rename_i i hi
        injection h with h1 h2
        subst h1; subst h2
        refine ⟨hO, fun z hz => hz, Keeps.refl _, ?_, fun _ => ⟨rfl, Or.inr ⟨_, rfl⟩⟩⟩
        intro p' hp'
        injection hp' with hp'
        subst hp'
        obtain ⟨f, h3, h4⟩ := findIdx_name hi
        refine ⟨i, rfl, ?_, ?_⟩
        · rw [fieldAt_append hp (by simp), fieldAt_one, h3]; rfl
        · rw [namesTo_append hp, namesTo_one h3, h4]
      · injection h with h1 h2
        subst h1; subst h2
        exact ⟨hO, fun z hz => hz, Keeps.refl _, fun p' hp' => (by cases hp'), fun _ => ⟨rfl, Or.inl rfl⟩⟩
    · rename_i hc
      have hk := accessAt_keeps fuel af (.name name) p A root hO
      have hok := accessAt_ok fuel af p (.name name) A root hO
      rcases ha : accessAt fuel af root p (.name name) with ⟨r1, o⟩
      rw [ha] at h hk hok
      simp only at h hk hok
      have hpn : (fieldAt root p).isSome := by rw [hp]; rfl
      split at h
      · rename_i r2 f heq
        injection heq with q1 q2
        subst q1
        split at h
        · rename_i n' a' sub' hp'
          split at h
          · rename_i i hi
            injection h with h1 h2
            subst h1; subst h2
            refine ⟨hok.1, hok.2, hk, ?_, fun e => absurd e hc⟩
            intro p' hp''
            injection hp'' with hp''
            subst hp''
            obtain ⟨f', h3, h4⟩ := findIdx_name hi
            refine ⟨i, rfl, ?_, ?_⟩
            · rw [fieldAt_append hp' (by simp), fieldAt_one, h3]; rfl
            · rw [namesTo_append hp', namesTo_one h3, h4, (hk p hpn).2]
          · injection h with h1 h2
            subst h1; subst h2
            exact ⟨hok.1, hok.2, hk, fun p' hp' => (by cases hp'), fun e => absurd e hc⟩
        · injection h with h1 h2
          subst h1; subst h2
          exact ⟨hok.1, hok.2, hk, fun p' hp' => (by cases hp'), fun e => absurd e hc⟩
      all_goals
        rename_i heq
        injection heq with q1 q2
        subst q1
        injection h with h1 h2
        subst h1; subst h2
        exact ⟨hok.1, hok.2, hk, fun p' hp' => (by cases hp'), fun e => absurd e hc⟩
  · injection h with h1 h2
    subst h1; subst h2
    exact ⟨hO, fun z hz => hz, Keeps.refl _, fun p' hp' => (by cases hp'), fun _ => ⟨rfl, Or.inl rfl⟩⟩

theorem getParts_spec (fuel : Nat) (af const : Bool) (parts : List Name) : ∀ {root : FS}, Ok A root → ∀ (p : List Nat),
    (fieldAt root p).isSome → (∀ x ∈ parts, Proper x) → ∀ {root' : FS} {r : Found},
    getParts fuel af const root p parts = (root', r) →
    Ok A root' ∧ (∀ z, root.size = some z → root'.size = some z) ∧ Keeps root root' ∧
    (∀ p', r = .at p' → (fieldAt root' p').isSome ∧ namesTo root' p' = namesTo root p ++ parts ∧ p'.length = p.length + parts.length) ∧
    (const = true → root' = root ∧ (r = .raise .missingField ∨ ∃ p', r = .at p')) := by
  induction parts with
  | nil =>
    intro root hO p hp hn root' r h
    rw [getParts] at h
    injection h with h1 h2
    subst h1; subst h2
    refine ⟨hO, fun z hz => hz, Keeps.refl _, ?_, fun _ => ⟨rfl, Or.inr ⟨_, rfl⟩⟩⟩
    intro p' hp'
    injection hp' with hp'
    subst hp'
    exact ⟨hp, by simp, rfl⟩
  | cons x parts ih =>
    intro root hO p hp hn root' r h
    rw [getParts, getPart_proper _ _ _ _ _ (hn x List.mem_cons_self)] at h
    rcases hc : childOf fuel af const root p x with ⟨r1, o⟩
    rw [hc] at h
    obtain ⟨c1, c2, c3, c4, c5⟩ := childOf_spec fuel af const hO p x hc
    cases o with
    | «at» p1 =>
      simp only at h
      obtain ⟨i, e1, e2, e3⟩ := c4 p1 rfl
      obtain ⟨d1, d2, d3, d4, d5⟩ := ih c1 p1 e2 (fun y hy => hn y (List.mem_cons_of_mem _ hy)) h
      refine ⟨d1, fun z hz => d2 z (c2 z hz), c3.trans d3, ?_, ?_⟩
      · intro p' hp'
        obtain ⟨f1, f2, f3⟩ := d4 p' hp'
        refine ⟨f1, ?_, ?_⟩
        · rw [f2, e3]; simp
        · rw [f3, e1]; simp; omega
      · intro hcst
        obtain ⟨g1, g2⟩ := d5 hcst
        exact ⟨g1.trans (c5 hcst).1, g2⟩
    | raise e =>
      simp only at h
      injection h with h1 h2
      subst h1; subst h2
      exact ⟨c1, c2, c3, fun p' hp' => (by cases hp'), fun hcst => by
        obtain ⟨g1, g2⟩ := c5 hcst
        exact ⟨g1, g2⟩⟩
    | fuel =>
      simp only at h
      injection h with h1 h2
      subst h1; subst h2
      exact ⟨c1, c2, c3, fun p' hp' => (by cases hp'), fun hcst => by
        obtain ⟨g1, g2⟩ := c5 hcst
        exact ⟨g1, g2⟩⟩

end Hachoir.FieldSet
