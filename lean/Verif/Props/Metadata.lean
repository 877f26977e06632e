import Verif.Metadata.DataLemmas
import Verif.Props.StringField

/-!
# C37: the values of a metadata key
-/

set_option linter.unusedVariables false

namespace Hachoir.Props
open Hachoir Hachoir.Metadata Hachoir.Time Spec

/-- Two values that may stand side by side: they are different for Python, and no one is a
text that begins with the other. -/
def Apart (a b : Value) : Prop :=
  a.eq b ≠ .ok true ∧ ∀ t u, a = .text t → b = .text u → ¬ t <+: u ∧ ¬ u <+: t

theorem Apart.symm {a b : Value} (h : Apart a b) : Apart b a :=
  ⟨fun e => h.1 (Value.eq_symm _ _ e), fun t u ht hu => (h.2 u t hu ht).symm⟩

/-- The stored values. -/
def stored (d : Data) : List Value := d.values.map Item.value

/-- An invariant of single additions holds after any history. -/
theorem run_induct {cfg : Config} {P : Data → Prop} (hadd : ∀ d d' arg, P d → d.add cfg arg = .ok d' → P d')
    (args : List Arg) : ∀ d, P d → P (d.run cfg args) := by
  induction args with
  | nil => intro d h; exact h
  | cons a r ih =>
    intro d h
    unfold Data.run
    split
    · rename_i d' hd; exact ih d' (hadd d d' a h hd)
    · exact ih d h

theorem run_config (cfg : Config) (args : List Arg) (d : Data) :
    ∃ l, d.run cfg args = { d with values := l } := by
  apply run_induct (P := fun e => ∃ l, e = { d with values := l }) (cfg := cfg)
  · rintro e e' arg ⟨l, rfl⟩ h
    rcases add_cases h with ⟨rfl, -⟩ | ⟨v, text, item, -, -, -, -, -, rfl⟩
    · exact ⟨l, rfl⟩
    · exact ⟨_, rfl⟩
  · exact ⟨d.values, rfl⟩

theorem prefix_both {α : Type} {a b c : List α} (h1 : a <+: c) (h2 : b <+: c) : a <+: b ∨ b <+: a :=
  List.prefix_or_prefix_of_prefix h1 h2

theorem apart_add {cfg : Config} {d d' : Data} {arg : Arg} (hd : (stored d).Pairwise Apart)
    (h : d.add cfg arg = .ok d') : (stored d').Pairwise Apart := by
  rcases add_cases h with ⟨rfl, -⟩ | ⟨v, text, item, -, hk, -, hv, -, rfl⟩
  · exact hd
  have hne := contains_false hk
  cases v with
  | text t =>
    simp only [stored]
    have hnt : ∀ i ∈ d.values, i.value ≠ .text t := fun i hi e => hne i hi ((eq_text _ _).mpr e)
    have hap : ∀ i ∈ d.values, (∀ u, i.value = .text u → ¬ u <+: t ∧ ¬ t <+: u) → Apart i.value (.text t) := by
      intro i hi hu
      refine ⟨fun e => hne i hi (Value.eq_symm _ _ e), ?_⟩
      intro a b ha hb
      cases hb
      exact hu a ha
    rcases placeText_cases t item d.values with ⟨a, i, u, b, e1, e2, e3, e4, e5⟩ | ⟨i, u, e1, e2, e3, e4⟩ | ⟨e1, e2⟩
    · rw [e4]
      simp only [stored, e1, List.map_append, List.map_cons, List.pairwise_append, List.pairwise_cons] at hd ⊢
      rw [hv]
      obtain ⟨ha, ⟨hib, hb⟩, hab⟩ := hd
      have other : ∀ x : Value, x ∈ b.map Item.value → Apart (.text t) x := by
        intro x hx
        obtain ⟨j, hj, rfl⟩ := List.mem_map.mp hx
        apply Apart.symm
        apply hap j (by rw [e1]; simp [hj])
        intro w hw
        have hiw := (hib _ (List.mem_map.mpr ⟨j, hj, rfl⟩)).2 u w e2 hw
        constructor
        · intro hwt
          rcases prefix_both e3 hwt with h | h
          · exact hiw.1 h
          · exact hiw.2 h
        · intro htw
          exact hiw.1 (e3.trans htw)
      refine ⟨ha, ⟨other, hb⟩, ?_⟩
      intro x hx y hy
      rcases List.mem_cons.mp hy with rfl | hy
      · obtain ⟨j, hj, rfl⟩ := List.mem_map.mp hx
        exact hap j (by rw [e1]; simp [hj]) (e5 j hj)
      · exact hab x hx y (List.mem_cons_of_mem _ hy)
    · rw [e4]; exact hd
    · rw [e2]
      simp only [List.map_append, List.map_cons, List.map_nil, List.pairwise_append]
      refine ⟨hd, by simp, ?_⟩
      intro x hx y hy
      simp only [List.mem_singleton] at hy
      rw [hy, hv]
      obtain ⟨j, hj, rfl⟩ := List.mem_map.mp hx
      exact hap j hj (e1 j hj)
  | _ =>
    simp only [stored, List.map_append, List.map_cons, List.map_nil, List.pairwise_append]
    refine ⟨hd, by simp, ?_⟩
    intro x hx y hy
    simp only [List.mem_singleton] at hy
    rw [hy, hv]
    obtain ⟨j, hj, rfl⟩ := List.mem_map.mp hx
    refine ⟨fun e => hne j hj (Value.eq_symm _ _ e), ?_⟩
    intro t u _ hu
    cases hu

/-- After any history of additions the stored values are pairwise different, and no stored text
begins with another one. -/
theorem C37_distinct (cfg : Config) (d : Data) (hd : d.values = []) (args : List Arg) :
    (stored (d.run cfg args)).Pairwise Apart := by
  apply run_induct (P := fun d => (stored d).Pairwise Apart) (fun d d' arg h e => apart_add h e)
  rw [stored, hd]
  exact List.Pairwise.nil

/-! ## Stored values were offered, and offered values are kept -/

/-- The value `arg` stands for under the key: after conversion, normalisation, type check and
filter. -/
def Offers (cfg : Config) (d : Data) (arg : Arg) (v : Value) : Prop :=
  ∃ text, d.candidate cfg arg = .ok (some (v, text)) ∧ d.filterOk v = .ok true

theorem candidate_values (cfg : Config) (d : Data) (l : List Item) (arg : Arg) :
    ({ d with values := l } : Data).candidate cfg arg = d.candidate cfg arg := rfl

theorem offers_values (cfg : Config) (d : Data) (l : List Item) (arg : Arg) (v : Value) :
    Offers cfg { d with values := l } arg v ↔ Offers cfg d arg v := Iff.rfl

theorem mem_stored_add {cfg : Config} {d d' : Data} {arg : Arg} (h : d.add cfg arg = .ok d') (v : Value)
    (hv : v ∈ stored d') : v ∈ stored d ∨ Offers cfg d arg v := by
  rcases add_cases h with ⟨rfl, -⟩ | ⟨w, text, item, hc, hk, hf, hw, -, rfl⟩
  · exact Or.inl hv
  have hmem : v ∈ stored d ∨ v = w := by
    cases w with
    | text t =>
      simp only [stored] at hv ⊢
      rcases placeText_cases t item d.values with ⟨a, i, u, b, e1, e2, e3, e4, e5⟩ | ⟨i, u, e1, e2, e3, e4⟩ | ⟨e1, e2⟩
      · rw [e4] at hv
        rw [e1]
        simp only [List.map_append, List.map_cons, List.mem_append, List.mem_cons, hw] at hv ⊢
        rcases hv with h | h | h
        · exact Or.inl (Or.inl h)
        · exact Or.inr h
        · exact Or.inl (Or.inr (Or.inr h))
      · rw [e4] at hv; exact Or.inl hv
      · rw [e2] at hv
        simpa [hw] using hv
    | _ => simpa [stored, hw] using hv
  rcases hmem with h | rfl
  · exact Or.inl h
  · exact Or.inr ⟨text, hc, hf⟩

/-- Every stored value is the value of one of the additions. -/
theorem C37_sound (cfg : Config) (d : Data) (hd : d.values = []) (args : List Arg) :
    ∀ v ∈ stored (d.run cfg args), ∃ arg ∈ args, Offers cfg d arg v := by
  suffices H : ∀ (args : List Arg) (e : Data), (∃ l, e = { d with values := l }) →
      ∀ v ∈ stored (e.run cfg args), v ∈ stored e ∨ ∃ arg ∈ args, Offers cfg d arg v by
    intro v hv
    rcases H args d ⟨d.values, rfl⟩ v hv with h | h
    · rw [stored, hd] at h; cases h
    · exact h
  intro args
  induction args with
  | nil => intro e _ v hv; exact Or.inl hv
  | cons a r ih =>
    rintro e ⟨l, rfl⟩ v hv
    unfold Data.run at hv
    split at hv
    · rename_i e' he
      obtain ⟨l', hl'⟩ : ∃ l', e' = { d with values := l' } := by
        rcases add_cases he with ⟨rfl, -⟩ | ⟨_, _, _, -, -, -, -, -, rfl⟩
        · exact ⟨l, rfl⟩
        · exact ⟨_, rfl⟩
      rcases ih e' ⟨l', hl'⟩ v hv with h | ⟨arg, h1, h2⟩
      · rcases mem_stored_add he v h with h | h
        · exact Or.inl h
        · exact Or.inr ⟨a, List.mem_cons_self .., h⟩
      · exact Or.inr ⟨arg, List.mem_cons_of_mem _ h1, h2⟩
    · rcases ih _ ⟨l, rfl⟩ v hv with h | ⟨arg, h1, h2⟩
      · exact Or.inl h
      · exact Or.inr ⟨arg, List.mem_cons_of_mem _ h1, h2⟩

/-- The list holds the value: a text is the beginning of a stored text, another value is equal
to a stored value. -/
def Keeps (l : List Value) (v : Value) : Prop :=
  match v with
  | .text t => ∃ u, Value.text u ∈ l ∧ t <+: u
  | v => v ∈ l ∨ ∃ w ∈ l, v.eq w = .ok true

theorem holds_mem {l : List Value} {v : Value} (h : v ∈ l) : Keeps l v := by
  cases v with
  | text t => exact ⟨t, h, List.prefix_refl t⟩
  | _ => exact Or.inl h

theorem holds_add {cfg : Config} {d d' : Data} {arg : Arg} (h : d.add cfg arg = .ok d') (v : Value)
    (hv : Keeps (stored d) v) : Keeps (stored d') v := by
  rcases add_cases h with ⟨rfl, -⟩ | ⟨w, text, item, hc, hk, hf, hw, -, rfl⟩
  · exact hv
  cases w with
  | text t =>
    simp only [stored] at hv ⊢
    rcases placeText_cases t item d.values with ⟨a, i, u, b, e1, e2, e3, e4, e5⟩ | ⟨i, u, e1, e2, e3, e4⟩ | ⟨e1, e2⟩
    · rw [e4]
      rw [e1] at hv
      simp only [List.map_append, List.map_cons, hw, e2] at hv ⊢
      cases v with
      | text x =>
        obtain ⟨y, hy, hxy⟩ := hv
        simp only [List.mem_append, List.mem_cons] at hy
        rcases hy with hy | hy | hy
        · exact ⟨y, by simp [hy], hxy⟩
        · cases hy
          exact ⟨t, by simp, hxy.trans e3⟩
        · exact ⟨y, by simp [hy], hxy⟩
      | _ =>
        rcases hv with hv | ⟨y, hy, hxy⟩
        · left
          simp only [List.mem_append, List.mem_cons, reduceCtorEq, false_or] at hv ⊢
          exact hv
        · simp only [List.mem_append, List.mem_cons] at hy
          rcases hy with hy | hy | hy
          · exact Or.inr ⟨y, by simp [hy], hxy⟩
          · rw [hy] at hxy
            have := (eq_text _ _).mp (Value.eq_symm _ _ hxy)
            cases this
          · exact Or.inr ⟨y, by simp [hy], hxy⟩
    · rw [e4]; exact hv
    · rw [e2]
      cases v with
      | text x =>
        obtain ⟨y, hy, hxy⟩ := hv
        exact ⟨y, by simp only [List.map_append, List.mem_append]; exact Or.inl hy, hxy⟩
      | _ =>
        rcases hv with hv | ⟨y, hy, hxy⟩
        · exact Or.inl (by simp only [List.map_append, List.mem_append]; exact Or.inl hv)
        · exact Or.inr ⟨y, by simp only [List.map_append, List.mem_append]; exact Or.inl hy, hxy⟩
  | _ =>
    simp only [stored] at hv ⊢
    cases v with
    | text x =>
      obtain ⟨y, hy, hxy⟩ := hv
      exact ⟨y, by simp only [List.map_append, List.mem_append]; exact Or.inl hy, hxy⟩
    | _ =>
      rcases hv with hv | ⟨y, hy, hxy⟩
      · exact Or.inl (by simp only [List.map_append, List.mem_append]; exact Or.inl hv)
      · exact Or.inr ⟨y, by simp only [List.map_append, List.mem_append]; exact Or.inl hy, hxy⟩

theorem holds_new {cfg : Config} {d d' : Data} {arg : Arg} (h : d.add cfg arg = .ok d') (v : Value)
    (hv : Offers cfg d arg v) : Keeps (stored d') v := by
  obtain ⟨tx, hc, hf⟩ := hv
  rcases add_cases h with ⟨rfl, h1 | ⟨w, text, h1, h2 | ⟨h2, h3⟩⟩⟩ | ⟨w, text, item, h1, hk, hf', hw, -, rfl⟩
  · rw [hc] at h1; cases h1
  · rw [hc] at h1
    cases h1
    obtain ⟨i, hi, he⟩ := contains_true h2
    cases v with
    | text t =>
      have := (eq_text _ _).mp he
      exact ⟨t, List.mem_map.mpr ⟨i, hi, this⟩, List.prefix_refl t⟩
    | _ => exact Or.inr ⟨i.value, List.mem_map.mpr ⟨i, hi, rfl⟩, he⟩
  · rw [hc] at h1
    cases h1
    rw [hf] at h3
    cases h3
  · rw [hc] at h1
    cases h1
    cases v with
    | text t =>
      simp only [stored]
      rcases placeText_cases t item d.values with ⟨a, i, u, b, e1, e2, e3, e4, e5⟩ | ⟨i, u, e1, e2, e3, e4⟩ | ⟨e1, e2⟩
      · rw [e4]
        exact ⟨t, by simp [hw], List.prefix_refl t⟩
      · rw [e4]
        exact ⟨u, List.mem_map.mpr ⟨i, e1, e2⟩, e3⟩
      · rw [e2]
        exact ⟨t, by simp [hw], List.prefix_refl t⟩
    | _ => exact Or.inl (by simp [stored, hw])

/-- Nothing is lost: the value of an addition that returned is held by the key ever after. -/
theorem C37_kept (cfg : Config) (d : Data) (before after : List Arg) (arg : Arg) (v : Value)
    (hret : ∃ d', (d.run cfg before).add cfg arg = .ok d') (hv : Offers cfg d arg v) :
    Keeps (stored (d.run cfg (before ++ arg :: after))) v := by
  obtain ⟨d', hd'⟩ := hret
  have happ : ∀ (l : List Arg) (e : Data), e.run cfg (l ++ arg :: after) = (e.run cfg l).run cfg (arg :: after) := by
    intro l
    induction l with
    | nil => intro e; rfl
    | cons a r ih =>
      intro e
      show (match e.add cfg a with
        | .ok d' => d'.run cfg (r ++ arg :: after)
        | .error _ => e.run cfg (r ++ arg :: after)) =
        (match e.add cfg a with
        | .ok d' => d'.run cfg r
        | .error _ => e.run cfg r).run cfg (arg :: after)
      cases e.add cfg a with
      | ok d' => exact ih _
      | error x => exact ih _
  rw [happ, Data.run, hd']
  simp only
  apply run_induct (P := fun e => Keeps (stored e) v) (fun e e' a h he => holds_add he v h)
  obtain ⟨l, hl⟩ := run_config cfg before d
  apply holds_new hd'
  rw [hl]
  exact hv

/-- A text offered by a returning addition that no other offered text extends is stored. -/
theorem C37_longest (cfg : Config) (d : Data) (hd : d.values = []) (before after : List Arg) (arg : Arg) (t : Text)
    (hret : ∃ d', (d.run cfg before).add cfg arg = .ok d') (hv : Offers cfg d arg (.text t))
    (hmax : ∀ a ∈ before ++ arg :: after, ∀ u, Offers cfg d a (.text u) → t <+: u → u = t) :
    Value.text t ∈ stored (d.run cfg (before ++ arg :: after)) := by
  obtain ⟨u, hu, htu⟩ := C37_kept cfg d before after arg _ hret hv
  obtain ⟨a, ha, hoff⟩ := C37_sound cfg d hd _ _ hu
  rw [← hmax a ha u hoff htu]
  exact hu

/-- The first value is the first one accepted, or a text that begins with it. -/
theorem C37_first (cfg : Config) (d : Data) (v : Value) (l : List Value) (hd : stored d = v :: l) (args : List Arg) :
    ∃ w r, stored (d.run cfg args) = w :: r ∧ (w = v ∨ ∃ t u, v = .text t ∧ w = .text u ∧ t <+: u) := by
  apply run_induct (cfg := cfg)
    (P := fun e => ∃ w r, stored e = w :: r ∧ (w = v ∨ ∃ t u, v = .text t ∧ w = .text u ∧ t <+: u))
  · rintro e e' arg ⟨w, r, hs, hw⟩ h
    rcases add_cases h with ⟨rfl, -⟩ | ⟨x, text, item, hc, hk, hf, hx, -, rfl⟩
    · exact ⟨w, r, hs, hw⟩
    cases hvals : e.values with
    | nil => rw [stored, hvals] at hs; cases hs
    | cons i q =>
      have hiw : i.value = w := by
        rw [stored, hvals] at hs
        simp only [List.map_cons, List.cons.injEq] at hs
        exact hs.1
      cases x with
      | text t =>
        simp only [stored]
        rcases placeText_cases t item e.values with ⟨a, j, u, b, e1, e2, e3, e4, e5⟩ | ⟨j, u, e1, e2, e3, e4⟩ | ⟨e1, e2⟩
        · rw [hvals] at e4
          rw [e4]
          cases a with
          | nil =>
            rw [hvals] at e1
            simp only [List.nil_append, List.cons.injEq] at e1
            refine ⟨item.value, b.map Item.value, rfl, Or.inr ?_⟩
            rw [← e1.1, hiw] at e2
            rcases hw with rfl | ⟨t', u', h1, h2, h3⟩
            · exact ⟨u, t, e2, hx, e3⟩
            · rw [e2] at h2
              cases h2
              exact ⟨t', t, h1, hx, h3.trans e3⟩
          | cons k a =>
            rw [hvals] at e1
            simp only [List.cons_append, List.cons.injEq] at e1
            exact ⟨w, (a ++ item :: b).map Item.value, by simp [← e1.1, hiw], hw⟩
        · rw [hvals] at e4
          rw [e4]
          exact ⟨w, q.map Item.value, by simp [hiw], hw⟩
        · rw [hvals] at e2
          rw [e2]
          exact ⟨w, (q ++ [item]).map Item.value, by simp [hiw], hw⟩
      | _ => exact ⟨w, (q ++ [item]).map Item.value, by simp [stored, hiw], hw⟩
  · exact ⟨v, l, hd, Or.inl rfl⟩

/-! ## Type, filter and form of the stored values -/

/-- Every stored value has one of the types of the key. -/
theorem C37_type (cfg : Config) (d : Data) (hd : d.values = []) (args : List Arg) (types : List Ty)
    (ht : d.type = some types) (hne : types ≠ []) :
    ∀ v ∈ stored (d.run cfg args), ∃ ty ∈ types, v.isInstance ty = true := by
  intro v hv
  obtain ⟨arg, -, text, hc, -⟩ := C37_sound cfg d hd args v hv
  have h : d.typeOk v = true := by
    rcases candidate_cases hc with ⟨t, -, -, h⟩ | ⟨-, h⟩ <;> exact h
  unfold Data.typeOk at h
  rw [ht] at h
  cases types with
  | nil => exact absurd rfl hne
  | cons a r => simpa using List.any_eq_true.mp h

theorem cutText_cases (cfg : Config) (t : Text) :
    cutText cfg t = t ∨ (cutText cfg t = t.take cfg.maxStrLength ++ dots ∧ cfg.maxStrLength < t.length ∧ cfg.maxStrLength ≠ 0) := by
  unfold cutText
  split
  · rename_i h; exact Or.inr ⟨rfl, h.2, h.1⟩
  · exact Or.inl rfl

theorem squeeze_ne (t : Text) (h : t ≠ []) : squeeze t ≠ [] := by
  intro e
  have := squeeze_head t
  rw [e] at this
  cases t with
  | nil => exact h rfl
  | cons a b => cases this

theorem replaceCRLF_ne (t : Text) (h : t ≠ []) : replaceCRLF t ≠ [] := by
  cases t using replaceCRLF.fun_cases with
  | case1 => exact h
  | case2 c => simp [replaceCRLF]
  | case3 c d r h' => simp [replaceCRLF, h']
  | case4 c d r h' => rw [replaceCRLF, if_neg h']; simp

theorem normalizeNewline_ne (t : Text) (h : t ≠ []) : normalizeNewline t ≠ [] := by
  unfold normalizeNewline
  apply squeeze_ne
  simp [replaceCRLF_ne t h]

theorem cutText_ne (cfg : Config) (t : Text) (h : t ≠ []) : cutText cfg t ≠ [] := by
  rcases cutText_cases cfg t with e | ⟨e, -⟩
  · rw [e]; exact h
  · rw [e]; simp [dots]

theorem stored_text (cfg : Config) (d : Data) (hd : d.values = []) (args : List Arg) (t : Text)
    (h : Value.text t ∈ stored (d.run cfg args)) :
    ∃ u, normalizeString cfg u ≠ [] ∧ t = cutText cfg (normalizeNewline (normalizeString cfg u)) := by
  obtain ⟨arg, -, text, hc, -⟩ := C37_sound cfg d hd args _ h
  rcases candidate_cases hc with ⟨u, h1, h2, -⟩ | ⟨h1, -⟩
  · cases h1; exact ⟨u, h2, rfl⟩
  · exact absurd rfl (h1 t)

/-- No stored text is empty. -/
theorem C37_nonempty (cfg : Config) (d : Data) (hd : d.values = []) (args : List Arg) :
    Value.text [] ∉ stored (d.run cfg args) := by
  intro h
  obtain ⟨u, h1, h2⟩ := stored_text cfg d hd args _ h
  exact cutText_ne cfg _ (normalizeNewline_ne _ h1) h2.symm

/-- A stored text is at most as long as the limit and the text `(...)`. -/
theorem C37_length (cfg : Config) (hmax : cfg.maxStrLength ≠ 0) (d : Data) (hd : d.values = []) (args : List Arg) (t : Text)
    (h : Value.text t ∈ stored (d.run cfg args)) : t.length ≤ cfg.maxStrLength + 5 := by
  obtain ⟨u, h1, h2⟩ := stored_text cfg d hd args _ h
  rw [h2]
  unfold cutText
  split
  · simp [dots]
  · rename_i hn
    have : ¬ cfg.maxStrLength < (normalizeNewline (normalizeString cfg u)).length := fun x => hn ⟨hmax, x⟩
    omega

/-- A stored text has no carriage return and no empty line. -/
theorem C37_newlines (cfg : Config) (d : Data) (hd : d.values = []) (args : List Arg) (t : Text)
    (h : Value.text t ∈ stored (d.run cfg args)) : 13 ∉ t ∧ ¬ HasBlank t := by
  obtain ⟨u, h1, h2⟩ := stored_text cfg d hd args _ h
  have hr := C51_no_return (normalizeString cfg u)
  have hb := C51_no_blank (normalizeString cfg u)
  rw [h2]
  rcases cutText_cases cfg (normalizeNewline (normalizeString cfg u)) with e | ⟨e, -⟩
  · rw [e]; exact ⟨hr, hb⟩
  · rw [e]
    constructor
    · intro hm
      rcases List.mem_append.mp hm with hm | hm
      · exact hr (List.mem_of_mem_take hm)
      · revert hm; decide
    · rintro ⟨a, b, e⟩
      obtain ⟨k, hk⟩ : ∃ k, (normalizeNewline (normalizeString cfg u)).take cfg.maxStrLength = k := ⟨_, rfl⟩
      rw [hk] at e
      rcases List.append_eq_append_iff.mp e with ⟨a', e1, e2⟩ | ⟨a', e1, e2⟩
      · have : (10 : Nat) ∈ dots := by rw [e2]; simp
        revert this; decide
      · cases a' with
        | nil =>
          simp only [List.nil_append] at e2
          have : (10 : Nat) ∈ dots := by rw [← e2]; simp
          revert this; decide
        | cons x a' =>
          simp only [List.cons_append, List.cons.injEq] at e2
          cases a' with
          | nil =>
            simp only [List.nil_append] at e2
            have : (10 : Nat) ∈ dots := by rw [← e2.2]; simp
            revert this; decide
          | cons y a'' =>
            simp only [List.cons_append, List.cons.injEq] at e2
            apply hb
            refine ⟨a, a'' ++ (normalizeNewline (normalizeString cfg u)).drop cfg.maxStrLength, ?_⟩
            have := List.take_append_drop cfg.maxStrLength (normalizeNewline (normalizeString cfg u))
            rw [hk, e1, ← e2.1, ← e2.2.1] at this
            simpa using this.symm

theorem norm_head (t : Text) (c : Nat) (hc : ¬ IsBreak c) : (normalizeNewline t).head? = some c ↔ t.head? = some c := by
  unfold normalizeNewline
  rw [squeeze_head, List.head?_map]
  cases t using replaceCRLF.fun_cases with
  | case1 => simp [replaceCRLF]
  | case2 d =>
    simp only [replaceCRLF, List.head?_cons, Option.map_some, Option.some.injEq]
    unfold IsBreak at hc
    split <;> omega
  | case3 d e r h =>
    rw [replaceCRLF, if_pos h]
    simp only [List.head?_cons, Option.map_some, Option.some.injEq]
    unfold IsBreak at hc
    simp
    omega
  | case4 d e r h =>
    rw [replaceCRLF, if_neg h]
    simp only [List.head?_cons, Option.map_some, Option.some.injEq]
    unfold IsBreak at hc
    split <;> omega

theorem stripText_ends (f : Nat → Bool) (t : Text) :
    (∀ x, (Field.stripText f t).head? = some x → f x = false) ∧
      (∀ x, (Field.stripText f t).getLast? = some x → f x = false) := by
  obtain ⟨a, b, -, -, -, h1, h2⟩ := C50_strip f t
  exact ⟨h1, h2⟩

/-- A stored text begins with none of the characters that are stripped (unless
`RAW_OUTPUT` is set). -/
theorem C37_begin (cfg : Config) (hraw : cfg.rawOutput = false) (d : Data) (hd : d.values = []) (args : List Arg) (t : Text)
    (h : Value.text t ∈ stored (d.run cfg args)) :
    ∃ c, t.head? = some c ∧ c ∉ [0x20, 0x09, 0x0B, 0x0A, 0x0D, 0x00] := by
  obtain ⟨u, h1, h2⟩ := stored_text cfg d hd args _ h
  have hs : normalizeString cfg u = Field.stripText isStrip u := by unfold normalizeString; rw [hraw]; rfl
  have he := (stripText_ends isStrip u).1
  rw [← hs] at he
  obtain ⟨c, hc⟩ : ∃ c, (normalizeString cfg u).head? = some c := by
    cases hq : normalizeString cfg u with
    | nil => exact absurd hq h1
    | cons c r => exact ⟨c, rfl⟩
  have hf := he c hc
  have hn : c ∉ [0x20, 0x09, 0x0B, 0x0A, 0x0D, 0x00] := by
    intro hm
    simp only [List.mem_cons, List.not_mem_nil, or_false] at hm
    rcases hm with rfl | rfl | rfl | rfl | rfl | rfl <;> cases hf
  refine ⟨c, ?_, hn⟩
  have hb : ¬ IsBreak c := by
    rintro (rfl | rfl) <;> cases hf
  have hnn := (norm_head (normalizeString cfg u) c hb).mpr hc
  rw [h2]
  rcases cutText_cases cfg (normalizeNewline (normalizeString cfg u)) with e | ⟨e, -, hmax⟩
  · rw [e]; exact hnn
  · rw [e, List.head?_append, List.head?_take, if_neg hmax, hnn]; rfl

theorem crlf_last_char (t : Text) (c : Nat) (hc : ¬ IsBreak c) :
    (replaceCRLF t).getLast? = some c ↔ t.getLast? = some c := by
  induction t using replaceCRLF.induct with
  | case1 => rfl
  | case2 c => rfl
  | case3 x y r h ih =>
    rw [replaceCRLF, if_pos h]
    cases r with
    | nil =>
      unfold IsBreak at hc
      simp [replaceCRLF, h.2]
    | cons a b =>
      rw [List.getLast?_cons_cons, List.getLast?_cons_cons, ← ih]
      cases hs : replaceCRLF (a :: b) with
      | nil => exact absurd hs (replaceCRLF_ne _ (by simp))
      | cons x' y' => rw [List.getLast?_cons_cons]
  | case4 x y r h ih =>
    rw [replaceCRLF, if_neg h, List.getLast?_cons_cons, ← ih]
    cases hs : replaceCRLF (y :: r) with
    | nil => exact absurd hs (replaceCRLF_ne _ (by simp))
    | cons x' y' => rw [List.getLast?_cons_cons]

theorem norm_last (t : Text) (c : Nat) (hc : ¬ IsBreak c) :
    (normalizeNewline t).getLast? = some c ↔ t.getLast? = some c := by
  rw [← crlf_last_char t c hc]
  unfold normalizeNewline
  rw [squeeze_last, List.getLast?_map]
  unfold IsBreak at hc
  cases (replaceCRLF t).getLast? with
  | none => simp
  | some d =>
    simp only [Option.map_some, Option.some.injEq]
    split <;> omega

/-- A stored text ends with none of these characters either. -/
theorem C37_end (cfg : Config) (hraw : cfg.rawOutput = false) (d : Data) (hd : d.values = []) (args : List Arg) (t : Text)
    (h : Value.text t ∈ stored (d.run cfg args)) :
    ∃ c, t.getLast? = some c ∧ c ∉ [0x20, 0x09, 0x0B, 0x0A, 0x0D, 0x00] := by
  obtain ⟨u, h1, h2⟩ := stored_text cfg d hd args _ h
  have hs : normalizeString cfg u = Field.stripText isStrip u := by unfold normalizeString; rw [hraw]; rfl
  have he := (stripText_ends isStrip u).2
  rw [← hs] at he
  rw [h2]
  rcases cutText_cases cfg (normalizeNewline (normalizeString cfg u)) with e | ⟨e, -, hmax⟩
  · rw [e]
    obtain ⟨c, hc⟩ : ∃ c, (normalizeString cfg u).getLast? = some c :=
      ⟨_, List.getLast?_eq_some_getLast h1⟩
    have hf := he c hc
    have hn : c ∉ [0x20, 0x09, 0x0B, 0x0A, 0x0D, 0x00] := by
      intro hm
      simp only [List.mem_cons, List.not_mem_nil, or_false] at hm
      rcases hm with rfl | rfl | rfl | rfl | rfl | rfl <;> cases hf
    have hb : ¬ IsBreak c := by
      rintro (rfl | rfl) <;> cases hf
    exact ⟨c, (norm_last _ c hb).mpr hc, hn⟩
  · rw [e, List.getLast?_append]
    exact ⟨41, rfl, by decide⟩

/-! ### Filters -/

theorem stored_filter (cfg : Config) (d : Data) (hd : d.values = []) (args : List Arg) (f : Filter)
    (hf : d.filter = some f) (v : Value) (h : v ∈ stored (d.run cfg args)) : f.call v = .ok true := by
  obtain ⟨arg, -, text, -, hc⟩ := C37_sound cfg d hd args v h
  unfold Data.filterOk at hc
  rw [hf] at hc
  exact hc

/-- The rational number of a number. -/
def ratOf : Num → Option Rat
  | .int i => some i
  | .float (.fin q) => some q
  | _ => none

/-- Under a key with a number filter every stored integer or finite float lies within the bounds,
and infinity is stored on no side that is bounded. -/
theorem C37_number_partial (cfg : Config) (d : Data) (hd : d.values = []) (args : List Arg) (lo hi : Option Num)
    (hf : d.filter = some (.number lo hi)) (n : Num) (h : Value.num n ∈ stored (d.run cfg args)) :
    (∀ q, ratOf n = some q → (∀ m b, lo = some m → ratOf m = some b → b ≤ q) ∧
      (∀ m b, hi = some m → ratOf m = some b → q ≤ b)) ∧
    (n = .float .posInf → ∀ m b, hi = some m → ratOf m ≠ some b) ∧
    (n = .float .negInf → ∀ m b, lo = some m → ratOf m ≠ some b) := by
  have h := stored_filter cfg d hd args _ hf _ h
  simp only [Filter.call, Except.ok.injEq, Bool.and_eq_true, Bool.not_eq_true'] at h
  have toFlt : ∀ m b, ratOf m = some b → m.toFlt = .fin b := by
    intro m b hm
    unfold ratOf at hm
    split at hm
    · cases hm; rfl
    · cases hm; rfl
    · cases hm
  refine ⟨?_, ?_, ?_⟩
  · intro q hq
    constructor
    · intro m b hm hb
      have := h.1
      rw [hm] at this
      simp only [below, toFlt n q hq, toFlt m b hb, Flt.lt, decide_eq_false_iff_not] at this
      exact Rat.not_lt.mp this
    · intro m b hm hb
      have := h.2
      rw [hm] at this
      simp only [above, toFlt n q hq, toFlt m b hb, Flt.lt, decide_eq_false_iff_not] at this
      exact Rat.not_lt.mp this
  · rintro rfl m b hm hb
    have := h.2
    rw [hm] at this
    rw [above, toFlt m b hb] at this
    cases this
  · rintro rfl m b hm hb
    have := h.1
    rw [hm] at this
    rw [below, toFlt m b hb] at this
    cases this

/-- Durations stay within the bounds. -/
theorem C37_duration (cfg : Config) (d : Data) (hd : d.values = []) (args : List Arg) (lo hi : Int)
    (hf : d.filter = some (.duration lo hi)) (us : Int) (h : Value.duration us ∈ stored (d.run cfg args)) :
    lo ≤ us ∧ us ≤ hi := by
  have h := stored_filter cfg d hd args _ hf _ h
  simp [Filter.call] at h
  omega

theorem daysBeforeYear_mono {a b : Nat} (ha : 1 ≤ a) (h : a ≤ b) : daysBeforeYear a ≤ daysBeforeYear b := by
  induction b with
  | zero => omega
  | succ b ih =>
    by_cases e : a = b + 1
    · rw [e]
    · have := daysBeforeYear_succ b (by omega)
      have := ih (by omega)
      omega

theorem clock_year (t : DateTime) (h1 : 1 ≤ t.year) (hd : 1 ≤ t.day) (hm : t.hour < 24) (hi : t.minute < 60)
    (hs : t.second < 60) (hu : t.microsecond < 1000000) :
    clock t ≤ clock ⟨maxYear, 12, 31, 0, 0, 0, 0⟩ → t.year ≤ 2030 := by
  intro h
  unfold clock at h
  have e : ymd2ord maxYear 12 31 = daysBeforeYear 2031 := by decide
  simp only [e] at h
  have : ymd2ord t.year t.month t.day ≤ daysBeforeYear 2031 := by omega
  unfold ymd2ord at this
  apply Decidable.byContradiction
  intro hn
  have := daysBeforeYear_mono (a := 2031) (b := t.year) (by omega) (by omega)
  omega

theorem clock_year_low (t : DateTime) (hv : Day.Valid ⟨t.year, t.month, t.day⟩) (hm : t.hour < 24) (hi : t.minute < 60)
    (hs : t.second < 60) (hu : t.microsecond < 1000000) :
    clock ⟨minYear, 1, 1, 0, 0, 0, 0⟩ ≤ clock t → 1850 ≤ t.year := by
  intro h
  unfold clock at h
  have e : ymd2ord minYear 1 1 = daysBeforeYear 1850 + 1 := by decide
  simp only [e] at h
  have h : daysBeforeYear 1850 + 1 ≤ ymd2ord t.year t.month t.day := by omega
  apply Decidable.byContradiction
  intro hn
  have h1 : ymd2ord t.year t.month t.day = daysBeforeYear t.year + dayOfYear ⟨t.year, t.month, t.day⟩ + 1 := by
    have := ord_eq hv
    unfold ord at this
    exact this
  have h2 := (dayOfYear_lt hv).1
  have h3 := daysBeforeYear_succ t.year hv.1
  have h4 := daysBeforeYear_mono (a := t.year + 1) (b := 1850) (by omega) (by omega)
  simp only at h2
  split at h2 <;> split at h3 <;> simp_all <;> omega

/-- Dates are stored only when the year is in 1850..2030. -/
theorem C37_date (cfg : Config) (d : Data) (hd : d.values = []) (args : List Arg)
    (hf : d.filter = some .datetime) (y m k : Nat) (h : Value.date y m k ∈ stored (d.run cfg args)) :
    1850 ≤ y ∧ y ≤ 2030 := by
  have h := stored_filter cfg d hd args _ hf _ h
  simp only [Filter.call, dateLe] at h
  unfold minYear maxYear at h
  simp only [Except.ok.injEq, Bool.and_eq_true, Bool.or_eq_true, decide_eq_true_eq, beq_iff_eq] at h
  omega

/-- All days of these years are accepted. -/
theorem C37_date_accepted (y m k : Nat) (hv : Day.Valid ⟨y, m, k⟩) (h1 : 1850 ≤ y) (h2 : y ≤ 2030) :
    Filter.datetime.call (.date y m k) = .ok true := by
  have := monthLength_le y m
  obtain ⟨-, h3, h4, h5, h6⟩ := hv
  simp only at h3 h4 h5 h6
  simp only [Filter.call, dateLe]
  unfold minYear maxYear
  simp only [Except.ok.injEq, Bool.and_eq_true, Bool.or_eq_true, decide_eq_true_eq, beq_iff_eq]
  omega

/-- Moments without time zone are stored only when the year is in 1850..2030. -/
theorem C37_datetime (cfg : Config) (d : Data) (hd : d.values = []) (args : List Arg)
    (hf : d.filter = some .datetime) (t : DateTime) (hv : Day.Valid ⟨t.year, t.month, t.day⟩) (hm : t.hour < 24)
    (hi : t.minute < 60) (hs : t.second < 60) (hu : t.microsecond < 1000000)
    (h : Value.datetime t none ∈ stored (d.run cfg args)) : 1850 ≤ t.year ∧ t.year ≤ 2030 := by
  have h := stored_filter cfg d hd args _ hf _ h
  simp only [Filter.call, Except.ok.injEq, Bool.and_eq_true, decide_eq_true_eq] at h
  exact ⟨clock_year_low t hv hm hi hs hu h.1, clock_year t hv.1 hv.2.2.2.1 hm hi hs hu h.2⟩

/-! ## Where the code does otherwise -/

/-- A key with a number filter, as `nb_page`. -/
def pageKey : Data where
  key := "nb_page"
  priority := 202
  description := "Nb page"
  filter := some (.number (some (.int 1)) (some (.int 20000)))
  plainText := fun _ => []

/-- "Not a number" passes the filter, and is stored as often as it is added. -/
theorem C37_nan : stored (pageKey.run {} [.value (.num (.float .nan)), .value (.num (.float .nan))]) =
    [.num (.float .nan), .num (.float .nan)] := by decide +kernel

/-- A text passes the number filter of a key without type. -/
theorem C37_untyped : stored (pageKey.run {} [.value (.text [97])]) = [.text [97]] := by decide +kernel

/-- A key for dates, as `creation_date`; the conversion is the one of `setDatetime` for values
that are dates already (setter.py:132-137). -/
def dateKey : Data where
  key := "creation_date"
  priority := 500
  description := "Creation date"
  type := some [.datetime, .date]
  filter := some .datetime
  plainText := fun _ => []
  conversion := some fun v => match v with
    | .date .. => .value v
    | .datetime .. => .value v
    | _ => .nothing

/-- The last day of 2030 is accepted as a date, a moment of that day is not. -/
theorem C37_last_day : stored (dateKey.run {} [.value (.date 2030 12 31)]) = [.date 2030 12 31] ∧
    stored (dateKey.run {} [.value (.datetime ⟨2030, 12, 31, 12, 0, 0, 0⟩ none)]) = [] := by decide +kernel

/-- A time zone of a day or more (`+2400`) is not refused by the filter, the addition raises. -/
theorem C37_zone : (match dateKey.add {} (.value (.datetime ⟨2007, 7, 19, 9, 3, 57, 0⟩ (some 24))) with
    | .error e => some e
    | .ok _ => none) = some .value := by decide +kernel

/-! ## Examples -/

/-- A key for texts, as `comment`. -/
def textKey : Data where
  key := "comment"
  priority := 902
  description := "Comment"
  type := some [.str]
  plainText := fun _ => []

/-- "ab", "x", " abc\n", "a", "", 5: the second "ab" takes the place of the first. -/
example : stored (textKey.run {} [.value (.text [97, 98]), .value (.text [120]), .value (.text [32, 97, 98, 99, 10]),
    .value (.text [97]), .value (.text []), .value (.num (.int 5))]) = [.text [97, 98, 99], .text [120]] := by
  decide +kernel

example : textKey.values = [] := rfl
example : Offers {} textKey (.value (.text [32, 97])) (.text [97]) := ⟨none, by decide +kernel⟩
example : ∃ d', (textKey.run {} [.value (.text [98])]).add {} (.value (.text [32, 97])) = .ok d' := by
  cases h : (textKey.run {} [.value (.text [98])]).add {} (.value (.text [32, 97])) with
  | ok d' => exact ⟨d', rfl⟩
  | error e =>
    exfalso
    have : (match (textKey.run {} [.value (.text [98])]).add {} (.value (.text [32, 97])) with
      | .ok _ => true
      | .error _ => false) = true := by decide +kernel
    rw [h] at this
    cases this
example : stored (pageKey.run {} [.value (.num (.int 5)), .value (.num (.int 0)), .value (.num (.float (.fin 5)))]) =
    [.num (.int 5)] := by decide +kernel
example : stored (dateKey.run {} [.value (.date 1849 12 31), .value (.datetime ⟨2007, 7, 19, 9, 3, 57, 0⟩ (some 2)),
    .value (.datetime ⟨2007, 7, 19, 7, 3, 57, 0⟩ (some 0))]) =
    [.datetime ⟨2007, 7, 19, 9, 3, 57, 0⟩ (some 2)] := by decide +kernel

end Hachoir.Props
