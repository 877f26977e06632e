import Verif.Metadata.Data
import Verif.Props.Newline
import Verif.Core.CalendarLemmas

/-!
# Lemmas about metadata values
-/

set_option linter.unusedVariables false

namespace Hachoir.Metadata
open Hachoir Hachoir.Time

theorem Flt.eq_symm (a b : Flt) : a.eq b = b.eq a := by
  cases a <;> cases b <;> simp [Flt.eq, eq_comm]

theorem Value.eq_symm (a b : Value) (h : a.eq b = .ok true) : b.eq a = .ok true := by
  unfold Value.eq at h ⊢
  cases a <;> cases b <;> simp only at h ⊢ <;>
    first
    | (simp only [Except.ok.injEq, decide_eq_true_eq] at h ⊢; exact h.symm)
    | skip
  case none.none => exact h
  case num.num a b => rw [Flt.eq_symm]; exact h
  case datetime.datetime a h1 b h2 =>
    cases h1 <;> cases h2 <;> simp only at h ⊢
    case none.none => simp only [Except.ok.injEq, decide_eq_true_eq] at h ⊢; exact h.symm
    case some.some x y =>
      unfold utcOffset at h ⊢
      by_cases hx : -24 < x ∧ x < 24 <;> by_cases hy : -24 < y ∧ y < 24 <;>
        simp only [hx, hy, and_self, if_true, if_false, bind, Except.bind, Except.ok.injEq, decide_eq_true_eq, reduceCtorEq] at h ⊢
      exact h.symm
    case none.some => unfold utcOffset at h; split at h <;> simp [bind, Except.bind] at h
    case some.none => unfold utcOffset at h; split at h <;> simp [bind, Except.bind] at h

theorem contains_false {v : Value} {l : List Item} (h : contains v l = .ok false) :
    ∀ i ∈ l, v.eq i.value ≠ .ok true := by
  induction l with
  | nil => intro i hi; cases hi
  | cons x r ih =>
    intro i hi
    simp only [contains, bind, Except.bind] at h
    cases hx : v.eq x.value with
    | error e => rw [hx] at h; cases h
    | ok b =>
      cases b with
      | true => rw [hx] at h; simp at h
      | false =>
        rw [hx] at h
        simp only [Bool.false_eq_true, if_false] at h
        rcases List.mem_cons.mp hi with rfl | hi
        · rw [hx]; simp
        · exact ih h i hi

theorem contains_true {v : Value} {l : List Item} (h : contains v l = .ok true) :
    ∃ i ∈ l, v.eq i.value = .ok true := by
  induction l with
  | nil => cases h
  | cons x r ih =>
    simp only [contains, bind, Except.bind] at h
    cases hx : v.eq x.value with
    | error e => rw [hx] at h; cases h
    | ok b =>
      cases b with
      | true => exact ⟨x, List.mem_cons_self .., hx⟩
      | false =>
        rw [hx] at h
        simp only [Bool.false_eq_true, if_false] at h
        obtain ⟨i, hi, e⟩ := ih h
        exact ⟨i, List.mem_cons_of_mem _ hi, e⟩

theorem eq_text (t : Text) (v : Value) : (Value.text t).eq v = .ok true ↔ v = .text t := by
  cases v <;> simp [Value.eq, eq_comm]

/-- The outcomes of `add`. -/
theorem add_cases {cfg : Config} {d d' : Data} {arg : Arg} (h : d.add cfg arg = .ok d') :
    (d' = d ∧ (d.candidate cfg arg = .ok none ∨
      ∃ v text, d.candidate cfg arg = .ok (some (v, text)) ∧
        (contains v d.values = .ok true ∨ (contains v d.values = .ok false ∧ d.filterOk v = .ok false)))) ∨
    (∃ v text item, d.candidate cfg arg = .ok (some (v, text)) ∧ contains v d.values = .ok false ∧
      d.filterOk v = .ok true ∧ item.value = v ∧ d.createItem v text = .ok item ∧
      d' = { d with values := match v with
        | .text t => placeText t item d.values
        | _ => d.values ++ [item] }) := by
  unfold Data.add at h
  simp only [bind, Except.bind] at h
  cases hc : d.candidate cfg arg with
  | error e => rw [hc] at h; cases h
  | ok o =>
    rw [hc] at h
    cases o with
    | none => simp only at h; cases h; exact Or.inl ⟨rfl, Or.inl rfl⟩
    | some p =>
      obtain ⟨v, text⟩ := p
      simp only at h
      cases hk : contains v d.values with
      | error e => rw [hk] at h; cases h
      | ok b =>
        rw [hk] at h
        simp only at h
        cases b with
        | true =>
          simp only [if_true] at h; cases h
          exact Or.inl ⟨rfl, Or.inr ⟨v, text, rfl, Or.inl hk⟩⟩
        | false =>
          simp only [Bool.false_eq_true, if_false] at h
          cases hf : d.filterOk v with
          | error e => rw [hf] at h; cases h
          | ok f =>
            rw [hf] at h
            simp only at h
            cases f with
            | false =>
              simp at h; cases h
              exact Or.inl ⟨rfl, Or.inr ⟨v, text, rfl, Or.inr ⟨hk, hf⟩⟩⟩
            | true =>
              simp only [Bool.not_true, Bool.false_eq_true, if_false] at h
              right
              cases v with
              | text t =>
                simp only at h
                cases h
                refine ⟨.text t, text, ⟨.text t, text.getD t⟩, rfl, hk, hf, rfl, ?_, rfl⟩
                cases text <;> rfl
              | _ =>
                simp only at h
                split at h
                · cases h
                · rename_i item hi
                  cases h
                  refine ⟨_, text, item, rfl, hk, hf, ?_, hi, rfl⟩
                  unfold Data.createItem at hi
                  cases text with
                  | some t => cases hi; rfl
                  | none =>
                    simp only at hi
                    cases ht : d.textHandler with
                    | none => rw [ht] at hi; cases hi; rfl
                    | some f =>
                      rw [ht] at hi
                      simp only [bind, Except.bind] at hi
                      split at hi
                      · cases hi
                      · cases hi; rfl

/-- The position of a new text: it replaces the first text it extends, is dropped at the first
text that extends it, and comes last otherwise. -/
def Placed (t : Text) (item : Item) (l res : List Item) : Prop :=
  (∃ a i u b, l = a ++ i :: b ∧ i.value = .text u ∧ u <+: t ∧ res = a ++ item :: b ∧
      ∀ j ∈ a, ∀ w, j.value = .text w → ¬ w <+: t ∧ ¬ t <+: w) ∨
    (∃ i u, i ∈ l ∧ i.value = .text u ∧ t <+: u ∧ res = l) ∨
    ((∀ i ∈ l, ∀ u, i.value = .text u → ¬ u <+: t ∧ ¬ t <+: u) ∧ res = l ++ [item])

theorem placeText_cases (t : Text) (item : Item) (l : List Item) : Placed t item l (placeText t item l) := by
  induction l with
  | nil => exact Or.inr (Or.inr ⟨by simp, rfl⟩)
  | cons i r ih =>
    have skip : (∀ u, i.value = .text u → ¬ u <+: t ∧ ¬ t <+: u) → placeText t item (i :: r) = i :: placeText t item r →
        Placed t item (i :: r) (placeText t item (i :: r)) := fun hi e => by
      rcases ih with ⟨a, j, u, b, e1, e2, e3, e4, e5⟩ | ⟨j, u, e1, e2, e3, e4⟩ | ⟨e1, e2⟩
      · refine Or.inl ⟨i :: a, j, u, b, by rw [e1]; rfl, e2, e3, by rw [e, e4]; rfl, ?_⟩
        intro k hk w hw
        rcases List.mem_cons.mp hk with rfl | hk
        · exact hi w hw
        · exact e5 k hk w hw
      · exact Or.inr (Or.inl ⟨j, u, List.mem_cons_of_mem _ e1, e2, e3, by rw [e, e4]⟩)
      · refine Or.inr (Or.inr ⟨?_, by rw [e, e2]; rfl⟩)
        intro k hk w hw
        rcases List.mem_cons.mp hk with rfl | hk
        · exact hi w hw
        · exact e1 k hk w hw
    cases hv : i.value with
    | text u =>
      by_cases h1 : u <+: t
      · refine Or.inl ⟨[], i, u, r, rfl, hv, h1, ?_, by simp⟩
        simp [placeText, hv, h1]
      · by_cases h2 : t <+: u
        · refine Or.inr (Or.inl ⟨i, u, List.mem_cons_self .., hv, h2, ?_⟩)
          simp [placeText, hv, h1, h2]
        · apply skip
          · intro w hw
            rw [hv] at hw
            cases hw
            exact ⟨h1, h2⟩
          · simp [placeText, hv, h1, h2]
    | _ =>
      apply skip
      · intro w hw
        rw [hv] at hw
        cases hw
      · simp [placeText, hv]

/-- What is true of a candidate. -/
theorem candidate_cases {cfg : Config} {d : Data} {arg : Arg} {v : Value} {text : Option Text}
    (h : d.candidate cfg arg = .ok (some (v, text))) :
    (∃ t, v = .text (cutText cfg (normalizeNewline (normalizeString cfg t))) ∧ normalizeString cfg t ≠ [] ∧
      d.typeOk v = true) ∨
    ((∀ t, v ≠ .text t) ∧ d.typeOk v = true) := by
  have htxt : ∀ t u, d.typeOk (.text t) = d.typeOk (.text u) := by
    intro t u
    unfold Data.typeOk
    have : (Value.text t).isInstance = (Value.text u).isInstance := by
      funext ty; cases ty <;> rfl
    rw [this]
  unfold Data.candidate at h
  split at h
  · cases h
  · cases h
  · rename_i w tx hne harg
    simp only [bind, Except.bind] at h
    cases hc : d.convert w tx with
    | error e => rw [hc] at h; cases h
    | ok o =>
      rw [hc] at h
      simp only at h
      cases o with
      | none => cases h
      | some p =>
        obtain ⟨x, tx'⟩ := p
        cases x with
        | text t =>
          simp only at h
          split at h
          · cases h
          · split at h
            · cases h
            · rename_i hn ht
              cases h
              refine Or.inl ⟨t, rfl, hn, ?_⟩
              rw [htxt _ (normalizeString cfg t)]
              simpa using ht
        | _ =>
          simp only at h
          split at h
          · cases h
          · rename_i ht
            cases h
            exact Or.inr ⟨by intro t; simp, by simpa using ht⟩

end Hachoir.Metadata
