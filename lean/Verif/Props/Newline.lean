import Verif.Metadata.Data

/-!
# C51: newline normalisation
-/

namespace Hachoir.Props
open Hachoir Hachoir.Metadata

/-- Carriage return or line feed. -/
def IsBreak (c : Nat) : Prop := c = 13 ∨ c = 10

instance (c : Nat) : Decidable (IsBreak c) := by unfold IsBreak; infer_instance

/-- The lines of a text that are not empty; `cur` is the line read so far. -/
def linesFrom (cur : Text) : Text → List Text
  | [] => if cur = [] then [] else [cur]
  | c :: r =>
    if IsBreak c then (if cur = [] then linesFrom [] r else cur :: linesFrom [] r)
    else linesFrom (cur ++ [c]) r

def textLines (t : Text) : List Text := linesFrom [] t

/-- Two line feeds in a row somewhere. -/
def HasBlank (t : Text) : Prop := ∃ a b, t = a ++ 10 :: 10 :: b

theorem linesFrom_break2 (cur r : Text) (c d : Nat) (hc : IsBreak c) (hd : IsBreak d) :
    linesFrom cur (c :: d :: r) = linesFrom cur (d :: r) := by
  simp only [linesFrom, hc, hd, if_true]

theorem linesFrom_crlf (t : Text) : ∀ cur, linesFrom cur (replaceCRLF t) = linesFrom cur t := by
  induction t using replaceCRLF.induct with
  | case1 => intro cur; rfl
  | case2 c => intro cur; rfl
  | case3 c d r h ih =>
    intro cur
    rw [replaceCRLF, if_pos h, h.1, h.2, linesFrom_break2 _ _ _ _ (Or.inl rfl) (Or.inr rfl)]
    simp only [linesFrom, show IsBreak 10 from Or.inr rfl, if_true, ih]
  | case4 c d r h ih =>
    intro cur
    rw [replaceCRLF, if_neg h, linesFrom, linesFrom]
    simp only [ih]

theorem linesFrom_map (t : Text) : ∀ cur,
    linesFrom cur (t.map fun c => if c = 13 then 10 else c) = linesFrom cur t := by
  induction t with
  | nil => intro cur; rfl
  | cons c r ih =>
    intro cur
    simp only [List.map_cons, linesFrom, ih]
    by_cases h : c = 13
    · subst h; simp [IsBreak]
    · simp [h]

theorem linesFrom_squeeze (t : Text) : ∀ cur, linesFrom cur (squeeze t) = linesFrom cur t := by
  induction t using squeeze.induct with
  | case1 => intro cur; rfl
  | case2 c => intro cur; rfl
  | case3 c d r h ih =>
    intro cur
    rw [squeeze, if_pos h, ih, linesFrom_break2 _ _ _ _ (Or.inr h.1) (Or.inr h.2)]
  | case4 c d r h ih =>
    intro cur
    rw [squeeze, if_neg h, linesFrom, linesFrom]
    simp only [ih]

/-- The lines that are not empty stay the same, in the same order. -/
theorem C51_lines (t : Text) : textLines (normalizeNewline t) = textLines t := by
  unfold textLines normalizeNewline
  rw [linesFrom_squeeze, linesFrom_map, linesFrom_crlf]

theorem mem_squeeze (t : Text) : ∀ c, c ∈ squeeze t → c ∈ t := by
  induction t using squeeze.induct with
  | case1 => intro c h; exact h
  | case2 c => intro c h; exact h
  | case3 c d r h ih =>
    intro x hx
    rw [squeeze, if_pos h] at hx
    exact List.mem_cons_of_mem _ (ih x hx)
  | case4 c d r h ih =>
    intro x hx
    rw [squeeze, if_neg h] at hx
    rcases List.mem_cons.mp hx with rfl | hx
    · exact List.mem_cons_self ..
    · exact List.mem_cons_of_mem _ (ih x hx)

/-- No carriage return is left. -/
theorem C51_no_return (t : Text) : 13 ∉ normalizeNewline t := by
  intro h
  have h := mem_squeeze _ _ h
  rw [List.mem_map] at h
  obtain ⟨c, -, hc⟩ := h
  split at hc <;> omega

theorem squeeze_head (t : Text) : (squeeze t).head? = t.head? := by
  induction t using squeeze.induct with
  | case1 => rfl
  | case2 c => rfl
  | case3 c d r h ih => rw [squeeze, if_pos h, ih, h.1, h.2]; rfl
  | case4 c d r h ih => rw [squeeze, if_neg h]; rfl

theorem squeeze_noBlank (t : Text) : ¬ HasBlank (squeeze t) := by
  induction t using squeeze.induct with
  | case1 => rintro ⟨a, b, h⟩; cases a <;> cases h
  | case2 c =>
    rintro ⟨a, b, h⟩
    rw [squeeze] at h
    have := congrArg List.length h
    simp at this
    omega
  | case3 c d r h ih => rw [squeeze, if_pos h]; exact ih
  | case4 c d r h ih =>
    rw [squeeze, if_neg h]
    rintro ⟨a, b, e⟩
    cases a with
    | nil =>
      simp only [List.nil_append, List.cons.injEq] at e
      have e2 := congrArg List.head? e.2
      rw [squeeze_head] at e2
      simp only [List.head?_cons, Option.some.injEq] at e2
      exact h ⟨e.1, e2⟩
    | cons x a =>
      simp only [List.cons_append, List.cons.injEq] at e
      exact ih ⟨a, b, e.2⟩

/-- No two line feeds in a row are left. -/
theorem C51_no_blank (t : Text) : ¬ HasBlank (normalizeNewline t) := squeeze_noBlank _

/-- A text without carriage return and without two line feeds in a row is not changed. -/
theorem C51_unchanged (t : Text) (h1 : 13 ∉ t) (h2 : ¬ HasBlank t) : normalizeNewline t = t := by
  have e1 : replaceCRLF t = t := by
    clear h2
    induction t using replaceCRLF.induct with
    | case1 => rfl
    | case2 c => rfl
    | case3 c d r h ih => exact absurd (by rw [h.1]; exact List.mem_cons_self ..) h1
    | case4 c d r h ih =>
      rw [replaceCRLF, if_neg h, ih (fun hm => h1 (List.mem_cons_of_mem _ hm))]
  have e2 : (t.map fun c => if c = 13 then 10 else c) = t := by
    conv => rhs; rw [← List.map_id t]
    apply List.map_congr_left
    intro c hc
    rw [if_neg (fun e : c = 13 => h1 (e ▸ hc))]
    rfl
  have e3 : squeeze t = t := by
    clear h1 e1 e2
    induction t using squeeze.induct with
    | case1 => rfl
    | case2 c => rfl
    | case3 c d r h ih => exact absurd ⟨[], r, by rw [h.1, h.2]; rfl⟩ h2
    | case4 c d r h ih =>
      rw [squeeze, if_neg h, ih]
      rintro ⟨a, b, e⟩
      exact h2 ⟨c :: a, b, by rw [e]; rfl⟩
  unfold normalizeNewline
  rw [e1, e2, e3]

theorem crlf_head (t : Text) :
    (∃ c, (replaceCRLF t).head? = some c ∧ IsBreak c) ↔ ∃ c, t.head? = some c ∧ IsBreak c := by
  cases t using replaceCRLF.fun_cases with
  | case1 => rfl
  | case2 c => rfl
  | case3 c d r h =>
    rw [replaceCRLF, if_pos h]
    simp [IsBreak, h.1]
  | case4 c d r h => rw [replaceCRLF, if_neg h]; rfl

/-- The result begins with a line feed exactly when the text begins with a line break. -/
theorem C51_begin (t : Text) :
    (normalizeNewline t).head? = some 10 ↔ ∃ c, t.head? = some c ∧ IsBreak c := by
  rw [← crlf_head]
  unfold normalizeNewline
  rw [squeeze_head, List.head?_map]
  cases (replaceCRLF t).head? with
  | none => simp
  | some c => simp [IsBreak]; omega

theorem squeeze_last (t : Text) : (squeeze t).getLast? = t.getLast? := by
  induction t using squeeze.induct with
  | case1 => rfl
  | case2 c => rfl
  | case3 c d r h ih => rw [squeeze, if_pos h, ih, List.getLast?_cons_cons]
  | case4 c d r h ih =>
    rw [squeeze, if_neg h, List.getLast?_cons_cons, ← ih]
    cases hs : squeeze (d :: r) with
    | nil =>
      have := squeeze_head (d :: r)
      rw [hs] at this
      cases this
    | cons x y => rw [List.getLast?_cons_cons]

theorem crlf_last (t : Text) :
    (∃ c, (replaceCRLF t).getLast? = some c ∧ IsBreak c) ↔ ∃ c, t.getLast? = some c ∧ IsBreak c := by
  induction t using replaceCRLF.induct with
  | case1 => rfl
  | case2 c => rfl
  | case3 c d r h ih =>
    rw [replaceCRLF, if_pos h]
    cases r with
    | nil => simp [replaceCRLF, IsBreak, h.2]
    | cons x y =>
      rw [List.getLast?_cons_cons, List.getLast?_cons_cons, ← ih]
      cases hs : replaceCRLF (x :: y) with
      | nil => cases y <;> simp [replaceCRLF] at hs; split at hs <;> cases hs
      | cons x' y' => rw [List.getLast?_cons_cons]
  | case4 c d r h ih =>
    rw [replaceCRLF, if_neg h, List.getLast?_cons_cons, ← ih]
    cases hs : replaceCRLF (d :: r) with
    | nil => cases r <;> simp [replaceCRLF] at hs; split at hs <;> cases hs
    | cons x' y' => rw [List.getLast?_cons_cons]

/-- The result ends with a line feed exactly when the text ends with a line break. -/
theorem C51_end (t : Text) :
    (normalizeNewline t).getLast? = some 10 ↔ ∃ c, t.getLast? = some c ∧ IsBreak c := by
  rw [← crlf_last]
  unfold normalizeNewline
  rw [squeeze_last, List.getLast?_map]
  cases (replaceCRLF t).getLast? with
  | none => simp
  | some c => simp [IsBreak]; omega

example : normalizeNewline [97, 13, 10, 13, 10, 98, 13, 13, 99, 10] = [97, 10, 98, 10, 99, 10] := by decide
example : textLines [97, 13, 10, 13, 10, 98, 13, 13, 99, 10] = [[97], [98], [99]] := by decide
/-- Hypotheses of `C51_unchanged`. -/
example : (13 ∉ [97, 10, 98]) ∧ ¬ HasBlank [97, 10, 98] :=
  ⟨by decide, by
    have := C51_no_blank [97, 10, 98]
    exact this⟩

end Hachoir.Props
