import Verif.Regex.ParserLemmas

/-!
# Property C48: reading back the text of an expression
-/

set_option linter.unusedVariables false

namespace Hachoir.Props
open Hachoir.Regex

/-- The escaped form of any text is read back as the expression for that text
(`createString`), whatever characters it contains. -/
theorem C48_escape (same : List Item → List Item → Bool) (budget n : Nat) (t : List Nat)
    (hn : t.length + 2 ≤ n) :
    parse same budget n (escapeRegex t)
      = some (.ok (match t with | [] => .empty | _ => .str t)) := by
  obtain ⟨n, rfl⟩ : ∃ m, n = m + 1 := ⟨n - 1, by omega⟩
  cases t with
  | nil => simp [parse, parseFrom, escapeRegex]
  | cons c t =>
    have hne : ¬ (escapeRegex (c :: t)).length = 0 := by
      unfold escapeRegex; split <;> simp
    have h := parseLoop_escape (same := same) (budget := budget) (c :: t) [] n .empty none (by omega)
    simp only [List.nil_append, List.length_nil] at h
    simp only [parse, parseFrom, hne, if_false, h, addLast, List.foldl_cons]
    have : andOp .empty (.str [c]) = .str [c] := by simp [andOp, andStep]
    rw [this, foldl_str]
    simp

example : escapeRegex [97, 46, 92] = [97, 92, 46, 92, 92] ∧
    parse (fun _ _ => false) 9 9 [97, 92, 46, 92, 92] = some (.ok (.str [97, 46, 92])) :=
  ⟨by decide, C48_escape _ 9 9 [97, 46, 92] (by decide)⟩

/-- The text of a character range is read back, at any place of a text, as a
range of the same characters, if its items have no `\`, `]` or `-` at their ends
other than the single characters `]` and `-`, and no item of a range that is not
negated starts with `^`. -/
theorem C48_range_partial (rs : List Item) (e : Bool) (pre post : List Nat) (hne : rs ≠ [])
    (hn : rs.Nodup)
    (hp : ∀ a ∈ rs, a = ⟨45, 45⟩ ∨ a = ⟨93, 93⟩ ∨
      (a.cmin ≠ 45 ∧ a.cmin ≠ 92 ∧ a.cmin ≠ 93) ∧ (a.cmax ≠ 45 ∧ a.cmax ≠ 92 ∧ a.cmax ≠ 93) ∧
        a.cmin ≤ a.cmax)
    (hc : e = true ∨ ∀ a ∈ rs, a.cmin ≠ 94) :
    ∃ rs', parseRange (pre ++ rangeStr rs e ++ post) (pre.length + 1)
        = .ok (.range rs' e, (pre ++ rangeStr rs e).length) ∧
      ∀ c, InItems rs' c ↔ InItems rs c :=
  parseRange_str rs e pre post hne hn hp hc

/-- `[]a-f-]`. -/
example : rangeStr [⟨45, 45⟩, ⟨93, 93⟩, ⟨97, 102⟩] false = [91, 93, 97, 45, 102, 45, 93] ∧
    ([⟨45, 45⟩, ⟨93, 93⟩, ⟨97, 102⟩] : List Item).Nodup := by decide

/-- A range that contains `^` as its first character is printed as a negated
range: the range of `^` and `a` has the text `[^a]`. -/
theorem C48_caret_range_wrong :
    rangeStr [⟨94, 94⟩, ⟨97, 97⟩] false = [91, 94, 97, 93] ∧
      parseRange [91, 94, 97, 93] 1 = .ok (.range [⟨97, 97⟩] true, 4) ∧
      rangeStr [⟨97, 97⟩] true = [91, 94, 97, 93] := by
  refine ⟨by decide, by rfl, by decide⟩

/-- The range of the antislash has the text `[\]`, which is refused. -/
theorem C48_antislash_range_wrong :
    rangeStr [⟨92, 92⟩] false = [91, 92, 93] ∧
      parseRange [91, 92, 93] 1 = .error .syntaxError := by
  refine ⟨by decide, by rfl⟩

/-- The parser does not return for `a(b|`: whatever the number of nested calls
allowed (and allowed inside `|`), it asks for one more. -/
theorem C48_open_group_never_returns (same : List Item → List Item → Bool) (budget n : Nat) :
    parse same budget n [97, 40, 98, 124] = none := by
  have key : ∀ n, (∀ r, orLoop same budget n [97, 40, 98, 124] 2 r = none) ∧
      (∀ r, orLoop same budget n [97, 40, 98, 124] 1 r = none) ∧
      (∀ r, orLoop same budget n [97, 40, 98, 124] 4 r = none) ∧
      parseOr same budget n [97, 40, 98, 124] 2 = none ∧
      (∀ r l, parseLoop same budget n [97, 40, 98, 124] true 1 r l = none) := by
    intro n
    induction n using Nat.strongRecOn with
    | _ n ih =>
      match n with
      | 0 => simp [orLoop, parseOr, parseLoop]
      | n + 1 =>
        obtain ⟨i1, i2, i3, i4, i5⟩ := ih n (by omega)
        refine ⟨?_, ?_, ?_, ?_, ?_⟩
        · intro r
          rw [orLoop]
          -- reads `b` up to the bar
          match n with
          | 0 => simp [parseFrom]
          | 1 => simp [parseFrom, parseLoop]
          | 2 => simp [parseFrom, parseLoop, commands]
          | k + 3 =>
            have : parseFrom same budget (k + 3) [97, 40, 98, 124] 2 true
                = some (.ok (.str [98], 3)) := by
              simp [parseFrom, parseLoop, commands, addLast, andOp, andStep]
            simp only [this]
            cases r with
            | none => simp [i3]
            | some r => simp [i3]; split <;> rfl
        · intro r
          rw [orLoop]
          match n with
          | 0 => simp [parseFrom]
          | k + 1 =>
            have : parseFrom same budget (k + 1) [97, 40, 98, 124] 1 true = none := by
              simp only [parseFrom]
              rw [if_neg (by decide)]
              exact (ih k (by omega)).2.2.2.2 _ _
            simp only [this]
        · intro r
          rw [orLoop]
          match n with
          | 0 => simp [parseFrom]
          | k + 1 =>
            have : parseFrom same budget (k + 1) [97, 40, 98, 124] 4 true
                = some (.ok (.empty, 0)) := by
              simp [parseFrom]
            simp only [this]
            cases r with
            | none => simp [i2]
            | some r => simp [i2]; split <;> rfl
        · rw [parseOr]
          simp [i1]
        · intro r l
          rw [parseLoop]
          simp [commands, i4]
  unfold parse
  match n with
  | 0 => simp [parseFrom]
  | 1 => simp [parseFrom, parseLoop]
  | 2 => simp [parseFrom, parseLoop, commands]
  | n + 3 =>
    have h : parseOr same budget n [97, 40, 98, 124] 2 = none := (key n).2.2.2.1
    have h1 : parseOr same budget (n + 1) [97, 40, 98, 124] 2 = none := (key (n + 1)).2.2.2.1
    simp [parseFrom, parseLoop, commands, h, h1]

end Hachoir.Props
