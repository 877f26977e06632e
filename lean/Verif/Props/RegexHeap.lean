import Verif.Regex.HeapLemmas
import Verif.Regex.OrLemmas

/-!
# Property C33: combining expressions and shared objects

`addR n h a b` is `a & b` on objects of the heap `h`; `Den h P a r` says that
the object `a` is the expression `r` and made of objects satisfying `P` only.
-/

set_option linter.unusedVariables false

namespace Hachoir.Props
open Hachoir.Regex

/-- If the left operand is not a `RegexAnd`, `a & b` returns an object for the
concatenation and changes nothing: every object, shared or not, is the same
expression as before. -/
theorem C33_and_fresh (h : Heap) (a b : Nat) (ra rb : Rx) (da : Den h (· < h.length) a ra)
    (db : Den h (· < h.length) b rb) (ha : ∀ l, ra ≠ .and l) (n : Nat) (hn : 2 ≤ n) :
    ∃ h' c, addR n h a b = some (h', c) ∧ Den h' (· < h'.length) c (andOp ra rb) ∧
      (∀ x, x < h.length → h'[x]? = h[x]?) ∧
      ∀ x r, Den h (· < h.length) x r → Den h' (· < h'.length) x r := by
  have ha : notAnd ra = true := by cases ra <;> simp_all [notAnd]
  obtain ⟨t, c, h1, h2⟩ := addR_fresh da db ha n hn
  exact ⟨h ++ t, c, h1, h2, fun x hx => get_append hx t, fun x r d =>
    d.frame (fun y hy => get_append hy t) (fun y hy => by
      simp only [List.length_append]; omega)⟩

/-- `'a' & [.b]` where the right operand is a `RegexAnd`. -/
example :
    let h : Heap := [.atom (.str [97]), .atom .dot, .atom (.str [98]), .and [1, 2]]
    Den h (· < h.length) 0 (.str [97]) ∧ Den h (· < h.length) 3 (.and [.dot, .str [98]]) ∧
      addR 2 h 0 3 = some (h ++ [.and [0, 3]], 4) :=
  ⟨.atom rfl rfl (by decide), .and rfl (by decide) (.cons (.atom rfl rfl (by decide))
    (.cons (.atom rfl rfl (by decide)) .nil)), rfl⟩

/-- For a `RegexAnd` as left operand, if `S` are the `RegexAnd` objects from it
through its last items and none of them is used elsewhere in the two operands
(`Own`, `Apart`): `a & b` returns an object for the concatenation, the right
operand is unchanged, and only objects of `S` may be changed: every expression
that does not use them is the same as before. -/
theorem C33_and_apart_partial (h : Heap) (P : Nat → Prop) (S : List Nat) (a b : Nat) (ra rb : Rx)
    (hS : S ≠ []) (oa : Own h P S a ra) (db : Den h P b rb) (ap : Apart h P S) (n : Nat)
    (hn : S.length + 2 * depth rb + 2 ≤ n) :
    ∃ h' c, addR n h a b = some (h', c) ∧
      (∃ P' S', Own h' P' S' c (andOp ra rb)) ∧ Den h' P b rb ∧
      (∀ x, x < h.length → x ∉ S → h'[x]? = h[x]?) ∧
      ∀ Q x r, (∀ y, Q y → y < h.length ∧ y ∉ S) → Den h Q x r → Den h' Q x r := by
  obtain ⟨h', c, P', S', h1, h2, h3⟩ := addR_spec (depth rb) S.length n hn h P S a b ra rb hS
    (Nat.le_refl _) oa db ap (Nat.le_refl _)
  exact ⟨h', c, h1, ⟨P', S', h2⟩, db.frame (h3.keepP ap) fun _ => id, h3.keep,
    fun Q x r hQ d => d.frame (fun y hy => h3.keep y (hQ y hy).1 (hQ y hy).2) fun _ => id⟩

/-- `.a & .b` with two separate `RegexAnd` objects. -/
example :
    let h : Heap := [.atom .dot, .atom (.str [97]), .and [0, 1], .atom (.str [98]), .and [0, 3]]
    let P : Nat → Prop := fun x => x < 5 ∧ x ≠ 2
    Own h P [2] 2 (.and [.dot, .str [97]]) ∧ Den h P 4 (.and [.dot, .str [98]]) ∧
      Apart h P [2] := by
  refine ⟨?_, ?_, ?_⟩
  · exact .and (l := [0]) (rs := [.dot]) rfl (.cons (.atom rfl rfl (by decide)) .nil)
      (.other (.atom rfl rfl (by decide)) rfl)
  · exact .and rfl (by decide) (.cons (.atom rfl rfl (by decide))
      (.cons (.atom rfl rfl (by decide)) .nil))
  · refine ⟨fun x hx => hx.1, ?_, ?_, by simp⟩
    · intro x hx; simp only [List.mem_singleton] at hx; subst hx; decide
    · intro x hx hp; simp only [List.mem_singleton] at hx; exact hp.2 hx

theorem char2 {isWord w} (c : Nat) (j : Nat) :
    Matches isWord w (.and [.dot, .str [c]]) 0 j ↔
      j = 2 ∧ (∃ d, w[0]? = some d ∧ d ≠ 10) ∧ w[1]? = some c := by
  simp only [Matches, MatchesSeq]
  constructor
  · rintro ⟨k, ⟨h1, h2⟩, k', ⟨h3, h4⟩, rfl⟩
    subst h1
    simp only [List.length_singleton] at h3
    subst h3
    refine ⟨rfl, h2, ?_⟩
    obtain ⟨t, ht⟩ := h4
    have := congrArg List.head? ht
    simpa using this.symm
  · rintro ⟨rfl, h2, h3⟩
    refine ⟨1, ⟨rfl, h2⟩, 2, ⟨rfl, ?_⟩, rfl⟩
    match w, h3 with
    | x :: y :: w, h3 =>
      simp only [List.getElem?_cons_succ, List.getElem?_cons_zero, Option.some.injEq] at h3
      subst h3; simp

/-- The operand on the left is modified when it is a `RegexAnd`: after
`x = .a`, `x & 'b'`, the object `x` is `.ab` and no longer matches `za`. -/
theorem C33_left_operand_changed :
    let h : Heap := [.atom .dot, .atom (.str [97]), .and [0, 1], .atom (.str [98])]
    Den h (· < 4) 2 (.and [.dot, .str [97]]) ∧
      ∃ h', addR 9 h 2 3 = some (h', 2) ∧ Den h' (· < 5) 2 (.and [.dot, .str [97, 98]]) ∧
        (∀ isWord, Matches isWord [122, 97] (.and [.dot, .str [97]]) 0 2) ∧
        ∀ isWord j, ¬ Matches isWord [122, 97] (.and [.dot, .str [97, 98]]) 0 j := by
  refine ⟨?_, _, rfl, ?_, ?_, ?_⟩
  · exact .and rfl (by decide) (.cons (.atom rfl rfl (by decide))
      (.cons (.atom rfl rfl (by decide)) .nil))
  · exact .and rfl (by decide) (.cons (.atom rfl rfl (by decide))
      (.cons (.atom rfl rfl (by decide)) .nil))
  · intro isWord
    rw [char2]
    exact ⟨rfl, ⟨122, rfl, by decide⟩, rfl⟩
  · intro isWord j
    simp only [Matches, MatchesSeq]
    rintro ⟨k, ⟨h1, h2⟩, k', ⟨h3, h4⟩, rfl⟩
    subst h1
    simp at h4

/-- `x & x` with `x = 'x' . 'y'` gives `x.yx.yx` and not `x.yx.y`: the loop over
the items reads the list it is changing. -/
theorem C33_self_concatenation_wrong :
    let h : Heap := [.atom (.str [120]), .atom .dot, .atom (.str [121]), .and [0, 1, 2]]
    Den h (· < 4) 3 (.and [.str [120], .dot, .str [121]]) ∧
      ∃ h' c, addR 9 h 3 3 = some (h', c) ∧
        Den h' (· < h'.length) c (.and [.str [120], .dot, .str [121, 120], .dot, .str [121, 120]]) ∧
        andOp (.and [.str [120], .dot, .str [121]]) (.and [.str [120], .dot, .str [121]])
          = .and [.str [120], .dot, .str [121, 120], .dot, .str [121]] := by
  refine ⟨?_, _, _, rfl, ?_, rfl⟩
  · exact .and rfl (by decide) (.cons (.atom rfl rfl (by decide))
      (.cons (.atom rfl rfl (by decide)) (.cons (.atom rfl rfl (by decide)) .nil)))
  · exact .and rfl (by decide) (.cons (.atom rfl rfl (by decide))
      (.cons (.atom rfl rfl (by decide)) (.cons (.atom rfl rfl (by decide))
        (.cons (.atom rfl rfl (by decide)) (.cons (.atom rfl rfl (by decide)) .nil)))))

end Hachoir.Props
