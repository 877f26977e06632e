import Verif.Grep.Grep
import Mathlib.Tactic.Common

/-!
# Search of texts
-/

namespace Hachoir.Props
open Hachoir Hachoir.Grep

mutual
/-- All texts of a tree, in the order of the file. -/
def textsOf : Node → List (Nat × Option (List Char))
  | .text a v => [(a, v)]
  | .other _ => []
  | .set _ ns => textsIn ns

def textsIn : List Node → List (Nat × Option (List Char))
  | [] => []
  | n :: ns => textsOf n ++ textsIn ns
end

/-- What a user asks for: texts that are not empty and in which the pattern occurs; if the case does not matter, in small letters. -/
def Wanted (lower : List Char → List Char) (pattern : Option (List Char)) (caseSensitive : Bool) (v : List Char) : Prop :=
  v ≠ [] ∧ ∀ p, pattern = some p → p ≠ [] → (if caseSensitive then p <:+: v else lower p <:+: lower v)

instance (lower : List Char → List Char) (pattern : Option (List Char)) (caseSensitive : Bool) (v : List Char) : Decidable (Wanted lower pattern caseSensitive v) :=
  match pattern, caseSensitive with
  | none, _ => if h : v = [] then isFalse (fun w => w.1 h) else isTrue ⟨h, fun _ h => by cases h⟩
  | some p, true => if h : v ≠ [] ∧ (p ≠ [] → p <:+: v) then isTrue ⟨h.1, fun _ e hp => by cases e; exact h.2 hp⟩ else isFalse fun w => h ⟨w.1, fun hp => w.2 p rfl hp⟩
  | some p, false =>
    if h : v ≠ [] ∧ (p ≠ [] → lower p <:+: lower v) then isTrue ⟨h.1, fun _ e hp => by cases e; exact h.2 hp⟩ else isFalse fun w => h ⟨w.1, fun hp => w.2 p rfl hp⟩

theorem hit_wanted (lower : List Char → List Char) (hl : ∀ p, (lower p).length = 0 → p.length = 0) (pattern : Option (List Char)) (c : Bool) (v : List Char) :
    hit lower (options lower pattern c) (some v) = .ok (decide (Wanted lower pattern c v)) := by
  unfold hit
  simp only
  by_cases hv : v.length = 0
  · rw [if_pos hv, decide_eq_false (fun w => w.1 (List.length_eq_zero_iff.1 hv))]
  · rw [if_neg hv]
    have hv' : v ≠ [] := fun h => hv (by rw [h]; rfl)
    cases pattern with
    | none =>
      show Except.ok true = _
      have w : Wanted lower none c v := ⟨hv', fun _ h => by cases h⟩
      rw [decide_eq_true w]
    | some p =>
      by_cases hp : p = []
      · subst hp
        have : (options lower (some []) c).pattern = some [] := by simp [options]
        rw [this]
        simp only [List.length_nil, if_true]
        have w : Wanted lower (some []) c v := ⟨hv', fun q e h => by cases e; exact absurd rfl h⟩
        rw [decide_eq_true w]
      · have hp0 : p.length ≠ 0 := fun h => hp (List.length_eq_zero_iff.1 h)
        cases c with
        | true =>
          have : (options lower (some p) true) = ⟨some p, true⟩ := by simp [options]
          rw [this]
          simp only [if_neg hp0, if_true, Except.ok.injEq, decide_eq_decide]
          exact ⟨fun h => ⟨hv', fun q e _ => by cases e; exact h⟩, fun h => h.2 p rfl hp⟩
        | false =>
          have : (options lower (some p) false) = ⟨some (lower p), false⟩ := by simp [options, hp]
          have hq : (lower p).length ≠ 0 := fun h => hp0 (hl p h)
          rw [this]
          simp only [if_neg hq, Bool.false_eq_true, if_false, Except.ok.injEq, decide_eq_decide]
          exact ⟨fun h => ⟨hv', fun q e _ => by cases e; exact h⟩, fun h => h.2 p rfl hp⟩

/-- The texts found among those with a value. -/
def wantedOf (lower : List Char → List Char) (pattern : Option (List Char)) (c : Bool) (l : List (Nat × List Char)) : List (Nat × List Char) :=
  l.filter fun x => decide (Wanted lower pattern c x.2)

/-- The texts in front of the first one without a value. -/
def readable : List (Nat × Option (List Char)) → List (Nat × List Char)
  | (a, some v) :: l => (a, v) :: readable l
  | _ => []

def allReadable (l : List (Nat × Option (List Char))) : Bool := l.all fun x => x.2.isSome

theorem readable_append (l m : List (Nat × Option (List Char))) : readable (l ++ m) = if allReadable l then readable l ++ readable m else readable l := by
  induction l with
  | nil => rfl
  | cons x l ih =>
    obtain ⟨a, v⟩ := x
    cases v with
    | none => rfl
    | some v =>
      have e : allReadable ((a, some v) :: l) = allReadable l := by simp [allReadable]
      rw [List.cons_append, readable, readable, ih, e]
      cases allReadable l <;> rfl

mutual
theorem grep_node (lower : List Char → List Char) (hl : ∀ p, (lower p).length = 0 → p.length = 0) (pattern : Option (List Char)) (c : Bool) : ∀ n : Node,
    grepNode lower (options lower pattern c) n = (wantedOf lower pattern c (readable (textsOf n)), if allReadable (textsOf n) then none else some .type)
  | .text a (some v) => by
    rw [grepNode, hit_wanted lower hl]
    simp only [textsOf, readable, wantedOf, allReadable, List.all_cons, List.all_nil, Option.isSome_some, Bool.and_self, if_true, List.filter_cons, List.filter_nil, Option.getD_some]
    cases decide (Wanted lower pattern c v) <;> rfl
  | .text a none => by
    rw [grepNode]
    rfl
  | .other a => by
    rw [grepNode]
    rfl
  | .set a ns => by
    rw [grepNode, grep_nodes lower hl pattern c ns, textsOf]

theorem grep_nodes (lower : List Char → List Char) (hl : ∀ p, (lower p).length = 0 → p.length = 0) (pattern : Option (List Char)) (c : Bool) : ∀ ns : List Node,
    grep lower (options lower pattern c) ns = (wantedOf lower pattern c (readable (textsIn ns)), if allReadable (textsIn ns) then none else some .type)
  | [] => by rw [grep]; rfl
  | n :: ns => by
    have e : allReadable (textsOf n ++ textsIn ns) = (allReadable (textsOf n) && allReadable (textsIn ns)) := by simp [allReadable]
    rw [grep, grep_node lower hl pattern c n, grep_nodes lower hl pattern c ns, textsIn, readable_append, e]
    cases allReadable (textsOf n) with
    | false => rfl
    | true => simp [wantedOf]
end

/-- **C145**: if all texts can be read, exactly the texts wanted are found, each once, in the order of the file, at any depth. -/
theorem C145_found (lower : List Char → List Char) (hl : ∀ p, (lower p).length = 0 → p.length = 0) (pattern : Option (List Char)) (c : Bool) (ns : List Node) (texts : List (Nat × List Char))
    (h : textsIn ns = texts.map fun x => (x.1, some x.2)) :
    grep lower (options lower pattern c) ns = (texts.filter fun x => decide (Wanted lower pattern c x.2), none) := by
  have h1 : ∀ l : List (Nat × List Char), readable (l.map fun x => (x.1, some x.2)) = l := by
    intro l
    induction l with
    | nil => rfl
    | cons x l ih => rw [List.map_cons, readable, ih]
  have h2 : allReadable (texts.map fun x => (x.1, some x.2)) = true := by simp [allReadable]
  rw [grep_nodes lower hl, h, h1, h2]
  rfl

/-- Violation: a text that cannot be read ends the search with an error: nothing behind it is found. -/
theorem C145_unreadable (lower : List Char → List Char) (hl : ∀ p, (lower p).length = 0 → p.length = 0) (pattern : Option (List Char)) (c : Bool) (ns : List Node) (before : List (Nat × List Char))
    (a : Nat) (after : List (Nat × Option (List Char))) (h : textsIn ns = before.map (fun x => (x.1, some x.2)) ++ (a, none) :: after) :
    grep lower (options lower pattern c) ns = (before.filter fun x => decide (Wanted lower pattern c x.2), some .type) := by
  have h1 : ∀ l : List (Nat × List Char), readable (l.map (fun x => (x.1, some x.2)) ++ (a, none) :: after) = l := by
    intro l
    induction l with
    | nil => rfl
    | cons x l ih => rw [List.map_cons, List.cons_append, readable, ih]
  have h2 : allReadable (before.map (fun x => (x.1, some x.2)) ++ (a, none) :: after) = false := by simp [allReadable]
  rw [grep_nodes lower hl, h, h1, h2]
  rfl

/-- Addresses as a user reads them: bytes, then, behind a dot, bits. -/
theorem toDigits_inj {a b : Nat} (h : Nat.toDigits 10 a = Nat.toDigits 10 b) : a = b := by
  rw [← Nat.ofDigitChars_toDigits (b := 10) (n := a) (by decide) (by decide), h, Nat.ofDigitChars_toDigits (by decide) (by decide)]

theorem digits_no_dot (n : Nat) : '.' ∉ (toString n).toList := by
  intro h
  rw [show toString n = n.repr from rfl, Nat.toList_repr] at h
  have := Nat.isDigit_of_mem_toDigits (by decide) (by decide) h
  revert this
  decide

theorem split_dot {a b c d : List Char} (ha : '.' ∉ a) (hc : '.' ∉ c) (h : a ++ '.' :: b = c ++ '.' :: d) : a = c ∧ b = d := by
  induction a generalizing c with
  | nil =>
    cases c with
    | nil => exact ⟨rfl, by simpa using h⟩
    | cons y c => simp only [List.nil_append, List.cons_append, List.cons.injEq] at h; exact absurd (h.1 ▸ List.mem_cons_self) hc
  | cons x a ih =>
    cases c with
    | nil => simp only [List.nil_append, List.cons_append, List.cons.injEq] at h; exact absurd (h.1 ▸ List.mem_cons_self) ha
    | cons y c =>
      simp only [List.cons_append, List.cons.injEq] at h
      obtain ⟨h1, h2⟩ := ih (fun m => ha (List.mem_cons_of_mem _ m)) (fun m => hc (List.mem_cons_of_mem _ m)) h.2
      exact ⟨by rw [h.1, h1], h2⟩

theorem text_inj {a b : Nat} (h : (toString a).toList = (toString b).toList) : a = b := by
  rw [show toString a = a.repr from rfl, show toString b = b.repr from rfl, Nat.toList_repr, Nat.toList_repr] at h
  exact toDigits_inj h

/-- **C145**: two addresses are never shown alike. -/
theorem C145_address (a b : Nat) (h : addrText a = addrText b) : a = b := by
  unfold addrText at h
  by_cases ha : a % 8 = 0 <;> by_cases hb : b % 8 = 0
  · rw [if_pos ha, if_pos hb] at h
    have := text_inj h
    omega
  · rw [if_pos ha, if_neg hb] at h
    exact absurd (h ▸ List.mem_append_right _ List.mem_cons_self) (digits_no_dot (a / 8))
  · rw [if_neg ha, if_pos hb] at h
    exact absurd (h ▸ List.mem_append_right _ List.mem_cons_self) (digits_no_dot (b / 8))
  · rw [if_neg ha, if_neg hb] at h
    obtain ⟨h1, h2⟩ := split_dot (digits_no_dot _) (digits_no_dot _) h
    have := text_inj h1
    have := text_inj h2
    omega

/-- Whole bytes are shown as their number. -/
theorem C145_address_bytes (n : Nat) : addrText (8 * n) = (toString n).toList := by
  rw [addrText, if_pos (by omega), show 8 * n / 8 = n by omega]

/-- Two of four texts are found, one of them within a set in a set. -/
example : grep (fun s => s.map Char.toLower) (options (fun s => s.map Char.toLower) (some "AB".toList) false)
    [.text 0 (some "xab".toList), .set 24 [.other 24, .set 32 [.text 32 (some "Ab!".toList)], .text 56 (some [])], .text 60 (some "ba".toList)] =
    ([(0, "xab".toList), (32, "Ab!".toList)], none) := by decide +kernel

end Hachoir.Props
