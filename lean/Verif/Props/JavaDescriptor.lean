import Verif.Formats.JavaDescriptor
import Mathlib.Data.List.Basic

/-!
# C88: descriptors of Java classes
-/

set_option linter.unusedVariables false

namespace Hachoir.Props
open Hachoir Hachoir.Formats.Java

/-! ### Types of Java (JVM specification, 4.3) -/

inductive JavaType where
  | byte | char | double | float | int | long | short | boolean
  | void
  | object (name : Str)
  | array (of : JavaType)

/-- The descriptor of a type. -/
def descriptor : JavaType → Str
  | .byte => ['B']
  | .char => ['C']
  | .double => ['D']
  | .float => ['F']
  | .int => ['I']
  | .long => ['J']
  | .short => ['S']
  | .boolean => ['Z']
  | .void => ['V']
  | .object name => 'L' :: (name ++ [';'])
  | .array t => '[' :: descriptor t

/-- The type in the Java language. -/
def javaText : JavaType → Str
  | .byte => "byte".toList
  | .char => "char".toList
  | .double => "double".toList
  | .float => "float".toList
  | .int => "int".toList
  | .long => "long".toList
  | .short => "short".toList
  | .boolean => "boolean".toList
  | .void => "void".toList
  | .object name => name.map fun c => if c = '/' then '.' else c
  | .array t => javaText t ++ "[]".toList

/-- The names of its classes end before their semicolons. -/
def GoodType : JavaType → Prop
  | .object name => ';' ∉ name
  | .array t => GoodType t
  | _ => True

/-- `a, b, c`. -/
def commas : List Str → Str
  | [] => []
  | p :: ps => p ++ (ps.map fun q => ", ".toList ++ q).flatten

/-! ### One type -/

theorem joinComma_eq : ∀ l, joinComma l = commas l
  | [] => rfl
  | [p] => by simp [joinComma, commas]
  | p :: q :: l => by
    rw [joinComma, joinComma_eq (q :: l)]
    · simp [commas]
    · simp

theorem brackets_succ (n : Nat) : brackets (n + 1) = brackets n ++ "[]".toList := by
  unfold brackets
  rw [List.replicate_succ', List.flatten_append]
  rfl

theorem skipBrackets_other (c : Char) (cs : Str) (h : c ≠ '[') : skipBrackets (c :: cs) = (0, c :: cs) := by
  unfold skipBrackets
  split
  · rename_i h'; simp only [List.cons.injEq] at h'; exact absurd h'.1 h
  · rfl

theorem skipBrackets_bracket (cs : Str) : skipBrackets ('[' :: cs) = ((skipBrackets cs).1 + 1, (skipBrackets cs).2) := rfl

theorem eat_bracket (cs : Str) : eatDescriptor ('[' :: cs) =
    match eatDescriptor cs with
    | .error x => .error x
    | .ok (t, tail) => .ok (t ++ "[]".toList, tail) := by
  unfold eatDescriptor
  rw [skipBrackets_bracket]
  obtain ⟨⟨n, r⟩, h⟩ : ∃ p, skipBrackets cs = p := ⟨_, rfl⟩
  rw [h]
  cases r with
  | nil => rfl
  | cons c cs =>
    by_cases hL : c = 'L'
    · simp only [hL, if_true, brackets_succ, List.append_assoc]
    · simp only [hL, if_false]
      cases codeName c with
      | none => rfl
      | some t => simp only [brackets_succ, List.append_assoc]

theorem eat_code (c : Char) (t tail : Str) (hb : c ≠ '[') (hL : c ≠ 'L') (hc : codeName c = some t) (hs : '/' ∉ t) :
    eatDescriptor (c :: tail) = .ok (t, tail) := by
  unfold eatDescriptor
  rw [skipBrackets_other c tail hb]
  simp only [hL, if_false, hc]
  have hd : dots t = t := by
    unfold dots
    conv => rhs; rw [← List.map_id t]
    apply List.map_congr_left
    intro a ha
    rw [if_neg (by rintro rfl; exact hs ha)]; rfl
  rw [hd]
  simp [brackets]

theorem find_some (name tail : Str) (h : ';' ∉ name) : find ';' ('L' :: (name ++ ';' :: tail)) = ((name.length + 1 : Nat) : Int) := by
  have : ('L' :: (name ++ ';' :: tail)).findIdx? (· == ';') = some (name.length + 1) := by
    rw [List.findIdx?_cons]
    simp only [show ('L' == ';') = false by decide, Bool.false_eq_true, if_false]
    have : (name ++ ';' :: tail).findIdx? (· == ';') = some name.length := by
      rw [List.findIdx?_append]
      have : name.findIdx? (· == ';') = none := by
        rw [List.findIdx?_eq_none_iff]
        intro x hx
        simp only [beq_eq_false_iff_ne, ne_eq]
        rintro rfl
        exact h hx
      rw [this, List.findIdx?_cons]
      simp
    rw [this]; rfl
  unfold find
  rw [this]

theorem find_none (name : Str) (h : ';' ∉ name) : find ';' ('L' :: name) = -1 := by
  have : ('L' :: name).findIdx? (· == ';') = none := by
    rw [List.findIdx?_eq_none_iff]
    intro x hx
    simp only [beq_eq_false_iff_ne, ne_eq]
    rintro rfl
    rcases List.mem_cons.1 hx with h' | h'
    · exact absurd h' (by decide)
    · exact h h'
  unfold find
  rw [this]

theorem eat_object (name tail : Str) (h : ';' ∉ name) :
    eatDescriptor ('L' :: (name ++ ';' :: tail)) = .ok (name.map (fun c => if c = '/' then '.' else c), tail) := by
  unfold eatDescriptor
  rw [skipBrackets_other 'L' _ (by decide)]
  simp only [if_true, find_some name tail h]
  have h1 : pySlice ('L' :: (name ++ ';' :: tail)) 1 ((name.length + 1 : Nat) : Int) = name := by
    have := pySlice_nat ('L' :: (name ++ ';' :: tail)) 1 name.length
    rw [show ((name.length + 1 : Nat) : Int) = ((1 : Nat) : Int) + (name.length : Int) by omega]
    rw [show (1 : Int) = ((1 : Nat) : Int) from rfl, this]
    simp
  have h2 : pySlice ('L' :: (name ++ ';' :: tail)) ((name.length + 1 : Nat) : Int) ((name ++ ';' :: tail).length + 1) = ';' :: tail := by
    have := pySlice_nat ('L' :: (name ++ ';' :: tail)) (name.length + 1) (tail.length + 1)
    rw [show (((name ++ ';' :: tail).length : Int) + 1) = ((name.length + 1 : Nat) : Int) + ((tail.length + 1 : Nat) : Int) by
      simp only [List.length_append, List.length_cons]; omega]
    rw [this]
    simp
  rw [h1, h2]
  simp [dots, brackets]

/-- Without a semicolon, the last character of the name is lost. -/
theorem eat_open (name : Str) (h : ';' ∉ name) (h0 : name ≠ []) :
    eatDescriptor ('L' :: name) = .ok (name.dropLast.map (fun c => if c = '/' then '.' else c), []) := by
  unfold eatDescriptor
  rw [skipBrackets_other 'L' _ (by decide)]
  simp only [if_true, find_none name h]
  have hl := List.length_pos_iff.2 h0
  have h1 : pySlice ('L' :: name) 1 (-1) = name.dropLast := by
    unfold pySlice sliceBound
    simp only [List.length_cons]
    rw [if_pos (show (-1 : Int) < 0 by omega), if_neg (show ¬ (1 : Int) < 0 by omega)]
    rw [show min (Int.toNat 1) (name.length + 1) = 1 by simp, show ((-1 : Int) + ((name.length + 1 : Nat) : Int)).toNat = name.length by omega]
    rw [List.dropLast_eq_take]
    rfl
  have h2 : (pySlice ('L' :: name) (-1) ((name.length : Int) + 1)).length = 1 := by
    unfold pySlice sliceBound
    simp only [List.length_cons]
    rw [if_pos (show (-1 : Int) < 0 by omega), if_neg (show ¬ (name.length : Int) + 1 < 0 by omega)]
    rw [List.length_take, List.length_drop, List.length_cons]
    omega
  rw [h1, List.drop_eq_nil_of_le (by omega)]
  simp [dots, brackets]

theorem eat_open_nil : eatDescriptor ['L'] = .ok ([], []) := by decide

/-- The descriptor of a type at the beginning of a text. -/
theorem eat_type (t : JavaType) (ht : GoodType t) (tail : Str) : eatDescriptor (descriptor t ++ tail) = .ok (javaText t, tail) := by
  induction t with
  | object name =>
    have := eat_object name tail ht
    simpa [descriptor, javaText] using this
  | array t ih =>
    have := ih ht
    rw [descriptor, List.cons_append, eat_bracket, this]
    rfl
  | _ => exact eat_code _ _ tail (by decide) (by decide) rfl (by decide)

/-- Nothing but types, and classes without a semicolon. -/
def Unclosed (d : Str) : Prop := ∃ n name, ';' ∉ name ∧ d = List.replicate n '[' ++ 'L' :: name

theorem eat_only : ∀ (d t tail : Str), eatDescriptor d = .ok (t, tail) →
    (∃ j, GoodType j ∧ d = descriptor j ++ tail ∧ t = javaText j) ∨ (Unclosed d ∧ tail = [])
  | [], t, tail, h => by simp [eatDescriptor, skipBrackets] at h
  | c :: cs, t, tail, h => by
    by_cases hb : c = '['
    · subst hb
      rw [eat_bracket] at h
      cases he : eatDescriptor cs with
      | error x => rw [he] at h; simp at h
      | ok p =>
        obtain ⟨t', tail'⟩ := p
        rw [he] at h
        simp only [Except.ok.injEq, Prod.mk.injEq] at h
        obtain ⟨rfl, rfl⟩ := h
        rcases eat_only cs t' tail' he with ⟨j, g, e1, e2⟩ | ⟨⟨n, name, hn, e1⟩, e2⟩
        · exact .inl ⟨.array j, g, by rw [e1]; rfl, by rw [e2]; rfl⟩
        · exact .inr ⟨⟨n + 1, name, hn, by rw [e1]; rfl⟩, e2⟩
    · by_cases hL : c = 'L'
      · subst hL
        by_cases hs : ';' ∈ cs
        · obtain ⟨name, tl, rfl, hnm⟩ : ∃ name tl, cs = name ++ ';' :: tl ∧ ';' ∉ name := by
            obtain ⟨a, b, e, hna⟩ := List.eq_append_cons_of_mem hs
            exact ⟨a, b, e, hna⟩
          rw [eat_object name tl hnm] at h
          simp only [Except.ok.injEq, Prod.mk.injEq] at h
          exact .inl ⟨.object name, hnm, by simp [descriptor, h.2], h.1.symm⟩
        · right
          refine ⟨⟨0, cs, hs, rfl⟩, ?_⟩
          by_cases h0 : cs = []
          · subst h0; rw [eat_open_nil] at h; simp only [Except.ok.injEq, Prod.mk.injEq] at h; exact h.2.symm
          · rw [eat_open cs hs h0] at h; simp only [Except.ok.injEq, Prod.mk.injEq] at h; exact h.2.symm
      · left
        unfold eatDescriptor at h
        rw [skipBrackets_other c cs hb] at h
        simp only [hL, if_false] at h
        have key : ∀ (k : Char) (j : JavaType) (txt : Str), descriptor j = [k] → GoodType j → c = k → javaText j = txt →
            dots txt = txt → codeName c = some txt →
            ∃ j, GoodType j ∧ c :: cs = descriptor j ++ tail ∧ t = javaText j := by
          intro k j txt hd hg hc hj hdd hcn
          rw [hcn] at h
          simp only [Except.ok.injEq, Prod.mk.injEq] at h
          refine ⟨j, hg, by rw [hd, hc, h.2]; rfl, ?_⟩
          rw [hj, ← h.1, hdd]; simp [brackets]
        by_cases h1 : c = 'B'
        · exact key 'B' .byte _ rfl trivial h1 rfl (by decide) (by rw [h1]; rfl)
        by_cases h2 : c = 'C'
        · exact key 'C' .char _ rfl trivial h2 rfl (by decide) (by rw [h2]; rfl)
        by_cases h3 : c = 'D'
        · exact key 'D' .double _ rfl trivial h3 rfl (by decide) (by rw [h3]; rfl)
        by_cases h4 : c = 'F'
        · exact key 'F' .float _ rfl trivial h4 rfl (by decide) (by rw [h4]; rfl)
        by_cases h5 : c = 'I'
        · exact key 'I' .int _ rfl trivial h5 rfl (by decide) (by rw [h5]; rfl)
        by_cases h6 : c = 'J'
        · exact key 'J' .long _ rfl trivial h6 rfl (by decide) (by rw [h6]; rfl)
        by_cases h7 : c = 'S'
        · exact key 'S' .short _ rfl trivial h7 rfl (by decide) (by rw [h7]; rfl)
        by_cases h8 : c = 'Z'
        · exact key 'Z' .boolean _ rfl trivial h8 rfl (by decide) (by rw [h8]; rfl)
        by_cases h9 : c = 'V'
        · exact key 'V' .void _ rfl trivial h9 rfl (by decide) (by rw [h9]; rfl)
        have : codeName c = none := by
          unfold codeName
          split <;> first | contradiction | rfl
        rw [this] at h
        simp at h

theorem descriptor_head (t : JavaType) : ∃ c cs, descriptor t = c :: cs ∧ c ≠ ')' ∧ c ≠ '(' := by
  cases t <;> exact ⟨_, _, rfl, by decide, by decide⟩

/-! ### Fields -/

/-- C88: the descriptor of a field is shown as its type in the Java language, with the name behind. -/
theorem C88_field (t : JavaType) (ht : GoodType t) (name : Str) :
    parseField (descriptor t) name = .ok (if name = [] then javaText t else javaText t ++ ' ' :: name) := by
  obtain ⟨c, cs, hd, _⟩ := descriptor_head t
  have he := eat_type t ht []
  rw [List.append_nil] at he
  unfold parseField
  rw [if_neg (by rw [hd]; simp), he]
  simp only [ne_eq, not_true_eq_false, if_false, ite_not]
  split <;> rfl

example : GoodType (.array (.array (.object "java/lang/String".toList))) := by
  show ';' ∉ "java/lang/String".toList
  decide

example : parseField "[[Ljava/lang/String;".toList "args".toList = .ok "java.lang.String[][] args".toList :=
  C88_field (.array (.array (.object "java/lang/String".toList))) (by show ';' ∉ "java/lang/String".toList; decide) "args".toList

/-- C88: nothing else is taken for the descriptor of a field, but classes without a semicolon. -/
theorem C88_field_only (d name x : Str) (h : parseField d name = .ok x) :
    (∃ t, GoodType t ∧ d = descriptor t) ∨ Unclosed d := by
  unfold parseField at h
  split at h
  · simp at h
  · cases he : eatDescriptor d with
    | error e => rw [he] at h; simp at h
    | ok p =>
      obtain ⟨t, tail⟩ := p
      rw [he] at h
      simp only at h
      by_cases ht : tail = []
      · subst ht
        rcases eat_only d t [] he with ⟨j, g, e, _⟩ | ⟨u, _⟩
        · exact .inl ⟨j, g, by simpa using e⟩
        · exact .inr u
      · rw [if_pos ht] at h; simp at h

/-- C88 (disagreement): a class without its semicolon is accepted and shown without its last
letter. -/
theorem C88_unclosed (name : Str) (h : ';' ∉ name) (h0 : name ≠ []) :
    parseField ('L' :: name) [] = .ok (name.dropLast.map fun c => if c = '/' then '.' else c) := by
  unfold parseField
  rw [if_neg (by simp), eat_open name h h0]
  simp

example : parseField "Ljava/lang/String".toList [] = .ok "java.lang.Strin".toList :=
  C88_unclosed "java/lang/String".toList (by decide) (by decide)

/-! ### Methods -/

theorem eatParams_types (ts : List JavaType) (h : ∀ t ∈ ts, GoodType t) (rest : Str) :
    ∀ n, (ts.map descriptor).flatten.length < n →
    eatParams n ((ts.map descriptor).flatten ++ ')' :: rest) = .ok (ts.map javaText, ')' :: rest) := by
  induction ts with
  | nil =>
    intro n hn
    obtain ⟨n, rfl⟩ : ∃ m, n = m + 1 := ⟨n - 1, by simp at hn; omega⟩
    simp [eatParams]
  | cons t ts ih =>
    intro n hn
    obtain ⟨n, rfl⟩ : ∃ m, n = m + 1 := ⟨n - 1, by omega⟩
    obtain ⟨c, cs, hd, hc, _⟩ := descriptor_head t
    have he := eat_type t (h t (by simp)) ((ts.map descriptor).flatten ++ ')' :: rest)
    have hlen : (descriptor t).length = cs.length + 1 := by rw [hd]; rfl
    simp only [List.map_cons, List.flatten_cons, List.length_append] at hn
    have hih := ih (fun t' ht' => h t' (by simp [ht'])) n (by omega)
    simp only [List.map_cons, List.flatten_cons, List.append_assoc]
    rw [hd, List.cons_append] at he ⊢
    rw [eatParams, if_neg hc, he]
    simp only [hih]

theorem eatParams_only : ∀ (n : Nat) (d : Str) (ps : List Str) (rest : Str), eatParams n d = .ok (ps, rest) →
    ∃ ts : List JavaType, (∀ t ∈ ts, GoodType t) ∧ (∃ r, rest = ')' :: r) ∧ d = (ts.map descriptor).flatten ++ rest ∧ ps = ts.map javaText
  | 0, d, ps, rest, h => by simp [eatParams] at h
  | n + 1, [], ps, rest, h => by simp [eatParams] at h
  | n + 1, c :: cs, ps, rest, h => by
    rw [eatParams] at h
    by_cases hc : c = ')'
    · rw [if_pos hc] at h
      simp only [Except.ok.injEq, Prod.mk.injEq] at h
      exact ⟨[], by simp, ⟨cs, by rw [← h.2, hc]⟩, by simp [← h.2], h.1.symm⟩
    · rw [if_neg hc] at h
      cases he : eatDescriptor (c :: cs) with
      | error e => rw [he] at h; simp at h
      | ok p =>
        obtain ⟨t, tail⟩ := p
        rw [he] at h
        simp only at h
        cases hr : eatParams n tail with
        | error e => rw [hr] at h; simp at h
        | ok q =>
          obtain ⟨ps', rest'⟩ := q
          rw [hr] at h
          simp only [Except.ok.injEq, Prod.mk.injEq] at h
          obtain ⟨rfl, rfl⟩ := h
          obtain ⟨ts, hg, hx, hd, hps⟩ := eatParams_only n tail ps' rest' hr
          rcases eat_only _ _ _ he with ⟨j, g, e1, e2⟩ | ⟨_, e2⟩
          · refine ⟨j :: ts, ?_, hx, ?_, ?_⟩
            · intro t' ht'
              rcases List.mem_cons.1 ht' with rfl | h'
              · exact g
              · exact hg t' h'
            · rw [e1, hd]; simp
            · rw [e2, hps]; rfl
          · subst e2
            cases n <;> simp [eatParams] at hr

/-- C88: the descriptor of a method is shown with the types of its parameters and its result. -/
theorem C88_method (ts : List JavaType) (t : JavaType) (hts : ∀ t ∈ ts, GoodType t) (ht : GoodType t) (name : Str) :
    parseMethod ('(' :: ((ts.map descriptor).flatten ++ ')' :: descriptor t)) name =
      .ok (javaText t ++ ' ' :: (name ++ '(' :: (commas (ts.map javaText) ++ [')']))) := by
  unfold parseMethod
  simp only [ne_eq, not_true_eq_false, if_false]
  rw [eatParams_types ts hts (descriptor t) _ (by simp; omega)]
  have he := eat_type t ht []
  rw [List.append_nil] at he
  simp only [List.drop_succ_cons, List.drop_zero, he, joinComma_eq]
  by_cases hn : name = []
  · subst hn; simp
  · simp [hn]

example : parseMethod "([BILjava/io/File;)V".toList "write".toList = .ok "void write(byte[], int, java.io.File)".toList :=
  C88_method [.array .byte, .int, .object "java/io/File".toList] .void
    (by intro t ht
        simp only [List.mem_cons, List.not_mem_nil, or_false] at ht
        rcases ht with rfl | rfl | rfl
        · trivial
        · trivial
        · show ';' ∉ "java/io/File".toList
          decide) trivial "write".toList

/-- C88: nothing else is taken for the descriptor of a method, but a class without a semicolon as
the result. -/
theorem C88_method_only (d name x : Str) (h : parseMethod d name = .ok x) :
    ∃ (ts : List JavaType) (r : Str), (∀ t ∈ ts, GoodType t) ∧ d = '(' :: ((ts.map descriptor).flatten ++ ')' :: r) ∧
      ((∃ t, GoodType t ∧ r = descriptor t) ∨ Unclosed r) := by
  unfold parseMethod at h
  cases d with
  | nil => simp at h
  | cons c d =>
    simp only at h
    by_cases hc : c = '('
    · rw [if_neg (by simp [hc])] at h
      cases hp : eatParams (d.length + 1) d with
      | error e => rw [hp] at h; simp at h
      | ok p =>
        obtain ⟨ps, rest⟩ := p
        obtain ⟨ts, hg, ⟨r, rfl⟩, hd, _⟩ := eatParams_only _ _ _ _ hp
        rw [hp] at h
        simp only [List.drop_succ_cons, List.drop_zero] at h
        cases he : eatDescriptor r with
        | error e => rw [he] at h; simp at h
        | ok q =>
          obtain ⟨t, tail⟩ := q
          rw [he] at h
          simp only at h
          by_cases ht : tail = []
          · subst ht
            refine ⟨ts, r, hg, by rw [hc, hd], ?_⟩
            rcases eat_only r t [] he with ⟨j, g, e, _⟩ | ⟨u, _⟩
            · exact .inl ⟨j, g, by simpa using e⟩
            · exact .inr u
          · rw [if_pos ht] at h; simp at h
    · rw [if_pos hc] at h; simp at h

/-- A type is taken from the text, the rest is shorter. -/
theorem eat_shorter (d t tail : Str) (h : eatDescriptor d = .ok (t, tail)) : tail.length < d.length := by
  rcases eat_only d t tail h with ⟨j, _, e, _⟩ | ⟨⟨n, name, _, e⟩, e2⟩
  · obtain ⟨c, cs, hd, _⟩ := descriptor_head j
    rw [e, hd]; simp; omega
  · rw [e, e2]; simp only [List.length_append, List.length_cons, List.length_nil]; omega

/-- C88: the loop over the parameters ends on every text. -/
theorem C88_steps (d : Str) : ∀ n, d.length < n → eatParams n d ≠ .error .endless := by
  induction hk : d.length using Nat.strongRecOn generalizing d with
  | _ k ih =>
    intro n hn
    obtain ⟨n, rfl⟩ : ∃ m, n = m + 1 := ⟨n - 1, by omega⟩
    cases d with
    | nil => simp [eatParams]
    | cons c cs =>
      rw [eatParams]
      split
      · simp
      · cases he : eatDescriptor (c :: cs) with
        | error e =>
          simp only [ne_eq, Except.error.injEq]
          rintro rfl
          unfold eatDescriptor at he
          split at he
          · simp at he
          · split at he
            · simp at he
            · split at he <;> simp at he
        | ok p =>
          obtain ⟨t, tail⟩ := p
          have hs := eat_shorter _ _ _ he
          have := ih tail.length (by omega) tail rfl n (by omega)
          simp only
          cases hr : eatParams n tail with
          | error e => rw [hr] at this; simpa using this
          | ok q => simp

/-- C88: both kinds of descriptors are told apart. -/
theorem C88_any (t : JavaType) (ht : GoodType t) (ts : List JavaType) (hts : ∀ t ∈ ts, GoodType t) (name : Str) :
    parseAny (descriptor t) name = parseField (descriptor t) name ∧
    parseAny ('(' :: ((ts.map descriptor).flatten ++ ')' :: descriptor t)) name =
      parseMethod ('(' :: ((ts.map descriptor).flatten ++ ')' :: descriptor t)) name := by
  obtain ⟨c, cs, hd, _, hp⟩ := descriptor_head t
  constructor
  · rw [hd]; unfold parseAny; simp [hp]
  · rfl

end Hachoir.Props
