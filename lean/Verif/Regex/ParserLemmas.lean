import Verif.Regex.Parser
import Verif.Regex.Lemmas
import Mathlib.Data.List.Basic
import Mathlib.Tactic.Tauto

/-! Lemmas on the regular expression parser. -/

namespace Hachoir.Regex

set_option linter.unusedVariables false
set_option linter.unusedSimpArgs false

variable {same : List Item → List Item → Bool} {budget : Nat}

/-- Parsing the escaped form of `t` adds its characters one by one. -/
theorem parseLoop_escape (t : List Nat) : ∀ (pre : List Nat) (n : Nat) (r : Rx) (l : Option Rx),
    t.length < n →
    parseLoop same budget n (pre ++ escapeRegex t) false pre.length r l
      = some (.ok (t.foldl (fun r c => andOp r (.str [c])) (addLast r l),
          (pre ++ escapeRegex t).length)) := by
  induction t with
  | nil =>
    intro pre n r l hn
    obtain ⟨n, rfl⟩ : ∃ m, n = m + 1 := ⟨n - 1, by simp at hn; omega⟩
    simp [parseLoop, escapeRegex]
  | cons c t ih =>
    intro pre n r l hn
    simp only [List.length_cons] at hn
    obtain ⟨n, rfl⟩ : ∃ m, n = m + 1 := ⟨n - 1, by omega⟩
    by_cases hc : c ∈ commands
    · have e : escapeRegex (c :: t) = 92 :: c :: escapeRegex t := by simp [escapeRegex, hc]
      have hne : c ≠ 98 := by rintro rfl; simp [commands] at hc
      have h0 : (pre ++ 92 :: c :: escapeRegex t)[pre.length]? = some 92 := by simp
      have h1 : (pre ++ 92 :: c :: escapeRegex t)[pre.length + 1]? = some c := by
        rw [List.getElem?_append_right (by omega)]; simp
      have := ih (pre ++ [92, c]) n (addLast r l) (some (.str [c])) (by omega)
      simp only [List.append_assoc, List.cons_append, List.nil_append, List.length_append,
        List.length_cons, List.length_nil] at this
      rw [e, parseLoop]
      simp only [h0, h1]
      rw [if_neg (by simp), if_pos (by decide)]
      simp only [Nat.reduceEqDiff, if_false, if_true, hne, hc, true_or, ↓reduceIte]
      rw [this]
      simp [addLast]
    · have e : escapeRegex (c :: t) = c :: escapeRegex t := by simp [escapeRegex, hc]
      have h0 : (pre ++ c :: escapeRegex t)[pre.length]? = some c := by simp
      have := ih (pre ++ [c]) n (addLast r l) (some (.str [c])) (by omega)
      simp only [List.append_assoc, List.cons_append, List.nil_append, List.length_append,
        List.length_cons, List.length_nil] at this
      rw [e, parseLoop]
      simp only [h0]
      rw [if_neg (by simp), if_neg hc, this]
      simp [addLast]

theorem foldl_str (t s : List Nat) :
    t.foldl (fun r c => andOp r (.str [c])) (.str s) = .str (s ++ t) := by
  induction t generalizing s with
  | nil => simp
  | cons c t ih =>
    rw [List.foldl_cons]
    have : andOp (.str s) (.str [c]) = .str (s ++ [c]) := by simp [andOp, andStep]
    rw [this, ih]; simp

/-! ## Ranges -/

theorem Item.str_injective : Function.Injective Item.str := by
  rintro ⟨a, b⟩ ⟨c, d⟩ h
  simp only [Item.str] at h
  split at h <;> split at h <;> (try split at h) <;> (try split at h) <;> simp_all

/-- What the parser reads for the text of one item. -/
def expand (a : Item) : List Item :=
  if a.cmin + 1 = a.cmax then [charItem a.cmin, charItem a.cmax] else [a]

theorem inItems_append (l m : List Item) (c : Nat) :
    InItems (l ++ m) c ↔ InItems l c ∨ InItems m c := by
  simp only [InItems, List.mem_append]
  constructor
  · rintro ⟨a, h | h, h2⟩
    · exact Or.inl ⟨a, h, h2⟩
    · exact Or.inr ⟨a, h, h2⟩
  · rintro (⟨a, h, h2⟩ | ⟨a, h, h2⟩)
    · exact ⟨a, Or.inl h, h2⟩
    · exact ⟨a, Or.inr h, h2⟩

theorem inItems_expand (l : List Item) (c : Nat) :
    InItems (l.flatMap expand) c ↔ InItems l c := by
  induction l with
  | nil => simp
  | cons a l ih =>
    rw [List.flatMap_cons, inItems_append, ih, inItems_cons]
    have : InItems (expand a) c ↔ a.cmin ≤ c ∧ c ≤ a.cmax := by
      unfold expand
      split
      · rw [inItems_cons, inItems_cons]
        simp only [charItem, InItems, List.not_mem_nil, false_and, exists_false, or_false]
        omega
      · rw [inItems_cons]
        simp [InItems]
    rw [this]

theorem ordered_expand (l : List Item) (h : Ordered l) : Ordered (l.flatMap expand) := by
  intro a ha
  obtain ⟨b, hb, ha⟩ := List.mem_flatMap.1 ha
  unfold expand at ha
  split at ha
  · simp only [List.mem_cons, List.not_mem_nil, or_false] at ha
    rcases ha with rfl | rfl <;> simp [charItem]
  · simp only [List.mem_singleton] at ha
    subst ha; exact h _ hb

/-- End characters that need no care inside brackets. -/
def Mild (c : Nat) : Prop := c ≠ 45 ∧ c ≠ 92 ∧ c ≠ 93

theorem rangeLoop_items (l : List Item) : ∀ (text : List Nat) (n index : Nat) (acc : List Item)
    (suf post : List Nat), (∀ a ∈ l, Mild a.cmin ∧ Mild a.cmax ∧ a.cmin ≤ a.cmax) →
    (suf = [] ∨ suf = [45]) →
    text.drop index = (l.map Item.str).flatten ++ suf ++ 93 :: post →
    (l.map Item.str).flatten.length < n →
    rangeLoop text n index acc
      = .ok (acc ++ l.flatMap expand, index + (l.map Item.str).flatten.length) := by
  have get : ∀ (text : List Nat) (index k : Nat), text[index + k]? = (text.drop index)[k]? :=
    fun text index k => (List.getElem?_drop).symm
  induction l with
  | nil =>
    intro text n index acc suf post _ hs hd hn
    obtain ⟨n, rfl⟩ : ∃ m, n = m + 1 := ⟨n - 1, by simp at hn; omega⟩
    have g0 : text[index]? = (text.drop index)[0]? := by simp
    rw [rangeLoop]
    rw [g0, get text index 1, hd]
    rcases hs with rfl | rfl
    · simp
    · simp
  | cons a l ih =>
    intro text n index acc suf post hm hs hd hn
    obtain ⟨n, rfl⟩ : ∃ m, n = m + 1 := ⟨n - 1, by omega⟩
    obtain ⟨⟨m1, m2, m3⟩, ⟨m4, m5, m6⟩, m7⟩ := hm a (by simp)
    have hl : ∀ a ∈ l, Mild a.cmin ∧ Mild a.cmax ∧ a.cmin ≤ a.cmax :=
      fun b hb => hm b (by simp [hb])
    have g0 : text[index]? = (text.drop index)[0]? := by simp
    -- the text after one character
    have tail : ∀ (k : Nat) (p : List Nat), k = p.length →
        text.drop index = p ++ ((l.map Item.str).flatten ++ suf ++ 93 :: post) →
        text.drop (index + k) = (l.map Item.str).flatten ++ suf ++ 93 :: post := by
      intro k p hk he
      rw [← List.drop_drop, he, hk, List.drop_left]
    -- the second character after a single one
    have next : ∀ c2 rest, ((l.map Item.str).flatten ++ suf ++ 93 :: post) = c2 :: rest →
        c2 = 45 → ∃ r2, rest = 93 :: r2 := by
      intro c2 rest he hc
      subst hc
      cases l with
      | nil =>
        rcases hs with rfl | rfl
        · simp at he
        · simp at he; exact ⟨_, he.symm⟩
      | cons b l =>
        obtain ⟨⟨b1, _, _⟩, _, _⟩ := hl b (by simp)
        simp only [List.map_cons, List.flatten_cons, Item.str] at he
        split at he
        · split at he
          · simp at he; exact absurd he.1 b1
          · simp at he; exact absurd he.1 b1
        · simp at he; exact absurd he.1 b1
    by_cases h1 : a.cmin = a.cmax
    · -- one character
      have es : a.str = [a.cmin] := by simp [Item.str, h1]
      have ex : expand a = [charItem a.cmin] := by
        unfold expand
        rw [if_neg (by omega)]
        rcases a with ⟨x, y⟩
        simp only at h1; subst h1; rfl
      simp only [List.map_cons, List.flatten_cons, es, List.cons_append, List.nil_append,
        List.length_cons] at hd hn ⊢
      have hd1 := tail 1 [a.cmin] rfl (by simpa using hd)
      have rec_ := ih text n (index + 1) (acc ++ [charItem a.cmin]) suf post hl hs hd1 (by omega)
      have fin : rangeLoop text n (index + 1) (acc ++ [charItem a.cmin]) =
          .ok (acc ++ (a :: l).flatMap expand, index + ((l.map Item.str).flatten.length + 1)) := by
        rw [rec_, List.flatMap_cons, ex]
        simp only [List.append_assoc]
        congr 2
        omega
      have hne : (l.map Item.str).flatten ++ suf ++ 93 :: post ≠ [] := by simp
      obtain ⟨c2, rest, he⟩ := List.exists_cons_of_ne_nil hne
      have hd' : text.drop index = a.cmin :: c2 :: rest := by rw [hd, ← he]
      rw [rangeLoop, g0, get text index 1, get text index 2, get text index 3, hd']
      simp only [List.getElem?_cons_zero, List.getElem?_cons_succ, m3, if_false, m2, m1, false_and]
      cases rest with
      | nil => simpa using fin
      | cons c3 rest =>
        simp only [List.getElem?_cons_zero]
        cases rest with
        | nil => simpa using fin
        | cons c4 rest =>
          have : ¬ (c2 = 45 ∧ c3 ≠ 93) := by
            rintro ⟨h, h'⟩
            obtain ⟨r2, hr⟩ := next _ _ he h
            simp at hr
            exact h' hr.1
          simp only [List.getElem?_cons_succ, List.getElem?_cons_zero]
          rw [if_neg this]
          exact fin
    by_cases h2 : a.cmin + 1 = a.cmax
    · -- two neighbours
      have es : a.str = [a.cmin, a.cmax] := by simp [Item.str, h1, h2]
      have ex : expand a = [charItem a.cmin, charItem a.cmax] := by
        unfold expand
        rw [if_pos h2]
      simp only [List.map_cons, List.flatten_cons, es, List.cons_append, List.nil_append,
        List.length_cons] at hd hn ⊢
      obtain ⟨n, rfl⟩ : ∃ m, n = m + 1 := ⟨n - 1, by omega⟩
      have hd2 := tail 2 [a.cmin, a.cmax] rfl (by simpa using hd)
      have rec_ := ih text n (index + 2) (acc ++ [charItem a.cmin] ++ [charItem a.cmax]) suf post
        hl hs hd2 (by omega)
      have fin : rangeLoop text n (index + 2) (acc ++ [charItem a.cmin] ++ [charItem a.cmax]) =
          .ok (acc ++ (a :: l).flatMap expand, index + ((l.map Item.str).flatten.length + 1 + 1)) := by
        rw [rec_, List.flatMap_cons, ex]
        simp only [List.append_assoc, List.cons_append, List.nil_append]
        congr 2
        omega
      have hne : (l.map Item.str).flatten ++ suf ++ 93 :: post ≠ [] := by simp
      obtain ⟨c2, rest, he⟩ := List.exists_cons_of_ne_nil hne
      have hd' : text.drop index = a.cmin :: a.cmax :: c2 :: rest := by rw [hd, ← he]
      have hd1 : text.drop (index + 1) = a.cmax :: c2 :: rest := by
        rw [← List.drop_drop, hd']; rfl
      have inner : rangeLoop text (n + 1) (index + 1) (acc ++ [charItem a.cmin]) =
          .ok (acc ++ (a :: l).flatMap expand, index + ((l.map Item.str).flatten.length + 1 + 1)) := by
        have g0' : text[index + 1]? = (text.drop (index + 1))[0]? := by simp
        rw [rangeLoop, g0', get text (index + 1) 1, get text (index + 1) 2,
          get text (index + 1) 3, hd1]
        simp only [List.getElem?_cons_zero, List.getElem?_cons_succ, m6, if_false, m5, m4, false_and]
        cases rest with
        | nil => simpa using fin
        | cons c3 rest =>
          simp only [List.getElem?_cons_zero]
          cases rest with
          | nil => simpa using fin
          | cons c4 rest =>
            have : ¬ (c2 = 45 ∧ c3 ≠ 93) := by
              rintro ⟨h, h'⟩
              obtain ⟨r2, hr⟩ := next _ _ he h
              simp at hr
              exact h' hr.1
            simp only [List.getElem?_cons_succ, List.getElem?_cons_zero]
            rw [if_neg this]
            exact fin
      rw [rangeLoop, g0, get text index 1, get text index 2, get text index 3, hd']
      simp only [List.getElem?_cons_zero, List.getElem?_cons_succ, m3, if_false, m2, m1, false_and]
      cases rest with
      | nil => exact inner
      | cons c3 rest =>
        simp only [List.getElem?_cons_zero, m4, false_and, if_false]
        exact inner
    · -- a range
      have es : a.str = [a.cmin, 45, a.cmax] := by simp [Item.str, h1, h2]
      have ex : expand a = [a] := by
        unfold expand
        rw [if_neg h2]
      simp only [List.map_cons, List.flatten_cons, es, List.cons_append, List.nil_append,
        List.length_cons] at hd hn ⊢
      have hd3 := tail 3 [a.cmin, 45, a.cmax] rfl (by simpa using hd)
      have rec_ := ih text n (index + 3) (acc ++ [a]) suf post hl hs hd3 (by omega)
      have fin : rangeLoop text n (index + 3) (acc ++ [a]) =
          .ok (acc ++ (a :: l).flatMap expand,
            index + ((l.map Item.str).flatten.length + 1 + 1 + 1)) := by
        rw [rec_, List.flatMap_cons, ex]
        simp only [List.append_assoc, List.cons_append, List.nil_append]
        congr 2
        omega
      have hne : (l.map Item.str).flatten ++ suf ++ 93 :: post ≠ [] := by simp
      obtain ⟨c2, rest, he⟩ := List.exists_cons_of_ne_nil hne
      have hd' : text.drop index = a.cmin :: 45 :: a.cmax :: c2 :: rest := by rw [hd, ← he]
      rw [rangeLoop, g0, get text index 1, get text index 2, get text index 3, hd']
      simp only [List.getElem?_cons_zero, List.getElem?_cons_succ, m3, if_false, m2, m1, false_and,
        ne_eq, m6, not_false_eq_true, and_self, if_true]
      rw [if_neg (by omega)]
      exact fin

/-- Items whose text can be read back. -/
def Plain (a : Item) : Prop :=
  a = ⟨45, 45⟩ ∨ a = ⟨93, 93⟩ ∨ (Mild a.cmin ∧ Mild a.cmax ∧ a.cmin ≤ a.cmax)

theorem inItems_erase (rs : List Item) (hn : rs.Nodup) (a : Item) (c : Nat) :
    InItems rs c ↔ (a ∈ rs ∧ a.cmin ≤ c ∧ c ≤ a.cmax) ∨ InItems (rs.erase a) c := by
  simp only [InItems]
  constructor
  · rintro ⟨x, hx, h⟩
    by_cases hxa : x = a
    · subst hxa; exact Or.inl ⟨hx, h⟩
    · exact Or.inr ⟨x, (List.mem_erase_of_ne hxa).2 hx, h⟩
  · rintro (⟨h1, h2⟩ | ⟨x, hx, h⟩)
    · exact ⟨a, h1, h2⟩
    · exact ⟨x, List.mem_of_mem_erase hx, h⟩

theorem mkRange_spec (items : List Item) (e : Bool) (hi : Ordered items) :
    ∃ rs, mkRange items e = .range rs e ∧ ∀ c, InItems rs c ↔ InItems items c := by
  obtain ⟨h1, h2, h3⟩ := foldl_rangeAdd_spec items [] (by simp [Ordered]) hi
  refine ⟨_, rfl, fun c => ?_⟩
  have : InItems (sortItems (items.foldl rangeAdd [])) c ↔ InItems (items.foldl rangeAdd []) c := by
    simp only [InItems, mem_sortItems]
  rw [this, h3]
  simp [InItems]

theorem str_mem (a : Item) (rs : List Item) : a.str ∈ rs.map Item.str ↔ a ∈ rs :=
  List.mem_map_of_injective Item.str_injective

theorem parseRange_str (rs : List Item) (e : Bool) (pre post : List Nat) (hne : rs ≠ [])
    (hn : rs.Nodup) (hp : ∀ a ∈ rs, Plain a) (hc : e = true ∨ ∀ a ∈ rs, a.cmin ≠ 94) :
    ∃ rs', parseRange (pre ++ rangeStr rs e ++ post) (pre.length + 1)
        = .ok (.range rs' e, (pre ++ rangeStr rs e).length) ∧
      ∀ c, InItems rs' c ↔ InItems rs c := by
  obtain ⟨l, hl⟩ : ∃ l, l = (rs.erase ⟨45, 45⟩).erase ⟨93, 93⟩ := ⟨_, rfl⟩
  have hmild : ∀ a ∈ l, Mild a.cmin ∧ Mild a.cmax ∧ a.cmin ≤ a.cmax := by
    intro a ha
    rw [hl] at ha
    have h1 := ((hn.erase ⟨45, 45⟩).mem_erase_iff).1 ha
    have h2 := (hn.mem_erase_iff).1 h1.2
    rcases hp a h2.2 with h | h | h
    · exact absurd h h2.1
    · exact absurd h h1.1
    · exact h
  obtain ⟨suf, hsuf⟩ : ∃ s : List Nat, s = if (⟨45, 45⟩ : Item) ∈ rs then [45] else [] := ⟨_, rfl⟩
  obtain ⟨pf, hpf⟩ : ∃ s : List Nat, s = if (⟨93, 93⟩ : Item) ∈ rs then [93] else [] := ⟨_, rfl⟩
  obtain ⟨body, hbody⟩ : ∃ b, b = (l.map Item.str).flatten := ⟨_, rfl⟩
  have s45 : ([45] : List Nat) = Item.str ⟨45, 45⟩ := rfl
  have s93 : ([93] : List Nat) = Item.str ⟨93, 93⟩ := rfl
  have hstr : rangeStr rs e = (if e then [91, 94] else [91]) ++ (pf ++ body ++ suf) ++ [93] := by
    have e1 : (rs.map Item.str).erase [45] = (rs.erase ⟨45, 45⟩).map Item.str := by
      rw [s45, List.map_erase Item.str_injective]
    have e2 : ((rs.erase ⟨45, 45⟩).map Item.str).erase [93] = l.map Item.str := by
      rw [s93, hl]
      exact (List.map_erase Item.str_injective (a := ⟨93, 93⟩) (rs.erase ⟨45, 45⟩)).symm
    have m1 : ([45] : List Nat) ∈ rs.map Item.str ↔ (⟨45, 45⟩ : Item) ∈ rs := by
      rw [s45]; exact str_mem _ _
    have m2 : ([93] : List Nat) ∈ (rs.erase ⟨45, 45⟩).map Item.str ↔ (⟨93, 93⟩ : Item) ∈ rs := by
      rw [s93, str_mem]
      exact List.mem_erase_of_ne (by simp)
    unfold rangeStr
    simp only [e1, e2, m1, m2, ← hsuf, ← hpf, ← hbody]
    cases e <;> simp
  -- text from the first position of the items
  obtain ⟨text, htext⟩ : ∃ t, t = pre ++ rangeStr rs e ++ post := ⟨_, rfl⟩
  obtain ⟨st, hst⟩ : ∃ s, s = pre.length + 1 + (if e then 1 else 0) := ⟨_, rfl⟩
  have hlen : (pre ++ rangeStr rs e).length
      = st + pf.length + body.length + suf.length + 1 := by
    rw [hstr, hst]
    cases e <;> simp <;> omega
  have hdrop : text.drop st = pf ++ (body ++ suf ++ 93 :: post) := by
    rw [htext, hstr, hst]
    cases e
    · have : pre ++ ((if false = true then [91, 94] else [91]) ++ (pf ++ body ++ suf) ++ [93]) ++ post
          = (pre ++ [91]) ++ (pf ++ (body ++ suf ++ 93 :: post)) := by simp
      rw [this]
      exact List.drop_left' (by simp)
    · have : pre ++ ((if true = true then [91, 94] else [91]) ++ (pf ++ body ++ suf) ++ [93]) ++ post
          = (pre ++ [91, 94]) ++ (pf ++ (body ++ suf ++ 93 :: post)) := by simp
      rw [this]
      exact List.drop_left' (by simp)
  have hsuf' : suf = [] ∨ suf = [45] := by rw [hsuf]; split <;> simp
  -- first character
  have hfirst : ∃ c rest, pf ++ (body ++ suf ++ 93 :: post) = c :: rest ∧
      (c = 93 ↔ pf = [93]) ∧ (e = false → c ≠ 94) := by
    by_cases h93 : (⟨93, 93⟩ : Item) ∈ rs
    · rw [if_pos h93] at hpf
      exact ⟨93, _, by rw [hpf]; rfl, by simp [hpf], by simp⟩
    · rw [if_neg h93] at hpf
      rw [hpf]
      cases hll : l with
      | nil =>
        have h45 : (⟨45, 45⟩ : Item) ∈ rs := by
          obtain ⟨x, rs', rfl⟩ := List.exists_cons_of_ne_nil hne
          by_contra hx
          have hx1 : x ≠ ⟨45, 45⟩ := by rintro rfl; simp at hx
          have hx2 : x ≠ ⟨93, 93⟩ := by rintro rfl; simp at h93
          have : x ∈ l := by
            rw [hl]
            exact (List.mem_erase_of_ne hx2).2 ((List.mem_erase_of_ne hx1).2 (by simp))
          rw [hll] at this
          simp at this
        rw [if_pos h45] at hsuf
        exact ⟨45, _, by rw [hbody, hll, hsuf]; rfl, by simp, by simp⟩
      | cons a l' =>
        obtain ⟨⟨_, _, a3⟩, _, _⟩ := hmild a (by rw [hll]; simp)
        have ha94 : e = false → a.cmin ≠ 94 := by
          intro he
          rcases hc with h | h
          · rw [he] at h; cases h
          · apply h
            have : a ∈ l := by rw [hll]; simp
            rw [hl] at this
            exact List.mem_of_mem_erase (List.mem_of_mem_erase this)
        have : ∃ t, a.str = a.cmin :: t := by
          unfold Item.str
          split
          · split <;> exact ⟨_, rfl⟩
          · exact ⟨_, rfl⟩
        obtain ⟨t, ht⟩ := this
        refine ⟨a.cmin, t ++ ((l'.map Item.str).flatten ++ suf ++ 93 :: post), ?_, by simp [a3], ha94⟩
        rw [hbody, hll]
        simp [ht]
  obtain ⟨c, rest, hcr, hc93, hc94⟩ := hfirst
  have gst : text[st]? = some c := by
    have : text[st]? = (text.drop st)[0]? := by simp
    rw [this, hdrop, hcr]; rfl
  -- the loop
  have hd2 : text.drop (st + pf.length) = body ++ suf ++ 93 :: post := by
    rw [← List.drop_drop, hdrop, List.drop_left]
  have hloop := rangeLoop_items l text text.length (st + pf.length)
    (if c = 93 then [charItem 93] else []) suf post hmild hsuf' (by rw [hd2, hbody]) (by
      have := congrArg List.length hd2
      simp only [List.length_drop, List.length_append, List.length_cons] at this
      rw [← hbody]; omega)
  rw [← hbody] at hloop
  have hend : text.drop (st + pf.length + body.length) = suf ++ 93 :: post := by
    rw [← List.drop_drop, hd2, List.append_assoc, List.drop_left]
  have g0 : text[st + pf.length + body.length]? = (suf ++ 93 :: post)[0]? := by
    rw [← hend]; simp
  have g1 : text[st + pf.length + body.length + 1]? = (suf ++ 93 :: post)[1]? := by
    rw [← hend]; simp
  -- the first two tests of parseRange
  have hidx : (if c = 93 then st + 1 else st) = st + pf.length := by
    by_cases h : c = 93
    · rw [if_pos h, hc93.1 h]; rfl
    · have : pf = [] := by
        rw [hpf]; split
        · rename_i hh; rw [if_pos hh] at hpf; exact absurd (hc93.2 hpf) h
        · rfl
      rw [if_neg h, this]; rfl
  have hmem93 : c = 93 ↔ (⟨93, 93⟩ : Item) ∈ rs := by
    rw [hc93, hpf]; split <;> simp_all
  obtain ⟨items, hitems⟩ : ∃ i, i = (if suf = [45] then
      (if c = 93 then [charItem 93] else []) ++ l.flatMap expand ++ [charItem 45]
      else (if c = 93 then [charItem 93] else []) ++ l.flatMap expand) := ⟨_, rfl⟩
  have hord : Ordered items := by
    have h0 := ordered_expand l (fun a ha => (hmild a ha).2.2)
    intro a ha
    rw [hitems] at ha
    have : a ∈ l.flatMap expand ∨ a = charItem 93 ∨ a = charItem 45 := by
      split at ha <;> split at ha <;> simp only [List.mem_append, List.mem_singleton,
        List.not_mem_nil, false_or] at ha <;> tauto
    rcases this with h | h | h
    · exact h0 a h
    · subst h; exact Nat.le_refl _
    · subst h; exact Nat.le_refl _
  obtain ⟨rs', hrs, hin⟩ := mkRange_spec items e hord
  refine ⟨rs', ?_, ?_⟩
  · rw [hlen, ← htext]
    have after : rangeBody text st e
        = .ok (.range rs' e, st + pf.length + body.length + suf.length + 1) := by
      unfold rangeBody
      rw [gst]
      simp only [hidx, hloop, g0]
      rcases hsuf' with h | h
      · rw [h] at g0 hitems ⊢
        simp only [List.nil_append, List.getElem?_cons_zero, Option.some.injEq, Nat.reduceEqDiff,
          if_false, List.length_nil, Nat.add_zero, g0, if_true]
        rw [if_neg (by simp)] at hitems
        rw [← hitems, hrs]
      · rw [h] at g0 g1 hitems ⊢
        simp only [List.cons_append, List.nil_append, List.getElem?_cons_zero, if_true, g1,
          List.getElem?_cons_succ, List.length_cons, List.length_nil]
        rw [if_pos rfl] at hitems
        rw [← hitems, hrs]
    have gpre : text[pre.length + 1]? = some (if e then 94 else c) := by
      cases e with
      | true =>
        rw [htext, hstr]
        rw [if_pos rfl, List.append_assoc, List.getElem?_append_right (by omega)]
        simp
      | false =>
        simp only [Bool.false_eq_true, if_false] at hst ⊢
        rw [← gst, hst]
    unfold parseRange
    rw [gpre]
    cases e with
    | true =>
      simp only [if_true] at hst ⊢
      rw [← hst]; exact after
    | false =>
      have hc' := hc94 rfl
      simp only [Bool.false_eq_true, if_false, Nat.add_zero, hc'] at hst ⊢
      rw [← hst]; exact after
  · intro x
    rw [hin, hitems]
    rw [inItems_erase rs hn ⟨45, 45⟩ x, inItems_erase (rs.erase ⟨45, 45⟩) (hn.erase _) ⟨93, 93⟩ x,
      ← hl, List.mem_erase_of_ne (show (⟨93, 93⟩ : Item) ≠ ⟨45, 45⟩ by simp), ← hmem93]
    have h45 : suf = [45] ↔ (⟨45, 45⟩ : Item) ∈ rs := by
      by_cases h : (⟨45, 45⟩ : Item) ∈ rs
      · rw [if_pos h] at hsuf; exact ⟨fun _ => h, fun _ => hsuf⟩
      · rw [if_neg h] at hsuf; rw [hsuf]; simp [h]
    rw [← h45]
    have one : ∀ k, InItems [charItem k] x ↔ k ≤ x ∧ x ≤ k := by
      intro k; rw [inItems_cons]; simp [charItem, InItems]
    have nil : InItems [] x ↔ False := by simp [InItems]
    generalize hX : InItems l x = X at *
    clear hloop hdrop hd2 hend g0 g1 gst hlen hcr hidx hord hrs hin hitems hstr
    have hX' : InItems (l.flatMap expand) x ↔ X := by rw [inItems_expand, hX]
    by_cases a1 : suf = [45] <;> by_cases a2 : c = 93 <;>
      simp only [a1, a2, if_true, if_false, inItems_append, hX', one, nil, true_and,
        false_and, List.nil_append, false_or, true_and] <;>
      by_cases hX2 : X <;> simp only [hX2, or_true, true_or, or_false, false_or] <;> omega

end Hachoir.Regex
