import Verif.Formats.Spider
import Verif.Field.NumberLemmas
import Verif.Props.Reader

/-!
# C189: videos of a Spider-Man game, and the names of fields
-/

namespace Hachoir.Props
open Hachoir Hachoir.Stream Hachoir.Field Hachoir.Formats Hachoir.Formats.Spider Hachoir.FieldSet Spec _root_.Props

/-! ### Specification -/

/-- How a parser names a field: one of many (`"key[]"`), or the only one of its name. -/
inductive Asked
  | many (key : Name)
  | one (name : Name)
  deriving DecidableEq

def Asked.text : Asked → Name
  | .many key => key ++ "[]".toList
  | .one name => name

/-- The name of a field, by the fields before: the fields asked for as `key[]` are numbered from zero; a second field of a name is numbered from zero as well. -/
def calledAs (before : List Asked) : Asked → Name
  | .many key => indexed key (before.count (.many key))
  | .one name => if before.count (.one name) = 0 then name else indexed name (before.count (.one name) - 1)

/-- Names of single fields do not end with a bracket and are not the key of an array. -/
def AskedApart (asked : List Asked) : Prop := ∀ n, .one n ∈ asked → n.getLast? ≠ some ']' ∧ .many n ∉ asked

/-- The tags and the names of their chunks. -/
def spiderRows : List (Bytes × Name) :=
  [("CONF".toUTF8.toList, "conf".toList), ("AUDI".toUTF8.toList, "audio".toList), ("SYNC".toUTF8.toList, "sync".toList), ("IVRA".toUTF8.toList, "ivra".toList),
   ("VRAM".toUTF8.toList, "video".toList), ("CRAM".toUTF8.toList, "color".toList), ("CEND".toUTF8.toList, "video_end".toList)]

def spiderEnd : Bytes := "MEND".toUTF8.toList

/-- A chunk: its tag, its length including the eight bytes before the data, the data. -/
def spiderBytes (c : Bytes × Bytes) : Bytes := c.1 ++ (beBytes 4 (8 + c.2.length) ++ c.2)

def SpiderFits (c : Bytes × Bytes) : Prop := c.1.length = 4 ∧ 8 + c.2.length < 2 ^ 32

/-! ### Proofs -/

theorem next_cons (c : List (Name × Nat)) (k k' : Name) (n : Nat) : next ((k, n) :: c) k' = if k = k' then n + 1 else next c k' := by
  by_cases h : k = k'
  · subst h; simp [next, lookup_cons_self]
  · simp [next, lookup_cons_ne _ _ _ _ h, h]

def calledAll : List Asked → List Asked → List Name
  | _, [] => []
  | p, x :: r => calledAs p x :: calledAll (p ++ [x]) r

structure NamesInv (all p : List Asked) (c : List (Name × Nat)) (u : List Name) : Prop where
  many : ∀ k, .many k ∈ all → next c k = p.count (.many k)
  one : ∀ n, .one n ∈ all → next c n = p.count (.one n) - 1
  used : ∀ m ∈ u, (∃ k e, Asked.many k ∈ all ∧ m = indexed k e ∧ e < p.count (.many k)) ∨ ∃ n, Asked.one n ∈ all ∧ (m = n ∨ ∃ e, m = indexed n e)
  there : ∀ n, Asked.one n ∈ p → n ∈ u
  only : ∀ n, Asked.one n ∈ all → n ∈ u → Asked.one n ∈ p

theorem name_loop (all : List Asked) (ha : AskedApart all) : ∀ (r p : List Asked) (c : List (Name × Nat)) (u : List Name), (∀ x ∈ p ++ r, x ∈ all) → NamesInv all p c u →
    nameLoop c u (r.map Asked.text) = calledAll p r
  | [], _, _, _, _, _ => rfl
  | .many k :: r, p, c, u, hs, h => by
    have hk : Asked.many k ∈ all := hs _ (by simp)
    have ho : ownName c (Asked.many k).text = (indexed k (next c k), (k, next c k) :: c) := by
      have h1 : isArray (Asked.many k).text = true := (isArray_iff _).mpr (by rw [Asked.text]; erw [arrayKey_append]; rfl)
      rw [ownName, if_pos h1, uniqueName_eq]
      have h2 : arrayKey (Asked.many k).text = k := arrayKey_append k
      rw [h2]
    have hn : indexed k (next c k) ∉ u := by
      intro hm
      rcases h.used _ hm with ⟨k', e, h1, h2, h3⟩ | ⟨n, h1, h2 | ⟨e, h2⟩⟩
      · obtain ⟨rfl, rfl⟩ := indexed_inj h2
        rw [h.many _ hk] at h3
        omega
      · exact (ha n h1).1 (by rw [← h2]; exact indexed_last _ _)
      · obtain ⟨rfl, _⟩ := indexed_inj h2
        exact (ha k h1).2 hk
    rw [List.map_cons, nameLoop, ho, if_neg hn, calledAll, calledAs, h.many k hk]
    congr 1
    refine name_loop all ha r (p ++ [.many k]) _ _ (by simpa using hs) ⟨?_, ?_, ?_, ?_, ?_⟩
    · intro k' hk'
      rw [next_cons, List.count_append]
      by_cases he : k = k'
      · subst he; simp
      · rw [if_neg he, h.many k' hk', List.count_singleton]; simp [he]
    · intro n hn'
      rw [next_cons, if_neg (fun e : k = n => (ha n hn').2 (e ▸ hk)), h.one n hn', List.count_append, List.count_singleton]; simp
    · intro m hm
      rw [List.mem_append, List.mem_singleton] at hm
      rcases hm with hm | rfl
      · rcases h.used _ hm with ⟨k', e, h1, h2, h3⟩ | h1
        · exact .inl ⟨k', e, h1, h2, by rw [List.count_append]; omega⟩
        · exact .inr h1
      · exact .inl ⟨k, _, hk, rfl, by rw [List.count_append]; simp⟩
    · intro n hn'
      rw [List.mem_append, List.mem_singleton] at hn'
      rcases hn' with hn' | hn'
      · exact List.mem_append_left _ (h.there n hn')
      · cases hn'
    · intro n h1 h2
      rw [List.mem_append, List.mem_singleton] at h2
      rcases h2 with h2 | h2
      · exact List.mem_append_left _ (h.only n h1 h2)
      · exact absurd (by rw [h2]; exact indexed_last _ _) (ha n h1).1
  | .one n :: r, p, c, u, hs, h => by
    have hk : Asked.one n ∈ all := hs _ (by simp)
    have ho : ownName c (Asked.one n).text = (n, c) := by
      have h1 : ¬ isArray (Asked.one n).text = true := fun e => (ha n hk).1 (by
        have := (isArray_iff _).mp e
        rw [Asked.text] at this
        rw [this]; simp)
      rw [ownName, if_neg h1]; rfl
    by_cases hu : n ∈ u
    · have hp := h.only n hk hu
      have hc : 0 < p.count (.one n) := List.count_pos_iff.mpr hp
      have hq : uniqueName c (n ++ ['[', ']']) = (indexed n (p.count (.one n) - 1), (n, p.count (.one n) - 1) :: c) := by
        rw [uniqueName_eq, arrayKey_append, h.one n hk]
      rw [List.map_cons, nameLoop, ho]
      dsimp only
      rw [if_pos hu, hq, calledAll, calledAs, if_neg (by omega)]
      congr 1
      refine name_loop all ha r (p ++ [.one n]) _ _ (by simpa using hs) ⟨?_, ?_, ?_, ?_, ?_⟩
      · intro k' hk'
        rw [next_cons, if_neg (fun e : n = k' => (ha n hk).2 (e ▸ hk')), h.many k' hk', List.count_append, List.count_singleton]; simp
      · intro m hm
        rw [next_cons, List.count_append, List.count_singleton]
        by_cases he : n = m
        · subst he; simp; omega
        · rw [if_neg he, h.one m hm]; simp [he]
      · intro m hm
        rw [List.mem_append, List.mem_singleton] at hm
        rcases hm with hm | rfl
        · rcases h.used _ hm with ⟨k', e, h1, h2, h3⟩ | h1
          · exact .inl ⟨k', e, h1, h2, by rw [List.count_append]; omega⟩
          · exact .inr h1
        · exact .inr ⟨n, hk, .inr ⟨_, rfl⟩⟩
      · intro m hm
        rw [List.mem_append, List.mem_singleton] at hm
        rcases hm with hm | hm
        · exact List.mem_append_left _ (h.there m hm)
        · injection hm with hm; subst hm; exact List.mem_append_left _ hu
      · intro m h1 h2
        rw [List.mem_append, List.mem_singleton] at h2
        rcases h2 with h2 | h2
        · exact List.mem_append_left _ (h.only m h1 h2)
        · exact absurd (by rw [h2]; exact indexed_last _ _) (ha m h1).1
    · have hp : Asked.one n ∉ p := fun e => hu (h.there n e)
      have hc : p.count (.one n) = 0 := List.count_eq_zero.mpr hp
      rw [List.map_cons, nameLoop, ho]
      dsimp only
      rw [if_neg hu, calledAll, calledAs, if_pos hc]
      congr 1
      refine name_loop all ha r (p ++ [.one n]) _ _ (by simpa using hs) ⟨?_, ?_, ?_, ?_, ?_⟩
      · intro k' hk'
        rw [h.many k' hk', List.count_append, List.count_singleton]; simp
      · intro m hm
        rw [List.count_append, List.count_singleton, h.one m hm]
        by_cases he : n = m
        · subst he; simp [hc]
        · simp [he]
      · intro m hm
        rw [List.mem_append, List.mem_singleton] at hm
        rcases hm with hm | rfl
        · rcases h.used _ hm with ⟨k', e, h1, h2, h3⟩ | h1
          · exact .inl ⟨k', e, h1, h2, by rw [List.count_append]; omega⟩
          · exact .inr h1
        · exact .inr ⟨m, hk, .inl rfl⟩
      · intro m hm
        rw [List.mem_append, List.mem_singleton] at hm
        rcases hm with hm | hm
        · exact List.mem_append_left _ (h.there m hm)
        · injection hm with hm; subst hm; simp
      · intro m h1 h2
        rw [List.mem_append, List.mem_singleton] at h2
        rcases h2 with h2 | h2
        · exact List.mem_append_left _ (h.only m h1 h2)
        · subst h2; simp

theorem called_at : ∀ (r p : List Asked) (i : Nat) (x : Asked), r[i]? = some x → (calledAll p r)[i]? = some (calledAs (p ++ r.take i) x)
  | [], _, _, _, h => by simp at h
  | y :: r, p, 0, x, h => by
    simp at h; subst h; simp [calledAll]
  | y :: r, p, i + 1, x, h => by
    rw [calledAll, List.getElem?_cons_succ, called_at r (p ++ [y]) i x (by simpa using h)]
    simp

/-- **C189.** The name of every field of a field set is told by the names asked for before it. -/
theorem C189_names (asked : List Asked) (h : AskedApart asked) (i : Nat) (x : Asked) (hi : asked[i]? = some x) :
    (fieldNames (asked.map Asked.text))[i]? = some (calledAs (asked.take i) x) := by
  rw [fieldNames, name_loop asked h asked [] [] [] (by simp) ⟨by simp [next, lookup], by simp [next, lookup], by simp, by simp, by simp⟩, called_at _ _ _ _ hi]
  rfl

example : AskedApart [.many "a".toList, .one "b".toList, .many "a".toList, .one "b".toList, .one "b".toList] := by
  intro n hn
  simp at hn
  subst hn
  decide

/-- The kind of a tag: `many` names of the rows, `end_file`, or `chunk`. -/
def spiderKind (tag : Bytes) : Asked :=
  match spiderRows.find? fun r => r.1 = tag with
  | some r => .many r.2
  | none => if tag = spiderEnd then .one "end_file".toList else .many "chunk".toList

theorem spider_asked (tag : Bytes) : askedName tag = (spiderKind tag).text := by
  by_cases h1 : tag = "CONF".toUTF8.toList
  · subst h1; decide +kernel
  by_cases h2 : tag = "AUDI".toUTF8.toList
  · subst h2; decide +kernel
  by_cases h3 : tag = "SYNC".toUTF8.toList
  · subst h3; decide +kernel
  by_cases h4 : tag = "IVRA".toUTF8.toList
  · subst h4; decide +kernel
  by_cases h5 : tag = "VRAM".toUTF8.toList
  · subst h5; decide +kernel
  by_cases h6 : tag = "CRAM".toUTF8.toList
  · subst h6; decide +kernel
  by_cases h7 : tag = "CEND".toUTF8.toList
  · subst h7; decide +kernel
  by_cases h8 : tag = "MEND".toUTF8.toList
  · subst h8; decide +kernel
  · unfold askedName spiderKind spiderRows spiderEnd
    simp only [List.find?_cons, List.find?_nil, eq_comm (b := tag), h1, h2, h3, h4, h5, h6, h7, h8, decide_false, if_false]
    decide +kernel

/-- Every chunk of a file is asked for as a name that is apart from the others. -/
theorem spider_kinds (tag : Bytes) : (∃ r ∈ spiderRows, spiderKind tag = .many r.2) ∨ spiderKind tag = .one "end_file".toList ∨ spiderKind tag = .many "chunk".toList := by
  unfold spiderKind
  cases h : spiderRows.find? fun r => r.1 = tag with
  | some r => exact .inl ⟨r, List.mem_of_find?_eq_some h, rfl⟩
  | none =>
    right
    by_cases he : tag = spiderEnd
    · rw [if_pos he]; exact .inl rfl
    · rw [if_neg he]; exact .inr rfl

theorem spider_apart (tags : List Bytes) : AskedApart (tags.map spiderKind) := by
  intro n hn
  obtain ⟨t, _, ht⟩ := List.mem_map.mp hn
  have e : n = "end_file".toList := by
    rcases spider_kinds t with ⟨r, _, h⟩ | h | h
    · rw [h] at ht; cases ht
    · rw [h] at ht; injection ht with ht; exact ht.symm
    · rw [h] at ht; cases ht
  subst e
  refine ⟨by decide, fun hm => ?_⟩
  obtain ⟨t', _, ht'⟩ := List.mem_map.mp hm
  rcases spider_kinds t' with ⟨r, hr, h⟩ | h | h
  · rw [h] at ht'
    injection ht' with ht'
    exact absurd ht' ((by decide +kernel : ∀ r ∈ spiderRows, r.2 ≠ "end_file".toList) r hr)
  · rw [h] at ht'; cases ht'
  · rw [h] at ht'; injection ht' with ht'; revert ht'; decide

theorem spider_row (r : Bytes × Name) (hr : r ∈ spiderRows) (t : Bytes) : spiderKind t = .many r.2 ↔ t = r.1 := by
  constructor
  · intro h
    unfold spiderKind at h
    cases hf : spiderRows.find? fun r => r.1 = t with
    | some q =>
      rw [hf] at h
      have h1 : q.2 = r.2 := by injection h
      have h2 := List.find?_some hf
      have h3 := List.mem_of_find?_eq_some hf
      have h4 : ∀ q ∈ spiderRows, ∀ r ∈ spiderRows, q.2 = r.2 → q.1 = r.1 := by decide +kernel
      rw [← h4 q h3 r hr h1]
      exact (of_decide_eq_true h2).symm
    | none =>
      rw [hf] at h
      by_cases he : t = spiderEnd
      · dsimp only at h
        rw [if_pos he] at h; cases h
      · dsimp only at h
        rw [if_neg he] at h
        injection h with h
        exact absurd h.symm ((by decide +kernel : ∀ r ∈ spiderRows, r.2 ≠ "chunk".toList) r hr)
  · rintro rfl
    have : ∀ r ∈ spiderRows, spiderKind r.1 = .many r.2 := by decide +kernel
    exact this r hr

theorem count_kinds (tags : List Bytes) (a : Asked) (t : Bytes) (h : ∀ x, spiderKind x = a ↔ x = t) : (tags.map spiderKind).count a = tags.count t := by
  induction tags with
  | nil => rfl
  | cons x xs ih =>
    rw [List.map_cons, List.count_cons, List.count_cons, ih]
    simp [h x]

/-- **C189.** The chunks of a tag have the name of the tag and are numbered from zero, whatever stands between them. -/
theorem C189_numbered (chunks : List (Bytes × Bytes)) (i : Nat) (c : Bytes × Bytes) (hi : chunks[i]? = some c) (r : Bytes × Name) (hr : r ∈ spiderRows) (ht : c.1 = r.1) :
    (chunkNames chunks)[i]? = some (indexed r.2 (((chunks.take i).map Prod.fst).count c.1)) := by
  have e : (chunks.map fun c => askedName c.1) = ((chunks.map Prod.fst).map spiderKind).map Asked.text := by
    simp [spider_asked]
  rw [chunkNames, e, C189_names _ (spider_apart _) i (spiderKind c.1) (by simp [hi]), (spider_row r hr c.1).mpr ht, calledAs, ← List.map_take, ← List.map_take,
    count_kinds _ _ r.1 (spider_row r hr), ht]

/-- **C189.** The chunk of the end is the field `end_file`; a further one is numbered. -/
theorem C189_end (chunks : List (Bytes × Bytes)) (i : Nat) (c : Bytes × Bytes) (hi : chunks[i]? = some c) (ht : c.1 = spiderEnd) :
    (chunkNames chunks)[i]? = some (if ((chunks.take i).map Prod.fst).count spiderEnd = 0 then "end_file".toList
      else indexed "end_file".toList (((chunks.take i).map Prod.fst).count spiderEnd - 1)) := by
  have e : (chunks.map fun c => askedName c.1) = ((chunks.map Prod.fst).map spiderKind).map Asked.text := by
    simp [spider_asked]
  have hk : ∀ x, spiderKind x = .one "end_file".toList ↔ x = spiderEnd := by
    intro x
    constructor
    · intro h
      unfold spiderKind at h
      cases hf : spiderRows.find? fun r => r.1 = x with
      | some q => rw [hf] at h; cases h
      | none =>
        rw [hf] at h
        by_contra he
        dsimp only at h
        rw [if_neg he] at h; cases h
    · rintro rfl; decide +kernel
  rw [chunkNames, e, C189_names _ (spider_apart _) i (spiderKind c.1) (by simp [hi]), (hk c.1).mpr ht, calledAs, ← List.map_take, ← List.map_take, count_kinds _ _ _ hk]

theorem reads_spider (c : Bytes × Bytes) (h : SpiderFits c) : Reads chunk c (spiderBytes c) := by
  obtain ⟨t, d⟩ := c
  obtain ⟨h1, h2⟩ := h
  simp only at h1 h2
  refine Reads.rbind (reads_raw_n 4 t h1 (by decide)) (Reads.rbind (reads_int_be 4 _ (by decide) h2) ?_)
  rw [if_neg (by omega)]
  by_cases hd : d = []
  · subst hd
    exact reads_rpure (t, [])
  · have hl := List.length_pos_of_ne_nil hd
    have e : 8 + (t, d).2.length - 8 = d.length := by simp
    rw [e, if_pos hl]
    exact Reads.rmap (f := fun d => (t, d)) (reads_raw_n _ d rfl hl)

/-- **C189.** The chunks of a file are read as they were written. -/
theorem C189_file (chunks : List (Bytes × Bytes)) (fuel : Nat) (hf : chunks.length < fuel) (h : ∀ c ∈ chunks, SpiderFits c) :
    ReadsAll (Spider.file fuel) chunks (chunks.flatMap spiderBytes) :=
  reads_while _ spiderBytes chunks fuel hf fun c hc => ⟨reads_spider c (h c hc), by
    have h4 := (h c hc).1
    intro e
    have h5 := congrArg List.length e
    rw [spiderBytes, List.length_append, h4] at h5
    simp at h5⟩

/-- **C189.** A file is accepted exactly if its first chunk is the configuration. -/
theorem C189_valid (c : Bytes × Bytes) (chunks : List (Bytes × Bytes)) (h : SpiderFits c) :
    Spider.valid ((c :: chunks).flatMap spiderBytes) = true ↔ c.1 = "CONF".toUTF8.toList := by
  rw [Spider.valid, List.flatMap_cons, spiderBytes, List.append_assoc, ← h.1, List.take_left, beq_iff_eq]

example : let cs : List (Bytes × Bytes) := [("CONF".toUTF8.toList, [1, 2]), ("VRAM".toUTF8.toList, []), ("XXXX".toUTF8.toList, [7]), ("VRAM".toUTF8.toList, [3]), (spiderEnd, [])]
    (∀ c ∈ cs, SpiderFits c) ∧ cs[3]? = some ("VRAM".toUTF8.toList, [3]) ∧ ("VRAM".toUTF8.toList, "video".toList) ∈ spiderRows := by
  refine ⟨?_, by decide +kernel, by decide +kernel⟩
  intro c hc
  simp only [List.mem_cons, List.not_mem_nil, or_false] at hc
  rcases hc with rfl | rfl | rfl | rfl | rfl <;> exact ⟨by decide +kernel, by decide⟩

end Hachoir.Props
