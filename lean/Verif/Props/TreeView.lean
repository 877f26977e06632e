import Verif.Wx.TreeView

/-!
# C184: the tree of fields in the window
-/

namespace Hachoir.Props
open Hachoir.Wx

/-! ### Specification -/

/-- The field sets among these fields. -/
def setsOf (l : List (String × Bool)) : List (Option String) := (l.filter (·.2)).map fun c => some c.1

/-- The items below a node that tell of its first `n` fields, with a last one for the others, unless all are gone through. -/
structure TreeShows (d : TreeNode) (n : Nat) : Prop where
  le : n ≤ d.children.length
  seen : d.seen = (d.children.take n).map (·.1)
  items : d.items = setsOf (d.children.take n) ++ if d.enumerated then [] else [none]
  all : d.enumerated = true → n = d.children.length

/-! ### Proofs -/

theorem sets_append (a b : List (String × Bool)) : setsOf (a ++ b) = setsOf a ++ setsOf b := by simp [setsOf]

/-- The loop over what is left, when `before` is gone through. -/
theorem walk_shows (target : Option String) (limit : Nat) : ∀ (rest before : List (String × Bool)), ((before ++ rest).map (·.1)).Nodup →
    ∃ n ≤ rest.length, treeWalk target limit rest (before.map (·.1)) (setsOf before) =
      ((before ++ rest.take n).map (·.1), setsOf (before ++ rest.take n) ++ (if (treeWalk target limit rest (before.map (·.1)) (setsOf before)).2.2 then [] else [none]), (treeWalk target limit rest (before.map (·.1)) (setsOf before)).2.2) ∧
      ((treeWalk target limit rest (before.map (·.1)) (setsOf before)).2.2 = true → n = rest.length) ∧
      ((treeWalk target limit rest (before.map (·.1)) (setsOf before)).2.2 = false → limit ≤ before.length + n ∧ (∀ t, target = some t → t ∈ (rest.take n).map (·.1))) ∧
      (target = none → before.length < limit → n = min rest.length (limit - before.length))
  | [], before, _ => ⟨0, Nat.le_refl _, by simp [treeWalk], by simp, by simp [treeWalk], by simp⟩
  | (c, set) :: rest, before, h => by
    have hc : c ∉ before.map (·.1) := by
      simp only [List.map_append, List.map_cons, List.nodup_append] at h
      intro hm
      exact h.2.2 _ hm _ (List.mem_cons_self ..) rfl
    have e1 : addSeen (before.map (·.1)) c = (before ++ [(c, set)]).map (·.1) := by
      rw [addSeen, if_neg hc]
      simp
    have e2 : (if set = true then setsOf before ++ [some c] else setsOf before) = setsOf (before ++ [(c, set)]) := by
      rw [sets_append]
      cases set <;> simp [setsOf]
    have hl : ((before ++ [(c, set)]).map (·.1)).length = before.length + 1 := by simp
    rw [treeWalk]
    simp only [e1, e2]
    by_cases hb : (target = none ∨ target = some c) ∧ limit ≤ ((before ++ [(c, set)]).map (·.1)).length
    · rw [if_pos hb]
      rw [hl] at hb
      refine ⟨1, by simp, by simp, by simp, fun _ => ⟨hb.2, fun t ht => ?_⟩, fun ht hlt => ?_⟩
      · rcases hb.1 with h1 | h1
        · rw [h1] at ht
          cases ht
        · rw [h1] at ht
          cases ht
          simp
      · simp only [List.length_cons]
        omega
    · rw [if_neg hb]
      obtain ⟨n, hn, h1, h2, h3, h4⟩ := walk_shows target limit rest (before ++ [(c, set)]) (by simpa using h)
      refine ⟨n + 1, by simpa using hn, ?_, fun e => by simpa using h2 e, fun e => ?_, fun ht hlt => ?_⟩
      · rw [h1]
        simp
      · obtain ⟨a, b⟩ := h3 e
        refine ⟨by simp at a; omega, fun t ht => ?_⟩
        have := b t ht
        rw [List.take_succ_cons, List.map_cons]
        exact List.mem_cons_of_mem _ this
      · rw [hl] at hb
        have hlt' : before.length + 1 < limit := by
          have : ¬ limit ≤ before.length + 1 := fun x => hb ⟨.inl ht, x⟩
          omega
        have := h4 ht (by simpa using hlt')
        simp only [List.length_append, List.length_cons, List.length_nil] at this ⊢
        omega

theorem enumerate_children (t : Option String) (x : Nat) (d : TreeNode) : (enumerate t x d).children = d.children := by
  unfold enumerate
  split
  · rfl
  · simp only
    split <;> rfl

theorem enumerate_shows (target : Option String) (extend : Nat) (d : TreeNode) (n : Nat) (hn : (d.children.map (·.1)).Nodup) (h : TreeShows d n) :
    ∃ m, n ≤ m ∧ TreeShows (enumerate target extend d) m ∧
      (target = none → d.enumerated = false → m = min d.children.length (max n (d.limit + extend))) ∧
      (∀ t, target = some t → t ∈ d.children.map (·.1) → t ∈ (d.children.take m).map (·.1)) := by
  by_cases he : d.enumerated = true
  · have hall := h.all he
    refine ⟨n, Nat.le_refl _, by rw [enumerate, if_pos he]; exact h, fun _ hf => absurd hf (by rw [he]; decide), fun t _ ht => ?_⟩
    rwa [hall, List.take_length]
  · have he' : d.enumerated = false := by simpa using he
    have hlen : d.seen.length = n := by
      have := h.le
      rw [h.seen, List.length_map, List.length_take]
      omega
    by_cases hs : n = max n (d.limit + extend) ∧ sought target d.seen = none
    · refine ⟨n, Nat.le_refl _, ?_, fun _ _ => ?_, fun t ht hm => ?_⟩
      · rw [enumerate, if_neg he]
        simp only [hlen, if_pos hs]
        exact ⟨h.le, h.seen, h.items, h.all⟩
      · have := h.le
        omega
      · have h2 := hs.2
        rw [ht, sought] at h2
        by_cases hin : t ∈ d.seen
        · rwa [h.seen] at hin
        · rw [if_neg hin] at h2
          cases h2
    · have hit : d.items.dropLast = setsOf (d.children.take n) := by
        rw [h.items, he']
        simp
      have hd : d.children.take n ++ d.children.drop n = d.children := List.take_append_drop _ _
      obtain ⟨k, hk, h1, h2, h3, h4⟩ := walk_shows (sought target d.seen) (max n (d.limit + extend)) (d.children.drop n) (d.children.take n) (by rw [hd]; exact hn)
      rw [← h.seen, ← hit] at h1 h2 h3
      have htk : d.children.take n ++ (d.children.drop n).take k = d.children.take (n + k) := by rw [List.take_add]
      rw [htk] at h1
      have hbl : (d.children.take n).length = n := by
        have := h.le
        rw [List.length_take]
        omega
      have hle := h.le
      rw [List.length_drop] at hk h2 h4
      have e : enumerate target extend d = { d with limit := max n (d.limit + extend), seen := (treeWalk (sought target d.seen) (max n (d.limit + extend)) (d.children.drop n) d.seen d.items.dropLast).1, items := (treeWalk (sought target d.seen) (max n (d.limit + extend)) (d.children.drop n) d.seen d.items.dropLast).2.1, enumerated := (treeWalk (sought target d.seen) (max n (d.limit + extend)) (d.children.drop n) d.seen d.items.dropLast).2.2 } := by
        rw [enumerate, if_neg he]
        simp only [hlen, if_neg hs]
      generalize hr : treeWalk (sought target d.seen) (max n (d.limit + extend)) (d.children.drop n) d.seen d.items.dropLast = r at *
      obtain ⟨r1, r2, r3⟩ := r
      simp only [Prod.mk.injEq] at h1 h2 h3 e
      refine ⟨n + k, by omega, ?_, fun ht _ => ?_, fun t ht hm => ?_⟩
      · rw [e]
        exact ⟨by simp only; omega, h1.1, h1.2.1, fun hx => by have := h2 hx; simp only; omega⟩
      · have hsn : sought target d.seen = none := by rw [ht]; rfl
        have hlt : n < max n (d.limit + extend) := by
          have : n ≠ max n (d.limit + extend) := fun x => hs ⟨x, hsn⟩
          omega
        have := h4 hsn (by rw [hbl]; exact hlt)
        rw [hbl] at this
        omega
      · by_cases hin : t ∈ d.seen
        · rw [h.seen] at hin
          rw [List.take_add, List.map_append]
          exact List.mem_append_left _ hin
        · cases hx : r3 with
          | true =>
            have := h2 hx
            rw [show n + k = d.children.length by omega, List.take_length]
            exact hm
          | false =>
            have := (h3 hx).2 t (by rw [ht, sought]; exact if_neg hin)
            rw [List.take_add, List.map_append]
            exact List.mem_append_right _ this

/-- What the window asks of a node: a field to be found, or more. -/
abbrev TreeAsk := Option String × Nat

theorem asks_shows (children : List (String × Bool)) (hn : (children.map (·.1)).Nodup) : ∀ (asks : List TreeAsk) (d : TreeNode) (n : Nat), d.children = children → TreeShows d n →
    ∃ m, n ≤ m ∧ TreeShows (asks.foldl (fun d a => enumerate a.1 a.2 d) d) m ∧ (asks.foldl (fun d a => enumerate a.1 a.2 d) d).children = children
  | [], d, n, hc, h => ⟨n, Nat.le_refl _, h, hc⟩
  | a :: asks, d, n, hc, h => by
    obtain ⟨m, h1, h2, _⟩ := enumerate_shows a.1 a.2 d n (by rw [hc]; exact hn) h
    obtain ⟨k, k1, k2, k3⟩ := asks_shows children hn asks (enumerate a.1 a.2 d) m (by rw [enumerate_children]; exact hc) h2
    exact ⟨k, by omega, k2, k3⟩

/-- **C184**: whatever was asked before, the items below a node are the field sets among its first fields, each once and in order, and a last item for those that are left, unless there are none. -/
theorem C184_items (children : List (String × Bool)) (hn : (children.map (·.1)).Nodup) (asks : List TreeAsk) :
    ∃ n, TreeShows (asks.foldl (fun d a => enumerate a.1 a.2 d) (TreeNode.new children)) n ∧ (asks.foldl (fun d a => enumerate a.1 a.2 d) (TreeNode.new children)).children = children := by
  obtain ⟨m, _, h2, h3⟩ := asks_shows children hn asks (TreeNode.new children) 0 rfl ⟨Nat.zero_le _, rfl, rfl, fun h => by cases h⟩
  exact ⟨m, h2, h3⟩

theorem one_of_name : ∀ (l : List (String × Bool)), (l.map (·.1)).Nodup → ∀ c e, c ∈ l → e ∈ l → c.1 = e.1 → c = e
  | [], _, _, _, h, _, _ => by cases h
  | x :: l, hn, c, e, hc, he, hce => by
    rw [List.map_cons, List.nodup_cons] at hn
    rcases List.mem_cons.mp hc with h1 | h1 <;> rcases List.mem_cons.mp he with h2 | h2
    · rw [h1, h2]
    · exact absurd (List.mem_map.mpr ⟨e, h2, by rw [← hce, h1]⟩) hn.1
    · exact absurd (List.mem_map.mpr ⟨c, h1, by rw [hce, h2]⟩) hn.1
    · exact one_of_name l hn.2 c e h1 h2 hce

/-- **C184**: when a field is to be found in a node, it is among those gone through, so that there is an item for it if it is a field set. -/
theorem C184_found (d : TreeNode) (n : Nat) (hn : (d.children.map (·.1)).Nodup) (h : TreeShows d n) (t : String) (extend : Nat) (ht : (t, true) ∈ d.children) : some t ∈ (enumerate (some t) extend d).items := by
  obtain ⟨m, _, h2, _, h4⟩ := enumerate_shows (some t) extend d n hn h
  have hm := h4 t rfl (List.mem_map.mpr ⟨_, ht, rfl⟩)
  obtain ⟨c, hc, hct⟩ := List.mem_map.mp hm
  have hcd := List.mem_of_mem_take hc
  have hce : c = (t, true) := one_of_name _ hn _ _ hcd ht hct
  subst hce
  rw [h2.items, enumerate_children]
  refine List.mem_append_left _ (List.mem_map.mpr ⟨(t, true), List.mem_filter.mpr ⟨hc, rfl⟩, rfl⟩)

/-- **C184**: without a field to be found, as many fields are gone through as the limit says, or all of them. -/
theorem C184_limit (d : TreeNode) (n extend : Nat) (hn : (d.children.map (·.1)).Nodup) (h : TreeShows d n) (he : d.enumerated = false) :
    TreeShows (enumerate none extend d) (min d.children.length (max n (d.limit + extend))) := by
  obtain ⟨m, _, h2, h3, _⟩ := enumerate_shows none extend d n hn h
  rwa [h3 rfl he] at h2

theorem walk_past (t : String) (limit : Nat) : ∀ (rest : List (String × Bool)) (seen : List String) (items : List (Option String)), t ∉ rest.map (·.1) → (treeWalk (some t) limit rest seen items).2.2 = true
  | [], _, _, _ => rfl
  | (c, set) :: rest, seen, items, h => by
    rw [treeWalk]
    simp only [List.map_cons, List.mem_cons, not_or] at h
    rw [if_neg]
    · exact walk_past t limit rest _ _ h.2
    · rintro ⟨h1 | h1, _⟩
      · cases h1
      · exact h.1 (Option.some.inj h1)

theorem walk_early (t : String) (limit : Nat) (b : Bool) (after : List (String × Bool)) (ha : t ∉ after.map (·.1)) : ∀ (before : List (String × Bool)) (seen : List String) (items : List (Option String)),
    t ∉ before.map (·.1) → seen.length + before.length + 1 < limit → (treeWalk (some t) limit (before ++ (t, b) :: after) seen items).2.2 = true
  | [], seen, items, _, hl => by
    rw [List.nil_append, treeWalk]
    have : (addSeen seen t).length ≤ seen.length + 1 := by
      unfold addSeen
      split <;> simp
    rw [if_neg (by simp only [List.length_nil] at hl; omega)]
    exact walk_past t limit after _ _ ha
  | (c, set) :: before, seen, items, h, hl => by
    rw [List.cons_append, treeWalk]
    simp only [List.map_cons, List.mem_cons, not_or] at h
    have : (addSeen seen c).length ≤ seen.length + 1 := by
      unfold addSeen
      split <;> simp
    simp only [List.length_cons] at hl
    rw [if_neg]
    · exact walk_early t limit b after ha before _ _ h.2 (by omega)
    · rintro ⟨h1 | h1, _⟩
      · cases h1
      · exact h.1 (Option.some.inj h1)

/-- **C184** (disagreement): when a field is to be found that is before the limit, all fields of the node are gone through, however many there are. -/
theorem C184_early (before after : List (String × Bool)) (t : String) (b : Bool) (hn : ((before ++ (t, b) :: after).map (·.1)).Nodup) (hl : before.length + 1 < 1000) :
    (enumerate (some t) 0 (TreeNode.new (before ++ (t, b) :: after))).enumerated = true := by
  simp only [List.map_append, List.map_cons, List.nodup_append, List.nodup_cons] at hn
  rw [enumerate, if_neg (by simp [TreeNode.new])]
  have := walk_early t 1000 b after hn.2.1.1 before [] [] (fun hm => hn.2.2 _ hm _ (List.mem_cons_self ..) rfl) (by simpa using hl)
  simpa [TreeNode.new, sought] using this

/-! ### Example -/

example : (enumerate none 0 (TreeNode.new [("a", true), ("b", false), ("c", true)])).items = [some "a", some "c"] := by decide +kernel

example : (enumerate none 0 ⟨[("a", true), ("b", false), ("c", true)], [none], [], 2, false⟩).items = [some "a", none] := by decide +kernel

end Hachoir.Props
