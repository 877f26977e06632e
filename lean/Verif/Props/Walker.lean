import Verif.Wx.Walker
import Mathlib.Data.List.Chain

/-!
# C195: walking over the tree of the text viewer
-/

namespace Hachoir.Props
open Hachoir Hachoir.Wx.Walker

/-! ## Lines of the tree -/

mutual
/-- The lines shown for a tree: the node, and the lines of its children behind it. -/
def treeLines : Tree → List (List Nat)
  | .node l => [] :: forestLines 0 l

/-- The lines of the children from the child `k` on. -/
def forestLines : Nat → List Tree → List (List Nat)
  | _, [] => []
  | k, c :: l => (treeLines c).map (k :: ·) ++ forestLines (k + 1) l
end

mutual
/-- The depth of a tree. -/
def treeDepth : Tree → Nat
  | .node l => forestDepth l + 1

def forestDepth : List Tree → Nat
  | [] => 0
  | c :: l => max (treeDepth c) (forestDepth l)
end

/-- The line behind each line. -/
def NextIn (next : List Nat → Option (List Nat)) (lines : List (List Nat)) : Prop :=
  ∀ before a behind, lines = before ++ a :: behind → next a = behind.head?

theorem count_cons (l : List Tree) (k : Nat) (c : Tree) (h : l[k]? = some c) (p : List Nat) : count (.node l) (k :: p) = count c p := by
  rw [count, count, sub]
  simp only [Tree.childs, h]

theorem climb_down (l : List Tree) (k : Nat) (c : Tree) (h : l[k]? = some c) : ∀ (up : List Nat), climb (.node l) (up ++ [k]) =
    match climb c up with
    | some q => some (k :: q)
    | none => if k + 1 < l.length then some [k + 1] else none
  | [] => by
    rw [List.nil_append, climb, climb, climb]
    rfl
  | i :: up => by
    rw [List.cons_append, climb, climb, List.reverse_append, List.reverse_singleton, List.singleton_append, count_cons l k c h, climb_down l k c h up]
    by_cases hi : i + 1 < count c up.reverse
    · rw [if_pos hi, if_pos hi]; rfl
    · rw [if_neg hi, if_neg hi]

theorem next_down (l : List Tree) (k : Nat) (c : Tree) (h : l[k]? = some c) (p : List Nat) : getNext (.node l) (k :: p) =
    match getNext c p with
    | some q => some (k :: q)
    | none => if k + 1 < l.length then some [k + 1] else none := by
  rw [getNext, getNext, count_cons l k c h, List.reverse_cons, climb_down l k c h]
  by_cases hc : 0 < count c p
  · rw [if_pos hc, if_pos hc]; rfl
  · rw [if_neg hc, if_neg hc]

theorem tree_head (t : Tree) : (treeLines t).head? = some [] := by
  cases t; rw [treeLines]; rfl

theorem forest_head (k : Nat) (l : List Tree) : (forestLines k l).head? = if 0 < l.length then some [k] else none := by
  cases l with
  | nil => rw [forestLines]; rfl
  | cons c l =>
    rw [forestLines]
    have := tree_head c
    cases hc : treeLines c with
    | nil => rw [hc] at this; cases this
    | cons x xs =>
      rw [hc] at this
      have : x = [] := by simpa using this
      subst this
      simp

theorem next_forest (all : List Tree) : ∀ (l : List Tree) (k : Nat), all.drop k = l → (∀ c ∈ l, NextIn (getNext c) (treeLines c)) →
    NextIn (getNext (.node all)) (forestLines k l)
  | [], k, _, _ => by
    intro before a behind h
    rw [forestLines] at h
    simp at h
  | c :: l, k, hd, hc => by
    intro before a behind h
    rw [forestLines] at h
    have hk : all[k]? = some c := by
      have := congrArg (·[0]?) hd
      simpa using this
    have hd' : all.drop (k + 1) = l := by
      rw [← List.drop_drop, hd]; rfl
    have hlen : all.length = k + 1 + l.length := by
      have := congrArg List.length hd
      rw [List.length_drop, List.length_cons] at this
      omega
    rcases List.append_eq_append_iff.1 h with ⟨m, e1, e2⟩ | ⟨m, e1, e2⟩
    · exact next_forest all l (k + 1) hd' (fun x hx => hc x (by simp [hx])) m a behind e2
    · cases m with
      | nil =>
        rw [List.nil_append] at e2
        exact next_forest all l (k + 1) hd' (fun x hx => hc x (by simp [hx])) [] a behind e2.symm
      | cons y m =>
        rw [List.cons_append, List.cons.injEq] at e2
        obtain ⟨rfl, rfl⟩ := e2
        obtain ⟨b1, b2, e3, e4, e5⟩ := List.map_eq_append_iff.1 e1
        obtain ⟨p, ps, rfl, rfl, rfl⟩ := List.map_eq_cons_iff.1 e5
        have ih := hc c (by simp) b1 p ps e3
        rw [next_down all k c hk, ih]
        cases ps with
        | nil =>
          simp only [List.head?_nil, List.map_nil, List.nil_append]
          rw [forest_head]
          by_cases hl : 0 < l.length
          · rw [if_pos hl, if_pos (by omega)]
          · rw [if_neg hl, if_neg (by omega)]
        | cons q qs => rfl

mutual
theorem next_tree : ∀ (t : Tree), NextIn (getNext t) (treeLines t)
  | .node l => by
    intro before a behind h
    rw [treeLines] at h
    cases before with
    | nil =>
      rw [List.nil_append, List.cons.injEq] at h
      obtain ⟨rfl, rfl⟩ := h
      rw [getNext, forest_head, show count (.node l) [] = l.length from rfl]
      by_cases hl : 0 < l.length
      · rw [if_pos hl, if_pos hl]; rfl
      · rw [if_neg hl, if_neg hl]; rfl
    | cons b before =>
      rw [List.cons_append, List.cons.injEq] at h
      exact next_forest l l 0 rfl (next_trees l) before a behind h.2

theorem next_trees : ∀ (l : List Tree), ∀ c ∈ l, NextIn (getNext c) (treeLines c)
  | [], _, h => by cases h
  | c :: l, x, h => (List.mem_cons.1 h).elim (fun e => e ▸ next_tree c) fun h => next_trees l x h
end

/-- **C195** From every line one goes down to the line shown behind it, and from the last one nowhere. -/
theorem C195_next (t : Tree) (before behind : List (List Nat)) (p : List Nat) (h : treeLines t = before ++ p :: behind) : getNext t p = behind.head? :=
  next_tree t before p behind h

/-! ## Back -/

theorem deepest_down (l : List Tree) (k : Nat) (c : Tree) (h : l[k]? = some c) : ∀ (fuel : Nat) (p : List Nat),
    deepest (.node l) fuel (k :: p) = (deepest c fuel p).map (k :: ·)
  | 0, _ => rfl
  | fuel + 1, p => by
    rw [deepest, deepest, count_cons l k c h, List.cons_append, deepest_down l k c h fuel]
    by_cases hc : 0 < count c p
    · rw [if_pos hc, if_pos hc]
    · rw [if_neg hc, if_neg hc]; rfl

theorem forest_last : ∀ (l : List Tree) (k : Nat) (c : Tree), (forestLines k (l ++ [c])).getLast? = ((treeLines c).getLast?).map ((k + l.length) :: ·)
  | [], k, c => by
    rw [List.nil_append, forestLines, forestLines, List.append_nil, List.getLast?_map]; rfl
  | x :: l, k, c => by
    rw [List.cons_append, forestLines, List.getLast?_append, forest_last l (k + 1) c, List.length_cons, show k + 1 + l.length = k + (l.length + 1) by omega]
    have : (treeLines c).getLast? ≠ none := by
      cases c; rw [treeLines]; simp
    cases hc : (treeLines c).getLast? with
    | none => exact absurd hc this
    | some y => rfl

mutual
theorem deepest_last : ∀ (t : Tree) (fuel : Nat), treeDepth t ≤ fuel → deepest t fuel [] = (treeLines t).getLast?
  | .node l, 0, h => by rw [treeDepth] at h; omega
  | .node l, fuel + 1, h => by
    rw [treeDepth] at h
    rw [deepest, show count (.node l) [] = l.length from rfl, treeLines]
    by_cases hl : 0 < l.length
    · rw [if_pos hl, List.nil_append]
      obtain ⟨init, c, rfl⟩ : ∃ init c, l = init ++ [c] := ⟨_, _, (List.dropLast_append_getLast (List.ne_nil_of_length_pos hl)).symm⟩
      have hk : (init ++ [c])[(init ++ [c]).length - 1]? = some c := by simp
      rw [deepest_down _ _ c hk, (deepest_lasts (init ++ [c]) c (by simp) fuel (by omega)), List.getLast?_cons, forest_last]
      have : (treeLines c).getLast? ≠ none := by
        cases c; rw [treeLines]; simp
      cases hc : (treeLines c).getLast? with
      | none => exact absurd hc this
      | some y => simp
    · have : l = [] := List.eq_nil_of_length_eq_zero (by omega)
      subst this
      rw [if_neg hl, forestLines]; rfl

theorem deepest_lasts : ∀ (l : List Tree), ∀ c ∈ l, ∀ (fuel : Nat), forestDepth l ≤ fuel → deepest c fuel [] = (treeLines c).getLast?
  | [], _, h, _, _ => by cases h
  | c :: l, x, h, fuel, hf => (List.mem_cons.1 h).elim
      (fun e => e ▸ deepest_last c fuel (by rw [forestDepth] at hf; omega))
      fun h => deepest_lasts l x h fuel (by rw [forestDepth] at hf; omega)
end

theorem prev_down (l : List Tree) (k : Nat) (c : Tree) (h : l[k]? = some c) (fuel : Nat) (p : List Nat) (hp : p ≠ []) :
    getPrev (.node l) fuel (k :: p) = (getPrev c fuel p).map (k :: ·) := by
  rw [getPrev, getPrev, List.reverse_cons]
  cases hr : p.reverse with
  | nil => exact absurd (List.reverse_eq_nil_iff.1 hr) hp
  | cons i up =>
    rw [List.cons_append, getPrevUp, getPrevUp, List.reverse_append, List.reverse_singleton, List.singleton_append, List.cons_append, deepest_down l k c h]
    by_cases hi : i = 0
    · rw [if_pos hi, if_pos hi]; rfl
    · rw [if_neg hi, if_neg hi]

/-- A line is in front of another. -/
def InFront (t : Tree) (fuel : Nat) (a b : List Nat) : Prop := getPrev t fuel b = some a

theorem prev_forest (all : List Tree) (fuel : Nat) (hf : forestDepth all ≤ fuel) : ∀ (l : List Tree) (k : Nat) (x : List Nat), all.drop k = l →
    (∀ c ∈ all, List.IsChain (InFront c fuel) (treeLines c)) → (k < all.length → getPrev (.node all) fuel [k] = some x) → List.IsChain (InFront (.node all) fuel) (x :: forestLines k l)
  | [], k, x, _, _, _ => by rw [forestLines]; exact List.isChain_singleton x
  | c :: l, k, x, hd, hc, hx => by
    have hk : all[k]? = some c := by
      have := congrArg (·[0]?) hd
      simpa using this
    have hd' : all.drop (k + 1) = l := by
      rw [← List.drop_drop, hd]; rfl
    have hkl : k < all.length := by
      by_contra hn
      rw [List.getElem?_eq_none (by omega)] at hk
      cases hk
    have hm : c ∈ all := List.mem_of_getElem? hk
    have chain : List.IsChain (InFront (.node all) fuel) ((treeLines c).map (k :: ·)) := by
      rw [List.isChain_map]
      refine (hc c hm).imp fun a b hab => ?_
      have hb : b ≠ [] := by rintro rfl; cases hab
      show getPrev _ _ _ = _
      rw [prev_down all k c hk fuel b hb, hab]; rfl
    have hlast : (treeLines c).getLast? ≠ none := by
      cases c; rw [treeLines]; simp
    rw [forestLines]
    obtain ⟨init, y, e⟩ : ∃ init y, treeLines c = init ++ [y] := by
      cases hl : treeLines c with
      | nil => rw [hl] at hlast; exact absurd rfl hlast
      | cons z zs => exact ⟨_, _, (List.dropLast_append_getLast (by simp)).symm⟩
    have ih := prev_forest all fuel hf l (k + 1) (k :: y) hd' hc fun hk1 => by
      show (if k + 1 = 0 then some [] else deepest (.node all) fuel ([] ++ [k + 1 - 1])) = _
      rw [if_neg (by omega), List.nil_append, Nat.add_sub_cancel, deepest_down all k c hk, deepest_lasts all c hm fuel hf, e]
      simp
    have first : List.IsChain (InFront (.node all) fuel) (x :: (treeLines c).map (k :: ·)) := by
      have hh := tree_head c
      cases hl : treeLines c with
      | nil => rw [hl] at hh; cases hh
      | cons z zs =>
        rw [hl] at hh chain
        have : z = [] := by simpa using hh
        subst this
        rw [List.map_cons] at chain ⊢
        exact List.isChain_cons_cons.2 ⟨hx hkl, chain⟩
    rw [e, List.map_append, List.map_cons, List.map_nil] at first ⊢
    have := List.isChain_split.2 (⟨by simpa using first, ih⟩ : List.IsChain _ ((x :: init.map (k :: ·)) ++ [k :: y]) ∧ List.IsChain _ ((k :: y) :: forestLines (k + 1) l))
    simpa using this

mutual
theorem prev_tree : ∀ (t : Tree) (fuel : Nat), treeDepth t ≤ fuel → List.IsChain (InFront t fuel) (treeLines t)
  | .node l, fuel, h => by
    rw [treeDepth] at h
    rw [treeLines]
    exact prev_forest l fuel (by omega) l 0 [] rfl (fun c hc => prev_trees l fuel (by omega) c hc) fun _ => rfl

theorem prev_trees : ∀ (l : List Tree) (fuel : Nat), forestDepth l ≤ fuel → ∀ c ∈ l, List.IsChain (InFront c fuel) (treeLines c)
  | [], _, _, _, h => by cases h
  | c :: l, fuel, hf, x, h => (List.mem_cons.1 h).elim
      (fun e => e ▸ prev_tree c fuel (by rw [forestDepth] at hf; omega))
      fun h => prev_trees l fuel (by rw [forestDepth] at hf; omega) x h
end

/-- **C195** From every line but the first one goes up to the line shown in front of it, and from the first one nowhere. -/
theorem C195_prev (t : Tree) (fuel : Nat) (hf : treeDepth t ≤ fuel) :
    (∀ (before behind : List (List Nat)) (a b : List Nat), treeLines t = before ++ a :: b :: behind → getPrev t fuel b = some a) ∧ getPrev t fuel [] = none := by
  refine ⟨fun before behind a b h => ?_, rfl⟩
  have c := prev_tree t fuel hf
  rw [h] at c
  exact (List.isChain_cons_cons.1 (List.isChain_split.1 c).2).1

/-- **C195** Up after down is where one was, and down after up. -/
theorem C195_back (t : Tree) (fuel : Nat) (hf : treeDepth t ≤ fuel) (p q : List Nat) (hp : p ∈ treeLines t) :
    (getNext t p = some q → getPrev t fuel q = some p) ∧ (getPrev t fuel p = some q → getNext t q = some p) := by
  obtain ⟨before, behind, e⟩ := List.append_of_mem hp
  constructor
  · intro h
    rw [C195_next t before behind p e] at h
    cases behind with
    | nil => cases h
    | cons x xs =>
      cases h
      exact (C195_prev t fuel hf).1 before xs p q e
  · intro h
    rcases List.eq_nil_or_concat before with rfl | ⟨init, x, rfl⟩
    · have : p = [] := by
        have := congrArg List.head? e
        rw [tree_head] at this
        simpa using this.symm
      subst this
      cases h
    · rw [List.concat_eq_append, List.append_assoc, List.singleton_append] at e
      have e2 := (C195_prev t fuel hf).1 init behind x p e
      rw [h] at e2
      cases e2
      exact C195_next t init (p :: behind) q e

/-- A root with a child that has two children, and a child without. -/
example : treeLines (.node [.node [.node [], .node []], .node []]) = [[], [0], [0, 0], [0, 1], [1]] := by decide +kernel

example : getNext (.node [.node [.node [], .node []], .node []]) [0, 1] = some [1] :=
  C195_next (.node [.node [.node [], .node []], .node []]) [[], [0], [0, 0]] [[1]] [0, 1] (by decide +kernel)

example : getPrev (.node [.node [.node [], .node []], .node []]) 3 [1] = some [0, 1] :=
  (C195_prev (.node [.node [.node [], .node []], .node []]) 3 (by decide +kernel)).1 [[], [0], [0, 0]] [] [0, 1] [1] (by decide +kernel)

end Hachoir.Props
