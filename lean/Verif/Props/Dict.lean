import Verif.Core.Dict
import Mathlib.Data.List.Nodup
import Mathlib.Data.List.Zip
import Mathlib.Data.List.Basic

/-!
# Property C18: the ordered dictionary
-/

set_option linter.unusedVariables false

namespace Props
open Hachoir Hachoir.Core

variable {κ β : Type} [DecidableEq κ]

/-- Specification: one ordered list of pairs.  `none`: outside the property (a
replace that would create a duplicate key). -/
def specStep (l : List (κ × β)) : DictOp κ β → Option (List (κ × β) × Option PyErr)
  | .append k v => some (if k ∈ l.map Prod.fst then (l, some .uniqKey) else (l ++ [(k, v)], none))
  | .set k v =>
    some (if k ∈ l.map Prod.fst then (l.map (fun p => if p.1 = k then (k, v) else p), none) else (l, some .key))
  | .replace old new v =>
    if old ∈ l.map Prod.fst then
      if old ≠ new ∧ new ∈ l.map Prod.fst then none
      else some (l.map (fun p => if p.1 = old then (new, v) else p), none)
    else some (l, some .key)
  | .delete i =>
    let n : Int := if i < 0 then i + l.length else i
    some (if 0 ≤ n ∧ n < l.length then (l.eraseIdx n.toNat, none) else (l, some .index))
  | .insert i k v =>
    let n : Int := if i < 0 then i + l.length else i
    some (if k ∈ l.map Prod.fst then (l, some .uniqKey)
      else if 0 ≤ n ∧ n ≤ l.length then (l.take n.toNat ++ (k, v) :: l.drop n.toNat, none)
      else (l, some .index))

/-- Specification: a history. -/
def specRun : List (κ × β) → List (DictOp κ β) → Option (List (κ × β) × List (Option PyErr))
  | l, [] => some (l, [])
  | l, op :: ops =>
    match specStep l op with
    | none => none
    | some (l', o) => (specRun l' ops).map (fun r => (r.1, o :: r.2))

/-- The three parts of the dictionary agree. -/
structure DInv (d : Dict κ β) : Prop where
  len : d.keys.length = d.values.length
  nodup : d.keys.Nodup
  inodup : (d.index.map Prod.fst).Nodup
  idx : ∀ k i, aget d.index k = some i ↔ d.keys[i]? = some k

theorem aget_aset (d : List (κ × Nat)) (k k' : κ) (i : Nat) :
    aget (aset d k i) k' = if k = k' then some i else aget d k' := by
  induction d with
  | nil => simp [aset, aget]
  | cons p r ih =>
    obtain ⟨k0, j⟩ := p
    by_cases h0 : k0 = k
    · subst h0
      simp only [aset, if_true, aget]
      split <;> rfl
    · simp only [aset, h0, if_false, aget, ih]
      by_cases h1 : k0 = k'
      · subst h1; simp [Ne.symm h0]
      · simp [h1]

theorem keys_aset_mem (d : List (κ × Nat)) (k : κ) (i : Nat) (h : k ∈ d.map Prod.fst) :
    (aset d k i).map Prod.fst = d.map Prod.fst := by
  induction d with
  | nil => simp at h
  | cons p r ih =>
    obtain ⟨k0, j⟩ := p
    by_cases h0 : k0 = k
    · simp [aset, h0]
    · simp only [aset, h0, if_false, List.map_cons]
      rw [ih]
      simpa [Ne.symm h0] using h

theorem keys_aset_notmem (d : List (κ × Nat)) (k : κ) (i : Nat) (h : k ∉ d.map Prod.fst) :
    (aset d k i).map Prod.fst = d.map Prod.fst ++ [k] := by
  induction d with
  | nil => simp [aset]
  | cons p r ih =>
    obtain ⟨k0, j⟩ := p
    simp only [List.map_cons, List.mem_cons, not_or] at h
    simp only [aset, Ne.symm h.1, if_false, List.map_cons, ih h.2, List.cons_append]

theorem nodup_aset (d : List (κ × Nat)) (k : κ) (i : Nat) (h : (d.map Prod.fst).Nodup) :
    ((aset d k i).map Prod.fst).Nodup := by
  by_cases hk : k ∈ d.map Prod.fst
  · rw [keys_aset_mem d k i hk]; exact h
  · rw [keys_aset_notmem d k i hk]
    rw [List.nodup_append]
    exact ⟨h, by simp, by intro a ha b hb; simp at hb; subst hb; rintro rfl; exact hk ha⟩

theorem aget_none_iff (d : List (κ × Nat)) (k : κ) : aget d k = none ↔ k ∉ d.map Prod.fst := by
  induction d with
  | nil => simp [aget]
  | cons p r ih =>
    obtain ⟨k0, j⟩ := p
    simp only [aget, List.map_cons, List.mem_cons, not_or]
    by_cases h : k0 = k
    · simp [h]
    · simp [h, ih, Ne.symm h]

theorem aget_adel (d : List (κ × Nat)) (k k' : κ) (h : (d.map Prod.fst).Nodup) :
    aget (adel d k) k' = if k = k' then none else aget d k' := by
  induction d with
  | nil => simp [adel, aget]
  | cons p r ih =>
    obtain ⟨k0, j⟩ := p
    simp only [List.map_cons, List.nodup_cons] at h
    by_cases h0 : k0 = k
    · subst h0
      simp only [adel, if_true, aget]
      by_cases h1 : k0 = k'
      · subst h1
        simp only [if_true]
        exact (aget_none_iff r k0).mpr h.1
      · simp [h1]
    · simp only [adel, h0, if_false, aget, ih h.2]
      by_cases h1 : k0 = k'
      · subst h1; simp [Ne.symm h0]
      · simp [h1]

theorem adel_sub (d : List (κ × Nat)) (k : κ) : (adel d k).Sublist d := by
  induction d with
  | nil => simp [adel]
  | cons p r ih =>
    obtain ⟨k0, j⟩ := p
    by_cases h : k0 = k
    · simp [adel, h]
    · simp only [adel, h, if_false]; exact ih.cons_cons _

theorem adelIndex_sub (d : List (κ × Nat)) (i : Nat) : (adelIndex d i).Sublist d := by
  induction d with
  | nil => simp [adelIndex]
  | cons p r ih =>
    obtain ⟨k0, j⟩ := p
    by_cases h : j = i
    · simp [adelIndex, h]
    · simp only [adelIndex, h, if_false]; exact ih.cons_cons _

theorem aget_map (d : List (κ × Nat)) (k : κ) (f : Nat → Nat) :
    aget (d.map (fun kj => (kj.1, f kj.2))) k = (aget d k).map f := by
  induction d with
  | nil => rfl
  | cons p r ih =>
    obtain ⟨k0, j⟩ := p
    simp only [List.map_cons, aget, ih]
    split <;> rfl

theorem aget_adelIndex (d : List (κ × Nat)) (k : κ) (i : Nat) (h : (d.map Prod.fst).Nodup)
    (hinj : ∀ k1 k2 j, aget d k1 = some j → aget d k2 = some j → k1 = k2) :
    aget (adelIndex d i) k = if aget d k = some i then none else aget d k := by
  induction d with
  | nil => simp [adelIndex, aget]
  | cons p r ih =>
    obtain ⟨k0, j⟩ := p
    simp only [List.map_cons, List.nodup_cons] at h
    by_cases h0 : j = i
    · subst h0
      simp only [adelIndex, if_true, aget]
      by_cases h1 : k0 = k
      · subst h1
        simp only [if_true]
        exact (aget_none_iff r k0).mpr h.1
      · simp only [h1, if_false]
        split
        · rename_i hc
          exact absurd (hinj k0 k j (by simp [aget]) (by simp [aget, h1, hc])) h1
        · rfl
    · simp only [adelIndex, h0, if_false, aget]
      by_cases h1 : k0 = k
      · simp [h1, h0]
      · simp only [h1, if_false]
        apply ih h.2
        intro k1 k2 j' a1 a2
        have n1 : k0 ≠ k1 := by
          rintro rfl
          rw [(aget_none_iff r k0).mpr h.1] at a1; cases a1
        have n2 : k0 ≠ k2 := by
          rintro rfl
          rw [(aget_none_iff r k0).mpr h.1] at a2; cases a2
        exact hinj k1 k2 j' (by simp [aget, n1, a1]) (by simp [aget, n2, a2])

theorem DInv.idx_lt {d : Dict κ β} (h : DInv d) {k : κ} {i : Nat} (hi : aget d.index k = some i) :
    i < d.values.length := by
  rw [h.idx] at hi
  rw [← h.len]
  exact (List.getElem?_eq_some_iff.mp hi).1

theorem DInv.mem {d : Dict κ β} (h : DInv d) (k : κ) : (aget d.index k).isSome ↔ k ∈ d.keys := by
  constructor
  · intro hs
    obtain ⟨i, hi⟩ := Option.isSome_iff_exists.mp hs
    rw [h.idx] at hi
    exact List.mem_of_getElem? hi
  · intro hk
    obtain ⟨i, hi⟩ := List.mem_iff_getElem?.mp hk
    rw [← h.idx] at hi
    rw [hi]; rfl

theorem items_keys {d : Dict κ β} (h : DInv d) : d.items.map Prod.fst = d.keys := by
  unfold Dict.items
  rw [List.map_fst_zip]
  rw [h.len]

theorem items_length {d : Dict κ β} (h : DInv d) : d.items.length = d.values.length := by
  simp [Dict.items, h.len]

theorem map_upd_of_nodup {κ β : Type} [DecidableEq κ] (l : List (κ × β)) (k new : κ) (v : β) (i : Nat)
    (hn : (l.map Prod.fst).Nodup) (hi : (l.map Prod.fst)[i]? = some k) :
    l.map (fun p => if p.1 = k then (new, v) else p) = l.set i (new, v) := by
  induction l generalizing i with
  | nil => rfl
  | cons p r ih =>
    simp only [List.map_cons, List.nodup_cons] at hn
    cases i with
    | zero =>
      simp at hi
      simp only [List.map_cons, hi, if_true, List.set_cons_zero, List.cons.injEq, true_and]
      have : ∀ q ∈ r, (if q.1 = k then (new, v) else q) = q := by
        intro q hq
        rw [if_neg]
        rintro rfl
        exact hn.1 (hi ▸ List.mem_map_of_mem hq)
      calc r.map (fun p => if p.1 = k then (new, v) else p) = r.map id := List.map_congr_left this
        _ = r := by simp
    | succ i =>
      simp only [List.map_cons, List.getElem?_cons_succ] at hi
      have hne : p.1 ≠ k := by
        rintro h
        exact hn.1 (h ▸ List.mem_of_getElem? hi)
      simp only [List.map_cons, hne, if_false, List.set_cons_succ, List.cons.injEq, true_and]
      exact ih i hn.2 hi

theorem zip_set {α β : Type} (a : List α) (b : List β) (i : Nat) (x : α) (y : β) :
    (a.set i x).zip (b.set i y) = (a.zip b).set i (x, y) := by
  induction a generalizing b i with
  | nil => simp
  | cons h t ih =>
    cases b with
    | nil => cases i <;> simp
    | cons h' t' => cases i <;> simp [ih]

theorem zip_set_right {α β : Type} (a : List α) (b : List β) (i : Nat) (x : α) (y : β) (h : a[i]? = some x) :
    a.zip (b.set i y) = (a.zip b).set i (x, y) := by
  rw [← zip_set]
  congr 1
  rw [List.getElem?_eq_some_iff] at h
  obtain ⟨hl, he⟩ := h
  rw [← he]; simp

theorem zip_eraseIdx {α β : Type} (a : List α) (b : List β) (i : Nat) :
    (a.eraseIdx i).zip (b.eraseIdx i) = (a.zip b).eraseIdx i := by
  induction a generalizing b i with
  | nil => simp
  | cons h t ih =>
    cases b with
    | nil => cases i <;> simp
    | cons h' t' => cases i <;> simp [ih]

theorem zip_linsert {α β : Type} (a : List α) (b : List β) (i : Nat) (x : α) (y : β) (h : a.length = b.length) :
    (linsert a i x).zip (linsert b i y) = (a.zip b).take i ++ (x, y) :: (a.zip b).drop i := by
  unfold linsert
  rw [List.zip_append (by simp [h]), List.zip_cons_cons]
  simp only [List.zip, List.take_zipWith, List.drop_zipWith]

theorem getElem?_linsert {α : Type} (l : List α) (n j : Nat) (x : α) (hn : n ≤ l.length) :
    (linsert l n x)[j]? = if j < n then l[j]? else if j = n then some x else l[j - 1]? := by
  unfold linsert
  by_cases h1 : j < n
  · rw [if_pos h1, List.getElem?_append_left (by simp; omega), List.getElem?_take_of_lt h1]
  · rw [if_neg h1, List.getElem?_append_right (by simp; omega)]
    have : (l.take n).length = n := by simp; omega
    rw [this]
    by_cases h2 : j = n
    · simp [h2]
    · rw [if_neg h2]
      obtain ⟨m, hm⟩ : ∃ m, j = n + m + 1 := ⟨j - n - 1, by omega⟩
      subst hm
      have e1 : n + m + 1 - n = m + 1 := by omega
      have e2 : n + m + 1 - 1 = n + m := by omega
      rw [e1, e2, List.getElem?_cons_succ, List.getElem?_drop]

theorem getElem?_inj {l : List κ} (h : l.Nodup) {i j : Nat} {k : κ} (hi : l[i]? = some k) (hj : l[j]? = some k) :
    i = j := by
  rw [List.getElem?_eq_some_iff] at hi hj
  obtain ⟨a1, b1⟩ := hi
  obtain ⟨a2, b2⟩ := hj
  exact (List.Nodup.getElem_inj_iff h).mp (b1.trans b2.symm)

theorem DInv_empty : DInv (Dict.empty : Dict κ β) :=
  ⟨rfl, by simp [Dict.empty], by simp [Dict.empty], by simp [Dict.empty, aget]⟩

theorem append_ok (d : Dict κ β) (h : DInv d) (k : κ) (v : β) (hk : k ∉ d.keys) :
    ∃ d', d.append k v = .ok d' ∧ DInv d' ∧ d'.items = d.items ++ [(k, v)] := by
  have hno : ¬ (aget d.index k).isSome := by rw [h.mem]; exact hk
  refine ⟨_, by rw [Dict.append, if_neg hno], ⟨?_, ?_, ?_, ?_⟩, ?_⟩
  · simp [h.len]
  · rw [List.nodup_append]
    exact ⟨h.nodup, by simp, by intro a ha b hb; simp at hb; subst hb; rintro rfl; exact hk ha⟩
  · exact nodup_aset _ _ _ h.inodup
  · intro k' i
    rw [aget_aset]
    by_cases hkk : k = k'
    · subst hkk
      simp only [if_true, Option.some.injEq]
      rw [← h.len]
      constructor
      · rintro rfl; simp
      · intro hi
        rcases Nat.lt_trichotomy i d.keys.length with hl | hl | hl
        · rw [List.getElem?_append_left hl] at hi
          exact absurd (List.mem_of_getElem? hi) hk
        · exact hl.symm
        · rw [List.getElem?_append_right (by omega)] at hi
          rw [List.getElem?_eq_none (by simp; omega)] at hi; cases hi
    · simp only [hkk, if_false, h.idx]
      by_cases hl : i < d.keys.length
      · rw [List.getElem?_append_left hl]
      · rw [List.getElem?_append_right (by omega), List.getElem?_eq_none (by omega)]
        constructor
        · intro hc; cases hc
        · intro hc
          have := List.mem_of_getElem? hc
          simp at this
          exact absurd this.symm hkk
  · simp only [Dict.items]
    rw [List.zip_append h.len]; rfl

theorem set_ok (d : Dict κ β) (h : DInv d) (k : κ) (v : β) (hk : k ∈ d.keys) :
    ∃ d', d.set k v = .ok d' ∧ DInv d' ∧ d'.items = d.items.map (fun p => if p.1 = k then (k, v) else p) := by
  obtain ⟨i, hi⟩ := Option.isSome_iff_exists.mp ((h.mem k).mpr hk)
  have hlt := h.idx_lt hi
  refine ⟨{ d with values := d.values.set i v }, ?_, ⟨?_, h.nodup, h.inodup, h.idx⟩, ?_⟩
  · simp [Dict.set, hi, hlt]
  · simp [h.len]
  · rw [map_upd_of_nodup d.items k k v i (by rw [items_keys h]; exact h.nodup)
      (by rw [items_keys h]; exact (h.idx k i).mp hi)]
    exact zip_set_right _ _ _ _ _ ((h.idx k i).mp hi)

theorem replace_ok (d : Dict κ β) (h : DInv d) (old new : κ) (v : β) (hk : old ∈ d.keys)
    (hnew : old = new ∨ new ∉ d.keys) :
    ∃ d', d.replace old new v = .ok d' ∧ DInv d' ∧
      d'.items = d.items.map (fun p => if p.1 = old then (new, v) else p) := by
  obtain ⟨i, hi⟩ := Option.isSome_iff_exists.mp ((h.mem old).mpr hk)
  have hlt := h.idx_lt hi
  have hki := (h.idx old i).mp hi
  have hit := map_upd_of_nodup d.items old new v i (by rw [items_keys h]; exact h.nodup)
    (by rw [items_keys h]; exact hki)
  by_cases he : old = new
  · subst he
    refine ⟨{ d with values := d.values.set i v }, ?_, ⟨?_, h.nodup, h.inodup, h.idx⟩, ?_⟩
    · simp [Dict.replace, hi, hlt]
    · simp [h.len]
    · rw [hit]; exact zip_set_right _ _ _ _ _ hki
  · have hn : new ∉ d.keys := by rcases hnew with h1 | h1; exact absurd h1 he; exact h1
    have hkl : i < d.keys.length := by rw [h.len]; exact hlt
    refine ⟨{ index := aset (adel d.index old) new i, keys := d.keys.set i new, values := d.values.set i v },
      ?_, ⟨?_, ?_, ?_, ?_⟩, ?_⟩
    · simp [Dict.replace, hi, hlt, he, hkl]
    · simp [h.len]
    · rw [List.nodup_iff_pairwise_ne] at *
      rw [List.pairwise_iff_getElem]
      intro a b ha hb hab
      simp only [List.length_set] at ha hb
      rw [List.getElem_set, List.getElem_set]
      have hp := List.pairwise_iff_getElem.mp h.nodup a b ha hb hab
      split
      · split
        · omega
        · intro hc; exact hn (hc ▸ List.getElem_mem hb)
      · split
        · intro hc; exact hn (hc ▸ List.getElem_mem ha)
        · exact hp
    · exact nodup_aset _ _ _ (h.inodup.sublist ((adel_sub _ _).map _))
    · intro k' j
      rw [aget_aset, aget_adel _ _ _ h.inodup, List.getElem?_set]
      by_cases h1 : new = k'
      · subst h1
        simp only [if_true, Option.some.injEq]
        constructor
        · rintro rfl; simp [hkl]
        · intro hj
          by_cases hij : i = j
          · exact hij
          · rw [if_neg hij] at hj
            exact absurd (List.mem_of_getElem? hj) hn
      · simp only [h1, if_false]
        by_cases h2 : old = k'
        · subst h2
          simp only [if_true]
          constructor
          · intro hc; cases hc
          · intro hj
            by_cases hij : i = j
            · rw [if_pos hij, if_pos hkl] at hj
              injection hj with hj; exact absurd hj h1
            · rw [if_neg hij] at hj
              exact absurd (getElem?_inj h.nodup hki hj) hij
        · simp only [h2, if_false, h.idx]
          by_cases hij : i = j
          · subst hij
            simp only [if_true, if_pos hkl, hki, Option.some.injEq]
            constructor
            · intro hc; exact absurd hc h2
            · intro hc; exact absurd hc h1
          · simp [hij]
    · rw [hit]; exact zip_set _ _ _ _ _

theorem delete_ok (d : Dict κ β) (h : DInv d) (n : Nat) (hn : n < d.values.length) (i : Int)
    (hi : (if i < 0 then i + d.values.length else i) = (n : Int)) :
    ∃ d', d.delete i = .ok d' ∧ DInv d' ∧ d'.items = d.items.eraseIdx n := by
  have hkl : n < d.keys.length := by rw [h.len]; exact hn
  have hinj : ∀ k1 k2 j, aget d.index k1 = some j → aget d.index k2 = some j → k1 = k2 := by
    intro k1 k2 j h1 h2
    rw [h.idx] at h1 h2
    rw [h1] at h2; injection h2
  refine ⟨⟨(adelIndex d.index n).map (fun kj => if n < kj.2 then (kj.1, kj.2 - 1) else kj), d.keys.eraseIdx n,
      d.values.eraseIdx n⟩,
      ?_, ⟨?_, ?_, ?_, ?_⟩, ?_⟩
  · simp only [Dict.delete, hi]
    rw [if_pos ⟨by omega, by omega⟩]
    simp
  · simp [List.length_eraseIdx, h.len]
  · exact h.nodup.sublist (List.eraseIdx_sublist _ _)
  · have : ((adelIndex d.index n).map (fun kj => if n < kj.2 then (kj.1, kj.2 - 1) else kj)).map Prod.fst =
        (adelIndex d.index n).map Prod.fst := by
      rw [List.map_map]
      apply List.map_congr_left
      intro p _
      simp only [Function.comp]
      split <;> rfl
    rw [this]
    exact h.inodup.sublist ((adelIndex_sub _ _).map _)
  · intro k j
    have hf : (fun kj : κ × Nat => if n < kj.2 then (kj.1, kj.2 - 1) else kj) =
        (fun kj => (kj.1, if n < kj.2 then kj.2 - 1 else kj.2)) := by
      funext kj; split <;> simp
    simp only [hf]
    rw [aget_map (adelIndex d.index n) k (fun x => if n < x then x - 1 else x),
      aget_adelIndex _ _ _ h.inodup hinj, List.getElem?_eraseIdx]
    cases hg : aget d.index k with
    | none =>
      have hnk : k ∉ d.keys := by rw [← h.mem, hg]; simp
      simp only [reduceCtorEq, if_false, Option.map_none, false_iff]
      intro hc
      split at hc <;> exact hnk (List.mem_of_getElem? hc)
    | some m =>
      have hm := (h.idx k m).mp hg
      have uniq : ∀ j, d.keys[j]? = some k ↔ j = m := by
        intro j
        constructor
        · intro hj; exact getElem?_inj h.nodup hj hm
        · rintro rfl; exact hm
      simp only [Option.some.injEq]
      by_cases hmn : m = n
      · subst hmn
        simp only [if_true, Option.map_none, reduceCtorEq, false_iff]
        split
        · rw [uniq]; omega
        · rw [uniq]; omega
      · simp only [hmn, if_false, Option.map_some, Option.some.injEq]
        split
        · split
          · rw [uniq]; omega
          · rw [uniq]; omega
        · split
          · rw [uniq]; omega
          · rw [uniq]; omega
  · exact zip_eraseIdx _ _ _

theorem insert_ok (d : Dict κ β) (h : DInv d) (n : Nat) (hn : n ≤ d.values.length) (i : Int) (k : κ) (v : β)
    (hi : (if i < 0 then i + d.values.length else i) = (n : Int)) (hk : k ∉ d.keys) :
    ∃ d', d.insert i k v = .ok d' ∧ DInv d' ∧ d'.items = d.items.take n ++ (k, v) :: d.items.drop n := by
  have hkl : n ≤ d.keys.length := by rw [h.len]; exact hn
  have hno : ¬ (aget d.index k).isSome := by rw [h.mem]; exact hk
  have hf : (fun kj : κ × Nat => if n ≤ kj.2 then (kj.1, kj.2 + 1) else kj) =
      (fun kj => (kj.1, if n ≤ kj.2 then kj.2 + 1 else kj.2)) := by
    funext kj; split <;> simp
  refine ⟨{ index := aset (d.index.map (fun kj => if n ≤ kj.2 then (kj.1, kj.2 + 1) else kj)) k n,
            keys := linsert d.keys n k, values := linsert d.values n v }, ?_, ⟨?_, ?_, ?_, ?_⟩, ?_⟩
  · simp only [Dict.insert, hi]
    rw [if_neg hno, if_pos ⟨by omega, by omega⟩]
    simp
  · simp [linsert, h.len]
  · have hp : (linsert d.keys n k).Perm (k :: d.keys) := by
      unfold linsert
      refine List.perm_middle.trans ?_
      rw [List.take_append_drop]
    rw [hp.nodup_iff, List.nodup_cons]
    exact ⟨hk, h.nodup⟩
  · apply nodup_aset
    rw [hf, List.map_map]
    exact h.inodup
  · intro k' j
    simp only [hf]
    rw [aget_aset, aget_map d.index k' (fun x => if n ≤ x then x + 1 else x), getElem?_linsert _ _ _ _ hkl]
    by_cases h1 : k = k'
    · subst h1
      simp only [if_true, Option.some.injEq]
      constructor
      · rintro rfl; simp
      · intro hj
        split at hj
        · exact absurd (List.mem_of_getElem? hj) hk
        · split at hj
          · omega
          · exact absurd (List.mem_of_getElem? hj) hk
    · simp only [h1, if_false]
      cases hg : aget d.index k' with
      | none =>
        have hnk : k' ∉ d.keys := by rw [← h.mem, hg]; simp
        simp only [Option.map_none, reduceCtorEq, false_iff]
        intro hc
        split at hc
        · exact hnk (List.mem_of_getElem? hc)
        · split at hc
          · injection hc with hc; exact h1 hc
          · exact hnk (List.mem_of_getElem? hc)
      | some m =>
        have hm := (h.idx k' m).mp hg
        have uniq : ∀ j, d.keys[j]? = some k' ↔ j = m := by
          intro j
          constructor
          · intro hj; exact getElem?_inj h.nodup hj hm
          · rintro rfl; exact hm
        simp only [Option.map_some, Option.some.injEq]
        split
        · split
          · rw [uniq]; omega
          · split
            · simp only [Option.some.injEq]
              constructor
              · intro; omega
              · intro hc; exact absurd hc h1
            · rw [uniq]; omega
        · split
          · rw [uniq]; omega
          · split
            · simp only [Option.some.injEq]
              constructor
              · intro; omega
              · intro hc; exact absurd hc h1
            · rw [uniq]; omega
  · exact zip_linsert _ _ _ _ _ h.len

theorem step_ok (d : Dict κ β) (h : DInv d) (op : DictOp κ β) (l' : List (κ × β)) (o : Option PyErr)
    (hs : specStep d.items op = some (l', o)) :
    DInv (d.step op).1 ∧ (d.step op).1.items = l' ∧ (d.step op).2 = o := by
  have hkeys := items_keys h
  have hlen := items_length h
  cases op with
  | append k v =>
    simp only [specStep, hkeys, Option.some.injEq] at hs
    by_cases hk : k ∈ d.keys
    · rw [if_pos hk] at hs
      cases hs
      have : d.append k v = .error .uniqKey := by rw [Dict.append, if_pos ((h.mem k).mpr hk)]
      simp only [Dict.step, this]
      exact ⟨h, by trivial, by trivial⟩
    · rw [if_neg hk] at hs
      cases hs
      obtain ⟨d', h1, h2, h3⟩ := append_ok d h k v hk
      simp only [Dict.step, h1]
      exact ⟨h2, h3, by trivial⟩
  | set k v =>
    simp only [specStep, hkeys, Option.some.injEq] at hs
    by_cases hk : k ∈ d.keys
    · rw [if_pos hk] at hs
      cases hs
      obtain ⟨d', h1, h2, h3⟩ := set_ok d h k v hk
      simp only [Dict.step, h1]
      exact ⟨h2, h3, by trivial⟩
    · rw [if_neg hk] at hs
      cases hs
      have hn : aget d.index k = none := by
        rw [← Option.not_isSome_iff_eq_none, h.mem]; exact hk
      have : d.set k v = .error .key := by simp [Dict.set, hn]
      simp only [Dict.step, this]
      exact ⟨h, by trivial, by trivial⟩
  | replace old new v =>
    simp only [specStep, hkeys] at hs
    by_cases hk : old ∈ d.keys
    · rw [if_pos hk] at hs
      split at hs
      · cases hs
      · rename_i hc
        cases hs
        have hnew : old = new ∨ new ∉ d.keys := by
          by_cases he : old = new
          · exact Or.inl he
          · right; intro hm; exact hc ⟨he, hm⟩
        obtain ⟨d', h1, h2, h3⟩ := replace_ok d h old new v hk hnew
        simp only [Dict.step, h1]
        exact ⟨h2, h3, by trivial⟩
    · rw [if_neg hk] at hs
      cases hs
      have hn : aget d.index old = none := by
        rw [← Option.not_isSome_iff_eq_none, h.mem]; exact hk
      have : d.replace old new v = .error .key := by simp [Dict.replace, hn]
      simp only [Dict.step, this]
      exact ⟨h, by trivial, by trivial⟩
  | delete i =>
    simp only [specStep, hlen, Option.some.injEq] at hs
    obtain ⟨m, hm⟩ : ∃ m, (if i < 0 then i + (d.values.length : Int) else i) = m := ⟨_, rfl⟩
    rw [hm] at hs
    by_cases hc : 0 ≤ m ∧ m < d.values.length
    · rw [if_pos hc] at hs
      cases hs
      obtain ⟨d', h1, h2, h3⟩ := delete_ok d h m.toNat (by omega) i (by rw [hm]; omega)
      simp only [Dict.step, h1]
      exact ⟨h2, h3, by trivial⟩
    · rw [if_neg hc] at hs
      cases hs
      have : d.delete i = .error .index := by
        simp only [Dict.delete, hm]; rw [if_neg hc]
      simp only [Dict.step, this]
      exact ⟨h, by trivial, by trivial⟩
  | insert i k v =>
    simp only [specStep, hlen, hkeys, Option.some.injEq] at hs
    obtain ⟨m, hm⟩ : ∃ m, (if i < 0 then i + (d.values.length : Int) else i) = m := ⟨_, rfl⟩
    rw [hm] at hs
    by_cases hk : k ∈ d.keys
    · rw [if_pos hk] at hs
      cases hs
      have : d.insert i k v = .error .uniqKey := by rw [Dict.insert, if_pos ((h.mem k).mpr hk)]
      simp only [Dict.step, this]
      exact ⟨h, by trivial, by trivial⟩
    · rw [if_neg hk] at hs
      by_cases hc : 0 ≤ m ∧ m ≤ d.values.length
      · rw [if_pos hc] at hs
        cases hs
        obtain ⟨d', h1, h2, h3⟩ := insert_ok d h m.toNat (by omega) i k v (by rw [hm]; omega) hk
        simp only [Dict.step, h1]
        exact ⟨h2, h3, by trivial⟩
      · rw [if_neg hc] at hs
        cases hs
        have hno : ¬ (aget d.index k).isSome := by rw [h.mem]; exact hk
        have : d.insert i k v = .error .index := by
          simp only [Dict.insert, hm]; rw [if_neg hno, if_neg hc]
        simp only [Dict.step, this]
        exact ⟨h, by trivial, by trivial⟩

theorem run_ok (ops : List (DictOp κ β)) :
    ∀ (d : Dict κ β), DInv d → ∀ l outs, specRun d.items ops = some (l, outs) →
      DInv (d.run ops).1 ∧ (d.run ops).1.items = l ∧ (d.run ops).2 = outs := by
  induction ops with
  | nil => intro d h l outs hs; simp only [specRun, Option.some.injEq, Prod.mk.injEq] at hs; simp [Dict.run, h, hs]
  | cons op ops ih =>
    intro d h l outs hs
    simp only [specRun] at hs
    cases hst : specStep d.items op with
    | none => rw [hst] at hs; cases hs
    | some r =>
      obtain ⟨l', o⟩ := r
      rw [hst] at hs
      simp only [Option.map_eq_some_iff] at hs
      obtain ⟨⟨l2, outs2⟩, h1, h2⟩ := hs
      obtain ⟨g1, g2, g3⟩ := step_ok d h op l' o hst
      rcases hd : d.step op with ⟨d', o'⟩
      rw [hd] at g1 g2 g3
      simp only at g1 g2 g3
      subst g2
      obtain ⟨k1, k2, k3⟩ := ih d' g1 l2 outs2 h1
      rcases hd2 : d'.run ops with ⟨d'', os⟩
      rw [hd2] at k1 k2 k3
      simp only [Dict.run, hd, hd2]
      cases h2
      exact ⟨k1, k2, by rw [g3]; simp only at k3; rw [k3]⟩

/-- C18: after any history of operations (none of which replaces a key by one
that is already present) the dictionary is the ordered list of pairs of the
specification, with the same accepted and rejected operations, and every
observation agrees with that list: keys, values and items in order, length,
lookup by key, index of a key, and no key occurs twice. -/
theorem C18_dict_refines_list (ops : List (DictOp κ β)) (l : List (κ × β)) (outs : List (Option PyErr))
    (hs : specRun ([] : List (κ × β)) ops = some (l, outs)) :
    let d := ((Dict.empty : Dict κ β).run ops).1
    ((Dict.empty : Dict κ β).run ops).2 = outs ∧
    d.items = l ∧ d.keys = l.map Prod.fst ∧ d.values = l.map Prod.snd ∧ d.values.length = l.length ∧
    (l.map Prod.fst).Nodup ∧
    (∀ k i, aget d.index k = some i ↔ (l.map Prod.fst)[i]? = some k) ∧
    (∀ k v, d.get k = .ok v ↔ (k, v) ∈ l) ∧
    (∀ k, d.get k = .error .key ↔ k ∉ l.map Prod.fst) := by
  obtain ⟨h1, h2, h3⟩ := run_ok ops (Dict.empty : Dict κ β) DInv_empty l outs (by simpa [Dict.items, Dict.empty] using hs)
  obtain ⟨d, hd⟩ : ∃ d, ((Dict.empty : Dict κ β).run ops).1 = d := ⟨_, rfl⟩
  rw [hd] at h1 h2
  simp only [hd]
  have hk : d.keys = l.map Prod.fst := by rw [← h2, items_keys h1]
  have hv : d.values = l.map Prod.snd := by
    rw [← h2]; unfold Dict.items; rw [List.map_snd_zip]; rw [h1.len]
  refine ⟨h3, h2, hk, hv, by rw [hv]; simp, by rw [← hk]; exact h1.nodup, by rw [← hk]; exact h1.idx, ?_, ?_⟩
  · intro k v
    unfold Dict.get
    cases hg : aget d.index k with
    | none =>
      have : k ∉ d.keys := by rw [← h1.mem, hg]; simp
      rw [hk] at this
      simp only [reduceCtorEq, false_iff]
      intro hm; exact this (List.mem_map_of_mem hm)
    | some i =>
      have hlt := h1.idx_lt hg
      have hki := (h1.idx k i).mp hg
      have hli : l[i]? = some (k, d.values[i]) := by
        rw [← h2]; unfold Dict.items
        rw [List.getElem?_zip_eq_some]
        exact ⟨hki, List.getElem?_eq_getElem hlt⟩
      simp only [List.getElem?_eq_getElem hlt]
      simp only [Except.ok.injEq]
      constructor
      · rintro rfl; exact List.mem_of_getElem? hli
      · intro hm
        obtain ⟨j, hj⟩ := List.mem_iff_getElem?.mp hm
        have hj2 : d.keys[j]? = some k := by rw [hk, List.getElem?_map, hj]; rfl
        have hij := getElem?_inj h1.nodup hki hj2
        subst hij
        rw [hli] at hj
        injection hj with hj
        exact (Prod.mk.inj hj).2
  · intro k
    rw [← hk, ← h1.mem]
    unfold Dict.get
    cases hg : aget d.index k with
    | none => simp
    | some i =>
      have hlt := h1.idx_lt hg
      simp only [List.getElem?_eq_getElem hlt]
      simp

/-- A history with accepted and rejected operations. -/
def dictOpsEx : List (DictOp String Nat) :=
  [.append "a" 1, .append "b" 2, .append "a" 3, .insert 1 "c" 4, .insert 9 "z" 0, .set "b" 5, .set "q" 0,
    .replace "a" "d" 6, .delete (-1), .delete 7, .append "a" 8, .insert (-1) "e" 9]
example : specRun [] dictOpsEx = some ([("d", 6), ("c", 4), ("e", 9), ("a", 8)],
    [none, none, some .uniqKey, none, some .index, none, some .key, none, none,
    some .index, none, none]) := by decide +kernel

/-- C18 fails for a `replace` that uses the key of another item: the length then
disagrees with the number of keys found. -/
theorem C18_replace_existing_key :
    let d := ((Dict.empty : Dict String Nat).run [.append "a" 1, .append "b" 2, .replace "a" "b" 3]).1
    d.values = [3, 2] ∧ d.keys = ["b", "b"] ∧ d.get "b" = .ok 3 ∧
      (d.delete 0).map (fun d => d.get "b") = .ok (.error .key) := by
  decide +kernel

end Props
