import Verif.Editor.Reach
import Mathlib.Data.List.Perm.Basic
import Mathlib.Data.List.Nodup
import Mathlib.Data.List.Perm.Lattice

/-!
# The edited order of a field set

Specification of the order in which an edited field set presents its fields, and the
effect of changes of the dictionary of insertions on it.
-/

set_option linter.unusedVariables false
set_option linter.unusedSimpArgs false

namespace Hachoir.Editor

/-- A field in edited order: one of the input, or an inserted one. -/
inductive Item where
  | old (name : String)
  | new (n : New)
  deriving DecidableEq, Repr

/-- Its name. -/
def Item.name : Item → String
  | .old n => n
  | .new n => n.name

/-- The original field, unless deleted. -/
def kept (deleted : List String) (n : String) : List Item := if n ∈ deleted then [] else [.old n]

/-- The edited order for a function giving the insertions before a name and at the end. -/
def orderWith (deleted : List String) (sl : Option String → List New) : List String → List Item
  | [] => (sl none).map .new
  | n :: names => (sl (some n)).map .new ++ kept deleted n ++ orderWith deleted sl names

/-- The edited order: before every field of the input what is inserted there, and what is
inserted at the end. -/
def editedOrder (names deleted : List String) (ins : Inserted) : List Item :=
  orderWith deleted ins.slot names

/-- The model iterates in this order. -/
theorem editItems_names (inp : Inp) (deleted : List String) (ins : Inserted) (kids : List Edit) :
    (editItems inp deleted ins kids).map (·.1)
      = (editedOrder (kids.map Edit.name) deleted ins).map Item.name := by
  unfold editedOrder
  induction kids with
  | nil => simp [editItems, orderWith, Function.comp_def, Item.name]
  | cons k ks ih =>
    simp only [editItems, List.map_append, ih, List.map_cons, orderWith, kept]
    congr 1
    congr 1
    · simp [Function.comp_def, Item.name]
    · split <;> simp [Item.name]

/-! ## The dictionary -/

theorem at_none_slot {ins : Inserted} {k : Option String} (h : ins.at? k = none) : ins.slot k = [] := by
  simp [Inserted.slot, h]

theorem slot_cons (k : Option String) (l : List New) (rest : Inserted) (x : Option String) :
    Inserted.slot ((k, l) :: rest) x = if k = x then l else Inserted.slot rest x := by
  unfold Inserted.slot Inserted.at?
  by_cases h : k = x
  · simp [h]
  · simp [h, List.find?_cons, beq_eq_false_iff_ne.2 h]

theorem slot_nil (x : Option String) : Inserted.slot [] x = [] := rfl

theorem slot_notMem {ins : Inserted} {x : Option String} (h : x ∉ ins.map (·.1)) : ins.slot x = [] := by
  induction ins with
  | nil => rfl
  | cons p rest ih =>
    obtain ⟨k, l⟩ := p
    simp only [List.map_cons, List.mem_cons, not_or] at h
    rw [slot_cons, if_neg (fun e => h.1 e.symm), ih h.2]

theorem slot_append (a b : Inserted) (x : Option String) (h : x ∉ a.map (·.1)) :
    Inserted.slot (a ++ b) x = Inserted.slot b x := by
  induction a with
  | nil => rfl
  | cons p rest ih =>
    obtain ⟨k, l⟩ := p
    simp only [List.map_cons, List.mem_cons, not_or] at h
    rw [List.cons_append, slot_cons, if_neg (fun e => h.1 e.symm), ih h.2]

theorem slot_append_mem (a b : Inserted) (x : Option String) (h : x ∈ a.map (·.1)) :
    Inserted.slot (a ++ b) x = Inserted.slot a x := by
  induction a with
  | nil => simp at h
  | cons p rest ih =>
    obtain ⟨k, l⟩ := p
    rw [List.cons_append, slot_cons, slot_cons]
    by_cases hk : k = x
    · simp [hk]
    · simp only [hk, if_false]
      simp only [List.map_cons, List.mem_cons] at h
      exact ih (h.resolve_left fun e => hk e.symm)

theorem any_key {ins : Inserted} {k : Option String} :
    (ins.any (fun p => p.1 == k)) = true ↔ k ∈ ins.map (·.1) := by
  simp only [List.any_eq_true, beq_iff_eq, List.mem_map]

theorem slot_put (ins : Inserted) (k : Option String) (v : List New) (x : Option String) :
    Inserted.slot (ins.put k v) x = if x = k then v else ins.slot x := by
  unfold Inserted.put
  by_cases hm : k ∈ ins.map (·.1)
  · rw [if_pos (any_key.2 hm)]
    induction ins with
    | nil => simp at hm
    | cons p rest ih =>
      obtain ⟨k', l⟩ := p
      simp only [List.map_cons]
      by_cases hk : k' = k
      · subst hk
        simp only [beq_self_eq_true, if_true]
        rw [slot_cons, slot_cons]
        by_cases hx : x = k'
        · simp [hx]
        · have : ¬ k' = x := fun e => hx e.symm
          simp only [this, hx, if_false]
          by_cases hm' : k' ∈ rest.map (·.1)
          · rw [ih hm', if_neg hx]
          · rw [show rest.map (fun p => if p.1 == k' then (p.1, v) else p) = rest from ?_]
            conv => rhs; rw [← List.map_id rest]
            apply List.map_congr_left
            intro q hq
            rw [if_neg]
            · rfl
            · intro e
              exact hm' (List.mem_map.2 ⟨q, hq, by simpa using e⟩)
      · have hk2 : (k' == k) = false := beq_eq_false_iff_ne.2 hk
        simp only [hk2, Bool.false_eq_true, if_false]
        rw [slot_cons, slot_cons]
        have hm' : k ∈ rest.map (·.1) := by
          simp only [List.map_cons, List.mem_cons] at hm
          exact hm.resolve_left fun e => hk e.symm
        rw [ih hm']
        by_cases hx : k' = x
        · subst hx; simp [hk]
        · simp [hx]
  · rw [if_neg (fun h => hm (any_key.1 h))]
    by_cases hx : x = k
    · subst hx
      rw [slot_append _ _ _ hm, slot_cons]; simp
    · rw [if_neg hx]
      by_cases hxm : x ∈ ins.map (·.1)
      · exact slot_append_mem _ _ _ hxm
      · rw [slot_append _ _ _ hxm, slot_cons, if_neg (fun e => hx e.symm), slot_nil, slot_notMem hxm]

theorem put_keys (ins : Inserted) (k : Option String) (v : List New) :
    (ins.put k v).map (·.1) = if k ∈ ins.map (·.1) then ins.map (·.1) else ins.map (·.1) ++ [k] := by
  unfold Inserted.put
  by_cases hm : k ∈ ins.map (·.1)
  · rw [if_pos (any_key.2 hm), if_pos hm, List.map_map]
    apply List.map_congr_left
    intro q _
    simp only [Function.comp_apply]
    split <;> rfl
  · rw [if_neg (fun h => hm (any_key.1 h)), if_neg hm]
    simp

theorem at_some_key {ins : Inserted} {k : Option String} {l : List New} (h : ins.at? k = some l) :
    k ∈ ins.map (·.1) ∧ ins.slot k = l := by
  refine ⟨?_, by simp [Inserted.slot, h]⟩
  unfold Inserted.at? at h
  cases hf : ins.find? (fun p => p.1 == k) with
  | none => simp [hf] at h
  | some p =>
    have h1 := List.mem_of_find?_eq_some hf
    have h2 := List.find?_some hf
    exact List.mem_map.2 ⟨p, h1, by simpa using h2⟩

/-- The rotations put the new fields at the position. -/
theorem rotate_insert (l new : List New) (pos : Nat) (h : pos ≤ l.length) :
    let r := new ++ (l.drop pos ++ l.take pos)
    r.drop (r.length - pos) ++ r.take (r.length - pos) = l.take pos ++ new ++ l.drop pos := by
  intro r
  have hr : r = (new ++ l.drop pos) ++ l.take pos := by simp [r]
  have hl : r.length - pos = (new ++ l.drop pos).length := by
    simp only [r, List.length_append, List.length_drop, List.length_take]; omega
  rw [hl, hr, List.drop_left, List.take_left, List.append_assoc]

/-- The place of an insertion beside an inserted field. -/
theorem insertInside_spec {ins ins' : Inserted} {key : String} {new : List New} {next : Bool}
    (hn : (ins.map (·.1)).Nodup) (h : insertInside ins key new next = some ins') :
    ins'.map (·.1) = ins.map (·.1) ∧ ∃ k ∈ ins.map (·.1), ∃ l1 n l2, n.name = key ∧ ins.slot k = l1 ++ n :: l2 ∧
      ∀ x, Inserted.slot ins' x = if x = k then (if next then l1 ++ n :: (new ++ l2) else l1 ++ new ++ n :: l2)
        else ins.slot x := by
  induction ins generalizing ins' with
  | nil => simp [insertInside] at h
  | cons p rest ih =>
    obtain ⟨k, l⟩ := p
    simp only [List.map_cons, List.nodup_cons] at hn
    simp only [insertInside] at h
    cases hf : l.findIdx? (fun n => n.name == key) with
    | some pos =>
      rw [hf] at h
      simp only [Option.some.injEq] at h
      obtain ⟨hlt, hp, -⟩ := List.findIdx?_eq_some_iff_getElem.1 hf
      have hsplit : l = l.take pos ++ l[pos] :: l.drop (pos + 1) := by
        rw [List.getElem_cons_drop]; simp
      have e := rotate_insert l new (if next then pos + 1 else pos) (by split <;> omega)
      simp only at e
      rw [e] at h
      subst h
      refine ⟨rfl, k, by simp, l.take pos, l[pos], l.drop (pos + 1), by simpa using hp, ?_, ?_⟩
      · rw [slot_cons, if_pos rfl]; exact hsplit
      · intro x
        rw [slot_cons]
        by_cases hx : x = k
        · subst hx
          simp only [if_true]
          cases next with
          | true =>
            simp only [if_true]
            have : l.take (pos + 1) = l.take pos ++ [l[pos]] := by
              rw [List.take_succ_eq_append_getElem hlt]
            rw [this, List.append_assoc, List.append_assoc]; rfl
          | false =>
            simp only [Bool.false_eq_true, if_false]
            rw [List.getElem_cons_drop]
        · rw [if_neg (fun e => hx e.symm), if_neg hx, slot_cons, if_neg (fun e => hx e.symm)]
    | none =>
      rw [hf] at h
      simp only [Option.map_eq_some_iff] at h
      obtain ⟨r, hr, rfl⟩ := h
      obtain ⟨i1, k', hk', l1, n, l2, a1, a2, a3⟩ := ih hn.2 hr
      have hne : ¬ k = k' := fun e => hn.1 (e ▸ hk')
      refine ⟨by simp [i1], k', by simp [hk'], l1, n, l2, a1, ?_, ?_⟩
      · rw [slot_cons, if_neg hne]; exact a2
      · intro x
        rw [slot_cons, slot_cons]
        by_cases hx : k = x
        · subst hx; simp [hne]
        · simp only [hx, if_false]; exact a3 x

theorem insertInside_none {ins : Inserted} {key : String} {new : List New} {next : Bool} :
    insertInside ins key new next = none ↔ key ∉ insertedNames ins := by
  induction ins with
  | nil => simp [insertInside, insertedNames]
  | cons p rest ih =>
    obtain ⟨k, l⟩ := p
    simp only [insertInside]
    have e : insertedNames ((k, l) :: rest) = l.map (·.name) ++ insertedNames rest := by simp [insertedNames]
    rw [e]
    cases hf : l.findIdx? (fun n => n.name == key) with
    | some pos =>
      obtain ⟨hlt, hp, -⟩ := List.findIdx?_eq_some_iff_getElem.1 hf
      simp only [reduceCtorEq, false_iff, not_not, List.mem_append]
      left
      exact List.mem_map.2 ⟨l[pos], List.getElem_mem hlt, by simpa using hp⟩
    | none =>
      rw [List.findIdx?_eq_none_iff] at hf
      simp only [Option.map_eq_none_iff, ih, List.mem_append, not_or]
      constructor
      · intro h
        refine ⟨?_, h⟩
        intro hm
        obtain ⟨n, hn, he⟩ := List.mem_map.1 hm
        have := hf n hn
        simp [he] at this
      · exact fun h => h.2

/-! ## Well-formed insertions -/

/-- The places are different, and are fields of the input or the end. -/
structure InsOk (names : List String) (ins : Inserted) : Prop where
  nodup : (ins.map (·.1)).Nodup
  keys : ∀ k ∈ ins.map (·.1), k = none ∨ ∃ n ∈ names, k = some n

theorem insOk_put {names : List String} {ins : Inserted} (h : InsOk names ins) (k : Option String) (v : List New)
    (hk : k = none ∨ ∃ n ∈ names, k = some n) : InsOk names (ins.put k v) := by
  constructor
  · rw [put_keys]
    split
    · exact h.nodup
    · rename_i hm
      rw [List.nodup_append]
      refine ⟨h.nodup, by simp, ?_⟩
      intro a ha b hb e
      simp only [List.mem_singleton] at hb
      exact hm (hb ▸ e ▸ ha)
  · rw [put_keys]
    split
    · exact h.keys
    · intro x hx
      rcases List.mem_append.1 hx with hx | hx
      · exact h.keys x hx
      · simp only [List.mem_singleton] at hx
        subst hx
        exact hk

theorem insOk_insert {names deleted : List String} {ins ins' : Inserted} {key : Option String} {new : List New}
    {next : Bool} (h : InsOk names ins) (hi : insertInto names deleted ins key new next = .ok ins') :
    InsOk names ins' := by
  unfold insertInto at hi
  simp only at hi
  split at hi; · cases hi
  split at hi; · cases hi
  split at hi; · cases hi
  cases hat : ins.at? key with
  | some l =>
    rw [hat] at hi
    have := h.keys key (at_some_key hat).1
    simp only at hi
    split at hi
    · cases hi; exact insOk_put h _ _ this
    · cases hi; exact insOk_put h _ _ this
  | none =>
    rw [hat] at hi
    cases key with
    | none => simp only at hi; cases hi; exact insOk_put h _ _ (Or.inl rfl)
    | some key =>
      simp only at hi
      cases hin : insertInside ins key new next with
      | some r =>
        rw [hin] at hi
        cases hi
        have := (insertInside_spec h.nodup hin).1
        exact ⟨by rw [this]; exact h.nodup, by rw [this]; exact h.keys⟩
      | none =>
        rw [hin] at hi
        simp only at hi
        split at hi
        · split at hi
          · cases hi
          · split at hi
            · cases hi
            · rename_i k' hk'
              cases hi
              exact insOk_put h _ _ (Or.inr ⟨k', List.mem_of_getElem? hk', rfl⟩)
        · split at hi
          · rename_i hm
            cases hi
            exact insOk_put h _ _ (Or.inr ⟨key, hm, rfl⟩)
          · cases hi

/-! ## The order when one place changes -/

theorem orderWith_congr {deleted : List String} {f g : Option String → List New} (names : List String)
    (h0 : f none = g none) (h : ∀ n ∈ names, f (some n) = g (some n)) :
    orderWith deleted f names = orderWith deleted g names := by
  induction names with
  | nil => simp [orderWith, h0]
  | cons n names ih =>
    simp only [orderWith]
    rw [h n (by simp), ih fun m hm => h m (by simp [hm])]

/-- The part before a field. -/
def orderHead (deleted : List String) (sl : Option String → List New) (names : List String) : List Item :=
  names.flatMap fun n => (sl (some n)).map .new ++ kept deleted n

theorem orderWith_split (deleted : List String) (sl : Option String → List New) (a b : List String) :
    orderWith deleted sl (a ++ b) = orderHead deleted sl a ++ orderWith deleted sl b := by
  induction a with
  | nil => simp [orderHead]
  | cons n a ih =>
    simp only [List.cons_append, orderWith, ih, orderHead, List.flatMap_cons, List.append_assoc]

theorem orderHead_congr {deleted : List String} {f g : Option String → List New} (names : List String)
    (h : ∀ n ∈ names, f (some n) = g (some n)) : orderHead deleted f names = orderHead deleted g names := by
  unfold orderHead
  induction names with
  | nil => rfl
  | cons n names ih =>
    simp only [List.flatMap_cons]
    rw [h n (by simp), ih fun m hm => h m (by simp [hm])]

/-- The parts before and after one place do not depend on what is inserted there. -/
theorem order_place {names deleted : List String} (hn : names.Nodup) (sl : Option String → List New)
    (k : Option String) (hk : k = none ∨ ∃ n ∈ names, k = some n) :
    ∃ A B, (∀ sl' : Option String → List New, (∀ x, x ≠ k → sl' x = sl x) →
        orderWith deleted sl' names = A ++ (sl' k).map .new ++ B) ∧
      (∀ n, k = some n → n ∉ deleted → ∃ B', B = .old n :: B') ∧
      (∀ a m n b, k = some n → names = a ++ m :: n :: b → m ∉ deleted → ∃ A', A = A' ++ [.old m]) := by
  rcases hk with rfl | ⟨n, hm, rfl⟩
  · refine ⟨orderHead deleted sl names, [], ?_, by simp, by simp⟩
    intro sl' h
    have := orderWith_split deleted sl' names []
    rw [List.append_nil] at this
    rw [this, orderHead_congr (f := sl') (g := sl) names (fun n _ => h _ (by simp))]
    simp [orderWith]
  · obtain ⟨a, b, rfl⟩ := List.append_of_mem hm
    have ha : n ∉ a := by
      intro hx
      rw [List.nodup_append] at hn
      exact hn.2.2 n hx n (by simp) rfl
    have hb : n ∉ b := by
      rw [List.nodup_append] at hn
      exact (List.nodup_cons.1 hn.2.1).1
    refine ⟨orderHead deleted sl a, kept deleted n ++ orderWith deleted sl b, ?_, ?_, ?_⟩
    · intro sl' h
      rw [orderWith_split, orderHead_congr (f := sl') (g := sl) a (fun m hm => h _ (fun e => ha (by cases e; exact hm)))]
      simp only [orderWith]
      rw [orderWith_congr (f := sl') (g := sl) b (h _ (by simp)) (fun m hm => h _ (fun e => hb (by cases e; exact hm)))]
      simp
    · intro n' e hd
      cases e
      exact ⟨orderWith deleted sl b, by simp [kept, hd]⟩
    · intro a' m n' b' e e2 hd
      cases e
      have : a = a' ++ [m] := by
        have h1 : a ++ n :: b = (a' ++ [m]) ++ n :: b' := by rw [e2]; simp
        have ha' : n ∉ a' ++ [m] := by
          intro hx
          rw [h1, List.nodup_append] at hn
          exact hn.2.2 n hx n (by simp) rfl
        exact append_cons_inj_left h1 ha ha'
      rw [this]
      exact ⟨orderHead deleted sl a' ++ (sl (some m)).map .new, by simp [orderHead, kept, hd]⟩
where
  append_cons_inj_left {n : String} : ∀ {a b c d : List String}, a ++ n :: b = c ++ n :: d → n ∉ a → n ∉ c → a = c
    | [], b, [], d, _, _, _ => rfl
    | [], b, x :: c, d, h, _, hc => by simp at h; exact absurd h.1 (fun e => hc (by simp [e]))
    | x :: a, b, [], d, h, ha, _ => by simp at h; exact absurd h.1.symm (fun e => ha (by simp [e]))
    | x :: a, b, y :: c, d, h, ha, hc => by
      simp only [List.cons_append, List.cons.injEq] at h
      rw [h.1, append_cons_inj_left h.2 (fun hx => ha (by simp [hx])) (fun hx => hc (by simp [hx]))]

/-! ## Names in edited order -/

theorem slots_perm (ks : List (Option String)) (hks : ks.Nodup) (ins : Inserted) (hn : (ins.map (·.1)).Nodup)
    (hsub : ∀ k ∈ ins.map (·.1), k ∈ ks) : (ks.flatMap ins.slot).Perm (ins.flatMap (·.2)) := by
  induction ins with
  | nil => simp [slot_nil]
  | cons p rest ih =>
    obtain ⟨k, l⟩ := p
    simp only [List.map_cons, List.nodup_cons] at hn
    have hk : k ∈ ks := hsub k (by simp)
    have hperm := List.perm_cons_erase hk
    have hnk : k ∉ ks.erase k := fun h => (List.Nodup.mem_erase_iff hks).1 h |>.1 rfl
    have e1 : (ks.erase k).flatMap (Inserted.slot ((k, l) :: rest)) = (ks.erase k).flatMap (Inserted.slot rest) := by
      apply List.flatMap_congr
      intro x hx
      rw [slot_cons, if_neg]
      intro e
      exact hnk (e ▸ hx)
    have e2 : ((k :: ks.erase k).flatMap (Inserted.slot rest)) = (ks.erase k).flatMap (Inserted.slot rest) := by
      rw [List.flatMap_cons, slot_notMem hn.1, List.nil_append]
    have h1 := (hperm.flatMap_right (Inserted.slot ((k, l) :: rest)))
    have h2 := (hperm.flatMap_right (Inserted.slot rest))
    rw [e2] at h2
    refine h1.trans ?_
    rw [List.flatMap_cons, slot_cons, if_pos rfl, e1, List.flatMap_cons]
    exact (h2.symm.trans (ih hn.2 fun x hx => hsub x (by simp [hx]))).append_left l

theorem order_perm {names deleted : List String} (hn : names.Nodup) {ins : Inserted} (h : InsOk names ins) :
    ((editedOrder names deleted ins).map Item.name).Perm
      (names.filter (fun n => n ∉ deleted) ++ insertedNames ins) := by
  have h1 : ∀ (sl : Option String → List New) (names : List String), ((orderWith deleted sl names).map Item.name).Perm
      (names.filter (fun n => n ∉ deleted) ++ ((names.map some ++ [none]).flatMap sl).map New.name) := by
    intro sl names
    induction names with
    | nil => simp [orderWith, Function.comp_def, Item.name]
    | cons n names ih =>
      have e : ((sl (some n)).map Item.new).map Item.name = (sl (some n)).map New.name := by
        simp [Function.comp_def, Item.name]
      have e2 : (kept deleted n).map Item.name = [n].filter (fun n => n ∉ deleted) := by
        unfold kept
        by_cases hd : n ∈ deleted <;> simp [hd, Item.name]
      simp only [orderWith, List.map_append, e, e2]
      have e3 : (n :: names).filter (fun n => decide (n ∉ deleted))
          = [n].filter (fun n => decide (n ∉ deleted)) ++ names.filter (fun n => decide (n ∉ deleted)) := by
        rw [← List.filter_append]; rfl
      rw [e3]
      simp only [List.map_cons, List.cons_append, List.flatMap_cons, List.map_append]
      obtain ⟨X, hX⟩ : ∃ X, (sl (some n)).map New.name = X := ⟨_, rfl⟩
      obtain ⟨Y, hY⟩ : ∃ Y, [n].filter (fun n => decide (n ∉ deleted)) = Y := ⟨_, rfl⟩
      rw [hX, hY]
      refine (List.Perm.append_left (X ++ Y) ih).trans ?_
      obtain ⟨F, hF⟩ : ∃ F, names.filter (fun n => decide (n ∉ deleted)) = F := ⟨_, rfl⟩
      obtain ⟨G, hG⟩ : ∃ G, ((names.map some ++ [none]).flatMap sl).map New.name = G := ⟨_, rfl⟩
      rw [hF, hG]
      rw [← List.append_assoc (X ++ Y), ← List.append_assoc (Y ++ F)]
      refine List.Perm.append_right G ?_
      rw [List.append_assoc]
      exact List.perm_append_comm
  refine (h1 ins.slot names).trans (List.Perm.append_left _ ?_)
  have h2 : (names.map some ++ [none]).Nodup := by
    rw [List.nodup_append]
    refine ⟨List.Nodup.map (fun a b e => by simpa using e) hn, by simp, ?_⟩
    intro a ha b hb
    obtain ⟨x, -, rfl⟩ := List.mem_map.1 ha
    simp only [List.mem_singleton] at hb
    subst hb
    simp
  have h3 := slots_perm (names.map some ++ [none]) h2 ins h.nodup (by
    intro k hk
    rcases h.keys k hk with rfl | ⟨n, hm, rfl⟩
    · simp
    · simp [hm])
  have := h3.map New.name
  have e : insertedNames ins = (ins.flatMap (·.2)).map New.name := by
    simp [insertedNames, List.map_flatMap]
  rw [e]
  exact this

theorem mem_order {names deleted : List String} (hn : names.Nodup) {ins : Inserted} (h : InsOk names ins) (x : String) :
    x ∈ (editedOrder names deleted ins).map Item.name ↔ (x ∈ names ∧ x ∉ deleted) ∨ x ∈ insertedNames ins := by
  rw [(order_perm hn h).mem_iff]
  simp

end Hachoir.Editor
