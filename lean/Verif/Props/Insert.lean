import Verif.Editor.Order

/-!
# Property C30: insertions are placed where asked
-/

set_option linter.unusedVariables false
set_option linter.unusedSimpArgs false

namespace Hachoir.Props
open Hachoir Hachoir.Editor

/-- Names deleted and insertions made in a field set by any sequence of the operations. -/
inductive Edited (names : List String) : List String → Inserted → Prop where
  | start : Edited names [] []
  | delete {d ins d'} (name : String) : Edited names d ins → deleteName d name = .ok d' → Edited names d' ins
  | before {d ins ins'} (key : String) (new : List New) : Edited names d ins →
      insertBefore names d ins key new = .ok ins' → Edited names d ins'
  | after {d ins ins'} (key : String) (new : List New) : Edited names d ins →
      insertAfter names d ins key new = .ok ins' → Edited names d ins'
  | last {d ins ins'} (new : List New) : Edited names d ins →
      insertEnd names d ins new = .ok ins' → Edited names d ins'

/-- The fields `new` are in `l'` directly after the field called `key` of `l`, and
nothing else changed. -/
def PlacedAfter (key : String) (new : List New) (l l' : List Item) : Prop :=
  ∃ pre x post, x.name = key ∧ l = pre ++ x :: post ∧ l' = pre ++ x :: (new.map .new ++ post)

/-- The fields `new` are in `l'` directly before the field called `key` of `l`. -/
def PlacedBefore (key : String) (new : List New) (l l' : List Item) : Prop :=
  ∃ pre x post, x.name = key ∧ l = pre ++ x :: post ∧ l' = pre ++ (new.map .new ++ x :: post)

/-- New fields whose names are different and not yet used. -/
def NewNames (l : List Item) (new : List New) : Prop :=
  (new.map (·.name)).Nodup ∧ ∀ n ∈ new, n.name ∉ l.map Item.name

theorem edited_insOk {names d : List String} {ins : Inserted} (h : Edited names d ins) : InsOk names ins := by
  induction h with
  | start => exact ⟨by simp, by simp⟩
  | delete name h hd ih => exact ih
  | before key new h hi ih => exact insOk_insert ih hi
  | after key new h hi ih => exact insOk_insert ih hi
  | last new h hi ih => exact insOk_insert ih hi

/-! ## The edits of a tree -/

theorem setValue_name {f f' : EField} {v : Value} (h : setValue f v = .ok f') : f'.name = f.name := by
  unfold setValue at h
  repeat' (split at h)
  all_goals first | (cases h; rfl) | (cases h)

/-- An editable field set whose deletions and insertions were made by the operations. -/
def EditedSet (t : Edit) : Prop :=
  ∃ n a z e orig kids d ins, t = .set n a z e orig kids d ins ∧
    orig.map Orig.name = kids.map Edit.name ∧ Edited (orig.map Orig.name) d ins

theorem applyOp_edited {op : Op} {t t' : Edit} (h : applyOp op t = .ok t') :
    t'.name = t.name ∧ (EditedSet t → EditedSet t') := by
  cases t with
  | field f =>
    cases op with
    | setValue v =>
      simp only [applyOp] at h
      cases hs : setValue f v with
      | error e => simp [hs, Except.map] at h
      | ok f' =>
        simp only [hs, Except.map, Except.ok.injEq] at h
        subst h
        refine ⟨setValue_name hs, ?_⟩
        rintro ⟨n, a, z, e, orig, kids, d, ins, h, -⟩
        cases h
    | _ => cases h
  | set n a z e orig kids d ins =>
    have key : ∀ {d' ins'}, t' = .set n a z e orig kids d' ins' →
        (Edited (orig.map Orig.name) d ins → Edited (orig.map Orig.name) d' ins') →
        t'.name = (Edit.set n a z e orig kids d ins).name ∧ (EditedSet (.set n a z e orig kids d ins) → EditedSet t') := by
      intro d' ins' ht hE
      subst ht
      refine ⟨rfl, ?_⟩
      rintro ⟨n1, a1, z1, e1, orig1, kids1, d1, ins1, h1, h2, h3⟩
      cases h1
      exact ⟨_, _, _, _, _, _, _, _, rfl, h2, hE h3⟩
    cases op with
    | setValue v => cases h
    | delete name =>
      simp only [applyOp] at h
      cases hd : deleteName d name with
      | error er => simp [hd, Except.map] at h
      | ok d' =>
        simp only [hd, Except.map, Except.ok.injEq] at h
        exact key h.symm fun hE => .delete name hE hd
    | insertBefore k new =>
      simp only [applyOp] at h
      cases hd : insertBefore (orig.map (·.name)) d ins k new with
      | error er => simp [hd, Except.map] at h
      | ok d' =>
        simp only [hd, Except.map, Except.ok.injEq] at h
        exact key h.symm fun hE => .before k new hE hd
    | insertAfter k new =>
      simp only [applyOp] at h
      cases hd : insertAfter (orig.map (·.name)) d ins k new with
      | error er => simp [hd, Except.map] at h
      | ok d' =>
        simp only [hd, Except.map, Except.ok.injEq] at h
        exact key h.symm fun hE => .after k new hE hd
    | insert new =>
      simp only [applyOp] at h
      cases hd : insertEnd (orig.map (·.name)) d ins new with
      | error er => simp [hd, Except.map] at h
      | ok d' =>
        simp only [hd, Except.map, Except.ok.injEq] at h
        exact key h.symm fun hE => .last new hE hd

theorem updateKid_names {name : String} {g : Edit → Except PyErr Edit} (hg : ∀ t t', g t = .ok t' → t'.name = t.name)
    {kids kids' : List Edit} (h : updateKid name g kids = .ok kids') : kids'.map Edit.name = kids.map Edit.name := by
  induction kids generalizing kids' with
  | nil => simp [updateKid] at h
  | cons k ks ih =>
    simp only [updateKid] at h
    split at h
    · cases hgk : g k with
      | error e => simp [hgk, Except.map] at h
      | ok t => simp [hgk, Except.map] at h; subst h; simp [hg k t hgk]
    · cases hu : updateKid name g ks with
      | error e => simp [hu, Except.map] at h
      | ok t => simp [hu, Except.map] at h; subst h; simp [ih hu]

theorem editAt_edited (path : List String) {op : Op} {t t' : Edit} (h : editAt path op t = .ok t') :
    t'.name = t.name ∧ (EditedSet t → EditedSet t') := by
  induction path generalizing t t' with
  | nil => simp only [editAt] at h; exact applyOp_edited h
  | cons name path ih =>
    cases t with
    | field f => simp [editAt] at h
    | set n a z e orig kids d ins =>
      simp only [editAt] at h
      split at h
      · cases h
      · cases hu : updateKid name (editAt path op) kids with
        | error er => simp [hu, Except.map] at h
        | ok kids' =>
          simp only [hu, Except.map, Except.ok.injEq] at h
          subst h
          refine ⟨rfl, ?_⟩
          rintro ⟨n1, a1, z1, e1, orig1, kids1, d1, ins1, h1, h2, h3⟩
          cases h1
          exact ⟨_, _, _, _, _, _, _, _, rfl, by rw [updateKid_names (fun t t' h => (ih h).1) hu]; exact h2, h3⟩

/-- After any edits of a tree its deletions and insertions are of this kind, and the
fields are presented in the edited order of the specification. -/
theorem C30_edits_covered (n : String) (a z : Nat) (e : Endian) (ks : List Tree)
    (hist : List (List String × Op)) :
    ∃ n' a' z' e' orig kids d ins, edits (createEditor (.set n a z e ks)) hist = .set n' a' z' e' orig kids d ins ∧
      Edited (orig.map Orig.name) d ins ∧
      (editItems (some orig) d ins kids).map (·.1) = (editedOrder (orig.map Orig.name) d ins).map Item.name := by
  have key : ∀ (hist : List (List String × Op)) (t : Edit), EditedSet t → EditedSet (edits t hist) := by
    intro hist
    induction hist with
    | nil => intro t h; exact h
    | cons p l ih =>
      obtain ⟨path, op⟩ := p
      intro t h
      simp only [edits]
      cases hE : editAt path op t with
      | error e => exact ih t h
      | ok t' => exact ih t' ((editAt_edited path hE).2 h)
  have h0 : EditedSet (createEditor (.set n a z e ks)) := by
    simp only [createEditor]
    refine ⟨_, _, _, _, _, _, _, _, rfl, ?_, .start⟩
    rw [List.map_map, List.map_map]
    apply List.map_congr_left
    intro t _
    cases t <;> simp [createEditor, Edit.name, Tree.orig]
  obtain ⟨n, a, z, e, orig, kids, d, ins, h1, h2, h3⟩ := key hist _ h0
  exact ⟨n, a, z, e, orig, kids, d, ins, h1, h3, by rw [editItems_names, h2]⟩

/-! ## Names stay different -/

theorem insertInto_checks {names d : List String} {ins ins' : Inserted} {key : Option String} {new : List New}
    {next : Bool} (h : insertInto names d ins key new next = .ok ins') :
    (new.map (·.name)).Nodup ∧ (∀ n ∈ new, ¬ (n.name ∈ names ∧ n.name ∉ d)) ∧
      (∀ n ∈ new, n.name ∉ insertedNames ins) := by
  unfold insertInto at h
  simp only at h
  split at h
  · cases h
  rename_i h1
  split at h
  · cases h
  rename_i h2
  split at h
  · cases h
  rename_i h3
  refine ⟨Decidable.byContradiction fun hx => h1 hx, ?_, ?_⟩
  · intro n hn hc
    exact h2 (List.any_eq_true.2 ⟨n.name, List.mem_map.2 ⟨n, hn, rfl⟩, by simpa using hc⟩)
  · intro n hn hc
    exact h3 (List.any_eq_true.2 ⟨n.name, hc, by simpa using ⟨n, hn, rfl⟩⟩)

theorem insertInto_pass {names d : List String} {ins : Inserted} {key : Option String} {new : List New} {next : Bool}
    (h1 : (new.map (·.name)).Nodup) (h2 : ∀ n ∈ new, ¬ (n.name ∈ names ∧ n.name ∉ d))
    (h3 : ∀ n ∈ new, n.name ∉ insertedNames ins) :
    insertInto names d ins key new next =
      match ins.at? key with
      | some l =>
        if next then .ok (ins.put key (l ++ new.reverse))
        else .ok (ins.put key (new ++ l))
      | none =>
        match key with
        | none => .ok (ins.put none new)
        | some key =>
          match insertInside ins key new next with
          | some ins' => .ok ins'
          | none =>
            if next then
              match names.findIdx? (· == key) with
              | none => .error .missingField
              | some i =>
                match names[i + 1]? with
                | none => .error .missingField
                | some key' => .ok (ins.put (some key') new)
            else if key ∈ names then .ok (ins.put (some key) new)
            else .error .missingField := by
  unfold insertInto
  simp only
  have g2 : ¬ ((new.map (·.name)).any fun n => decide (n ∈ names ∧ n ∉ d)) = true := by
    intro h
    obtain ⟨x, hx, hy⟩ := List.any_eq_true.1 h
    obtain ⟨n, hn, rfl⟩ := List.mem_map.1 hx
    exact h2 n hn (by simpa using hy)
  have g3 : ¬ ((insertedNames ins).any fun n => decide (n ∈ new.map (·.name))) = true := by
    intro h
    obtain ⟨x, hx, hy⟩ := List.any_eq_true.1 h
    simp only [List.mem_map, decide_eq_true_eq] at hy
    obtain ⟨n, hn, rfl⟩ := hy
    exact h3 n hn hx
  rw [if_neg (by simpa using h1), if_neg g2, if_neg g3]
  cases ins.at? key with
  | some l => rfl
  | none =>
    cases key with
    | none => rfl
    | some key =>
      simp only
      cases insertInside ins key new next with
      | some r => rfl
      | none => rfl

theorem newNames_checks {names d : List String} (hn : names.Nodup) {ins : Inserted} (h : InsOk names ins)
    {new : List New} (hnew : NewNames (editedOrder names d ins) new) :
    (new.map (·.name)).Nodup ∧ (∀ n ∈ new, ¬ (n.name ∈ names ∧ n.name ∉ d)) ∧
      (∀ n ∈ new, n.name ∉ insertedNames ins) := by
  refine ⟨hnew.1, ?_, ?_⟩
  · intro n hm hc
    exact hnew.2 n hm ((mem_order hn h n.name).2 (Or.inl hc))
  · intro n hm hc
    exact hnew.2 n hm ((mem_order hn h n.name).2 (Or.inr hc))

/-! ## Correct placements -/

/-- Directly before a field (of the input or inserted), if nothing was inserted before
that field of the input.  Missing from the full statement: an earlier insertion
before the same field. -/
theorem C30_before_partial (names d : List String) (hn : names.Nodup) (ins : Inserted) (hE : Edited names d ins)
    (key : String) (new : List New) (hnew : NewNames (editedOrder names d ins) new)
    (hkey : key ∈ (editedOrder names d ins).map Item.name) (hfree : ins.at? (some key) = none) :
    ∃ ins', insertBefore names d ins key new = .ok ins' ∧
      PlacedBefore key new (editedOrder names d ins) (editedOrder names d ins') := by
  have hok := edited_insOk hE
  obtain ⟨c1, c2, c3⟩ := newNames_checks hn hok hnew
  unfold insertBefore
  rw [insertInto_pass c1 c2 c3, hfree]
  simp only
  cases hin : insertInside ins key new false with
  | some ins' =>
    refine ⟨ins', rfl, ?_⟩
    obtain ⟨-, k, hk, l1, n, l2, a1, a2, a3⟩ := insertInside_spec hok.nodup hin
    obtain ⟨A, B, p1, -, -⟩ := order_place (deleted := d) hn ins.slot k (hok.keys k hk)
    refine ⟨A ++ l1.map .new, .new n, l2.map .new ++ B, a1, ?_, ?_⟩
    · unfold editedOrder
      rw [p1 ins.slot (fun _ _ => rfl), a2]; simp
    · unfold editedOrder
      rw [p1 (Inserted.slot ins') (fun x hx => by rw [a3 x, if_neg hx]), a3 k]; simp
  | none =>
    rw [insertInside_none] at hin
    have hold : key ∈ names ∧ key ∉ d := ((mem_order hn hok key).1 hkey).resolve_right hin
    simp only [Bool.false_eq_true, if_false, hold.1, if_true]
    refine ⟨_, rfl, ?_⟩
    obtain ⟨A, B, p1, p2, -⟩ := order_place (deleted := d) hn ins.slot (some key) (Or.inr ⟨key, hold.1, rfl⟩)
    obtain ⟨B', hB'⟩ := p2 key rfl hold.2
    refine ⟨A, .old key, B', rfl, ?_, ?_⟩
    · unfold editedOrder
      rw [p1 ins.slot (fun _ _ => rfl), at_none_slot hfree, hB']; simp
    · unfold editedOrder
      rw [p1 (Inserted.slot _) (fun x hx => by rw [slot_put, if_neg hx]), slot_put, hB']; simp

/-- Directly after a field: an inserted one, or a field of the input that is not the
last, if nothing was inserted before it or directly after it.  Missing from the full
statement: the last field, and earlier insertions around the field. -/
theorem C30_after_partial (names d : List String) (hn : names.Nodup) (ins : Inserted) (hE : Edited names d ins)
    (key : String) (new : List New) (hnew : NewNames (editedOrder names d ins) new)
    (hkey : key ∈ (editedOrder names d ins).map Item.name) (hfree : ins.at? (some key) = none)
    (hnext : key ∈ insertedNames ins ∨ ∃ a next b, names = a ++ key :: next :: b ∧ ins.at? (some next) = none) :
    ∃ ins', insertAfter names d ins key new = .ok ins' ∧
      PlacedAfter key new (editedOrder names d ins) (editedOrder names d ins') := by
  have hok := edited_insOk hE
  obtain ⟨c1, c2, c3⟩ := newNames_checks hn hok hnew
  unfold insertAfter
  rw [insertInto_pass c1 c2 c3, hfree]
  simp only
  cases hin : insertInside ins key new true with
  | some ins' =>
    refine ⟨ins', rfl, ?_⟩
    obtain ⟨-, k, hk, l1, n, l2, a1, a2, a3⟩ := insertInside_spec hok.nodup hin
    obtain ⟨A, B, p1, -, -⟩ := order_place (deleted := d) hn ins.slot k (hok.keys k hk)
    refine ⟨A ++ l1.map .new, .new n, l2.map .new ++ B, a1, ?_, ?_⟩
    · unfold editedOrder
      rw [p1 ins.slot (fun _ _ => rfl), a2]; simp
    · unfold editedOrder
      rw [p1 (Inserted.slot ins') (fun x hx => by rw [a3 x, if_neg hx]), a3 k]; simp
  | none =>
    rw [insertInside_none] at hin
    have hold : key ∈ names ∧ key ∉ d := ((mem_order hn hok key).1 hkey).resolve_right hin
    obtain ⟨a, next, b, hnames, hfree2⟩ := hnext.resolve_left hin
    have hidx : names.findIdx? (· == key) = some a.length := by
      rw [List.findIdx?_eq_some_iff_getElem]
      refine ⟨by rw [hnames]; simp, by simp [hnames], ?_⟩
      intro j hj
      have : names[j]'(by rw [hnames]; simp; omega) = a[j] := by simp [hnames, List.getElem_append, hj]
      simp only [this, beq_iff_eq]
      intro e
      rw [hnames, List.nodup_append] at hn
      exact hn.2.2 a[j] (List.getElem_mem hj) key (by simp) e
    have hget : names[a.length + 1]? = some next := by
      rw [hnames, List.getElem?_append_right (by omega)]
      simp
    simp only [if_true, hidx, hget]
    refine ⟨_, rfl, ?_⟩
    obtain ⟨A, B, p1, -, p3⟩ := order_place (deleted := d) hn ins.slot (some next) (Or.inr ⟨next, by simp [hnames], rfl⟩)
    obtain ⟨A', hA'⟩ := p3 a key next b rfl hnames hold.2
    refine ⟨A', .old key, B, rfl, ?_, ?_⟩
    · unfold editedOrder
      rw [p1 ins.slot (fun _ _ => rfl), at_none_slot hfree2, hA']; simp
    · unfold editedOrder
      rw [p1 (Inserted.slot _) (fun x hx => by rw [slot_put, if_neg hx]), slot_put, hA']; simp

/-- At the end, if nothing was inserted at the end before or only one field is inserted.
Missing from the full statement: a second insertion of several fields. -/
theorem C30_end_partial (names d : List String) (hn : names.Nodup) (ins : Inserted) (hE : Edited names d ins)
    (new : List New) (hnew : NewNames (editedOrder names d ins) new)
    (hone : ins.at? none = none ∨ new.length ≤ 1) :
    ∃ ins', insertEnd names d ins new = .ok ins' ∧
      editedOrder names d ins' = editedOrder names d ins ++ new.map .new := by
  have hok := edited_insOk hE
  obtain ⟨c1, c2, c3⟩ := newNames_checks hn hok hnew
  have hend : ∀ sl : Option String → List New, orderWith d sl names = orderHead d sl names ++ (sl none).map .new := by
    intro sl
    have := orderWith_split d sl names []
    rwa [List.append_nil] at this
  have hput : ∀ v, editedOrder names d (ins.put none v) = orderHead d ins.slot names ++ v.map .new := by
    intro v
    unfold editedOrder
    rw [hend, orderHead_congr (g := ins.slot) names (fun n _ => by rw [slot_put]; simp), slot_put]
    simp
  unfold insertEnd
  rw [insertInto_pass c1 c2 c3]
  cases hat : ins.at? none with
  | none =>
    simp only
    refine ⟨_, rfl, ?_⟩
    rw [hput]
    unfold editedOrder
    rw [hend, at_none_slot hat]
    simp
  | some l =>
    have h1 : new.length ≤ 1 := hone.resolve_left (by simp [hat])
    have hrev : new.reverse = new := by
      match new, h1 with
      | [], _ => rfl
      | [x], _ => rfl
    simp only [if_true]
    refine ⟨_, rfl, ?_⟩
    rw [hput, hrev]
    unfold editedOrder
    rw [hend, (at_some_key hat).2]
    simp

/-- Deleting a field of the input takes exactly it out of the order. -/
theorem C30_delete (names d d' : List String) (ins : Inserted) (name : String) (h : deleteName d name = .ok d') :
    editedOrder names d' ins = (editedOrder names d ins).filter (fun i => i ≠ .old name) := by
  unfold deleteName at h
  split at h
  · cases h
  · cases h
    unfold editedOrder
    have hk : ∀ n, kept (d ++ [name]) n = (kept d n).filter (fun i => i ≠ .old name) := by
      intro n
      unfold kept
      by_cases h1 : n ∈ d
      · simp [h1]
      · by_cases h2 : n = name
        · subst h2; simp [h1]
        · simp [h1, h2]
    have hnew : ∀ l : List New, (l.map Item.new).filter (fun i => i ≠ .old name) = l.map Item.new := by
      intro l
      rw [List.filter_eq_self]
      intro i hi
      obtain ⟨n, -, rfl⟩ := List.mem_map.1 hi
      simp
    induction names with
    | nil => simp only [orderWith, hnew]
    | cons n names ih => simp only [orderWith, List.filter_append, hnew, ih, hk]

/-- No two fields of an edited set have the same name. -/
theorem C30_names_unique (names d : List String) (hn : names.Nodup) (ins : Inserted) (hE : Edited names d ins) :
    ((editedOrder names d ins).map Item.name).Nodup := by
  have key : (names.filter (fun n => n ∉ d) ++ insertedNames ins).Nodup := by
    induction hE with
    | start => simpa [insertedNames] using hn
    | @delete d ins d' name hE hd ih =>
      unfold deleteName at hd
      split at hd
      · cases hd
      · cases hd
        refine ih.sublist (List.Sublist.append_right ?_ _)
        have : names.filter (fun n => decide (n ∉ d ++ [name]))
            = (names.filter (fun n => decide (n ∉ d))).filter (fun n => decide (n ≠ name)) := by
          rw [List.filter_filter]
          apply List.filter_congr
          intro x _
          by_cases h1 : x ∈ d <;> by_cases h2 : x = name <;> simp [h1, h2]
        rw [this]
        exact List.filter_sublist
    | before key new hE hi ih => exact step hn (edited_insOk hE) hi ih
    | after key new hE hi ih => exact step hn (edited_insOk hE) hi ih
    | last new hE hi ih => exact step hn (edited_insOk hE) hi ih
  exact (order_perm hn (edited_insOk hE)).nodup_iff.2 key
where
  /-- The inserted names are among the old ones and the new ones, each once. -/
  step {names d : List String} (hn : names.Nodup) {ins ins' : Inserted} {key : Option String} {new : List New}
      {next : Bool} (hok : InsOk names ins) (h : insertInto names d ins key new next = .ok ins')
      (ih : (names.filter (fun n => n ∉ d) ++ insertedNames ins).Nodup) :
      (names.filter (fun n => n ∉ d) ++ insertedNames ins').Nodup := by
    have hc := insertInto_checks h
    obtain ⟨lost, hlost⟩ := sub hn hok h
    have hall : (names.filter (fun n => n ∉ d) ++ (insertedNames ins ++ new.map (·.name))).Nodup := by
      rw [← List.append_assoc, List.nodup_append]
      refine ⟨ih, hc.1, ?_⟩
      intro a ha b hb e
      subst e
      obtain ⟨n, hm, rfl⟩ := List.mem_map.1 hb
      rcases List.mem_append.1 ha with ha | ha
      · simp only [List.mem_filter, decide_eq_true_eq] at ha
        exact hc.2.1 n hm ha
      · exact hc.2.2 n hm ha
    have h2 := (List.Perm.append_left (names.filter (fun n => n ∉ d)) hlost).nodup_iff.1 hall
    rw [← List.append_assoc, List.nodup_append] at h2
    exact h2.1
  sub {names d : List String} (hn : names.Nodup) {ins ins' : Inserted} {key : Option String} {new : List New}
      {next : Bool} (hok : InsOk names ins) (h : insertInto names d ins key new next = .ok ins') :
      ∃ lost, (insertedNames ins ++ new.map (·.name)).Perm (insertedNames ins' ++ lost) := by
    have hok' := insOk_insert hok h
    have hc := insertInto_checks h
    rw [insertInto_pass hc.1 hc.2.1 hc.2.2] at h
    have hp : ∀ {k v} , (∃ lost, (ins.slot k ++ new).Perm (v ++ lost)) → k = none ∨ (∃ n ∈ names, k = some n) →
        ins' = ins.put k v → ∃ lost, (insertedNames ins ++ new.map (·.name)).Perm (insertedNames ins' ++ lost) := by
      intro k v hv hk e
      subst e
      refine change hn hok hok' hk (fun x hx => by rw [slot_put, if_neg hx]) ?_
      rw [slot_put, if_pos rfl]
      exact hv
    cases hat : ins.at? key with
    | some l =>
      rw [hat] at h
      obtain ⟨h1, h2⟩ := at_some_key hat
      simp only at h
      split at h
      · exact hp (v := l ++ new.reverse) ⟨[], by rw [h2, List.append_nil]; exact List.Perm.append_left l (List.reverse_perm new).symm⟩
          (hok.keys _ h1) (by cases h; rfl)
      · exact hp (v := new ++ l) ⟨[], by rw [h2, List.append_nil]; exact List.perm_append_comm⟩ (hok.keys _ h1) (by cases h; rfl)
    | none =>
      rw [hat] at h
      cases key with
      | none =>
        exact hp (v := new) ⟨[], by rw [at_none_slot hat]; simp⟩ (Or.inl rfl) (by cases h; rfl)
      | some key =>
        simp only at h
        cases hin : insertInside ins key new next with
        | some r =>
          rw [hin] at h
          cases h
          obtain ⟨-, k, hk, l1, n, l2, a1, a2, a3⟩ := insertInside_spec hok.nodup hin
          refine change hn hok hok' (hok.keys k hk) (fun x hx => by rw [a3, if_neg hx]) ⟨[], ?_⟩
          rw [a3, if_pos rfl, a2, List.append_nil]
          split
          · simp only [List.append_assoc, List.cons_append]
            exact List.Perm.append_left l1 (List.Perm.cons n List.perm_append_comm)
          · simp only [List.append_assoc, List.cons_append]
            refine List.Perm.append_left l1 ?_
            rw [← List.cons_append]
            exact List.perm_append_comm
        | none =>
          rw [hin] at h
          simp only at h
          split at h
          · split at h
            · cases h
            · split at h
              · cases h
              · rename_i k' hk'
                exact hp (v := new) ⟨ins.slot (some k'), List.perm_append_comm⟩ (Or.inr ⟨k', List.mem_of_getElem? hk', rfl⟩)
                  (by cases h; rfl)
          · split at h
            · rename_i hm
              exact hp (v := new) ⟨[], by rw [at_none_slot hat]; simp⟩ (Or.inr ⟨key, hm, rfl⟩) (by cases h; rfl)
            · cases h
  change {names : List String} (hn : names.Nodup) {ins ins' : Inserted} {k : Option String} {new : List New}
      (hok : InsOk names ins) (hok' : InsOk names ins') (hk : k = none ∨ ∃ n ∈ names, k = some n)
      (hx : ∀ x, x ≠ k → Inserted.slot ins' x = ins.slot x)
      (hv : ∃ lost, (ins.slot k ++ new).Perm (Inserted.slot ins' k ++ lost)) :
      ∃ lost, (insertedNames ins ++ new.map (·.name)).Perm (insertedNames ins' ++ lost) := by
    have hks : (names.map some ++ [none]).Nodup := by
      rw [List.nodup_append]
      refine ⟨List.Nodup.map (fun a b e => by simpa using e) hn, by simp, ?_⟩
      intro a ha b hb
      obtain ⟨x, -, rfl⟩ := List.mem_map.1 ha
      simp only [List.mem_singleton] at hb
      subst hb
      simp
    have hmem : ∀ x : Option String, (x = none ∨ ∃ n ∈ names, x = some n) → x ∈ names.map some ++ [none] := by
      rintro x (rfl | ⟨n, hm, rfl⟩)
      · simp
      · simp [hm]
    have p1 := slots_perm _ hks ins hok.nodup fun x h => hmem x (hok.keys x h)
    have p2 := slots_perm _ hks ins' hok'.nodup fun x h => hmem x (hok'.keys x h)
    have hperm := List.perm_cons_erase (hmem k hk)
    have hnk : k ∉ (names.map some ++ [none]).erase k := fun h => (List.Nodup.mem_erase_iff hks).1 h |>.1 rfl
    have q1 := (hperm.flatMap_right ins.slot).symm.trans p1
    have q2 := (hperm.flatMap_right (Inserted.slot ins')).symm.trans p2
    rw [List.flatMap_cons] at q1 q2
    have hcongr : ((names.map some ++ [none]).erase k).flatMap (Inserted.slot ins')
        = ((names.map some ++ [none]).erase k).flatMap ins.slot := by
      apply List.flatMap_congr
      intro x hm
      exact hx x fun e => hnk (e ▸ hm)
    rw [hcongr] at q2
    obtain ⟨R, hR⟩ : ∃ R, ((names.map some ++ [none]).erase k).flatMap ins.slot = R := ⟨_, rfl⟩
    rw [hR] at q1 q2
    obtain ⟨lost, hl⟩ := hv
    refine ⟨lost.map New.name, ?_⟩
    have e1 : insertedNames ins = (ins.flatMap (·.2)).map New.name := by simp [insertedNames, List.map_flatMap]
    have e2 : insertedNames ins' = (ins'.flatMap (·.2)).map New.name := by simp [insertedNames, List.map_flatMap]
    rw [e1, e2, ← List.map_append, ← List.map_append]
    apply List.Perm.map
    refine (List.Perm.append_right new q1.symm).trans ?_
    refine List.Perm.trans ?_ (List.Perm.append_right lost q2)
    have s1 : (ins.slot k ++ R ++ new).Perm (ins.slot k ++ new ++ R) := by
      rw [List.append_assoc, List.append_assoc]
      exact List.Perm.append_left _ List.perm_append_comm
    have s2 : (Inserted.slot ins' k ++ lost ++ R).Perm (Inserted.slot ins' k ++ R ++ lost) := by
      rw [List.append_assoc, List.append_assoc]
      exact List.Perm.append_left _ List.perm_append_comm
    exact s1.trans ((List.Perm.append_right R hl).trans s2)

/-! ## Examples and counterexamples -/

/-- A new integer. -/
def nf (name : String) : New := newInteger name false 8 0

/-- Insertions around different fields. -/
example : ∃ ins, Edited ["a", "b", "c"] ["a"] ins ∧ (editedOrder ["a", "b", "c"] ["a"] ins).map Item.name
      = ["x", "y", "b", "z", "w", "c", "e"] := by
  refine ⟨[(some "a", [nf "x", nf "y"]), (some "c", [nf "z", nf "w"]), (none, [nf "e"])], ?_, by decide +kernel⟩
  have s1 := Edited.before (names := ["a", "b", "c"]) (d := []) (ins := [])
    (ins' := [(some "a", [nf "x"])]) "a" [nf "x"] .start (by decide +kernel)
  have s2 := Edited.after (ins' := [(some "a", [nf "x"]), (some "c", [nf "w"])]) "b" [nf "w"] s1 (by decide +kernel)
  have s3 := Edited.before (ins' := [(some "a", [nf "x"]), (some "c", [nf "z", nf "w"])]) "w" [nf "z"] s2 (by decide +kernel)
  have s4 := Edited.last (ins' := [(some "a", [nf "x"]), (some "c", [nf "z", nf "w"]), (none, [nf "e"])]) [nf "e"] s3
    (by decide +kernel)
  have s5 := Edited.after (ins' := [(some "a", [nf "x", nf "y"]), (some "c", [nf "z", nf "w"]), (none, [nf "e"])])
    "x" [nf "y"] s4 (by decide +kernel)
  exact Edited.delete "a" s5 (by decide +kernel)

/-- A second insertAfter for the same field loses the fields of the first. -/
theorem C30_after_twice_loses (x y : New) (hx : x.name = "x") (hy : y.name = "y") :
    ∃ i1 i2, insertAfter ["a", "b"] [] [] "a" [x] = .ok i1 ∧ insertAfter ["a", "b"] [] i1 "a" [y] = .ok i2 ∧
      (editedOrder ["a", "b"] [] i1) = [.old "a", .new x, .old "b"] ∧
      (editedOrder ["a", "b"] [] i2) = [.old "a", .new y, .old "b"] := by
  refine ⟨[(some "b", [x])], [(some "b", [y])], ?_, ?_, ?_, ?_⟩ <;>
    simp [insertAfter, insertInto, insertedNames, Inserted.at?, insertInside, Inserted.put, hx, hy, editedOrder,
      orderWith, Inserted.slot, kept, List.findIdx?_cons]

/-- insertAfter for a field with insertions before it places the fields before it, in
reverse order. -/
theorem C30_after_becomes_before :
    ∃ i1 i2, insertBefore ["a", "b"] [] [] "a" [nf "x"] = .ok i1 ∧
      insertAfter ["a", "b"] [] i1 "a" [nf "y", nf "z"] = .ok i2 ∧
      (editedOrder ["a", "b"] [] i2).map Item.name = ["x", "z", "y", "a", "b"] :=
  ⟨[(some "a", [nf "x"])], [(some "a", [nf "x", nf "z", nf "y"])], by decide +kernel, by decide +kernel, by decide +kernel⟩

/-- A second insertBefore for the same field does not place directly before it. -/
theorem C30_before_twice :
    ∃ i1 i2, insertBefore ["a", "b"] [] [] "b" [nf "x"] = .ok i1 ∧
      insertBefore ["a", "b"] [] i1 "b" [nf "y"] = .ok i2 ∧
      (editedOrder ["a", "b"] [] i2).map Item.name = ["a", "y", "x", "b"] :=
  ⟨[(some "b", [nf "x"])], [(some "b", [nf "y", nf "x"])], by decide +kernel, by decide +kernel, by decide +kernel⟩

/-- A second insert at the end of several fields reverses them. -/
theorem C30_end_reversed :
    ∃ i1 i2, insertEnd ["a"] [] [] [nf "x"] = .ok i1 ∧ insertEnd ["a"] [] i1 [nf "y", nf "z"] = .ok i2 ∧
      (editedOrder ["a"] [] i2).map Item.name = ["a", "x", "z", "y"] :=
  ⟨[(none, [nf "x"])], [(none, [nf "x", nf "z", nf "y"])], by decide +kernel, by decide +kernel, by decide +kernel⟩

/-- insertAfter for the last field fails, whatever is inserted. -/
theorem C30_after_last_fails (names : List String) (key : String) (hn : (names ++ [key]).Nodup) (new : List New)
    (h : NewNames (editedOrder (names ++ [key]) [] []) new) :
    insertAfter (names ++ [key]) [] [] key new = .error .missingField := by
  obtain ⟨c1, c2, c3⟩ := newNames_checks hn (edited_insOk .start) h
  unfold insertAfter
  rw [insertInto_pass c1 c2 c3]
  simp only [Inserted.at?, List.find?_nil, Option.map_none, insertInside, if_true]
  have hidx : (names ++ [key]).findIdx? (· == key) = some names.length := by
    rw [List.findIdx?_eq_some_iff_getElem]
    refine ⟨by simp, by simp, ?_⟩
    intro j hj
    have : (names ++ [key])[j]'(by simp; omega) = names[j] := by simp [List.getElem_append, hj]
    simp only [this, beq_iff_eq]
    intro e
    rw [List.nodup_append] at hn
    exact hn.2.2 names[j] (List.getElem_mem hj) key (by simp) e
  simp [hidx]

/-- The deletion of an inserted field is accepted and has no effect. -/
theorem C30_delete_inserted_ignored :
    ∃ i1 d, insertEnd ["a"] [] [] [nf "x"] = .ok i1 ∧ deleteName [] "x" = .ok d ∧
      (editedOrder ["a"] d i1).map Item.name = ["a", "x"] :=
  ⟨[(none, [nf "x"])], ["x"], by decide +kernel, by decide +kernel, by decide +kernel⟩

end Hachoir.Props
