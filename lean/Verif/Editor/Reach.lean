import Verif.Editor.Content

/-!
# The invariant holds for every editor after every sequence of edits
-/

set_option linter.unusedVariables false
set_option linter.unusedSimpArgs false

namespace Hachoir.Editor
open Hachoir Hachoir.Stream Spec

mutual
/-- A field tree as the parser gives it: the fields of a set follow each other and
fill it, have different names, lie in the file; all sets have the same endian. -/
def GoodTree (e : Endian) (data : Bytes) : Tree → Prop
  | .leaf n a z k => a + z ≤ 8 * data.length ∧ (k = .character → z = 8) ∧ (k = .mac32 → z = 32)
  | .set n a z e' kids => e' = e ∧ a + z ≤ 8 * data.length ∧ ((kids.map Tree.orig).map (·.name)).Nodup ∧
      Tile (kids.map Tree.orig) a (a + z) ∧ GoodTrees e data kids

/-- The same for several. -/
def GoodTrees (e : Endian) (data : Bytes) : List Tree → Prop
  | [] => True
  | t :: ts => GoodTree e data t ∧ GoodTrees e data ts
end

theorem inputGet_mem {l : List Orig} (hn : (l.map (·.name)).Nodup) {o : Orig} (ho : o ∈ l) :
    inputGet (some l) o.name = .ok o := by
  have : l.find? (fun x => x.name == o.name) = some o := by
    induction l with
    | nil => cases ho
    | cons a l ih =>
      simp only [List.map_cons, List.nodup_cons] at hn
      rcases List.mem_cons.1 ho with rfl | ho
      · simp
      · have : a.name ≠ o.name := by
          intro h; exact hn.1 (by rw [h]; exact List.mem_map_of_mem ho)
        rw [List.find?_cons_of_neg (by simpa using this)]
        exact ih hn.2 ho
  simp [inputGet, this]

mutual
theorem create_good {e : Endian} {data : Bytes} {inp : Inp} : (t : Tree) → GoodTree e data t →
    ((∃ n a z e' kids, t = .set n a z e' kids) ∨ inputGet inp t.orig.name = .ok t.orig) →
    Good e data inp t.orig (createEditor t)
  | .leaf n a z k => by
    intro h hi
    have hi : inputGet inp n = .ok ⟨n, a, z⟩ := by
      rcases hi with ⟨_, _, _, _, _, hh⟩ | hi
      · cases hh
      · exact hi
    simp only [GoodTree] at h
    simp only [createEditor, Good, Tree.orig]
    refine ⟨trivial, hi, h.1, ?_, ?_, ?_⟩
    · unfold SizeOk
      cases k <;> simp [initSize]
    · intro _
      unfold Fresh
      refine ⟨rfl, ?_⟩
      cases k <;> simp [initSize]
      · exact (h.2.1 rfl).symm
      · exact (h.2.2 rfl).symm
    · intro hh; simp at hh
  | .set n a z e' kids => by
    intro h _
    simp only [GoodTree] at h
    obtain ⟨h1, h2, h3, h4, h5⟩ := h
    simp only [createEditor, Good, Tree.orig]
    refine ⟨trivial, h1, h2, h3, h4, ?_, by simp⟩
    have hx := createKids_good (inp := some (kids.map Tree.orig)) kids h5 (fun t ht =>
      inputGet_mem h3 (List.mem_map_of_mem ht))
    simpa using hx

theorem createKids_good {e : Endian} {data : Bytes} {inp : Inp} : (ts : List Tree) → GoodTrees e data ts →
    (∀ t ∈ ts, inputGet inp t.orig.name = .ok t.orig) →
    GoodKids e data inp (ts.map Tree.orig) (ts.map createEditor)
  | [] => by intro _ _; simp [GoodKids]
  | t :: ts => by
    intro h hi
    simp only [GoodTrees] at h
    simp only [List.map_cons, GoodKids]
    exact ⟨create_good t h.1 (Or.inr (hi t (by simp))),
      createKids_good ts h.2 (fun t ht => hi t (by simp [ht]))⟩
end

/-! ## Edits -/

/-- The new fields of an edit carry values. -/
def GoodOp : Op → Prop
  | .insertBefore _ new | .insertAfter _ new | .insert new => ∀ n ∈ new, GoodNew n
  | _ => True

theorem setValue_good {e : Endian} {data : Bytes} {inp : Inp} {o : Orig} {f f' : EField} {v : Value}
    (h : Good e data inp o (.field f)) (hs : setValue f v = .ok f') : Good e data inp o (.field f') := by
  have key : f' = { f with value := some v, altered := true } ∧
      Fits { f with value := some v, altered := true } := by
    simp only [Good] at h
    obtain ⟨h1, h2, h3, h4, h5, h6⟩ := h
    obtain ⟨name, kind, fs, value, altered⟩ := f
    unfold setValue at hs
    cases kind with
    | integer signed =>
      cases v with
      | bytes b => cases hs
      | int i =>
        simp only at hs
        split at hs
        · cases hs
        · rename_i lo hi hr
          split at hs
          · rename_i hc
            cases hs
            refine ⟨rfl, ?_⟩
            unfold validRange at hr
            simp only [Fits]
            cases signed with
            | true =>
              simp only [if_true] at hr
              refine ⟨?_, by simp⟩
              repeat' split at hr
              all_goals first | omega | cases hr
            | false =>
              simp only [Bool.false_eq_true, if_false] at hr
              split at hr
              · rename_i hfs; subst hfs; cases hr; exact ⟨rfl, fun _ => ⟨hc.1, by omega⟩⟩
              split at hr
              · rename_i hfs; subst hfs; cases hr; exact ⟨rfl, fun _ => ⟨hc.1, by omega⟩⟩
              split at hr
              · rename_i hfs; subst hfs; cases hr; exact ⟨rfl, fun _ => ⟨hc.1, by omega⟩⟩
              · cases hr
          · cases hs
    | bits =>
      cases v with
      | bytes b => cases hs
      | int i =>
        simp only at hs
        split at hs
        · rename_i hc; cases hs; exact ⟨rfl, hc⟩
        · cases hs
    | mac32 =>
      cases v with
      | bytes b => cases hs
      | int i =>
        simp only at hs
        split at hs
        · rename_i hc
          cases hs
          simp only [SizeOk] at h4
          refine ⟨rfl, ?_⟩
          simp only [Fits, h4]
          omega
        · cases hs
    | bytes =>
      cases v with
      | int i => cases hs
      | bytes b =>
        simp only at hs
        split at hs
        · cases hs
        · cases hs; exact ⟨rfl, trivial⟩
    | suffixed s =>
      cases v with
      | int i => cases hs
      | bytes b => cases hs; exact ⟨rfl, trivial⟩
    | fixed =>
      cases v with
      | int i => cases hs
      | bytes b => cases hs; exact ⟨rfl, trivial⟩
    | pascal p =>
      cases v with
      | int i => cases hs
      | bytes b =>
        simp only at hs
        split at hs
        · cases hs
        · rename_i hc
          cases hs
          refine ⟨rfl, ?_⟩
          simp only [Fits]
          have : 0 < 256 ^ p := Nat.pow_pos (by omega)
          unfold pascalMax at hc
          omega
    | character =>
      cases v with
      | int i => cases hs
      | bytes b =>
        simp only at hs
        split at hs
        · rename_i hc
          cases hs
          simp only [SizeOk] at h4
          exact ⟨rfl, hc, h4⟩
        · cases hs
    | other => cases v <;> cases hs
  obtain ⟨rfl, hf⟩ := key
  simp only [Good] at h ⊢
  obtain ⟨h1, h2, h3, h4, h5, h6⟩ := h
  exact ⟨h1, h2, h3, h4, by simp, fun _ => hf⟩

theorem put_mem {ins : Inserted} {key : Option String} {v : List New} {p : Option String × List New}
    (h : p ∈ ins.put key v) : p ∈ ins ∨ p.2 = v := by
  unfold Inserted.put at h
  split at h
  · obtain ⟨q, hq, rfl⟩ := List.mem_map.1 h
    split
    · right; rfl
    · left; exact hq
  · rcases List.mem_append.1 h with h | h
    · left; exact h
    · simp at h; right; rw [h]

theorem insertInside_mem {ins ins' : Inserted} {key : String} {new : List New} {next : Bool}
    (h : insertInside ins key new next = some ins') :
    ∀ p ∈ ins', ∀ n ∈ p.2, n ∈ new ∨ ∃ q ∈ ins, n ∈ q.2 := by
  induction ins generalizing ins' with
  | nil => simp [insertInside] at h
  | cons a rest ih =>
    obtain ⟨k, l⟩ := a
    simp only [insertInside] at h
    split at h
    · rename_i pos hpos
      simp only [Option.some.injEq] at h
      subst h
      intro p hp n hn
      rcases List.mem_cons.1 hp with rfl | hp
      · simp only [List.mem_append] at hn
        have : n ∈ new ++ (l.drop (if next then pos + 1 else pos) ++ l.take (if next then pos + 1 else pos)) := by
          rcases hn with hn | hn
          · exact List.mem_of_mem_drop hn
          · exact List.mem_of_mem_take hn
        simp only [List.mem_append] at this
        rcases this with h1 | h1 | h1
        · left; exact h1
        · right; exact ⟨(k, l), by simp, List.mem_of_mem_drop h1⟩
        · right; exact ⟨(k, l), by simp, List.mem_of_mem_take h1⟩
      · right; exact ⟨p, by simp [hp], hn⟩
    · cases hr : insertInside rest key new next with
      | none => simp [hr] at h
      | some r =>
        simp only [hr, Option.map_some, Option.some.injEq] at h
        subst h
        intro p hp n hn
        rcases List.mem_cons.1 hp with rfl | hp
        · right; exact ⟨(k, l), by simp, hn⟩
        · rcases ih hr p hp n hn with h1 | ⟨q, hq, h1⟩
          · left; exact h1
          · right; exact ⟨q, by simp [hq], h1⟩

theorem insertInto_mem {names deleted : List String} {ins ins' : Inserted} {key : Option String} {new : List New}
    {next : Bool} (h : insertInto names deleted ins key new next = .ok ins') :
    ∀ p ∈ ins', ∀ n ∈ p.2, n ∈ new ∨ ∃ q ∈ ins, n ∈ q.2 := by
  have put_case : ∀ (k : Option String) (v : List New), (∀ n ∈ v, n ∈ new ∨ ∃ q ∈ ins, n ∈ q.2) →
      ins.put k v = ins' → ∀ p ∈ ins', ∀ n ∈ p.2, n ∈ new ∨ ∃ q ∈ ins, n ∈ q.2 := by
    intro k v hv he p hp n hn
    subst he
    rcases put_mem hp with h1 | h1
    · right; exact ⟨p, h1, hn⟩
    · rw [h1] at hn; exact hv n hn
  unfold insertInto at h
  simp only at h
  split at h
  · cases h
  split at h
  · cases h
  split at h
  · cases h
  split at h
  · rename_i l hl
    have hslot : ∀ n ∈ l, ∃ q ∈ ins, n ∈ q.2 := by
      intro n hn
      exact slot_mem (key := key) (by simp [Inserted.slot, hl, hn])
    split at h
    · exact put_case _ _ (by
        intro n hn
        rcases List.mem_append.1 hn with hn | hn
        · right; exact hslot n hn
        · left; exact List.mem_reverse.1 hn) (Except.ok.inj h)
    · exact put_case _ _ (by
        intro n hn
        rcases List.mem_append.1 hn with hn | hn
        · left; exact hn
        · right; exact hslot n hn) (Except.ok.inj h)
  · split at h
    · exact put_case _ _ (fun n hn => Or.inl hn) (Except.ok.inj h)
    · split at h
      · rename_i hi
        cases h
        exact insertInside_mem hi
      · split at h
        · split at h
          · cases h
          · split at h
            · cases h
            · exact put_case _ _ (fun n hn => Or.inl hn) (Except.ok.inj h)
        · split at h
          · exact put_case _ _ (fun n hn => Or.inl hn) (Except.ok.inj h)
          · cases h

theorem applyOp_good {e : Endian} {data : Bytes} {inp : Inp} {o : Orig} {op : Op} (hop : GoodOp op) {t t' : Edit}
    (h : Good e data inp o t) (ha : applyOp op t = .ok t') : Good e data inp o t' := by
  cases t with
  | field f =>
    cases op with
    | setValue v =>
      simp only [applyOp] at ha
      cases hs : setValue f v with
      | error er => simp [hs, Except.map] at ha
      | ok f' =>
        simp only [hs, Except.map, Except.ok.injEq] at ha
        subst ha
        exact setValue_good h hs
    | _ => cases ha
  | set n a z e' orig kids deleted ins =>
    have hins : ∀ {key : Option String} {new : List New} {next : Bool} {i : Inserted}, (∀ n ∈ new, GoodNew n) →
        insertInto (orig.map (·.name)) deleted ins key new next = .ok i →
        Good e data inp o (.set n a z e' orig kids deleted i) := by
      intro key new next i hn hi
      simp only [Good] at h ⊢
      obtain ⟨h1, h2, h3, h4, h5, h6, h7⟩ := h
      refine ⟨h1, h2, h3, h4, h5, h6, fun p hp m hm => ?_⟩
      rcases insertInto_mem hi p hp m hm with hx | ⟨q, hq, hx⟩
      · exact hn m hx
      · exact h7 q hq m hx
    cases op with
    | setValue v => cases ha
    | delete name =>
      simp only [applyOp] at ha
      cases hd : deleteName deleted name with
      | error er => simp [hd, Except.map] at ha
      | ok d =>
        simp only [hd, Except.map, Except.ok.injEq] at ha
        subst ha
        simpa only [Good] using h
    | insertBefore key new =>
      simp only [applyOp] at ha
      cases hd : insertBefore (orig.map (·.name)) deleted ins key new with
      | error er => simp [hd, Except.map] at ha
      | ok i =>
        simp only [hd, Except.map, Except.ok.injEq] at ha
        subst ha
        exact hins hop hd
    | insertAfter key new =>
      simp only [applyOp] at ha
      cases hd : insertAfter (orig.map (·.name)) deleted ins key new with
      | error er => simp [hd, Except.map] at ha
      | ok i =>
        simp only [hd, Except.map, Except.ok.injEq] at ha
        subst ha
        exact hins hop hd
    | insert new =>
      simp only [applyOp] at ha
      cases hd : insertEnd (orig.map (·.name)) deleted ins new with
      | error er => simp [hd, Except.map] at ha
      | ok i =>
        simp only [hd, Except.map, Except.ok.injEq] at ha
        subst ha
        exact hins hop hd

theorem updateKid_good {e : Endian} {data : Bytes} {inp : Inp} {name : String} {g : Edit → Except PyErr Edit}
    (hg : ∀ o t t', Good e data inp o t → g t = .ok t' → Good e data inp o t') :
    ∀ (kids : List Edit) (os : List Orig) (kids' : List Edit), GoodKids e data inp os kids →
      updateKid name g kids = .ok kids' → GoodKids e data inp os kids' := by
  intro kids
  induction kids with
  | nil => intro os kids' _ h; cases h
  | cons k ks ih =>
    intro os kids' h hu
    cases os with
    | nil => simp [GoodKids] at h
    | cons o os =>
      simp only [GoodKids] at h
      simp only [updateKid] at hu
      split at hu
      · cases hk : g k with
        | error er => simp [hk, Except.map] at hu
        | ok k' =>
          simp only [hk, Except.map, Except.ok.injEq] at hu
          subst hu
          simp only [GoodKids]
          exact ⟨hg o k k' h.1 hk, h.2⟩
      · cases hk : updateKid name g ks with
        | error er => simp [hk, Except.map] at hu
        | ok ks' =>
          simp only [hk, Except.map, Except.ok.injEq] at hu
          subst hu
          simp only [GoodKids]
          exact ⟨h.1, ih os ks' h.2 hk⟩

theorem editAt_good {e : Endian} {data : Bytes} {op : Op} (hop : GoodOp op) (path : List String) :
    ∀ (inp : Inp) (o : Orig) (t t' : Edit), Good e data inp o t → editAt path op t = .ok t' →
      Good e data inp o t' := by
  induction path with
  | nil => intro inp o t t' h ha; exact applyOp_good hop h ha
  | cons name path ih =>
    intro inp o t t' h ha
    cases t with
    | field f => cases ha
    | set n a z e' orig kids deleted ins =>
      simp only [editAt] at ha
      split at ha
      · cases ha
      · cases hk : updateKid name (editAt path op) kids with
        | error er => simp [hk, Except.map] at ha
        | ok kids' =>
          simp only [hk, Except.map, Except.ok.injEq] at ha
          subst ha
          simp only [Good] at h ⊢
          obtain ⟨h1, h2, h3, h4, h5, h6, h7⟩ := h
          exact ⟨h1, h2, h3, h4, h5, updateKid_good (fun o t t' => ih (some orig) o t t') kids orig kids' h6 hk, h7⟩

theorem edits_good {e : Endian} {data : Bytes} {inp : Inp} {o : Orig} (hist : List (List String × Op))
    (hops : ∀ p ∈ hist, GoodOp p.2) (t : Edit) (h : Good e data inp o t) : Good e data inp o (edits t hist) := by
  induction hist generalizing t with
  | nil => exact h
  | cons p hist ih =>
    obtain ⟨path, op⟩ := p
    simp only [edits]
    have hr := fun q hq => hops q (List.mem_cons_of_mem _ hq)
    split
    · exact ih hr t h
    · rename_i t' ht
      exact ih hr t' (editAt_good (hops (path, op) (by simp)) path inp o t t' h ht)

end Hachoir.Editor
