import Verif.Field.Replace
import Verif.Props.FieldSet
import Verif.Props.Tools

/-!
# Properties C23 and C24: fields by address, replacing fields
-/

set_option linter.unusedVariables false

namespace Hachoir.Props
open Hachoir Hachoir.FieldSet

variable {A : Name → Prop}

/-- The bit `a` (relative to the field set) belongs to the field. -/
def Holds (f : Fld) (a : Int) : Prop := (f.addr : Int) ≤ a ∧ a < ((f.addr + f.size : Nat) : Int)

/-! ### C23 -/

theorem tiled_of_contiguous {l : List Fld} (h : Contiguous l) : Tiled l 0 ((l.map Fld.size).sum) := by
  have key : ∀ (l : List Fld) (a : Nat),
      (∀ i f, l[i]? = some f → f.addr = a + ((l.take i).map Fld.size).sum) → Tiled l a (a + (l.map Fld.size).sum) := by
    intro l
    induction l with
    | nil => intro a h; simp [Tiled]
    | cons x r ih =>
      intro a h
      refine ⟨by simpa using h 0 x rfl, ?_⟩
      have := ih (a + x.size) (fun i f hf => by
        have := h (i + 1) f (by simpa using hf)
        simp only [List.take_succ_cons, List.map_cons, List.sum_cons] at this; omega)
      simp only [List.map_cons, List.sum_cons]
      rw [← Nat.add_assoc]
      exact this
  have := key l 0 (fun i f hf => by simpa using h i f hf)
  simpa using this

theorem tiled_index {l : List Fld} {a b : Nat} (h : Tiled l a b) {i j : Nat} {f g : Fld} (hi : l[i]? = some f)
    (hj : l[j]? = some g) (hij : i < j) : f.addr + f.size ≤ g.addr := by
  induction l generalizing a i j with
  | nil => simp at hi
  | cons x r ih =>
    cases i with
    | zero =>
      simp at hi; subst hi
      cases j with
      | zero => omega
      | succ j =>
        simp at hj
        have := (tiled_addr h.2 g (List.mem_of_getElem? hj)).1
        have := h.1
        omega
    | succ i =>
      cases j with
      | zero => omega
      | succ j => exact ih h.2 (by simpa using hi) (by simpa using hj) (by omega)

theorem tiled_finds {l : List Fld} {a b : Nat} (h : Tiled l a b) {x : Nat} (ha : a ≤ x) (hb : x < b) :
    ∃ (i : Nat) (f : Fld), l[i]? = some f ∧ f.addr ≤ x ∧ x < f.addr + f.size := by
  induction l generalizing a with
  | nil => simp [Tiled] at h; omega
  | cons y r ih =>
    by_cases hx : x < a + y.size
    · exact ⟨0, y, rfl, by have := h.1; omega, by have := h.1; omega⟩
    · obtain ⟨i, f, h1, h2⟩ := ih h.2 (by omega)
      exact ⟨i + 1, f, by simpa using h1, h2⟩

theorem byAddress_spec (fs : FS) (ht : Tiled fs.fields 0 fs.cur) (a : Int) (ha : 0 ≤ a) :
    ∃ o, byAddress fs a = .ok o ∧
      (∀ f, o = some f → f ∈ fs.fields ∧ Holds f a ∧ ∀ f' ∈ fs.fields, Holds f' a → f' = f) ∧
      (o = none ↔ (fs.cur : Int) ≤ a) := by
  unfold byAddress
  by_cases hc : a < fs.cur
  · rw [if_pos hc]
    obtain ⟨r, h1, h2, h3⟩ := _root_.Props.C16_lowerBound fs.fields (fun x => decide (((x.addr + x.size : Nat) : Int) ≤ a)) (by
      intro i j x y hle hi hj ht'
      simp only [decide_eq_true_eq] at ht' ⊢
      rcases Nat.lt_or_eq_of_le hle with h | h
      · have := tiled_index ht hi hj h
        omega
      · subst h; rw [hi] at hj; injection hj with hj; subst hj; exact ht')
    simp only [h1]
    obtain ⟨x, hx⟩ : ∃ x : Nat, a = x := ⟨a.toNat, by omega⟩
    subst hx
    obtain ⟨i, f, hi, hf1, hf2⟩ := tiled_finds ht (x := x) (by omega) (by omega)
    have hir : i = r := by
      have e1 := h3 i f hi
      simp only [decide_eq_true_eq] at e1
      rcases Nat.lt_trichotomy i r with h | h | h
      · have := e1.mpr h; omega
      · exact h
      · obtain ⟨g, hg⟩ : ∃ g, fs.fields[r]? = some g := by
          have : r < fs.fields.length := by
            have := (List.getElem?_eq_some_iff.mp hi).1; omega
          exact ⟨_, List.getElem?_eq_getElem this⟩
        have e2 := h3 r g hg
        simp only [decide_eq_true_eq] at e2
        have := tiled_index ht hg hi h
        have : ¬ ((g.addr + g.size : Nat) : Int) ≤ x := fun e => by have := e2.mp e; omega
        omega
    subst hir
    rw [hi]
    refine ⟨some f, rfl, ?_, ?_⟩
    · intro f' hf'
      injection hf' with hf'
      subst hf'
      refine ⟨List.mem_of_getElem? hi, ⟨by omega, by omega⟩, ?_⟩
      intro g hg hh
      obtain ⟨j, hj⟩ := List.mem_iff_getElem?.mp hg
      obtain ⟨q1, q2⟩ := hh
      rcases Nat.lt_trichotomy i j with h | h | h
      · have := tiled_index ht hi hj h; omega
      · subst h; rw [hi] at hj; injection hj with hj; exact hj.symm
      · have := tiled_index ht hj hi h; omega
    · simp; omega
  · rw [if_neg hc]
    exact ⟨none, rfl, by simp, by simp; omega⟩

/-- **C23.**  In every state of reading, everywhere in the tree, with automatic
fixing on: `getFieldByAddress(a)` for `a ≥ 0` reads the field set completely
(`t'`) and returns the only field holding bit `a`, or `None` exactly when `a` is
behind the end. -/
theorem C23_field_by_address (fuel : Nat) (z : Nat) (g : Gen) (hg : GoodGen g) (hist : List (List Nat × Op)) (t : FS)
    (ht : InTree (accessesAt fuel true (FSet.new (some z) g) hist).1 t) (s : Nat) (hs : t.size = some s) (ctx : Int)
    (fuel' : Nat) (t' : FS) (r : Fed) (hr : feedAll fuel' true ctx t = (t', r)) (hf : r ≠ .fuel) (a : Int) (ha : 0 ≤ a) :
    ∃ o, getFieldByAddress fuel' true ctx t a true = (t', .ok o) ∧
      (∀ f, o = some f → f ∈ t'.fields ∧ Holds f a ∧ ∀ f' ∈ t'.fields, Holds f' a → f' = f) ∧
      (o = none ↔ (s : Int) ≤ a) := by
  obtain ⟨rfl, h2, h3, h4⟩ := C20_autofix_covers fuel z g hg hist t ht s hs ctx fuel' t' r hr hf
  obtain ⟨A₀, hg⟩ := hg
  obtain ⟨A, hO⟩ := inTree_ok ht (accessesAt_ok fuel true hist _ (Ok.new _ _ hg)).1
  have hF := (feed_ok fuel').2.2 _ true ctx t hO
  rw [hr] at hF
  have hO' := hF.1
  obtain ⟨_, c2⟩ := contiguous_of_ok hO'
  simp only at hO' c2
  obtain ⟨o, e1, e2, e3⟩ := byAddress_spec t' hO'.tiled a ha
  refine ⟨o, ?_, e2, ?_⟩
  · unfold getFieldByAddress
    simp only [if_true, hr, e1]
  · rw [e3, c2, h4]

/-- **C23.**  Without feeding, the search among the fields read so far is right as
well. -/
theorem C23_existing_fields (fuel : Nat) (af : Bool) (z : Nat) (g : Gen) (hg : GoodGen g)
    (hist : List (List Nat × Op)) (t : FS) (ht : InTree (accessesAt fuel af (FSet.new (some z) g) hist).1 t)
    (fuel' : Nat) (ctx : Int) (a : Int) (ha : 0 ≤ a) :
    ∃ o, getFieldByAddress fuel' af ctx t a false = (t, .ok o) ∧
      (∀ f, o = some f → f ∈ t.fields ∧ Holds f a ∧ ∀ f' ∈ t.fields, Holds f' a → f' = f) ∧
      (o = none ↔ ((t.fields.map Fld.size).sum : Int) ≤ a) := by
  obtain ⟨A₀, hg⟩ := hg
  obtain ⟨A, hO⟩ := inTree_ok ht (accessesAt_ok fuel af hist _ (Ok.new _ _ hg)).1
  obtain ⟨o, e1, e2, e3⟩ := byAddress_spec t hO.tiled a ha
  refine ⟨o, ?_, e2, ?_⟩
  · unfold getFieldByAddress
    simp [e1]
  · rw [e3, (contiguous_of_ok hO).2]

/-- Fields of size 0 are skipped. -/
def zeroGen : Gen := listGen [.yield (.leaf "a".toList (.ok 8)), .yield (.leaf "empty".toList (.ok 0)),
  .yield (.leaf "b".toList (.ok 8))]

/-- Field and outcome, for the examples. -/
def found (r : FS × Except Fed (Option Fld)) : Option (Nat × Nat) :=
  match r.2 with
  | .ok (some f) => some (f.addr, f.size)
  | _ => none

example : [0, 7, 8, 15, 16, 39, 40].map (fun a => found (getFieldByAddress 9 true 0 (FSet.new (some 40) zeroGen) a true)) =
    [some (0, 8), some (0, 8), some (8, 8), some (8, 8), some (16, 24), some (16, 24), none] := by decide +kernel

/-- A negative address gives the first field, not `None`. -/
theorem C23_negative_address : found (getFieldByAddress 9 true 0 (FSet.new (some 40) zeroGen) (-5) true) = some (0, 8) := by
  decide +kernel

/-! ### C24 -/

/-- `f'` is the new field `f` under its final name and address. -/
def Renamed (f f' : Fld) : Prop :=
  f' = (f.rename f'.name).place f'.addr ∧
    if isArray f.name then ∃ i, f'.name = indexed (arrayKey f.name) i else f'.name = f.name

theorem place_name (f : Fld) (a : Nat) : (f.place a).name = f.name := by cases f <;> rfl
theorem place_addr (f : Fld) (a : Nat) : (f.place a).addr = a := by cases f <;> rfl
theorem place_size (f : Fld) (a : Nat) : (f.place a).size = f.size := by cases f <;> rfl

theorem Renamed.size {f f' : Fld} (h : Renamed f f') : f'.size = f.size := by
  rw [h.1, place_size, rename_size]

theorem ownName_renamed (counts : List (Name × Nat)) (f : Fld) (a : Nat) :
    Renamed f ((f.rename (ownName counts f.name).1).place a) := by
  refine ⟨?_, ?_⟩
  · rw [place_name, rename_name, place_addr]
  · rw [place_name, rename_name]
    unfold ownName
    split
    · exact ⟨next counts (arrayKey f.name), by rw [uniqueName_eq]⟩
    · rfl

theorem forall₂_split {R : Fld → Fld → Prop} (a b c : List Fld) (h : List.Forall₂ R (a ++ b) c) :
    ∃ c1 c2, List.Forall₂ R a c1 ∧ List.Forall₂ R b c2 ∧ c = c1 ++ c2 := by
  induction a generalizing c with
  | nil => exact ⟨[], c, .nil, h, rfl⟩
  | cons x r ih =>
    cases h with
    | cons h1 h2 =>
      obtain ⟨c1, c2, e1, e2, rfl⟩ := ih _ h2
      exact ⟨_ :: c1, c2, .cons h1 e1, e2, rfl⟩

theorem linsert_append (P Q : List Fld) (f : Fld) : Core.linsert (P ++ Q) P.length f = (P ++ [f]) ++ Q := by
  simp [Core.linsert]

theorem nodup_insert {P Q : List Fld} {f : Fld} (hn : ((P ++ Q).map Fld.name).Nodup)
    (hf : f.name ∉ (P ++ Q).map Fld.name) : (((P ++ [f]) ++ Q).map Fld.name).Nodup := by
  simp only [List.map_append, List.map_cons, List.map_nil, List.append_assoc, List.singleton_append] at *
  rw [List.nodup_append] at *
  obtain ⟨h1, h2, h3⟩ := hn
  simp only [List.mem_append, not_or] at hf
  refine ⟨h1, List.nodup_cons.mpr ⟨hf.2, h2⟩, ?_⟩
  intro a ha b hb
  rcases List.mem_cons.mp hb with rfl | hb
  · rintro rfl; exact hf.1 ha
  · exact h3 a ha b hb

theorem insertLoop_spec (new : List Fld) : ∀ (P Q : List Fld) (counts : List (Name × Nat)) (address : Nat)
    (fields' : List Fld) (counts' : List (Name × Nat)),
    insertLoop (P ++ Q) counts P.length address new = (fields', counts', none) → ((P ++ Q).map Fld.name).Nodup →
    ∃ new', fields' = P ++ new' ++ Q ∧ List.Forall₂ Renamed new new' ∧
      Tiled new' address (address + (new.map Fld.size).sum) ∧ (fields'.map Fld.name).Nodup := by
  induction new with
  | nil =>
    intro P Q counts address fields' counts' h hn
    simp only [insertLoop] at h
    injection h with h1 h2
    subst h1
    exact ⟨[], by simp, .nil, by simp [Tiled], hn⟩
  | cons f rest ih =>
    intro P Q counts address fields' counts' h hn
    rw [insertLoop] at h
    rcases ho : ownName counts f.name with ⟨n, c⟩
    have hR := ownName_renamed counts f address
    rw [ho] at h hR
    simp only at h hR
    split at h
    · injection h with h1 h2; injection h2 with h2 h3; cases h3
    · rename_i hm
      rw [linsert_append] at h
      have hl : (P ++ [(f.rename n).place address]).length = P.length + 1 := by simp
      rw [← hl] at h
      obtain ⟨new', e1, e2, e3, e4⟩ := ih _ Q c _ _ _ h (nodup_insert hn (by rw [place_name, rename_name]; exact hm))
      refine ⟨(f.rename n).place address :: new', by rw [e1]; simp, .cons hR e2, ?_, e4⟩
      refine ⟨place_addr _ _, ?_⟩
      have hsz : ((f.rename n).place address).size = f.size := by rw [place_size, rename_size]
      rw [hsz] at e3 ⊢
      simp only [List.map_cons, List.sum_cons]
      rw [← Nat.add_assoc]
      exact e3

theorem findIdx_split {l : List Fld} {name : Name} {i : Nat} (h : l.findIdx? (fun f => decide (f.name = name)) = some i) :
    ∃ P old Q, l = P ++ old :: Q ∧ P.length = i ∧ old.name = name := by
  rw [List.findIdx?_eq_some_iff_getElem] at h
  obtain ⟨hlt, h1, _⟩ := h
  refine ⟨l.take i, l[i], l.drop (i + 1), ?_, by simp; omega, by simpa using h1⟩
  rw [List.getElem_cons_drop, List.take_append_drop]

theorem set_middle (P Q : List Fld) (a b : Fld) : (P ++ a :: Q).set P.length b = (P ++ [b]) ++ Q := by
  simp

theorem replaceField_split (fs : FS) (P Q : List Fld) (old : Fld) (f : Fld) (rest : List Fld)
    (hf : fs.fields = P ++ old :: Q) (hi : fs.fields.findIdx? (fun f => decide (f.name = old.name)) = some P.length)
    (hs : old.size = ((f :: rest).map Fld.size).sum)
    (hn : ¬ ((ownName fs.counts f.name).1 ≠ old.name ∧ (ownName fs.counts f.name).1 ∈ fs.fields.map Fld.name)) :
    replaceField fs old.name (f :: rest) =
      ({ fs with
          fields := (insertLoop ((P ++ [(f.rename (ownName fs.counts f.name).1).place old.addr]) ++ Q)
            (ownName fs.counts f.name).2 (P ++ [(f.rename (ownName fs.counts f.name).1).place old.addr]).length
            (old.addr + f.size) rest).1
          counts := (insertLoop ((P ++ [(f.rename (ownName fs.counts f.name).1).place old.addr]) ++ Q)
            (ownName fs.counts f.name).2 (P ++ [(f.rename (ownName fs.counts f.name).1).place old.addr]).length
            (old.addr + f.size) rest).2.1 },
        (insertLoop ((P ++ [(f.rename (ownName fs.counts f.name).1).place old.addr]) ++ Q)
            (ownName fs.counts f.name).2 (P ++ [(f.rename (ownName fs.counts f.name).1).place old.addr]).length
            (old.addr + f.size) rest).2.2) := by
  unfold replaceField
  rw [hi]
  have hg : fs.fields[P.length]? = some old := by rw [hf]; simp
  simp only [hg]
  rw [if_neg (by rw [hs]; simp)]
  rcases ho : ownName fs.counts f.name with ⟨n, c⟩
  rw [ho] at hn
  simp only at hn ⊢
  rw [if_neg hn, place_addr, place_size, rename_size, hf, set_middle]
  have hl : (P ++ [(f.rename n).place old.addr]).length = P.length + 1 := by simp
  rw [hl]

/-- **C24.**  If `replaceField` goes through, the field set has the new fields (one
after the other, in order, each with its size and content) in the place of the old
field; all other fields are the same, the field set stays contiguous, with unique
names and the same total size. -/
theorem C24_replace (fs : FS) (hc : Contiguous fs.fields) (hn : (fs.fields.map Fld.name).Nodup) (name : Name)
    (new : List Fld) (fs' : FS) (h : replaceField fs name new = (fs', none)) :
    ∃ before old after new', fs.fields = before ++ old :: after ∧ old.name = name ∧
      fs'.fields = before ++ new' ++ after ∧ List.Forall₂ Renamed new new' ∧
      Contiguous fs'.fields ∧ (fs'.fields.map Fld.name).Nodup ∧
      (fs'.fields.map Fld.size).sum = (fs.fields.map Fld.size).sum ∧
      fs'.cur = fs.cur ∧ fs'.size = fs.size := by
  cases hi : fs.fields.findIdx? (fun f => decide (f.name = name)) with
  | none => unfold replaceField at h; rw [hi] at h; injection h with _ h; cases h
  | some i =>
    obtain ⟨P, old, Q, hf, hl, rfl⟩ := findIdx_split hi
    subst hl
    cases new with
    | nil => unfold replaceField at h; rw [hi] at h; injection h with _ h; cases h
    | cons f rest =>
      have hs : old.size = ((f :: rest).map Fld.size).sum := by
        by_contra hs
        unfold replaceField at h
        rw [hi] at h
        have hg : fs.fields[P.length]? = some old := by rw [hf]; simp
        simp only [hg] at h
        rw [if_pos hs] at h
        injection h with _ h; cases h
      have hnm : ¬ ((ownName fs.counts f.name).1 ≠ old.name ∧ (ownName fs.counts f.name).1 ∈ fs.fields.map Fld.name) := by
        intro hnm
        unfold replaceField at h
        rw [hi] at h
        have hg : fs.fields[P.length]? = some old := by rw [hf]; simp
        simp only [hg] at h
        rw [if_neg (by rw [hs]; simp), if_pos hnm] at h
        injection h with _ h; cases h
      rw [replaceField_split fs P Q old f rest hf hi hs hnm] at h
      have hR := ownName_renamed fs.counts f old.addr
      have hsz := hR.size
      have hnm' := congrArg Fld.name hR.1
      obtain ⟨f0, hf0⟩ : ∃ f0, (f.rename (ownName fs.counts f.name).1).place old.addr = f0 := ⟨_, rfl⟩
      have hname : f0.name = (ownName fs.counts f.name).1 := by rw [← hf0, place_name, rename_name]
      have haddr : f0.addr = old.addr := by rw [← hf0, place_addr]
      rw [hf0] at h hR hsz
      injection h with h1 h2
      have hnod : (((P ++ [f0]) ++ Q).map Fld.name).Nodup := by
        rw [hf] at hn hnm
        have hne : ((P ++ Q).map Fld.name).Nodup ∧ old.name ∉ (P ++ Q).map Fld.name := by
          simp only [List.map_append, List.map_cons] at hn ⊢
          rw [List.nodup_append] at hn ⊢
          obtain ⟨q1, q2, q3⟩ := hn
          rw [List.nodup_cons] at q2
          refine ⟨⟨q1, q2.2, fun a ha b hb => q3 a ha b (List.mem_cons_of_mem _ hb)⟩, ?_⟩
          simp only [List.mem_append, not_or]
          exact ⟨fun ha => q3 _ ha _ List.mem_cons_self rfl, q2.1⟩
        refine nodup_insert hne.1 ?_
        rw [hname]
        by_cases he : (ownName fs.counts f.name).1 = old.name
        · rw [he]; exact hne.2
        · intro hm
          refine hnm ⟨he, ?_⟩
          simp only [List.map_append, List.map_cons, List.mem_append, List.mem_cons] at hm ⊢
          tauto
      rcases hil : insertLoop ((P ++ [f0]) ++ Q) (ownName fs.counts f.name).2 (P ++ [f0]).length (old.addr + f.size) rest
        with ⟨fl, ct, e⟩
      rw [hil] at h1 h2
      simp only at h1 h2
      subst h2
      obtain ⟨new', e1, e2, e3, e4⟩ := insertLoop_spec rest _ _ _ _ _ _ hil hnod
      subst h1
      have htil := tiled_of_contiguous hc
      rw [hf, tiled_append] at htil
      obtain ⟨c, t1, t2, t3⟩ := htil
      have hsum : old.size = f.size + (rest.map Fld.size).sum := by simpa using hs
      have hnew : Tiled (f0 :: new') c (c + old.size) := by
        refine ⟨by omega, ?_⟩
        rw [hsz]
        have : c + old.size = old.addr + f.size + (rest.map Fld.size).sum := by omega
        rw [this, ← t2]
        exact e3
      have htl : Tiled fl 0 ((fs.fields.map Fld.size).sum) := by
        rw [e1, show P ++ [f0] ++ new' ++ Q = P ++ ((f0 :: new') ++ Q) by simp, tiled_append]
        refine ⟨c, t1, ?_⟩
        rw [tiled_append]
        refine ⟨c + old.size, hnew, ?_⟩
        rw [hf]
        exact t3
      obtain ⟨c1, c2⟩ := tiled_contiguous htl
      refine ⟨P, old, Q, f0 :: new', hf, rfl, by simp [e1], .cons hR e2, ?_, e4, ?_, rfl, rfl⟩
      · intro i x hx; simpa using c1 i x hx
      · simp only; omega

/-- **C24.**  A replacement whose sizes do not match (or of a name that does not
exist, or by nothing) is refused and changes nothing. -/
theorem C24_replace_refused (fs : FS) (name : Name) (new : List Fld)
    (h : name ∉ fs.fields.map Fld.name ∨ new = [] ∨
      ∀ f ∈ fs.fields, f.name = name → f.size ≠ (new.map Fld.size).sum) :
    ∃ e, replaceField fs name new = (fs, some e) := by
  unfold replaceField
  cases hi : fs.fields.findIdx? (fun f => decide (f.name = name)) with
  | none => exact ⟨_, rfl⟩
  | some i =>
    obtain ⟨P, old, Q, hf, hl, rfl⟩ := findIdx_split hi
    subst hl
    have hg : fs.fields[P.length]? = some old := by rw [hf]; simp
    cases new with
    | nil => exact ⟨_, rfl⟩
    | cons f rest =>
      simp only [hg]
      rcases h with h | h | h
      · rw [hf] at h; simp at h
      · cases h
      · rw [if_pos (h old (by rw [hf]; simp) rfl)]
        exact ⟨_, rfl⟩

/-- The numbers in use are not above their counters. -/
def Bounded (A : Name → Prop) (l : List Name) (counts : List (Name × Nat)) : Prop :=
  ∀ k i, A k → indexed k i ∈ l → ∃ c, lookup counts k = some c ∧ i ≤ c

theorem bounded_of_ok {fs : FS} (h : Ok A fs) : Bounded A (fs.fields.map Fld.name) fs.counts := by
  intro k i hA hm
  rcases h.names.shape _ hm with h1 | ⟨k', i', c, _, h2, h3, h4⟩ | h1
  · exact absurd rfl (h1.1 k i hA)
  · obtain ⟨rfl, rfl⟩ := indexed_inj h2
    exact ⟨c, h3, h4⟩
  · exact absurd h1.1 (indexed_ne_raw _ _)

/-- Names for new fields: not explicit numbers of automatic keys. -/
def NewName (A : Name → Prop) (n : Name) : Prop :=
  (isArray n = true ∧ A (arrayKey n)) ∨ (isArray n = false ∧ ∀ k i, A k → n ≠ indexed k i)

theorem bounded_own {l l' : List Name} {counts : List (Name × Nat)} (h : Bounded A l counts) {n : Name} (hn : NewName A n)
    (hl : ∀ x ∈ l', x ∈ l ∨ x = (ownName counts n).1) : Bounded A l' (ownName counts n).2 := by
  intro k i hA hm
  unfold ownName at *
  by_cases ha : isArray n = true
  · simp only [ha, if_true] at hl ⊢
    rw [uniqueName_eq] at hl ⊢
    simp only at hl ⊢
    rcases hl _ hm with h1 | h1
    · obtain ⟨c, h2, h3⟩ := h k i hA h1
      by_cases hk : arrayKey n = k
      · subst hk
        refine ⟨_, lookup_cons_self _ _ _, ?_⟩
        simp only [next, h2]; omega
      · rw [lookup_cons_ne _ _ _ _ hk]; exact ⟨c, h2, h3⟩
    · obtain ⟨rfl, rfl⟩ := indexed_inj h1
      exact ⟨_, lookup_cons_self _ _ _, Nat.le_refl _⟩
  · simp only [ha] at hl ⊢
    simp only [Bool.false_eq_true, if_false] at hl ⊢
    rcases hl _ hm with h1 | h1
    · exact h k i hA h1
    · rcases hn with hn | hn
      · exact absurd hn.1 ha
      · exact absurd h1.symm (hn.2 k i hA)

theorem own_fresh {l : List Name} {counts : List (Name × Nat)} (h : Bounded A l counts) {n : Name} (hn : NewName A n)
    (ha : isArray n = true) : (ownName counts n).1 ∉ l := by
  unfold ownName
  rw [if_pos ha, uniqueName_eq]
  intro hm
  rcases hn with hn | hn
  · obtain ⟨c, h1, h2⟩ := h _ _ hn.2 hm
    simp only [next, h1] at h2
    omega
  · rw [ha] at hn; cases hn.1

theorem own_plain {counts : List (Name × Nat)} {n : Name} (ha : isArray n = false) : ownName counts n = (n, counts) := by
  unfold ownName; simp [ha]

theorem insertLoop_succeeds (new : List Fld) : ∀ (P Q : List Fld) (counts : List (Name × Nat)) (address : Nat),
    Bounded A ((P ++ Q).map Fld.name) counts → (∀ f ∈ new, NewName A f.name) →
    (∀ f ∈ new, isArray f.name = false → f.name ∉ (P ++ Q).map Fld.name) →
    (new.map Fld.name).Pairwise (fun a b => isArray a = false → a ≠ b) →
    (insertLoop (P ++ Q) counts P.length address new).2.2 = none := by
  induction new with
  | nil => intros; rfl
  | cons f rest ih =>
    intro P Q counts address hb hn hu hp
    rw [insertLoop]
    have hnf := hn f List.mem_cons_self
    have hnot : (ownName counts f.name).1 ∉ (P ++ Q).map Fld.name := by
      by_cases ha : isArray f.name = true
      · exact own_fresh hb hnf ha
      · rw [own_plain (by simpa using ha)]
        exact hu f List.mem_cons_self (by simpa using ha)
    rcases ho : ownName counts f.name with ⟨n, c⟩
    rw [ho] at hnot
    simp only at hnot ⊢
    rw [if_neg hnot, linsert_append]
    have hl : (P ++ [(f.rename n).place address]).length = P.length + 1 := by simp
    rw [← hl]
    have hmem : ∀ x ∈ ((P ++ [(f.rename n).place address]) ++ Q).map Fld.name, x ∈ (P ++ Q).map Fld.name ∨ x = n := by
      intro x hx
      simp only [List.map_append, List.map_cons, List.map_nil, place_name, rename_name, List.mem_append,
        List.mem_singleton] at hx ⊢
      tauto
    have hp' := List.pairwise_cons.mp hp
    refine ih _ Q c _ ?_ (fun g hg => hn g (List.mem_cons_of_mem _ hg)) ?_ hp'.2
    · have := bounded_own hb hnf (l' := ((P ++ [(f.rename n).place address]) ++ Q).map Fld.name) (by rw [ho]; exact hmem)
      rw [ho] at this
      exact this
    · intro g hg hga hgm
      rcases hmem _ hgm with h1 | h1
      · exact hu g (List.mem_cons_of_mem _ hg) hga h1
      · by_cases ha : isArray f.name = true
        · have hA : A (arrayKey f.name) := by
            rcases hnf with h | h
            · exact h.2
            · rw [ha] at h; cases h.1
          have h2 : n = indexed (arrayKey f.name) (next counts (arrayKey f.name)) := by
            have := congrArg Prod.fst ho
            unfold ownName at this
            rw [if_pos ha, uniqueName_eq] at this
            exact this.symm
          rcases hn g (List.mem_cons_of_mem _ hg) with h | h
          · rw [hga] at h; cases h.1
          · exact h.2 _ _ hA (h1.trans h2)
        · have ha' : isArray f.name = false := by simpa using ha
          rw [own_plain ha'] at ho
          injection ho with ho1 _
          exact hp'.1 g.name (List.mem_map_of_mem hg) ha' (ho1.trans h1.symm)

/-- **C24.**  When the sizes match and the names are usable (numbered names, or
names that are neither in use nor twice in the list), the replacement goes
through. -/
theorem C24_replace_succeeds (fs : FS) (hb : Bounded A (fs.fields.map Fld.name) fs.counts)
    (hd : (fs.fields.map Fld.name).Nodup) (old : Fld) (hm : old ∈ fs.fields) (new : List Fld) (hne : new ≠ [])
    (hs : old.size = (new.map Fld.size).sum) (hn : ∀ f ∈ new, NewName A f.name)
    (hu : ∀ f ∈ new, isArray f.name = false → f.name ∈ fs.fields.map Fld.name → f.name = old.name)
    (hp : (new.map Fld.name).Pairwise (fun a b => isArray a = false → a ≠ b)) :
    ∃ fs', replaceField fs old.name new = (fs', none) := by
  cases new with
  | nil => exact absurd rfl hne
  | cons f rest =>
    cases hi : fs.fields.findIdx? (fun f => decide (f.name = old.name)) with
    | none =>
      rw [List.findIdx?_eq_none_iff] at hi
      have := hi old hm
      simp at this
    | some i =>
      obtain ⟨P, old', Q, hf, hl, hname⟩ := findIdx_split hi
      subst hl
      have hold : old' = old := by
        have h1 : old' ∈ fs.fields := by rw [hf]; simp
        have := List.inj_on_of_nodup_map hd h1 hm hname
        exact this
      subst hold
      have hnf := hn f List.mem_cons_self
      have hnm : ¬ ((ownName fs.counts f.name).1 ≠ old'.name ∧ (ownName fs.counts f.name).1 ∈ fs.fields.map Fld.name) := by
        rintro ⟨h1, h2⟩
        by_cases ha : isArray f.name = true
        · exact own_fresh hb hnf ha h2
        · rw [own_plain (by simpa using ha)] at h1 h2
          exact h1 (hu f List.mem_cons_self (by simpa using ha) h2)
      rw [replaceField_split fs P Q old' f rest hf hi hs hnm]
      refine ⟨_, Prod.ext rfl ?_⟩
      simp only
      have hp' := List.pairwise_cons.mp hp
      have hmem : ∀ x ∈ ((P ++ [(f.rename (ownName fs.counts f.name).1).place old'.addr]) ++ Q).map Fld.name,
          x ∈ fs.fields.map Fld.name ∨ x = (ownName fs.counts f.name).1 := by
        intro x hx
        rw [hf]
        simp only [List.map_append, List.map_cons, List.map_nil, place_name, rename_name, List.mem_append,
          List.mem_singleton, List.mem_cons] at hx ⊢
        tauto
      refine insertLoop_succeeds rest _ Q _ _ (bounded_own hb hnf hmem) (fun g hg => hn g (List.mem_cons_of_mem _ hg)) ?_ hp'.2
      intro g hg hga hgm
      simp only [List.map_append, List.map_cons, List.map_nil, place_name, rename_name, List.mem_append,
          List.mem_singleton] at hgm
      have hold : old'.name ∉ P.map Fld.name ∧ old'.name ∉ Q.map Fld.name := by
        rw [hf] at hd
        simp only [List.map_append, List.map_cons] at hd
        rw [List.nodup_append, List.nodup_cons] at hd
        exact ⟨fun h => hd.2.2 _ h _ List.mem_cons_self rfl, hd.2.1.1⟩
      have hgnot : ¬ (g.name ∈ P.map Fld.name ∨ g.name ∈ Q.map Fld.name) := by
        intro h
        have hin : g.name ∈ fs.fields.map Fld.name := by
          rw [hf]; simp only [List.map_append, List.map_cons, List.mem_append, List.mem_cons]; tauto
        have := hu g (List.mem_cons_of_mem _ hg) hga hin
        rw [this] at h
        exact h.elim hold.1 hold.2
      rcases hgm with (h1 | h1) | h1
      · exact hgnot (Or.inl h1)
      · by_cases ha : isArray f.name = true
        · have hA : A (arrayKey f.name) := by
            rcases hnf with h | h
            · exact h.2
            · rw [ha] at h; cases h.1
          have h2 : (ownName fs.counts f.name).1 = indexed (arrayKey f.name) (next fs.counts (arrayKey f.name)) := by
            unfold ownName
            rw [if_pos ha, uniqueName_eq]
          rcases hn g (List.mem_cons_of_mem _ hg) with h | h
          · rw [hga] at h; cases h.1
          · exact h.2 _ _ hA (h1.trans h2)
        · have ha' : isArray f.name = false := by simpa using ha
          rw [own_plain ha'] at h1
          exact hp'.1 g.name (List.mem_map_of_mem hg) ha' h1.symm
      · exact hgnot (Or.inr h1)

/-- **C24.**  `writeFieldsIn`: fields that fit into an existing field at an address
replace that part of it, what remains of the old field becomes padding; everything
else is as for `replaceField`. -/
theorem C24_write_fields (fs : FS) (hc : Contiguous fs.fields) (hd : (fs.fields.map Fld.name).Nodup)
    (hb : Bounded A (fs.fields.map Fld.name) fs.counts) (hpad : A "padding".toList) (old : Fld) (hm : old ∈ fs.fields)
    (address : Nat) (new : List Fld) (ha : old.addr ≤ address)
    (hfit : address + (new.map Fld.size).sum ≤ old.addr + old.size) (hne : 0 < old.size)
    (hn : ∀ f ∈ new, NewName A f.name)
    (hu : ∀ f ∈ new, isArray f.name = false → f.name ∈ fs.fields.map Fld.name → f.name = old.name)
    (hp : (new.map Fld.name).Pairwise (fun a b => isArray a = false → a ≠ b)) :
    ∃ fs' before after pre new' post, writeFieldsIn fs old address new = (fs', none) ∧
      fs.fields = before ++ old :: after ∧ fs'.fields = before ++ (pre ++ new' ++ post) ++ after ∧
      List.Forall₂ Renamed new new' ∧ Tiled new' address (address + (new.map Fld.size).sum) ∧
      (∀ f ∈ pre ++ post, ∃ i, f.name = indexed "padding".toList i) ∧
      Contiguous fs'.fields ∧ (fs'.fields.map Fld.name).Nodup ∧
      (fs'.fields.map Fld.size).sum = (fs.fields.map Fld.size).sum := by
  have hkey : arrayKey "padding[]".toList = "padding".toList := by decide
  have hpn : NewName A "padding[]".toList := Or.inl ⟨by decide, by rw [hkey]; exact hpad⟩
  have harr : isArray "padding[]".toList = true := by decide
  obtain ⟨bl, hbl⟩ : ∃ bl, (if 0 < (address : Int) - old.addr then [padding ((address : Int) - old.addr).toNat] else []) = bl :=
    ⟨_, rfl⟩
  obtain ⟨al, hal⟩ : ∃ al, (if 0 < ((old.addr + old.size : Nat) : Int) - (address + ((new.map Fld.size).sum : Nat)) then
      [padding (((old.addr + old.size : Nat) : Int) - (address + ((new.map Fld.size).sum : Nat))).toNat] else []) = al :=
    ⟨_, rfl⟩
  have hbs : (bl.map Fld.size).sum = address - old.addr := by
    rw [← hbl]; split
    · simp [padding, Fld.size]
    · simp; omega
  have has : (al.map Fld.size).sum = (old.addr + old.size) - (address + (new.map Fld.size).sum) := by
    rw [← hal]; split
    · simp [padding, Fld.size]; omega
    · simp; omega
  have hbn : ∀ f ∈ bl, f.name = "padding[]".toList := by
    rw [← hbl]; split <;> simp [padding, Fld.name]
  have han : ∀ f ∈ al, f.name = "padding[]".toList := by
    rw [← hal]; split <;> simp [padding, Fld.name]
  have hw : writeFieldsIn fs old address new = replaceField fs old.name (bl ++ new ++ al) := by
    unfold writeFieldsIn
    simp only
    rw [if_neg (by omega), if_neg (by omega), if_neg (by omega), hbl, hal]
  have hsum : old.size = ((bl ++ new ++ al).map Fld.size).sum := by
    simp only [List.map_append, List.sum_append]; omega
  obtain ⟨fs', hr⟩ := C24_replace_succeeds (A := A) fs hb hd old hm (bl ++ new ++ al) (by
      intro e; rw [e] at hsum; simp at hsum; omega) hsum (by
      intro f hf
      simp only [List.mem_append] at hf
      rcases hf with (hf | hf) | hf
      · rw [hbn f hf]; exact hpn
      · exact hn f hf
      · rw [han f hf]; exact hpn) (by
      intro f hf hfa
      simp only [List.mem_append] at hf
      rcases hf with (hf | hf) | hf
      · rw [hbn f hf, harr] at hfa; cases hfa
      · exact hu f hf hfa
      · rw [han f hf, harr] at hfa; cases hfa) (by
      simp only [List.map_append, List.pairwise_append]
      refine ⟨⟨?_, hp, ?_⟩, ?_, ?_⟩
      · rw [← hbl]; split <;> simp
      · intro a ha' b hb' haf
        obtain ⟨f, hf, rfl⟩ := List.mem_map.mp ha'
        rw [hbn f hf, harr] at haf; cases haf
      · rw [← hal]; split <;> simp
      · intro a ha' b hb' haf
        obtain ⟨g, hg, rfl⟩ := List.mem_map.mp hb'
        rw [han g hg]
        rintro rfl
        rw [harr] at haf; cases haf)
  obtain ⟨P, old', Q, new', e1, e2, e3, e4, e5, e6, e7, _, _⟩ := C24_replace fs hc hd old.name _ fs' hr
  have hold : old' = old := List.inj_on_of_nodup_map hd (by rw [e1]; simp) hm e2
  subst hold
  obtain ⟨m1, post, f1, f2, rfl⟩ := forall₂_split _ _ _ e4
  obtain ⟨pre, mid, f3, f4, rfl⟩ := forall₂_split _ _ _ f1
  have hpadn : ∀ (l l' : List Fld), (∀ f ∈ l, f.name = "padding[]".toList) → List.Forall₂ Renamed l l' →
      ∀ f ∈ l', ∃ i, f.name = indexed "padding".toList i := by
    intro l l' hl h
    induction h with
    | nil => simp
    | cons hx hr ih =>
      intro f hf
      rcases List.mem_cons.mp hf with rfl | hf
      · have := hx.2
        rw [hl _ List.mem_cons_self, if_pos harr, hkey] at this
        exact this
      · exact ih (fun f hf => hl f (List.mem_cons_of_mem _ hf)) f hf
  have hsizes : ∀ (l l' : List Fld), List.Forall₂ Renamed l l' → (l'.map Fld.size).sum = (l.map Fld.size).sum := by
    intro l l' h
    induction h with
    | nil => rfl
    | cons hx hr ih => simp [hx.size, ih]
  refine ⟨fs', P, Q, pre, mid, post, by rw [hw]; exact hr, e1, by rw [e3], f4, ?_, ?_, e5, e6, e7⟩
  · have htil := tiled_of_contiguous e5
    rw [e3, show P ++ (pre ++ mid ++ post) ++ Q = (P ++ pre) ++ (mid ++ (post ++ Q)) by simp, tiled_append] at htil
    obtain ⟨c, t1, t2⟩ := htil
    rw [tiled_append] at t1 t2
    obtain ⟨c1, t3, t4⟩ := t1
    obtain ⟨c2, t5, t6⟩ := t2
    have hold := tiled_of_contiguous hc
    rw [e1, tiled_append] at hold
    obtain ⟨c3, o1, o2, o3⟩ := hold
    have q1 := (tiled_contiguous t3).2
    have q2 := (tiled_contiguous o1).2
    have q3 := (tiled_contiguous t4).2
    have q4 := (tiled_contiguous t5).2
    rw [hsizes _ _ f3, hbs] at q3
    rw [hsizes _ _ f4] at q4
    have : c = address := by omega
    rw [this] at t5 q4
    rw [← q4]
    exact t5
  · intro f hf
    rcases List.mem_append.mp hf with hf | hf
    · exact hpadn _ _ hbn f3 f hf
    · exact hpadn _ _ han f2 f hf

/-- **C24.**  Fields that do not fit are refused without change. -/
theorem C24_write_refused (fs : FS) (old : Fld) (address : Int) (new : List Fld)
    (h : address < old.addr ∨ ((old.addr + old.size : Nat) : Int) < address + ((new.map Fld.size).sum : Nat)) :
    ∃ e, writeFieldsIn fs old address new = (fs, some e) := by
  unfold writeFieldsIn
  simp only
  split
  · exact ⟨_, rfl⟩
  · split
    · exact ⟨_, rfl⟩
    · split
      · exact ⟨_, rfl⟩
      · exfalso; omega

/-- Every reachable field set meets the conditions. -/
theorem C24_reachable (fuel : Nat) (af : Bool) (z : Nat) (g : Gen) (hg : GoodFor A g) (hist : List (List Nat × Op)) :
    Contiguous (accessesAt fuel af (FSet.new (some z) g) hist).1.fields ∧
    ((accessesAt fuel af (FSet.new (some z) g) hist).1.fields.map Fld.name).Nodup ∧
    Bounded A ((accessesAt fuel af (FSet.new (some z) g) hist).1.fields.map Fld.name)
      (accessesAt fuel af (FSet.new (some z) g) hist).1.counts := by
  have hO := (accessesAt_ok fuel af hist _ (Ok.new (some z) g hg)).1
  exact ⟨(contiguous_of_ok hO).1, hO.names.nodup, bounded_of_ok hO⟩

/-- Writing 16 bits at address 24 into the third field, of 40 bits at 20. -/
example : (writeFieldsIn (feedAll 20 true 0 (FSet.new (some 60) (listGen [.yield (.leaf "a".toList (.ok 16)),
        .yield (.leaf "padding[]".toList (.ok 4)), .yield (.leaf "rest".toList (.ok 40))]))).1
      (.leaf "rest".toList 20 40) 24 [.leaf "x".toList 0 10, .leaf "rest".toList 0 6]).1.fields.map shape =
    [("a".toList, 0, 16), ("padding[0]".toList, 16, 4), ("padding[1]".toList, 20, 4), ("x".toList, 24, 10),
     ("rest".toList, 34, 6), ("padding[2]".toList, 40, 20)] := by decide +kernel

/-- A clash of names after the first new field leaves the replacement half done:
the old field is gone and its size no longer covered. -/
theorem C24_half_replaced :
    ∃ (fs : FS) (new : List Fld), Contiguous fs.fields ∧
      (replaceField fs "b".toList new).2 = some .parser ∧
      (replaceField fs "b".toList new).1.fields.map shape = [("a".toList, 0, 8), ("x".toList, 8, 8)] ∧
      fs.fields.map shape = [("a".toList, 0, 8), ("b".toList, 8, 16)] := by
  refine ⟨⟨some 24, 24, [.leaf "a".toList 0 8, .leaf "b".toList 8 16], [], none, 0⟩, [.leaf "x".toList 0 8, .leaf "a".toList 0 8], ?_, by decide +kernel, by decide +kernel, by decide +kernel⟩
  intro i f hf
  match i with
  | 0 => simp at hf; subst hf; rfl
  | 1 => simp at hf; subst hf; rfl
  | i + 2 => simp at hf

end Hachoir.Props
