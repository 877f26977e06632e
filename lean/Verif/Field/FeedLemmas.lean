import Verif.Field.FieldSetLemmas

/-!
# Feeding keeps the invariant of field sets
-/

set_option linter.unusedVariables false

namespace Hachoir.FieldSet
open Hachoir

variable {A : Name → Prop}

/-- Changes of attributes that the invariant does not look at. -/
theorem Ok.calls {fs : FS} (h : Ok A fs) (n : Nat) : Ok A { fs with calls := n } :=
  Ok.mk _ _ h.tiled h.names h.closed h.inside h.good h.sub h.subsize

theorem Ok.dead {fs : FS} (h : Ok A fs) (hg : fs.gen ≠ none) : Ok A { fs with gen := some deadGen } :=
  Ok.mk _ _ h.tiled (h.names.mono (fun e => absurd e hg)) (fun e => by cases e) h.inside
    (fun g e => by injection e with e; subst e; intro v i hv; simp [deadGen] at hv) h.sub h.subsize

theorem Ok.count {fs : FS} (h : Ok A fs) (k : Name) (n : Nat)
    (hn : ∀ c, lookup fs.counts k = some c → c < n) : Ok A { fs with counts := (k, n) :: fs.counts } :=
  Ok.mk _ _ h.tiled (h.names.count k n hn) h.closed h.inside h.good h.sub h.subsize

theorem Ok.resize {fs : FS} (h : Ok A fs) (hg : fs.gen ≠ none) (z : Nat) (hz : fs.cur ≤ z) :
    Ok A { fs with size := some z } :=
  Ok.mk _ _ h.tiled h.names (fun e => absurd e hg) (fun y hy => by simp at hy; subst hy; exact hz) h.good h.sub h.subsize

theorem Ok.new (size : Option Nat) (g : Gen) (hg : GoodFor A g) : Ok A (FSet.new size g) := by
  refine Ok.mk _ _ rfl ⟨by simp [FSet.new], by simp [FSet.new], by simp [FSet.new], by simp [FSet.new]⟩ ?_ ?_ ?_ ?_ ?_
  · intro e; cases e
  · intro z _; exact Nat.zero_le z
  · intro g' e; injection e with e; subst e; exact hg
  · intro n a s hm; simp [FSet.new] at hm
  · intro n a s hm; simp [FSet.new] at hm

/-- What is asked of a field about to be appended. -/
structure FldOk (f : Fld) : Prop where
  sub : ∀ n a s, f = .set n a s → OkSome s ∧ ∃ z, s.size = some z ∧ 0 < z

/-- Appending one field. -/
theorem Ok.snoc {fs : FS} (h : Ok A fs) (hg : fs.gen ≠ none) (f : Fld) (ha : f.addr = fs.cur)
    (hn : f.name ∉ fs.fields.map Fld.name)
    (hs : Free A f.name ∨ ∃ k i, A k ∧ f.name = indexed k i ∧ lookup fs.counts k = some i)
    (hf : FldOk f) (hin : ∀ z, fs.size = some z → fs.cur + f.size ≤ z) :
    Ok A { fs with cur := fs.cur + f.size, fields := fs.fields ++ [f] } := by
  refine Ok.mk _ _ ?_ ?_ ?_ hin h.good ?_ ?_
  · simp only
    rw [tiled_append]
    exact ⟨fs.cur, h.tiled, ha, by simp [Tiled]⟩
  · simp only [List.map_append, List.map_cons, List.map_nil]
    exact ((h.names.mono (fun e => absurd e hg)).append f.name hn hs).mono (fun e => e.elim)
  · intro e; exact absurd e hg
  · intro n a s hm
    rcases List.mem_append.mp hm with hm | hm
    · exact h.sub n a s hm
    · simp at hm; exact (hf.sub n a s hm.symm).1
  · intro n a s hm
    rcases List.mem_append.mp hm with hm | hm
    · exact h.subsize n a s hm
    · simp at hm; exact (hf.sub n a s hm.symm).2

/-! ### Finishing -/

theorem deleteLast_nop (l : List Fld) (cur size : Nat) (h : cur ≤ size) : deleteLast l cur size = .ok (l, cur) := by
  rw [deleteLast.eq_def]
  simp only
  rw [if_neg (by omega)]

/-- What finishing does to a field set of known size. -/
theorem fixLastField_ok {fs : FS} (h : Ok A fs) (hg : fs.gen ≠ none) (z : Nat) (hz : fs.size = some z) :
    ∃ fs' new, fixLastField fs z = .ok (fs', new) ∧ Ok A fs' ∧ fs'.gen = none ∧ fs'.size = some z ∧ fs'.cur = z ∧
      fs'.fields = fs.fields ++ new.toList ∧
      new = (if z = fs.cur then none else some (.leaf rawName fs.cur (z - fs.cur))) := by
  have hc := h.inside z hz
  unfold fixLastField
  rw [deleteLast_nop _ _ _ hc]
  simp only [List.reverse_reverse]
  by_cases he : z = fs.cur
  · rw [if_pos (by omega), if_pos he]
    refine ⟨_, none, rfl, ?_, rfl, hz, by simp [he], by simp, rfl⟩
    refine Ok.mk _ _ h.tiled (h.names.mono (fun _ => by trivial)) (fun _ => by simp [hz, he]) h.inside
      (fun g e => by cases e) h.sub h.subsize
  · rw [if_neg (by omega), if_neg he]
    have hraw : rawName ∉ fs.fields.map Fld.name := (h.names.mono (fun e => absurd e hg)).raw_notin
    simp only [appendField, Fld.name, hraw, if_false]
    refine ⟨_, _, rfl, ?_, rfl, hz, rfl, rfl, rfl⟩
    refine Ok.mk _ _ ?_ ?_ (fun _ => hz) (fun y hy => by rw [hz] at hy; simp at hy; subst hy; exact Nat.le_refl _)
      (fun g e => by cases e) ?_ ?_
    · simp only
      rw [tiled_append]
      exact ⟨fs.cur, h.tiled, rfl, by simp [Tiled, Fld.size]; omega⟩
    · simp only [List.map_append, List.map_cons, List.map_nil]
      exact (h.names.append_raw _ rfl hraw).mono (fun _ => by trivial)
    · intro n a s hm
      simp only [List.mem_append, List.mem_singleton] at hm
      rcases hm with hm | hm
      · exact h.sub n a s hm
      · cases hm
    · intro n a s hm
      simp only [List.mem_append, List.mem_singleton] at hm
      rcases hm with hm | hm
      · exact h.subsize n a s hm
      · cases hm

/-- The outcome of finishing: closed, or an exception that leaves the field set
as it was. -/
def FinishSpec (A : Name → Prop) (af : Bool) (fs : FS) (r : FS × Except PyErr (Option Fld)) : Prop :=
  Ok A r.1 ∧ (∀ z, fs.size = some z → r.1.size = some z) ∧
  match r.2 with
  | .ok new => r.1.gen = none ∧ r.1.size = some r.1.cur ∧ r.1.fields = fs.fields ++ new.toList
  | .error _ => r.1 = fs ∧ (af = false ∨ fs.size = none)

theorem stopFeeding_ok {fs : FS} (af : Bool) (h : Ok A fs) (hg : fs.gen ≠ none) :
    FinishSpec A af fs (stopFeeding af fs) := by
  unfold stopFeeding
  cases hz : fs.size with
  | none =>
    simp only
    refine ⟨?_, ?_, rfl, rfl, by simp⟩
    · exact Ok.mk _ _ h.tiled (h.names.mono (fun _ => by trivial)) (fun _ => rfl)
        (fun y hy => by simp at hy; subst hy; exact Nat.le_refl _) (fun g e => by cases e) h.sub h.subsize
    · intro z e; rw [hz] at e; cases e
  | some z =>
    simp only
    by_cases hc : z ≠ fs.cur
    · rw [if_pos hc]
      cases af with
      | true =>
        obtain ⟨fs', new, e1, e2, e3, e4, e5, e6, e7⟩ := fixLastField_ok h hg z hz
        simp only [e1, if_true]
        refine ⟨e2, ?_, e3, by rw [e4, e5], e6⟩
        intro y hy; rw [hz] at hy; simp at hy; subst hy; exact e4
      | false =>
        simp only [Bool.false_eq_true, if_false]
        exact ⟨h, fun y hy => hy, rfl, Or.inl rfl⟩
    · rw [if_neg hc]
      have hc' : z = fs.cur := by omega
      refine ⟨?_, fun y hy => by rw [hz] at hy; exact hy, rfl, by simp [hc'], by simp⟩
      exact Ok.mk _ _ h.tiled (h.names.mono (fun _ => by trivial)) (fun _ => by simp [hc'])
        (fun y hy => by simp at hy; simp; omega)
        (fun g e => by cases e) h.sub h.subsize

theorem fixFeedError_ok {fs : FS} (af : Bool) (e : PyErr) (h : Ok A fs) (hg : fs.gen ≠ none) :
    FinishSpec A af fs (fixFeedError af fs e) := by
  unfold fixFeedError
  cases hz : fs.size with
  | none => exact ⟨h, fun y hy => hy, rfl, Or.inr hz⟩
  | some z =>
    simp only
    cases af with
    | true =>
      obtain ⟨fs', new, e1, e2, e3, e4, e5, e6, e7⟩ := fixLastField_ok h hg z hz
      simp only [e1, if_true]
      refine ⟨e2, ?_, e3, by rw [e4, e5], e6⟩
      intro y hy; rw [hz] at hy; simp at hy; subst hy; exact e4
    | false =>
      simp only [Bool.false_eq_true, if_false]
      exact ⟨h, fun y hy => hy, rfl, Or.inl rfl⟩

/-! ### Adding one field -/

/-- The outcome of `_addField`. -/
def AddedSpec (A : Name → Prop) (fs : FS) (r : FS × Added) : Prop :=
  Ok A r.1 ∧ r.1.gen = fs.gen ∧ r.1.calls = fs.calls ∧
  match r.2 with
  | .ok n => r.1.size = fs.size ∧
      ∃ f, r.1.fields = fs.fields ++ [f] ∧ f.name = n ∧ f.addr = fs.cur ∧ r.1.cur = fs.cur + f.size
  | .stop => (∀ z, fs.size = some z → r.1.size = some z) ∧ ∃ o : Option Fld, r.1.fields = fs.fields ++ o.toList
  | .raise _ => r.1.size = fs.size ∧ r.1.fields = fs.fields
  | .fuel => r.1.size = fs.size ∧ r.1.fields = fs.fields

theorem rename_addr (f : Fld) (n : Name) : (f.rename n).addr = f.addr := by cases f <;> rfl
theorem rename_size (f : Fld) (n : Name) : (f.rename n).size = f.size := by cases f <;> rfl
theorem rename_name (f : Fld) (n : Name) : (f.rename n).name = n := by cases f <;> rfl

theorem appendPart_ok {fs : FS} (h : Ok A fs) (hg : fs.gen ≠ none) (f : Fld) (askStop : Bool)
    (ha : f.addr = fs.cur)
    (hs : (A f.name ∧ Free A f.name) ∨ (f.name ∉ fs.fields.map Fld.name ∧
      ∃ k i, A k ∧ f.name = indexed k i ∧ lookup fs.counts k = some i))
    (hf : FldOk f) (hin : ∀ z, fs.size = some z → fs.cur + f.size ≤ z) :
    AddedSpec A fs (appendPart fs f askStop) := by
  unfold appendPart
  by_cases hm : f.name ∈ fs.fields.map Fld.name
  · -- renamed
    have hp : A f.name ∧ Free A f.name := by
      rcases hs with h1 | ⟨h1, _⟩
      · exact h1
      · exact absurd hm h1
    obtain ⟨n, e1, e2, e3⟩ := uniqueName_fst fs.counts (f.name ++ ['[', ']'])
    rw [arrayKey_append] at e1 e2 e3
    rcases hu : uniqueName fs.counts (f.name ++ ['[', ']']) with ⟨un, uc⟩
    rw [hu] at e1 e2
    simp only at e1 e2
    subst e1; subst e2
    have hfresh := (h.names.mono (fun e => absurd e hg)).fresh f.name hp.1 n e3 (p := False)
    simp only [appendField, hm, if_true, hu, rename_name, hfresh, if_false]
    have hO := (h.count f.name n e3).snoc hg (f.rename (indexed f.name n)) (by rw [rename_addr]; exact ha)
      (by rw [rename_name]; exact hfresh)
      (Or.inr ⟨f.name, n, hp.1, rename_name _ _, lookup_cons_self _ _ _⟩)
      ⟨by
        intro a b c e
        cases f with
        | leaf _ _ _ => cases e
        | set a' b' c' =>
          simp only [Fld.rename] at e
          injection e with _ _ e; subst e
          exact hf.sub _ _ _ rfl⟩
      (by rw [rename_size]; exact hin)
    rw [rename_size] at hO
    cases askStop with
    | true => exact ⟨hO, rfl, rfl, fun z hz => hz, some (f.rename (indexed f.name n)), rfl⟩
    | false =>
      exact ⟨hO, rfl, rfl, rfl, f.rename (indexed f.name n), rfl, rename_name _ _,
        by rw [rename_addr]; exact ha, by rw [rename_size]⟩
  · simp only [appendField, hm, if_false]
    have hO := h.snoc hg f ha hm (by
      rcases hs with h1 | ⟨_, h1⟩
      · exact Or.inl h1.2
      · exact Or.inr h1) hf hin
    cases askStop with
    | true => exact ⟨hO, rfl, rfl, fun z hz => hz, some f, rfl⟩
    | false => exact ⟨hO, rfl, rfl, rfl, f, rfl, rfl, ha, rfl⟩

theorem placeField_ok (fuel : Nat) (af : Bool) (ctx : Int) {fs : FS} (f : Fld) (isSet askStop : Bool)
    (h : Ok A fs) (hg : fs.gen ≠ none)
    (ha : f.addr = fs.cur)
    (hs : (A f.name ∧ Free A f.name) ∨ (f.name ∉ fs.fields.map Fld.name ∧
      ∃ k i, A k ∧ f.name = indexed k i ∧ lookup fs.counts k = some i))
    (hset : isSet = true ↔ ∃ n a s, f = .set n a s)
    (hf : ∀ n a s, f = .set n a s → OkSome s ∧ ∃ z, s.size = some z) :
    AddedSpec A fs (placeField fuel af ctx fs f isSet askStop) := by
  unfold placeField fixFieldSize
  obtain ⟨d, hd⟩ : ∃ d : Int, room fs ctx - (fs.cur + f.size : Nat) = d := ⟨_, rfl⟩
  simp only [hd]
  have keep : ∀ a : Added, (∀ n, a ≠ .ok n) → AddedSpec A fs (fs, a) := by
    intro a hn
    refine ⟨h, rfl, rfl, ?_⟩
    cases a with
    | ok n => exact absurd rfl (hn n)
    | stop => exact ⟨fun z hz => hz, none, by simp⟩
    | raise e => exact ⟨rfl, rfl⟩
    | fuel => exact ⟨rfl, rfl⟩
  by_cases hbad : d < 0 ∨ (isSet = true ∧ f.size = 0)
  · rw [if_pos hbad]
    by_cases haf : af = true ∧ fs.cur ≠ 0
    · rw [if_pos haf]
      by_cases hns : 0 < (f.size : Int) + d
      · simp only [hns, if_true]
        by_cases hi : isSet = true ∧ 0 < f.size
        · rw [if_pos hi]
          obtain ⟨n, a, s, rfl⟩ := hset.mp hi.1
          obtain ⟨hO', z, hz⟩ := hf n a s rfl
          obtain ⟨A', hO⟩ := hO'.get
          have hfz : (Fld.set n a s).size = z := by simp [Fld.size, hz]
          simp only [hfz] at hd hbad hns hi ⊢
          have hdn : d < 0 := by
            rcases hbad with hb | hb
            · exact hb
            · omega
          rcases truncate_ok fuel A' s z ((z : Int) + d).toNat hO hz (by omega) (by omega) with he | ⟨s', e1, e2, e3⟩
          · rw [he]
            exact keep .fuel (by intro n hn; cases hn)
          · rw [e1]
            simp only
            have hsz : (Fld.set n a s').size = ((z : Int) + d).toNat := by simp [Fld.size, e3]
            refine appendPart_ok h hg (.set n a s') askStop ha hs ⟨?_⟩ ?_
            · intro n' a' c' e
              injection e with _ _ e; subst e
              exact ⟨e2.any, _, e3, by omega⟩
            · intro y hy
              rw [hsz]
              have : room fs ctx = y := by simp [room, hy]
              omega
        · rw [if_neg hi]
          cases hz : fs.size with
          | some y => exact keep .stop (by intro n hn; cases hn)
          | none =>
            dsimp only
            exact ⟨h.resize hg _ (by omega), rfl, rfl, ⟨fun y hy => (by rw [hz] at hy; cases hy), none, by simp⟩⟩
      · simp only [hns, if_false]
        exact keep .stop (by intro n hn; cases hn)
    · rw [if_neg haf]
      exact keep (.raise .parser) (by intro n hn; cases hn)
  · rw [if_neg hbad]
    refine appendPart_ok h hg f askStop ha hs ⟨?_⟩ ?_
    · intro n a s e
      obtain ⟨h1, z, h2⟩ := hf n a s e
      refine ⟨h1, z, h2, ?_⟩
      have hi := hset.mpr ⟨n, a, s, e⟩
      have : f.size ≠ 0 := fun h0 => hbad (Or.inr ⟨hi, h0⟩)
      rw [e] at this
      simp only [Fld.size, h2, Option.getD_some] at this
      omega
    · intro y hy
      have : room fs ctx = y := by simp [room, hy]
      omega

/-! ### Naming -/

theorem nameItem_ok {fs : FS} (h : Ok A fs) (hg : fs.gen ≠ none) (name : Name) (hn : GoodName A name) :
    Ok A { fs with counts := (nameItem fs name).2 } ∧
    ((A (nameItem fs name).1 ∧ Free A (nameItem fs name).1) ∨ ((nameItem fs name).1 ∉ fs.fields.map Fld.name ∧
      ∃ k i, A k ∧ (nameItem fs name).1 = indexed k i ∧ lookup (nameItem fs name).2 k = some i)) := by
  unfold nameItem
  by_cases ha : isArray name = true
  · rw [if_pos ha]
    obtain ⟨n, e1, e2, e3⟩ := uniqueName_fst fs.counts name
    rw [e1, e2]
    have hk : A (arrayKey name) := by
      rcases hn with h1 | h1
      · exact h1.2
      · rw [ha] at h1; cases h1.1
    refine ⟨h.count _ _ e3, Or.inr ⟨?_, _, n, hk, rfl, lookup_cons_self _ _ _⟩⟩
    exact (h.names.mono (fun e => absurd e hg)).fresh _ hk n e3 (p := False)
  · rw [if_neg ha]
    refine ⟨h, Or.inl ?_⟩
    rcases hn with h1 | ⟨h1, h2, h3⟩
    · exact absurd h1.1 ha
    · refine ⟨h2, h3, ?_⟩
      rintro rfl
      exact absurd h1 (by decide)

/-! ### Feeding -/

/-- The outcome of one step of feeding. -/
def StepSpec (A : Name → Prop) (af : Bool) (fs : FS) (r : FS × Step) : Prop :=
  Ok A r.1 ∧ (∀ z, fs.size = some z → r.1.size = some z) ∧ fs.fields <+: r.1.fields ∧
  match r.2 with
  | .more n => r.1.gen = fs.gen ∧ r.1.size = fs.size ∧
      ∃ f, r.1.fields = fs.fields ++ [f] ∧ f.name = n ∧ f.addr = fs.cur ∧ r.1.cur = fs.cur + f.size
  | .done new => r.1.gen = none ∧ ∃ o : Option Fld, r.1.fields = fs.fields ++ o.toList ++ new.toList
  | .raise _ => r.1.gen ≠ none ∧ (af = false ∨ r.1.size = none)
  | .fuel => r.1.gen ≠ none

/-- The outcome of feeding everything. -/
def FedSpec (A : Name → Prop) (af : Bool) (fs : FS) (r : FS × Fed) : Prop :=
  Ok A r.1 ∧ (∀ z, fs.size = some z → r.1.size = some z) ∧ fs.fields <+: r.1.fields ∧
  match r.2 with
  | .done => r.1.gen = none
  | .raise _ => r.1.gen ≠ none ∧ (af = false ∨ r.1.size = none)
  | .fuel => True

theorem finish_spec {af : Bool} {fs fs0 : FS} {r : FS × Except PyErr (Option Fld)} (h : FinishSpec A af fs r)
    (hg : fs.gen ≠ none) (hsz : ∀ z, fs0.size = some z → fs.size = some z)
    (o : Option Fld) (hp : fs.fields = fs0.fields ++ o.toList) :
    StepSpec A af fs0 (finish r) := by
  obtain ⟨fs', res⟩ := r
  obtain ⟨h1, h2, h3⟩ := h
  cases res with
  | ok new =>
    obtain ⟨e1, e2, e3⟩ := h3
    simp only [finish]
    simp only at e3
    refine ⟨h1, fun z hz => h2 z (hsz z hz), ?_, e1, o, ?_⟩
    · rw [e3, hp, List.append_assoc]
      exact List.prefix_append _ _
    · rw [e3, hp]
  | error e =>
    obtain ⟨e1, e2⟩ := h3
    simp only at e1
    subst e1
    simp only [finish]
    refine ⟨h1, hsz, ?_, hg, e2⟩
    rw [hp]; exact List.prefix_append _ _

theorem genNext_good {g : Gen} (h : GoodFor A g) {v : View} {i : Item} (hi : genNext g v = .yield i) : GoodItem A i := by
  unfold genNext at hi
  split at hi
  · cases hi
  · exact h v i hi

theorem feed_ok (fuel : Nat) :
    (∀ A af ctx fs item, Ok A fs → fs.gen ≠ none → GoodItem A item → AddedSpec A fs (addField fuel af ctx fs item)) ∧
    (∀ A af ctx fs g, Ok A fs → fs.gen ≠ none → GoodFor A g → StepSpec A af fs (feedStep fuel af ctx fs g)) ∧
    (∀ A af ctx fs, Ok A fs → FedSpec A af fs (feedAll fuel af ctx fs)) := by
  induction fuel with
  | zero =>
    refine ⟨?_, ?_, ?_⟩
    · intro A af ctx fs item h hg _
      rw [addField]; exact ⟨h, rfl, rfl, rfl, rfl⟩
    · intro A af ctx fs g h hg _
      rw [feedStep]; exact ⟨h, fun z hz => hz, List.prefix_refl _, hg⟩
    · intro A af ctx fs h
      rw [feedAll]; exact ⟨h, fun z hz => hz, List.prefix_refl _, trivial⟩
  | succ fuel ih =>
    obtain ⟨ihA, ihF, ihL⟩ := ih
    refine ⟨?_, ?_, ?_⟩
    · intro A af ctx fs item h hg hi
      cases hi with
      | leaf _ name size hn =>
        rw [addField]
        obtain ⟨e1, e2⟩ := nameItem_ok h hg name hn
        rcases hu : nameItem fs name with ⟨n, counts⟩
        rw [hu] at e1 e2
        simp only at e1 e2 ⊢
        cases size with
        | error e => exact ⟨e1, rfl, rfl, rfl, rfl⟩
        | ok s =>
          exact placeField_ok fuel af ctx (fs := { fs with counts := counts }) (.leaf n fs.cur s) false false e1 hg rfl e2
            (by constructor <;> (intro e; simp at e)) (fun _ _ _ e => by cases e)
      | set _ name declared A' gen hn hgen =>
        rw [addField]
        obtain ⟨e1, e2⟩ := nameItem_ok h hg name hn
        rcases hu : nameItem fs name with ⟨n, counts⟩
        rw [hu] at e1 e2
        simp only at e1 e2 ⊢
        have place : ∀ (sub : FS) (ask : Bool), OkSome sub → (∃ z, sub.size = some z) →
            AddedSpec A fs (placeField fuel af ctx { fs with counts := counts } (.set n fs.cur sub) true ask) := by
          intro sub ask hO hz
          exact placeField_ok fuel af ctx (fs := { fs with counts := counts }) (.set n fs.cur sub) true ask e1 hg rfl e2
            ⟨fun _ => ⟨_, _, _, rfl⟩, fun _ => rfl⟩
            (fun _ _ _ e => by injection e with _ _ e; subst e; exact ⟨hO, hz⟩)
        cases declared with
        | some z => exact place _ _ (Ok.new _ _ hgen).any ⟨z, rfl⟩
        | none =>
          simp only
          obtain ⟨cctx, hcc⟩ : ∃ c : Int, room { fs with counts := counts } ctx - fs.cur = c := ⟨_, rfl⟩
          rw [hcc]
          have hF := ihL _ af cctx (FSet.new none gen) (Ok.new _ _ hgen)
          rcases hr : feedAll fuel af cctx (FSet.new none gen) with ⟨sub, res⟩
          rw [hr] at hF
          obtain ⟨f1, f2, f3, f4⟩ := hF
          simp only at f1 f4
          cases res with
          | done => exact place sub false f1.any ⟨_, f1.closed f4⟩
          | fuel => exact ⟨e1, rfl, rfl, rfl, rfl⟩
          | raise e =>
            simp only
            split
            · have hS := stopFeeding_ok af f1 f4.1
              rcases hst : stopFeeding af sub with ⟨sub', res'⟩
              rw [hst] at hS
              obtain ⟨s1, s2, s3⟩ := hS
              cases res' with
              | ok new => exact place sub' true s1.any ⟨_, s3.2.1⟩
              | error e' => exact ⟨e1, rfl, rfl, rfl, rfl⟩
            · exact ⟨e1, rfl, rfl, rfl, rfl⟩
    · intro A af ctx fs g h hg hgood
      rw [feedStep]
      cases hn : genNext g fs.view with
      | stop =>
        simp only
        exact finish_spec (stopFeeding_ok af ((h.calls (fs.calls + 1)).dead hg) (by simp)) (by simp) (fun z hz => hz) none (by simp)
      | raise e =>
        simp only
        exact finish_spec (fixFeedError_ok af e ((h.calls (fs.calls + 1)).dead hg) (by simp)) (by simp) (fun z hz => hz)
          none (by simp)
      | yield item =>
        simp only
        have hA := ihA A af ctx { fs with calls := fs.calls + 1 } item (h.calls _) hg (genNext_good hgood hn)
        rcases hr : addField fuel af ctx { fs with calls := fs.calls + 1 } item with ⟨fs', res⟩
        rw [hr] at hA
        obtain ⟨a1, a2, a3, a4⟩ := hA
        simp only at a1 a2 a4
        have hg' : fs'.gen ≠ none := by rw [a2]; exact hg
        cases res with
        | ok n =>
          obtain ⟨b1, f, b2, b3, b4, b5⟩ := a4
          exact ⟨a1, fun z hz => by rw [b1]; exact hz, by rw [b2]; exact List.prefix_append _ _, a2, b1, f, b2, b3, b4, b5⟩
        | stop =>
          obtain ⟨b1, o, b2⟩ := a4
          exact finish_spec (stopFeeding_ok af a1 hg') hg' b1 o b2
        | raise e =>
          exact finish_spec (fixFeedError_ok af e a1 hg') hg' (fun z hz => by rw [a4.1]; exact hz)
            none (by simp [a4.2])
        | fuel => exact ⟨a1, fun z hz => by rw [a4.1]; exact hz, by rw [a4.2]; exact List.prefix_refl _, hg'⟩
    · intro A af ctx fs h
      rw [feedAll]
      cases hgen : fs.gen with
      | none => exact ⟨h, fun z hz => hz, List.prefix_refl _, hgen⟩
      | some g =>
        simp only
        have hS := ihF A af ctx fs g h (by rw [hgen]; simp) (h.good g hgen)
        rcases hr : feedStep fuel af ctx fs g with ⟨fs', res⟩
        rw [hr] at hS
        obtain ⟨s1, s2, s3, s4⟩ := hS
        cases res with
        | more n =>
          have hL := ihL A af ctx fs' s1
          obtain ⟨l1, l2, l3, l4⟩ := hL
          exact ⟨l1, fun z hz => l2 z (s2 z hz), s3.trans l3, l4⟩
        | done new => exact ⟨s1, s2, s3, s4.1⟩
        | raise e => exact ⟨s1, s2, s3, s4⟩
        | fuel => exact ⟨s1, s2, s3, trivial⟩

end Hachoir.FieldSet
