import Verif.Field.AccessLemmas

/-!
# Feeding does not depend on the bound of the model, nor on what was read inside
the existing fields
-/

set_option linter.unusedVariables false

namespace Hachoir.FieldSet
open Hachoir

variable {A : Name → Prop}

/-! ### More fuel -/

theorem truncate_mono (fuel : Nat) :
    ∀ (fs : FS) (n : Nat), truncate fuel fs n ≠ .error .runtime → truncate (fuel + 1) fs n = truncate fuel fs n := by
  induction fuel with
  | zero => intro fs n h; exact absurd rfl h
  | succ fuel ih =>
    intro fs n h
    rw [truncate] at h ⊢
    rw [truncate]
    split
    · rfl
    · rename_i h0
      rw [if_neg h0] at h
      split
      · rename_i hc
        rw [if_pos hc] at h
        obtain ⟨k, hk⟩ : ∃ k, fs.fields.reverse.dropWhile (fun f => decide (n ≤ f.addr)) = k := ⟨_, rfl⟩
        simp only [hk] at h ⊢
        cases k with
        | nil => rfl
        | cons last before =>
          simp only at h ⊢
          by_cases hr : n - last.addr < last.size
          · simp only [if_pos hr] at h ⊢
            cases last with
            | leaf a b c => rfl
            | set a b c =>
              simp only at h ⊢
              have hne : truncate fuel c (n - (Fld.set a b c).addr) ≠ .error .runtime := by
                intro he
                rw [he] at h
                exact h rfl
              rw [ih c _ hne]
          · simp only [if_neg hr]
      · rfl

theorem fixFieldSize_mono (fuel : Nat) (af : Bool) (ctx : Int) (fs : FS) (f : Fld) (isSet : Bool)
    (h : (fixFieldSize fuel af ctx fs f isSet).2 ≠ .error .fuel) :
    fixFieldSize (fuel + 1) af ctx fs f isSet = fixFieldSize fuel af ctx fs f isSet := by
  unfold fixFieldSize at h ⊢
  cases f with
  | leaf n a s => rfl
  | set n a sub =>
    simp only at h ⊢
    by_cases ht : truncate fuel sub
        (((Fld.set n a sub).size : Int) + (room fs ctx - ((fs.cur + (Fld.set n a sub).size : Nat) : Int))).toNat
          = .error .runtime
    · rw [ht] at h ⊢
      split
      · rename_i h1
        rw [if_pos h1] at h
        split
        · rename_i h2
          rw [if_pos h2] at h
          split
          · rename_i h3
            rw [if_pos h3] at h
            split
            · rename_i h4
              rw [if_pos h4] at h
              exact absurd rfl h
            · rfl
          · rfl
        · rfl
      · rfl
    · rw [truncate_mono fuel sub _ ht]

theorem placeField_mono (fuel : Nat) (af : Bool) (ctx : Int) (fs : FS) (f : Fld) (isSet askStop : Bool)
    (h : (placeField fuel af ctx fs f isSet askStop).2 ≠ .fuel) :
    placeField (fuel + 1) af ctx fs f isSet askStop = placeField fuel af ctx fs f isSet askStop := by
  unfold placeField at h ⊢
  rw [fixFieldSize_mono]
  intro he
  rcases hr : fixFieldSize fuel af ctx fs f isSet with ⟨fs', r⟩
  rw [hr] at h he
  simp only at he
  subst he
  exact h rfl

theorem feed_mono1 (fuel : Nat) :
    (∀ af ctx fs item, (addField fuel af ctx fs item).2 ≠ .fuel →
      addField (fuel + 1) af ctx fs item = addField fuel af ctx fs item) ∧
    (∀ af ctx fs g, (∀ x, (feedStep fuel af ctx fs g).2 = x → x ≠ .fuel) →
      feedStep (fuel + 1) af ctx fs g = feedStep fuel af ctx fs g) ∧
    (∀ af ctx fs, (feedAll fuel af ctx fs).2 ≠ .fuel → feedAll (fuel + 1) af ctx fs = feedAll fuel af ctx fs) := by
  induction fuel with
  | zero =>
    refine ⟨?_, ?_, ?_⟩
    · intro af ctx fs item h; rw [addField] at h; exact absurd rfl h
    · intro af ctx fs g h; rw [feedStep] at h; exact absurd rfl (h _ rfl)
    · intro af ctx fs h; rw [feedAll] at h; exact absurd rfl h
  | succ fuel ih =>
    obtain ⟨ihA, ihF, ihL⟩ := ih
    refine ⟨?_, ?_, ?_⟩
    · intro af ctx fs item h
      cases item with
      | leaf name size =>
        rw [addField] at h ⊢
        rw [addField]
        rcases hu : nameItem fs name with ⟨n, counts⟩
        rw [hu] at h
        simp only at h ⊢
        cases size with
        | error e => rfl
        | ok s => exact placeField_mono _ _ _ _ _ _ _ h
      | set name declared gen =>
        rw [addField] at h ⊢
        rw [addField]
        rcases hu : nameItem fs name with ⟨n, counts⟩
        rw [hu] at h
        simp only at h ⊢
        cases declared with
        | some z => exact placeField_mono _ _ _ _ _ _ _ h
        | none =>
          simp only at h ⊢
          obtain ⟨cctx, hcc⟩ : ∃ c : Int, room { fs with counts := counts } ctx - fs.cur = c := ⟨_, rfl⟩
          rw [hcc] at h ⊢
          have hne : (feedAll fuel af cctx (FSet.new none gen)).2 ≠ .fuel := by
            intro he
            rcases hr : feedAll fuel af cctx (FSet.new none gen) with ⟨sub, res⟩
            rw [hr] at h he
            simp only at he
            subst he
            exact h rfl
          rw [ihL _ _ _ hne]
          rcases hr : feedAll fuel af cctx (FSet.new none gen) with ⟨sub, res⟩
          rw [hr] at h hne
          cases res with
          | done => exact placeField_mono _ _ _ _ _ _ _ h
          | fuel => exact absurd rfl hne
          | raise e =>
            simp only at h ⊢
            by_cases hc : sub.fields ≠ [] ∧ room sub cctx - (sub.cur + 1) < 0
            · rw [if_pos hc] at h
              rw [if_pos hc, if_pos hc]
              rcases hst : stopFeeding af sub with ⟨sub', res'⟩
              rw [hst] at h
              cases res' with
              | ok new => exact placeField_mono _ _ _ _ _ _ _ h
              | error e' => rfl
            · rw [if_neg hc, if_neg hc]
    · intro af ctx fs g h
      rw [feedStep] at h ⊢
      rw [feedStep]
      cases hn : genNext g fs.view with
      | stop => rfl
      | raise e => rfl
      | yield item =>
        rw [hn] at h
        simp only at h ⊢
        have hne : (addField fuel af ctx { fs with calls := fs.calls + 1 } item).2 ≠ .fuel := by
          intro he
          rcases hr : addField fuel af ctx { fs with calls := fs.calls + 1 } item with ⟨fs', res⟩
          rw [hr] at h he
          simp only at he
          subst he
          exact h _ rfl rfl
        rw [ihA _ _ _ _ hne]
    · intro af ctx fs h
      rw [feedAll] at h ⊢
      rw [feedAll]
      cases hgen : fs.gen with
      | none => rfl
      | some g =>
        rw [hgen] at h
        simp only at h ⊢
        have hne : ∀ x, (feedStep fuel af ctx fs g).2 = x → x ≠ .fuel := by
          intro x hx he
          subst he
          rcases hr : feedStep fuel af ctx fs g with ⟨fs', res⟩
          rw [hr] at h hx
          simp only at hx
          subst hx
          exact h rfl
        rw [ihF _ _ _ _ hne]
        rcases hr : feedStep fuel af ctx fs g with ⟨fs', res⟩
        rw [hr] at h
        cases res with
        | more n => exact ihL _ _ _ h
        | done new => rfl
        | raise e => rfl
        | fuel => rfl

theorem feedStep_mono {f1 f2 : Nat} (hle : f1 ≤ f2) (af : Bool) (ctx : Int) (fs : FS) (g : Gen)
    (h : (feedStep f1 af ctx fs g).2 ≠ .fuel) : feedStep f2 af ctx fs g = feedStep f1 af ctx fs g := by
  induction hle with
  | refl => rfl
  | step hle ih =>
    rw [(feed_mono1 _).2.1 af ctx fs g (by intro x hx; rw [ih] at hx; rw [← hx]; exact h), ih]

theorem feedAll_mono {f1 f2 : Nat} (hle : f1 ≤ f2) (af : Bool) (ctx : Int) (fs : FS)
    (h : (feedAll f1 af ctx fs).2 ≠ .fuel) : feedAll f2 af ctx fs = feedAll f1 af ctx fs := by
  induction hle with
  | refl => rfl
  | step hle ih => rw [(feed_mono1 _).2.2 af ctx fs (by rw [ih]; exact h), ih]

/-! ### Other contents of the existing fields -/

/-- What feeding looks at in a field. -/
def shape (f : Fld) : Name × Nat × Nat := (f.name, f.addr, f.size)

/-- Same field set, but with `l'` instead of `l` at the head of its fields. -/
def Sim (l l' : List Fld) (a b : FS) : Prop :=
  ∃ m, a.fields = l ++ m ∧ b = { a with fields := l' ++ m }

theorem sim_view {l l' : List Fld} {a b : FS} (hl : l.map shape = l'.map shape) (h : Sim l l' a b) : b.view = a.view := by
  obtain ⟨m, h1, rfl⟩ := h
  simp only [FSet.view, h1, List.map_append]
  congr 2
  exact hl.symm

theorem shape_names {l l' : List Fld} (hl : l.map shape = l'.map shape) : l.map Fld.name = l'.map Fld.name := by
  have := congrArg (List.map Prod.fst) hl
  simpa [shape, List.map_map, Function.comp_def] using this

theorem sim_names {l l' : List Fld} {a b : FS} (hl : l.map shape = l'.map shape) (h : Sim l l' a b) :
    b.fields.map Fld.name = a.fields.map Fld.name := by
  obtain ⟨m, h1, rfl⟩ := h
  simp only [h1, List.map_append, shape_names hl]

theorem appendPart_sim {l l' : List Fld} {a b : FS} (hl : l.map shape = l'.map shape) (h : Sim l l' a b) (f : Fld)
    (ask : Bool) :
    (appendPart b f ask).2 = (appendPart a f ask).2 ∧ Sim l l' (appendPart a f ask).1 (appendPart b f ask).1 := by
  have hn := sim_names hl h
  obtain ⟨m, h1, rfl⟩ := h
  unfold appendPart
  simp only [appendField] at hn ⊢
  rw [hn]
  by_cases hm : f.name ∈ a.fields.map Fld.name
  · simp only [hm, if_true]
    rcases hu : uniqueName a.counts (f.name ++ ['[', ']']) with ⟨n, counts⟩
    simp only [rename_name]
    by_cases hm2 : n ∈ a.fields.map Fld.name
    · simp only [hm2, if_true]
      exact ⟨trivial, m, h1, rfl⟩
    · simp only [hm2, if_false]
      exact ⟨trivial, m ++ [f.rename n], by simp [h1], by simp⟩
  · simp only [hm, if_false]
    exact ⟨trivial, m ++ [f], by simp [h1], by simp⟩

theorem fixFieldSize_sim (fuel : Nat) (af : Bool) (ctx : Int) {l l' : List Fld} {a b : FS}
    (h : Sim l l' a b) (f : Fld) (isSet : Bool) :
    (fixFieldSize fuel af ctx b f isSet).2 = (fixFieldSize fuel af ctx a f isSet).2 ∧
      Sim l l' (fixFieldSize fuel af ctx a f isSet).1 (fixFieldSize fuel af ctx b f isSet).1 := by
  have hc := h
  obtain ⟨m, h1, hb⟩ := hc
  have e1 : b.cur = a.cur := by rw [hb]
  have e3 : b.size = a.size := by rw [hb]
  unfold fixFieldSize
  have hroom : room b ctx = room a ctx := by simp [room, e3]
  simp only [hroom, e1, e3]
  obtain ⟨d, hd⟩ : ∃ d : Int, room a ctx - (a.cur + f.size : Nat) = d := ⟨_, rfl⟩
  simp only [hd]
  by_cases hbad : d < 0 ∨ (isSet = true ∧ f.size = 0)
  · simp only [if_pos hbad]
    by_cases haf : af = true ∧ a.cur ≠ 0
    · simp only [if_pos haf]
      by_cases hns : 0 < (f.size : Int) + d
      · simp only [if_pos hns]
        by_cases hi : isSet = true ∧ 0 < f.size
        · simp only [if_pos hi]
          cases f with
          | leaf _ _ _ => exact ⟨rfl, h⟩
          | set n ad s =>
            simp only
            cases ht : truncate fuel s (((Fld.set n ad s).size : Int) + d).toNat with
            | ok s' => exact ⟨rfl, h⟩
            | error e => cases e <;> exact ⟨rfl, h⟩
        · simp only [if_neg hi]
          cases hz : a.size with
          | some z => exact ⟨rfl, h⟩
          | none => exact ⟨rfl, m, h1, by rw [hb]⟩
      · simp only [if_neg hns]
        exact ⟨trivial, h⟩
    · simp only [if_neg haf]
      exact ⟨trivial, h⟩
  · simp only [if_neg hbad]
    exact ⟨trivial, h⟩

theorem placeField_sim (fuel : Nat) (af : Bool) (ctx : Int) {l l' : List Fld} {a b : FS}
    (hl : l.map shape = l'.map shape) (h : Sim l l' a b) (f : Fld) (isSet ask : Bool) :
    (placeField fuel af ctx b f isSet ask).2 = (placeField fuel af ctx a f isSet ask).2 ∧
      Sim l l' (placeField fuel af ctx a f isSet ask).1 (placeField fuel af ctx b f isSet ask).1 := by
  have hS := fixFieldSize_sim fuel af ctx h f isSet
  unfold placeField
  rcases hr : fixFieldSize fuel af ctx a f isSet with ⟨a', res⟩
  rcases hr' : fixFieldSize fuel af ctx b f isSet with ⟨b', res'⟩
  rw [hr, hr'] at hS
  obtain ⟨hs1, hs2⟩ := hS
  simp only at hs1 hs2
  subst hs1
  cases res' with
  | error x => exact ⟨rfl, hs2⟩
  | ok f' => exact appendPart_sim hl hs2 f' ask

theorem fixLastField_sim {l l' : List Fld} {a b : FS} (hl : l.map shape = l'.map shape) (h : Sim l l' a b) (z : Nat)
    (hz : a.cur ≤ z) :
    (∃ e, fixLastField a z = .error e ∧ fixLastField b z = .error e) ∨
    ∃ a' b' new, fixLastField a z = .ok (a', new) ∧ fixLastField b z = .ok (b', new) ∧ Sim l l' a' b' := by
  have hn := sim_names hl h
  obtain ⟨m, h1, rfl⟩ := h
  unfold fixLastField
  rw [deleteLast_nop _ _ _ hz, deleteLast_nop _ _ _ hz]
  simp only [List.reverse_reverse]
  by_cases he : z - a.cur = 0
  · rw [if_pos he, if_pos he]
    exact Or.inr ⟨_, _, none, rfl, rfl, m, h1, rfl⟩
  · rw [if_neg he, if_neg he]
    simp only [appendField]
    rw [hn]
    by_cases hm : (Fld.leaf rawName a.cur (z - a.cur)).name ∈ a.fields.map Fld.name
    · simp only [if_pos hm]
      exact Or.inl ⟨_, rfl, rfl⟩
    · simp only [if_neg hm]
      exact Or.inr ⟨_, _, _, rfl, rfl, m ++ [.leaf rawName a.cur (z - a.cur)], by simp [h1], by simp⟩

theorem stopFeeding_sim (af : Bool) {l l' : List Fld} {a b : FS} (hl : l.map shape = l'.map shape) (h : Sim l l' a b)
    (hin : ∀ z, a.size = some z → a.cur ≤ z) :
    (stopFeeding af b).2 = (stopFeeding af a).2 ∧ Sim l l' (stopFeeding af a).1 (stopFeeding af b).1 := by
  have hfix := fun z hz => fixLastField_sim hl h z (hin z hz)
  obtain ⟨m, h1, rfl⟩ := h
  unfold stopFeeding
  simp only
  cases hz : a.size with
  | none => exact ⟨rfl, m, h1, rfl⟩
  | some z =>
    have hfix := hfix z hz
    simp only [hz] at hfix ⊢
    by_cases hc : z ≠ a.cur
    · rw [if_pos hc, if_pos hc]
      cases af with
      | false => exact ⟨rfl, m, h1, by simp [hz]⟩
      | true =>
        simp only [if_true]
        rcases hfix with ⟨e, e1, e2⟩ | ⟨a', b', new, e1, e2, e3⟩
        · rw [e1, e2]; exact ⟨rfl, m, h1, rfl⟩
        · rw [e1, e2]; exact ⟨rfl, e3⟩
    · rw [if_neg hc, if_neg hc]
      exact ⟨rfl, m, h1, rfl⟩

theorem fixFeedError_sim (af : Bool) (e : PyErr) {l l' : List Fld} {a b : FS} (hl : l.map shape = l'.map shape)
    (h : Sim l l' a b) (hin : ∀ z, a.size = some z → a.cur ≤ z) :
    (fixFeedError af b e).2 = (fixFeedError af a e).2 ∧ Sim l l' (fixFeedError af a e).1 (fixFeedError af b e).1 := by
  have hfix := fun z hz => fixLastField_sim hl h z (hin z hz)
  obtain ⟨m, h1, rfl⟩ := h
  unfold fixFeedError
  simp only
  cases hz : a.size with
  | none => exact ⟨rfl, m, h1, by simp [hz]⟩
  | some z =>
    have hfix := hfix z hz
    simp only [hz] at hfix ⊢
    cases af with
    | false => exact ⟨rfl, m, h1, by simp [hz]⟩
    | true =>
      simp only [if_true]
      rcases hfix with ⟨e, e1, e2⟩ | ⟨a', b', new, e1, e2, e3⟩
      · rw [e1, e2]; exact ⟨rfl, m, h1, rfl⟩
      · rw [e1, e2]; exact ⟨rfl, e3⟩

theorem finish_sim {l l' : List Fld} {x y : FS × Except PyErr (Option Fld)} (h : y.2 = x.2 ∧ Sim l l' x.1 y.1) :
    (finish y).2 = (finish x).2 ∧ Sim l l' (finish x).1 (finish y).1 := by
  obtain ⟨a, r⟩ := x
  obtain ⟨b, r'⟩ := y
  obtain ⟨h1, h2⟩ := h
  simp only at h1
  subst h1
  cases r' <;> exact ⟨rfl, h2⟩

theorem sim_counts {l l' : List Fld} {a b : FS} (h : Sim l l' a b) (c : List (Name × Nat)) :
    Sim l l' { a with counts := c } { b with counts := c } := by
  obtain ⟨m, h1, rfl⟩ := h
  exact ⟨m, h1, rfl⟩

theorem addField_sim (fuel : Nat) (af : Bool) (ctx : Int) {l l' : List Fld} {a b : FS}
    (hl : l.map shape = l'.map shape) (h : Sim l l' a b) (item : Item) :
    (addField fuel af ctx b item).2 = (addField fuel af ctx a item).2 ∧
      Sim l l' (addField fuel af ctx a item).1 (addField fuel af ctx b item).1 := by
  obtain ⟨m, h1, rfl⟩ := h
  have hs : ∀ counts, Sim l l' { a with counts := counts } { a with counts := counts, fields := l' ++ m } :=
    fun counts => ⟨m, h1, rfl⟩
  cases fuel with
  | zero => rw [addField, addField]; exact ⟨rfl, m, h1, rfl⟩
  | succ fuel =>
    cases item with
    | leaf name size =>
      rw [addField, addField]
      have hni : nameItem { a with fields := l' ++ m } name = nameItem a name := rfl
      rw [hni]
      rcases hu : nameItem a name with ⟨n, counts⟩
      simp only
      have hs := hs counts
      cases size with
      | error e => exact ⟨rfl, hs⟩
      | ok s => exact placeField_sim fuel af ctx hl hs _ _ _
    | set name declared gen =>
      rw [addField, addField]
      have hni : nameItem { a with fields := l' ++ m } name = nameItem a name := rfl
      rw [hni]
      rcases hu : nameItem a name with ⟨n, counts⟩
      simp only
      have hs := hs counts
      cases declared with
      | some z => exact placeField_sim fuel af ctx hl hs _ _ _
      | none =>
        simp only
        have hroom : room { a with counts := counts, fields := l' ++ m } ctx = room { a with counts := counts } ctx := rfl
        rw [hroom]
        obtain ⟨cctx, hcc⟩ : ∃ c : Int, room { a with counts := counts } ctx - a.cur = c := ⟨_, rfl⟩
        rw [hcc]
        rcases hr : feedAll fuel af cctx (FSet.new none gen) with ⟨sub, res⟩
        cases res with
        | done => exact placeField_sim fuel af ctx hl hs _ _ _
        | fuel => exact ⟨rfl, hs⟩
        | raise e =>
          simp only
          by_cases hc : sub.fields ≠ [] ∧ room sub cctx - (sub.cur + 1) < 0
          · rw [if_pos hc, if_pos hc]
            rcases hst : stopFeeding af sub with ⟨sub', res'⟩
            cases res' with
            | ok new => exact placeField_sim fuel af ctx hl hs _ _ _
            | error e' => exact ⟨rfl, hs⟩
          · rw [if_neg hc, if_neg hc]
            exact ⟨rfl, hs⟩

theorem feedStep_sim (fuel : Nat) (af : Bool) (ctx : Int) {l l' : List Fld} {a b : FS} {g : Gen}
    (hl : l.map shape = l'.map shape) (h : Sim l l' a b) (hO : Ok A a) (hg : a.gen = some g) :
    (feedStep fuel af ctx b g).2 = (feedStep fuel af ctx a g).2 ∧
      Sim l l' (feedStep fuel af ctx a g).1 (feedStep fuel af ctx b g).1 := by
  have hv := sim_view hl h
  cases fuel with
  | zero => rw [feedStep, feedStep]; exact ⟨rfl, h⟩
  | succ fuel =>
    rw [feedStep, feedStep]
    rw [hv]
    have hcalls : Sim l l' { a with calls := a.calls + 1 } { b with calls := b.calls + 1 } := by
      obtain ⟨m, h1, rfl⟩ := h; exact ⟨m, h1, rfl⟩
    have hdead : Sim l l' { a with calls := a.calls + 1, gen := some deadGen }
        { b with calls := b.calls + 1, gen := some deadGen } := by
      obtain ⟨m, h1, rfl⟩ := h; exact ⟨m, h1, rfl⟩
    cases hn : genNext g a.view with
    | stop =>
      simp only
      exact finish_sim (stopFeeding_sim af hl hdead (fun z hz => hO.inside z hz))
    | raise e =>
      simp only
      exact finish_sim (fixFeedError_sim af e hl hdead (fun z hz => hO.inside z hz))
    | yield item =>
      simp only
      have hS := addField_sim fuel af ctx hl hcalls item
      have hO' := (feed_ok fuel).1 _ af ctx { a with calls := a.calls + 1 } item (hO.calls _) (by simp [hg])
        (genNext_good (hO.good g hg) hn)
      rcases hr : addField fuel af ctx { a with calls := a.calls + 1 } item with ⟨a', res⟩
      rcases hr' : addField fuel af ctx { b with calls := b.calls + 1 } item with ⟨b', res'⟩
      rw [hr, hr'] at hS
      rw [hr] at hO'
      obtain ⟨hs1, hs2⟩ := hS
      simp only at hs1 hs2
      subst hs1
      cases res' with
      | ok n => exact ⟨rfl, hs2⟩
      | stop => exact finish_sim (stopFeeding_sim af hl hs2 hO'.1.inside)
      | raise e => exact finish_sim (fixFeedError_sim af e hl hs2 hO'.1.inside)
      | fuel => exact ⟨rfl, hs2⟩

theorem feedAll_sim (fuel : Nat) (af : Bool) (ctx : Int) {l l' : List Fld} (hl : l.map shape = l'.map shape) :
    ∀ {a b : FS}, Sim l l' a b → Ok A a →
    (feedAll fuel af ctx b).2 = (feedAll fuel af ctx a).2 ∧
      Sim l l' (feedAll fuel af ctx a).1 (feedAll fuel af ctx b).1 := by
  induction fuel with
  | zero => intro a b h hO; rw [feedAll, feedAll]; exact ⟨rfl, h⟩
  | succ fuel ih =>
    intro a b h hO
    rw [feedAll, feedAll]
    have hgb : b.gen = a.gen := by obtain ⟨m, h1, rfl⟩ := h; rfl
    rw [hgb]
    cases hg : a.gen with
    | none => exact ⟨rfl, h⟩
    | some g =>
      simp only
      have hS := feedStep_sim fuel af ctx hl h hO hg
      have hO' := step_grows fuel af ctx hO hg rfl
      rcases hr : feedStep fuel af ctx a g with ⟨a', res⟩
      rcases hr' : feedStep fuel af ctx b g with ⟨b', res'⟩
      rw [hr, hr'] at hS
      rw [hr] at hO'
      obtain ⟨hs1, hs2⟩ := hS
      simp only at hs1 hs2
      subst hs1
      cases res' with
      | more n => exact ih hs2 hO'.1
      | done new => exact ⟨rfl, hs2⟩
      | raise e => exact ⟨rfl, hs2⟩
      | fuel => exact ⟨rfl, hs2⟩

end Hachoir.FieldSet
