import Verif.Field.OrderLemmas

/-!
# Accesses against complete reading
-/

set_option linter.unusedVariables false

namespace Hachoir.FieldSet
open Hachoir

variable {A : Name → Prop}

/-- Reading the whole field set works and ends in `final`. -/
def Reads (af : Bool) (ctx : Int) (fs final : FS) : Prop := ∃ fuel, feedAll fuel af ctx fs = (final, .done)

theorem Reads.closed {af : Bool} {ctx : Int} {fs : FS} (h : fs.gen = none) : Reads af ctx fs fs :=
  ⟨1, by rw [feedAll]; simp [h]⟩

theorem Reads.of_closed {af : Bool} {ctx : Int} {fs final : FS} (h : Reads af ctx fs final) (hg : fs.gen = none) :
    fs = final := by
  obtain ⟨F, hF⟩ := h
  cases F with
  | zero => rw [feedAll] at hF; simp at hF
  | succ F => rw [feedAll] at hF; simp only [hg] at hF; injection hF

theorem Reads.grows {af : Bool} {ctx : Int} {fs final : FS} (h : Reads af ctx fs final) (hO : Ok A fs) :
    Grows A fs final ∧ final.gen = none := by
  obtain ⟨F, hF⟩ := h
  have := (feed_ok F).2.2 _ af ctx fs hO
  rw [hF] at this
  exact ⟨⟨this.1, this.2.1, this.2.2.1⟩, this.2.2.2⟩

theorem Reads.unique {af : Bool} {ctx : Int} {fs a b : FS} (h : Reads af ctx fs a) (h' : Reads af ctx fs b) : a = b := by
  obtain ⟨F, hF⟩ := h
  obtain ⟨G, hG⟩ := h'
  have e1 := feedAll_mono (Nat.le_max_left F G) af ctx fs (by rw [hF]; simp)
  have e2 := feedAll_mono (Nat.le_max_right F G) af ctx fs (by rw [hG]; simp)
  rw [e1, hF, hG] at e2
  injection e2

/-- One step on the way. -/
theorem Reads.step {af : Bool} {ctx : Int} {fs final : FS} (h : Reads af ctx fs final) {g : Gen} (hg : fs.gen = some g)
    {fuel : Nat} {fs' : FS} {res : Step} (hs : feedStep fuel af ctx fs g = (fs', res)) (hf : res ≠ .fuel) :
    (∃ n, res = .more n ∧ Reads af ctx fs' final) ∨ (∃ new, res = .done new ∧ fs' = final) := by
  obtain ⟨F, hF⟩ := h
  cases F with
  | zero => rw [feedAll] at hF; simp at hF
  | succ F =>
    rw [feedAll] at hF
    simp only [hg] at hF
    have e1 := feedStep_mono (Nat.le_max_left fuel F) af ctx fs g (by rw [hs]; exact hf)
    rcases hr : feedStep F af ctx fs g with ⟨fs'', res''⟩
    rw [hr] at hF
    have hne : res'' ≠ .fuel := by
      rintro rfl
      simp at hF
    have e2 := feedStep_mono (Nat.le_max_right fuel F) af ctx fs g (by rw [hr]; exact hne)
    rw [e1, hs, hr] at e2
    injection e2 with e2 e3
    subst e2; subst e3
    cases res with
    | more n => exact Or.inl ⟨n, rfl, F, hF⟩
    | done new => simp at hF; exact Or.inr ⟨new, rfl, hF⟩
    | raise e => simp at hF
    | fuel => exact absurd rfl hf

/-- What feeding looks at in a list of fields. -/
abbrev Shapes := List (Name × Nat × Nat)

/-- The right answer to an access, given the fields (name, address, size) of the
completely read field set. -/
def Answer (l : Shapes) : Op → Out → Prop
  | .index k, out =>
    if k < 0 then out = .raise .key
    else match l[k.toNat]? with
      | some s => ∃ f, out = .field f ∧ shape f = s
      | none => out = .raise .missingField
  | .len, out => out = .number l.length
  | .readMore n, out => ∃ k : Nat, out = .number k ∧ k ≤ l.length
  | .name n, out =>
    (∃ f, out = .field f ∧ shape f ∈ l ∧ f.name = n) ∨
    (out = .raise .missingField ∧ ∃ pre tail, l = pre ++ tail ∧ tail.length ≤ 2 ∧ n ∉ pre.map Prod.fst)
  | .iter, out => ∃ fl, out = .fields fl ∧ (fl.map shape).Sublist l ∧ l.length ≤ fl.length + 1

theorem prefix_map {α β : Type} (f : α → β) {a b : List α} (h : a <+: b) : a.map f <+: b.map f := by
  obtain ⟨t, rfl⟩ := h
  exact ⟨t.map f, by simp⟩

theorem find_none {fs : FS} {n : Name} (h : findField fs n = none) : n ∉ fs.fields.map Fld.name := by
  intro hm
  obtain ⟨f, hf, he⟩ := List.mem_map.mp hm
  unfold findField at h
  rw [List.find?_eq_none] at h
  exact h f hf (by simp [he])

theorem find_some {fs : FS} {n : Name} {f : Fld} (h : findField fs n = some f) : f ∈ fs.fields ∧ f.name = n := by
  unfold findField at h
  refine ⟨List.mem_of_find?_eq_some h, ?_⟩
  have := List.find?_some h
  simpa using this

theorem feedUntil_reads {af : Bool} {ctx : Int} {final : FS} (name : Name) (fuel : Nat) :
    ∀ {fs fs' : FS} {out : Out}, Ok A fs → Reads af ctx fs final → fs.gen ≠ none →
      name ∉ fs.fields.map Fld.name →
      feedUntil fuel af ctx name fs = (fs', out) → out ≠ .fuel →
      Reads af ctx fs' final ∧
      ((∃ f, out = .field f ∧ f ∈ final.fields ∧ f.name = name) ∨
      (out = .raise .missingField ∧ ∃ pre tail, final.fields = pre ++ tail ∧ tail.length ≤ 2 ∧
        name ∉ pre.map Fld.name)) := by
  induction fuel with
  | zero =>
    intro fs fs' out _ _ _ _ h hf
    rw [feedUntil] at h
    injection h with _ h; exact absurd h.symm hf
  | succ fuel ih =>
    intro fs fs' out hO hR hne hno h hf
    rw [feedUntil] at h
    cases hg : fs.gen with
    | none => exact absurd hg hne
    | some g =>
      simp only [hg] at h
      rcases hr : feedStep fuel af ctx fs g with ⟨fs1, res⟩
      rw [hr] at h
      have hS := (feed_ok fuel).2.1 _ af ctx fs g hO hne (hO.good g hg)
      rw [hr] at hS
      by_cases hrf : res = .fuel
      · subst hrf; simp only at h; injection h with _ h; exact absurd h.symm hf
      rcases hR.step hg hr hrf with ⟨n, rfl, hR1⟩ | ⟨new, rfl, rfl⟩
      · simp only at h
        obtain ⟨o1, o2, o3, o4, o5, x, o6, o7, o8, o9⟩ := hS
        simp only at o1 o4 o5 o6
        by_cases hn : n = name
        · rw [if_pos hn] at h
          subst hn
          cases hfind : findField fs1 n with
          | none =>
            exfalso
            apply find_none hfind
            rw [o6]; simp [o7]
          | some f =>
            rw [hfind] at h
            injection h with h1 h2
            subst h1; subst h2
            obtain ⟨m1, m2⟩ := find_some hfind
            refine ⟨hR1, Or.inl ⟨f, rfl, ?_, m2⟩⟩
            exact (hR1.grows o1).1.2.2.subset m1
        · rw [if_neg hn] at h
          refine ih o1 hR1 (by rw [o4, hg]; simp) ?_ h hf
          rw [o6]
          simp only [List.map_append, List.map_cons, List.map_nil, List.mem_append, List.mem_singleton, not_or]
          exact ⟨hno, by rw [o7]; exact fun e => hn e.symm⟩
      · simp only at h
        injection h with h1 h2
        subst h1; subst h2
        obtain ⟨o1, o2, o3, o4, o, o5⟩ := hS
        simp only at o4 o5
        refine ⟨Reads.closed o4, Or.inr ⟨rfl, fs.fields, o.toList ++ new.toList, by rw [o5, List.append_assoc], ?_, hno⟩⟩
        cases o <;> cases new <;> simp

theorem readLoop_reads {af : Bool} {ctx : Int} {final : FS} (fuel : Nat) (n : Nat) :
    ∀ {fs fs' : FS} {res : Fed}, Ok A fs → Reads af ctx fs final →
      readLoop fuel af ctx n fs = (fs', res) → res ≠ .fuel →
      Reads af ctx fs' final ∧ res = .done ∧ Ok A fs' ∧ fs.fields <+: fs'.fields ∧
      (fs' = final ∨ fs.fields.length + n ≤ fs'.fields.length) := by
  induction n with
  | zero =>
    intro fs fs' res hO hR h hf
    rw [readLoop] at h
    injection h with h1 h2
    subst h1; subst h2
    exact ⟨hR, rfl, hO, List.prefix_refl _, Or.inr (Nat.le_refl _)⟩
  | succ n ih =>
    intro fs fs' res hO hR h hf
    rw [readLoop] at h
    cases hg : fs.gen with
    | none =>
      simp only [hg] at h
      injection h with h1 h2
      subst h1; subst h2
      exact ⟨hR, rfl, hO, List.prefix_refl _, Or.inl (hR.of_closed hg)⟩
    | some g =>
      simp only [hg] at h
      rcases hr : feedStep fuel af ctx fs g with ⟨fs1, r⟩
      rw [hr] at h
      have hS := (feed_ok fuel).2.1 _ af ctx fs g hO (by simp [hg]) (hO.good g hg)
      rw [hr] at hS
      by_cases hrf : r = .fuel
      · subst hrf; simp only at h; injection h with _ h; exact absurd h.symm hf
      rcases hR.step hg hr hrf with ⟨nm, rfl, hR1⟩ | ⟨new, rfl, rfl⟩
      · obtain ⟨o1, o2, o3, o4, o5, x, o6, o7⟩ := hS
        simp only at o1 o6 o3 h
        obtain ⟨i1, i2, i3, i4, i5⟩ := ih o1 hR1 h hf
        refine ⟨i1, i2, i3, o3.trans i4, ?_⟩
        rcases i5 with i5 | i5
        · exact Or.inl i5
        · right; rw [o6] at i5; simp at i5; omega
      · simp only at h
        injection h with h1 h2
        subst h1; subst h2
        obtain ⟨o1, o2, o3, o4, o5⟩ := hS
        exact ⟨Reads.closed o4, rfl, o1, o3, Or.inl rfl⟩

theorem readMore_reads {af : Bool} {ctx : Int} {final : FS} (fuel : Nat) (n : Nat)
    {fs fs' : FS} {out : Out} (hO : Ok A fs) (hR : Reads af ctx fs final)
    (h : readMoreFields fuel af ctx fs n = (fs', out)) (hf : out ≠ .fuel) :
    Reads af ctx fs' final ∧ (∃ k : Nat, out = .number k ∧ fs'.fields.length = fs.fields.length + k) ∧ Ok A fs' ∧
      fs.fields <+: fs'.fields ∧ (fs' = final ∨ fs.fields.length + n ≤ fs'.fields.length) := by
  unfold readMoreFields at h
  cases hg : fs.gen with
  | none =>
    simp only [hg] at h
    injection h with h1 h2
    subst h1; subst h2
    exact ⟨hR, ⟨0, rfl, rfl⟩, hO, List.prefix_refl _, Or.inl (hR.of_closed hg)⟩
  | some g =>
    simp only [hg] at h
    rcases hr : readLoop fuel af ctx n fs with ⟨fs1, res⟩
    rw [hr] at h
    by_cases hrf : res = .fuel
    · subst hrf; simp only at h; injection h with _ h; exact absurd h.symm hf
    obtain ⟨i1, rfl, i3, i4, i5⟩ := readLoop_reads fuel n hO hR hr hrf
    simp only at h
    injection h with h1 h2
    subst h1; subst h2
    have := i4.length_le
    refine ⟨i1, ⟨fs1.fields.length - fs.fields.length, ?_, by omega⟩, i3, i4, i5⟩
    congr 1; omega

theorem iterLoop_reads {af : Bool} {ctx : Int} {final : FS} (fuel : Nat) :
    ∀ {fs fs' : FS} {acc : List Fld} {out : Out}, Ok A fs → Reads af ctx fs final → acc <+: fs.fields →
      iterLoop fuel af ctx fs acc = (fs', out) → out ≠ .fuel →
      Reads af ctx fs' final ∧ ∃ fl, out = .fields fl ∧ fl.Sublist final.fields ∧
        final.fields.length ≤ fl.length + 1 := by
  induction fuel with
  | zero =>
    intro fs fs' acc out _ _ _ h hf
    rw [iterLoop] at h
    injection h with _ h; exact absurd h.symm hf
  | succ fuel ih =>
    intro fs fs' acc out hO hR hacc h hf
    rw [iterLoop] at h
    have hfull : acc ++ fs.fields.drop acc.length = fs.fields := by
      obtain ⟨t, ht⟩ := hacc
      rw [← ht]; simp
    simp only [hfull] at h
    cases hg : fs.gen with
    | none =>
      simp only [hg] at h
      injection h with h1 h2
      subst h1; subst h2
      have := hR.of_closed hg
      subst this
      exact ⟨hR, _, rfl, List.Sublist.refl _, Nat.le_succ _⟩
    | some g =>
      simp only [hg] at h
      rcases hr : feedStep fuel af ctx fs g with ⟨fs1, r⟩
      rw [hr] at h
      have hS := (feed_ok fuel).2.1 _ af ctx fs g hO (by simp [hg]) (hO.good g hg)
      rw [hr] at hS
      by_cases hrf : r = .fuel
      · subst hrf; simp only at h; injection h with _ h; exact absurd h.symm hf
      rcases hR.step hg hr hrf with ⟨nm, rfl, hR1⟩ | ⟨new, rfl, rfl⟩
      · exact ih hS.1 hR1 hS.2.2.1 h hf
      · simp only at h
        injection h with h1 h2
        subst h1; subst h2
        obtain ⟨o1, o2, o3, o4, o, o5⟩ := hS
        simp only at o4 o5
        refine ⟨Reads.closed o4, _, rfl, ?_, ?_⟩
        · rw [o5, List.append_assoc]
          exact List.Sublist.append (List.Sublist.refl _) (List.sublist_append_right _ _)
        · rw [o5]; simp only [List.length_append]
          have : o.toList.length ≤ 1 := by cases o <;> simp
          omega

/-- Every access leads on to the same complete field set, and gives the right
answer. -/
theorem access_reads {af : Bool} {ctx : Int} {final : FS} (fuel : Nat) {fs fs' : FS} {op : Op} {out : Out} (hO : Ok A fs)
    (hR : Reads af ctx fs final) (h : access fuel af ctx fs op = (fs', out)) (hf : out ≠ .fuel) :
    Reads af ctx fs' final ∧ Answer (final.fields.map shape) op out := by
  have hpre := (hR.grows hO).1.2.2
  cases op with
  | name n =>
    simp only [access, getByName] at h
    cases hfind : findField fs n with
    | some f =>
      simp only [hfind] at h
      injection h with h1 h2
      subst h1; subst h2
      obtain ⟨m1, m2⟩ := find_some hfind
      exact ⟨hR, Or.inl ⟨f, rfl, List.mem_map_of_mem (hpre.subset m1), m2⟩⟩
    | none =>
      simp only [hfind] at h
      have hno := find_none hfind
      cases hg : fs.gen with
      | none =>
        simp only [hg] at h
        injection h with h1 h2
        subst h1; subst h2
        have := hR.of_closed hg
        subst this
        refine ⟨hR, Or.inr ⟨rfl, fs.fields.map shape, [], by simp, by simp, ?_⟩⟩
        simpa [shape, List.map_map, Function.comp_def] using hno
      | some g =>
        simp only [hg] at h
        obtain ⟨i1, i2⟩ := feedUntil_reads n fuel hO hR (by simp [hg]) hno h hf
        refine ⟨i1, ?_⟩
        rcases i2 with ⟨f, e1, e2, e3⟩ | ⟨e1, pre, tail, e2, e3, e4⟩
        · exact Or.inl ⟨f, e1, List.mem_map_of_mem e2, e3⟩
        · refine Or.inr ⟨e1, pre.map shape, tail.map shape, by rw [e2]; simp, by simpa using e3, ?_⟩
          simpa [shape, List.map_map, Function.comp_def] using e4
  | index k =>
    simp only [access, getByIndex] at h
    by_cases hk : k < 0
    · rw [if_pos hk] at h
      injection h with h1 h2
      subst h1; subst h2
      exact ⟨hR, by simp [Answer, hk]⟩
    · rw [if_neg hk] at h
      obtain ⟨r, hr⟩ : ∃ r, (if 0 < k + 1 - (fs.fields.length : Int) then
          readMoreFields fuel af ctx fs (k + 1 - (fs.fields.length : Int)).toNat else (fs, Out.number 0)) = r := ⟨_, rfl⟩
      rw [hr] at h
      obtain ⟨fs1, o⟩ := r
      have key : o ≠ .fuel → Reads af ctx fs1 final ∧ (∃ j, o = .number j) ∧ fs1.fields <+: final.fields ∧
          (fs1 = final ∨ k.toNat < fs1.fields.length) := by
        intro hof
        split at hr
        · rename_i hpos
          obtain ⟨i1, ⟨j, i2, _⟩, i3, i4, i5⟩ := readMore_reads fuel _ hO hR hr hof
          refine ⟨i1, ⟨j, i2⟩, (i1.grows i3).1.2.2, ?_⟩
          rcases i5 with i5 | i5
          · exact Or.inl i5
          · right; omega
        · injection hr with h1 h2
          subst h1; subst h2
          exact ⟨hR, ⟨0, rfl⟩, hpre, Or.inr (by omega)⟩
      by_cases hof : o = .fuel
      · subst hof; simp only at h; injection h with _ h; exact absurd h.symm hf
      obtain ⟨k1, ⟨j, rfl⟩, k3, k4⟩ := key hof
      simp only at h
      simp only [Answer, if_neg hk, List.getElem?_map]
      cases hidx : fs1.fields[k.toNat]? with
      | some f =>
        rw [hidx] at h
        injection h with h1 h2
        subst h1; subst h2
        have : final.fields[k.toNat]? = some f := by
          obtain ⟨t, ht⟩ := k3
          rw [← ht, List.getElem?_append_left (by
            have := List.getElem?_eq_some_iff.mp hidx; exact this.1)]
          exact hidx
        rw [this]
        exact ⟨k1, f, rfl, rfl⟩
      | none =>
        rw [hidx] at h
        injection h with h1 h2
        subst h1; subst h2
        rcases k4 with rfl | k4
        · rw [hidx]; exact ⟨k1, rfl⟩
        · rw [List.getElem?_eq_none_iff] at hidx; omega
  | readMore n =>
    simp only [access] at h
    obtain ⟨i1, ⟨k, i2, i2'⟩, i3, i4, i5⟩ := readMore_reads fuel n hO hR h hf
    refine ⟨i1, k, i2, ?_⟩
    have := (i1.grows i3).1.2.2.length_le
    simp; omega
  | len =>
    simp only [access, getLen] at h
    rcases hr : feedAll fuel af ctx fs with ⟨fs1, res⟩
    rw [hr] at h
    obtain ⟨F, hF⟩ := hR
    by_cases hrf : res = .fuel
    · subst hrf; simp only at h; injection h with _ h; exact absurd h.symm hf
    have e1 := feedAll_mono (Nat.le_max_left fuel F) af ctx fs (by rw [hr]; exact hrf)
    have e2 := feedAll_mono (Nat.le_max_right fuel F) af ctx fs (by rw [hF]; simp)
    rw [e1, hr, hF] at e2
    injection e2 with e2 e3
    subst e2; subst e3
    simp only at h
    injection h with h1 h2
    subst h1; subst h2
    have hg := (Reads.grows ⟨F, hF⟩ hO).2
    exact ⟨Reads.closed hg, by simp [Answer]⟩
  | iter =>
    simp only [access] at h
    obtain ⟨i1, fl, i2, i3, i4⟩ := iterLoop_reads fuel hO hR (List.nil_prefix) h hf
    refine ⟨i1, fl, i2, i3.map shape, by simpa using i4⟩

/-! ### The whole tree -/

/-- Reading everything, with everything inside, to depth `d`, gives `full`. -/
def Deep (af : Bool) : Nat → FS → FS → Prop
  | 0, _, _ => False
  | d + 1, fs, full =>
    ∃ fs1, Reads af 0 fs fs1 ∧ full = { fs1 with fields := full.fields } ∧
      List.Forall₂ (fun f f' => (∃ n a s, f = Fld.leaf n a s ∧ f' = f) ∨
        ∃ n a s s', f = Fld.set n a s ∧ f' = Fld.set n a s' ∧ Deep af d s s') fs1.fields full.fields

/-- The field set at a path of indices. -/
def nodeAt : FS → List Nat → Option FS
  | fs, [] => some fs
  | fs, i :: path =>
    match fs.fields[i]? with
    | some (.set _ _ sub) => nodeAt sub path
    | _ => none

theorem Deep.size {af : Bool} {d : Nat} {fs full : FS} (h : Deep af d fs full) (hO : Ok A fs) {z : Nat}
    (hz : fs.size = some z) : full.size = some z := by
  cases d with
  | zero => exact h.elim
  | succ d =>
    obtain ⟨fs1, h1, h2, h3⟩ := h
    rw [h2]
    exact (h1.grows hO).1.2.1 z hz

theorem Deep.shapes {af : Bool} {d : Nat} {l l' : List Fld}
    (hsub : ∀ n a s, Fld.set n a s ∈ l → OkSome s) (hsz : ∀ n a s, Fld.set n a s ∈ l → ∃ z, s.size = some z ∧ 0 < z)
    (h : List.Forall₂ (fun f f' => (∃ n a s, f = Fld.leaf n a s ∧ f' = f) ∨
        ∃ n a s s', f = Fld.set n a s ∧ f' = Fld.set n a s' ∧ Deep af d s s') l l') :
    l'.map shape = l.map shape := by
  induction h with
  | nil => rfl
  | cons hx hr ih =>
    simp only [List.map_cons]
    rw [ih (fun n a s hm => hsub n a s (List.mem_cons_of_mem _ hm))
      (fun n a s hm => hsz n a s (List.mem_cons_of_mem _ hm))]
    congr 1
    rcases hx with ⟨n, a, s, rfl, rfl⟩ | ⟨n, a, s, s', rfl, rfl, hd⟩
    · rfl
    · obtain ⟨z, hz, _⟩ := hsz n a s (by simp)
      obtain ⟨_, hOs⟩ := OkSome.get (hsub n a s (by simp))
      have := hd.size hOs hz
      simp [shape, Fld.name, Fld.addr, Fld.size, this, hz]

theorem forall₂_get {α β : Type} {R : α → β → Prop} {l : List α} {l' : List β} (h : List.Forall₂ R l l') {i : Nat} {x : α}
    (hi : l[i]? = some x) : ∃ y, l'[i]? = some y ∧ R x y := by
  induction h generalizing i with
  | nil => simp at hi
  | cons hx hr ih =>
    cases i with
    | zero => simp at hi; subst hi; exact ⟨_, rfl, hx⟩
    | succ i => simp at hi; simpa using ih hi

theorem forall₂_set {α β : Type} {R : α → β → Prop} {l : List α} {l' : List β} (h : List.Forall₂ R l l') {i : Nat} {x : α}
    {y : β} (hi : l'[i]? = some y) (hx : R x y) : List.Forall₂ R (l.set i x) l' := by
  induction h generalizing i with
  | nil => exact List.Forall₂.nil
  | cons hx' hr ih =>
    cases i with
    | zero => simp at hi; subst hi; exact List.Forall₂.cons hx hr
    | succ i => simp at hi; exact List.Forall₂.cons hx' (ih hi)

theorem accessAt_deep {af : Bool} (fuel : Nat) (op : Op) (path : List Nat) :
    ∀ {A : Name → Prop} {d : Nat} {fs fs' full : FS} {out : Out}, Ok A fs → Deep af d fs full →
      accessAt fuel af fs path op = (fs', out) → out ≠ .fuel →
      Deep af d fs' full ∧
      ((∃ node, nodeAt full path = some node ∧ Answer (node.fields.map shape) op out) ∨
        (nodeAt fs path = none ∧ out = .raise .missingField ∧ fs' = fs)) := by
  induction path with
  | nil =>
    intro A d fs fs' full out hO hD h hf
    cases d with
    | zero => exact hD.elim
    | succ d =>
      obtain ⟨fs1, h1, h2, h3⟩ := hD
      rw [accessAt] at h
      obtain ⟨i1, i2⟩ := access_reads fuel hO h1 h hf
      have hO1 := (h1.grows hO).1.1
      refine ⟨⟨fs1, i1, h2, h3⟩, Or.inl ⟨full, rfl, ?_⟩⟩
      rw [Deep.shapes hO1.sub hO1.subsize h3]
      exact i2
  | cons i path ih =>
    intro A d fs fs' full out hO hD h hf
    cases d with
    | zero => exact hD.elim
    | succ d =>
      rw [accessAt] at h
      split at h
      · rename_i n a sub hi
        obtain ⟨fs1, h1, h2, h3⟩ := hD
        rcases hr : accessAt fuel af sub path op with ⟨sub2, o⟩
        rw [hr] at h
        simp only at h
        injection h with e1 e2
        subst e2
        have hm : Fld.set n a sub ∈ fs.fields := List.mem_of_getElem? hi
        obtain ⟨A', hOs⟩ := OkSome.get (hO.sub n a sub hm)
        obtain ⟨z, hz, hz0⟩ := hO.subsize n a sub hm
        obtain ⟨m, hm1⟩ := (h1.grows hO).1.2.2
        have hi1 : fs1.fields[i]? = some (.set n a sub) := by
          rw [← hm1, List.getElem?_append_left (by
            have := List.getElem?_eq_some_iff.mp hi; exact this.1)]
          exact hi
        obtain ⟨y, hy, hyR⟩ := forall₂_get h3 hi1
        rcases hyR with ⟨_, _, _, hb, _⟩ | ⟨n', a', s, s', hb, rfl, hDs⟩
        · cases hb
        · injection hb with hb1 hb2 hb3
          subst hb1; subst hb2; subst hb3
          obtain ⟨j1, j2⟩ := ih hOs hDs hr hf
          have hz2 : sub2.size = some z := by
            have := (accessAt_ok fuel af path op A' sub hOs).2 z hz
            rw [hr] at this; exact this
          have hshape : fs.fields.map shape = (fs.fields.set i (.set n a sub2)).map shape := by
            rw [List.map_set]
            have hlt := (List.getElem?_eq_some_iff.mp hi).1
            have hge := (List.getElem?_eq_some_iff.mp hi).2
            apply List.ext_getElem?
            intro j
            rw [List.getElem?_set]
            split
            · rename_i hj; subst hj
              rw [List.getElem?_map, hi]
              simp [shape, Fld.name, Fld.addr, Fld.size, hz, hz2, hlt]
            · rfl
          obtain ⟨F, hF⟩ := h1
          have hsim := feedAll_sim F af 0 hshape (a := fs) (b := fs')
            ⟨[], by simp, by rw [← e1]; simp⟩ hO
          rw [hF] at hsim
          rcases hrr : feedAll F af 0 fs' with ⟨b', res'⟩
          rw [hrr] at hsim
          obtain ⟨s1, m', s2, s3⟩ := hsim
          simp only at s1 s2 s3
          have hmm : m' = m := by
            have : fs.fields ++ m' = fs.fields ++ m := by rw [← s2, hm1]
            exact List.append_cancel_left this
          subst hmm
          subst s1
          refine ⟨⟨b', ⟨F, hrr⟩, ?_, ?_⟩, ?_⟩
          · rw [s3]; exact h2
          · have hset : b'.fields = fs1.fields.set i (.set n a sub2) := by
              rw [s3]
              simp only
              rw [← hm1, List.set_append_left]
              exact (List.getElem?_eq_some_iff.mp hi).1
            rw [hset]
            exact forall₂_set h3 hy (Or.inr ⟨n, a, sub2, s', rfl, rfl, j1⟩)
          · rcases j2 with ⟨node, q1, q2⟩ | ⟨q1, q2, q3⟩
            · exact Or.inl ⟨node, by rw [nodeAt, hy]; exact q1, q2⟩
            · refine Or.inr ⟨by rw [nodeAt, hi]; exact q1, q2, ?_⟩
              rw [← e1, q3]
              have := (List.getElem?_eq_some_iff.mp hi)
              rw [← this.2, List.set_getElem_self]
      · rename_i hno
        injection h with e1 e2
        subst e1; subst e2
        refine ⟨hD, Or.inr ⟨?_, rfl, rfl⟩⟩
        rw [nodeAt]
        split
        · rename_i n a s hs; exact absurd hs (hno n a s)
        · rfl

end Hachoir.FieldSet
