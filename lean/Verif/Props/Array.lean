import Verif.Props.Path

/-!
# Property C27: array views
-/

set_option linter.unusedVariables false

namespace Hachoir.Props
open Hachoir Hachoir.FieldSet

variable {A : Name → Prop}

/-- Any sequence of accesses to the view and to the field set. -/
def arrRun (fuel : Nat) (af : Bool) (ctx : Int) (steps : Nat) : FS × Arr → List ArrOp → FS × Arr
  | s, [] => s
  | s, op :: ops => arrRun fuel af ctx steps (arrStep fuel af ctx steps s op) ops

/-- What the cache of the view says is true. -/
def CacheOk (fs : FS) (a : Arr) : Prop :=
  ∀ i p, (i, p) ∈ a.cache → ∃ f, fs.fields[p]? = some f ∧ f.name = indexedInt a.name i

theorem CacheOk.grow {fs fs' : FS} {a : Arr} (h : CacheOk fs a) (hp : fs.fields <+: fs'.fields) : CacheOk fs' a := by
  intro i p hm
  obtain ⟨f, h1, h2⟩ := h i p hm
  obtain ⟨t, ht⟩ := hp
  refine ⟨f, ?_, h2⟩
  rw [← ht, List.getElem?_append_left (List.getElem?_eq_some_iff.mp h1).1, h1]

theorem lookupPlace_fst (fuel : Nat) (af : Bool) (ctx : Int) (fs : FS) (n : Name) :
    (lookupPlace fuel af ctx fs n).1 = (access fuel af ctx fs (.name n)).1 := by
  unfold lookupPlace
  rcases access fuel af ctx fs (.name n) with ⟨fs', o⟩
  cases o with
  | field f => simp only; split <;> rfl
  | fields | number | raise | fuel => rfl

theorem lookupPlace_at {fuel : Nat} {af : Bool} {ctx : Int} {fs fs' : FS} {n : Name} {p : Nat}
    (h : lookupPlace fuel af ctx fs n = (fs', .at p)) : ∃ f, fs'.fields[p]? = some f ∧ f.name = n := by
  unfold lookupPlace at h
  rcases ha : access fuel af ctx fs (.name n) with ⟨fs1, o⟩
  rw [ha] at h
  cases o with
  | field f =>
    simp only at h
    split at h
    · rename_i q hq
      injection h with h1 h2
      injection h2 with h2
      subst h1; subst h2
      exact findIdx_name hq
    · injection h with _ h; cases h
  | fields | number | raise | fuel => simp only at h; injection h with _ h; cases h

theorem lookupPlace_existing (fuel : Nat) (af : Bool) (ctx : Int) {fs : FS} {n : Name} {p : Nat} {f : Fld}
    (hn : (fs.fields.map Fld.name).Nodup) (hp : fs.fields[p]? = some f) (hf : f.name = n) :
    lookupPlace fuel af ctx fs n = (fs, .at p) := by
  subst hf
  unfold lookupPlace
  simp only [access, getByName, findField]
  rw [find_nodup hn hp]
  simp only [placeOf]
  rw [findIdx_nodup hn hp]

theorem get_spec (fuel : Nat) (af : Bool) (ctx : Int) {fs : FS} {a : Arr} (hO : Ok A fs) (hc : CacheOk fs a) (i : Int)
    {fs' : FS} {a' : Arr} {r : ItemAt} (h : a.get fuel af ctx fs i = (fs', a', r)) :
    lookupPlace fuel af ctx fs (indexedInt a.name i) = (fs', r) ∧ CacheOk fs' a' ∧ a'.name = a.name ∧ Grows A fs fs' := by
  unfold Arr.get at h
  cases hf : a.cache.find? (fun x => decide (x.1 = i)) with
  | some x =>
    rw [hf] at h
    simp only at h
    injection h with h1 h2
    injection h2 with h2 h3
    subst h1; subst h2; subst h3
    have hm := List.mem_of_find?_eq_some hf
    have he := List.find?_some hf
    simp only [decide_eq_true_eq] at he
    obtain ⟨f, q1, q2⟩ := hc x.1 x.2 hm
    rw [he] at q2
    exact ⟨lookupPlace_existing fuel af ctx hO.names.nodup q1 q2, hc, rfl, Grows.refl hO⟩
  | none =>
    rw [hf] at h
    simp only at h
    have hfst := lookupPlace_fst fuel af ctx fs (indexedInt a.name i)
    have hG := access_grows fuel af ctx fs (.name (indexedInt a.name i)) hO
    rcases hl : lookupPlace fuel af ctx fs (indexedInt a.name i) with ⟨fs1, o⟩
    rw [hl] at h hfst
    rw [← hfst] at hG
    split at h
    · rename_i fs2 p heq
      injection heq with e1 e2
      subst e1; subst e2
      injection h with h1 h2
      injection h2 with h2 h3
      subst h1; subst h2; subst h3
      refine ⟨rfl, ?_, rfl, hG⟩
      intro j q hm
      rcases List.mem_cons.mp hm with hm | hm
      · injection hm with e1 e2
        subst e1; subst e2
        exact lookupPlace_at hl
      · exact hc.grow hG.2.2 j q hm
    · rename_i fs2 heq
      injection heq with e1 e2
      subst e1; subst e2
      injection h with h1 h2
      injection h2 with h2 h3
      subst h1; subst h2; subst h3
      exact ⟨rfl, hc.grow hG.2.2, rfl, hG⟩
    · rename_i fs2 r' _ _ heq
      injection heq with e1 e2
      subst e1; subst e2
      injection h with h1 h2
      injection h2 with h2 h3
      subst h1; subst h2; subst h3
      exact ⟨rfl, hc.grow hG.2.2, rfl, hG⟩

theorem lenLoop_inv (fuel : Nat) (af : Bool) (ctx : Int) (steps : Nat) : ∀ {fs : FS} {a : Arr}, Ok A fs → CacheOk fs a → ∀ total : Int,
    Ok A (Arr.lenLoop fuel af ctx steps fs a total).1 ∧ CacheOk (Arr.lenLoop fuel af ctx steps fs a total).1
      (Arr.lenLoop fuel af ctx steps fs a total).2.1 ∧ (Arr.lenLoop fuel af ctx steps fs a total).2.1.name = a.name := by
  induction steps with
  | zero => intro fs a hO hc total; exact ⟨hO, hc, rfl⟩
  | succ steps ih =>
    intro fs a hO hc total
    rw [Arr.lenLoop]
    rcases hg : a.get fuel af ctx fs total with ⟨fs', a', r⟩
    obtain ⟨_, h1, h2, h3⟩ := get_spec fuel af ctx hO hc total hg
    cases r with
    | «at» p => simp only; obtain ⟨i1, i2, i3⟩ := ih h3.1 h1 (total + 1); exact ⟨i1, i2, i3.trans h2⟩
    | raise e => cases e <;> exact ⟨h3.1, h1, h2⟩
    | fuel => exact ⟨h3.1, h1, h2⟩

theorem iterLoop_inv (fuel : Nat) (af : Bool) (ctx : Int) (steps : Nat) : ∀ {fs : FS} {a : Arr}, Ok A fs → CacheOk fs a → ∀ index : Nat,
    Ok A (Arr.iterLoop fuel af ctx steps fs a index).1 ∧ CacheOk (Arr.iterLoop fuel af ctx steps fs a index).1
      (Arr.iterLoop fuel af ctx steps fs a index).2.1 ∧ (Arr.iterLoop fuel af ctx steps fs a index).2.1.name = a.name := by
  induction steps with
  | zero => intro fs a hO hc total; exact ⟨hO, hc, rfl⟩
  | succ steps ih =>
    intro fs a hO hc index
    rw [Arr.iterLoop]
    rcases hg : a.get fuel af ctx fs index with ⟨fs', a', r⟩
    obtain ⟨_, h1, h2, h3⟩ := get_spec fuel af ctx hO hc index hg
    cases r with
    | «at» p =>
      simp only
      obtain ⟨i1, i2, i3⟩ := ih h3.1 h1 (index + 1)
      rcases hl : Arr.iterLoop fuel af ctx steps fs' a' (index + 1) with ⟨fs2, a2, o⟩
      rw [hl] at i1 i2 i3
      cases o <;> exact ⟨i1, i2, i3.trans h2⟩
    | raise e => cases e <;> exact ⟨h3.1, h1, h2⟩
    | fuel => exact ⟨h3.1, h1, h2⟩

theorem arrRun_inv (fuel : Nat) (af : Bool) (ctx : Int) (steps : Nat) (ops : List ArrOp) : ∀ {fs : FS} {a : Arr}, Ok A fs → CacheOk fs a →
    Ok A (arrRun fuel af ctx steps (fs, a) ops).1 ∧
    CacheOk (arrRun fuel af ctx steps (fs, a) ops).1 (arrRun fuel af ctx steps (fs, a) ops).2 ∧
    (arrRun fuel af ctx steps (fs, a) ops).2.name = a.name := by
  induction ops with
  | nil => intro fs a hO hc; exact ⟨hO, hc, rfl⟩
  | cons op ops ih =>
    intro fs a hO hc
    rw [arrRun]
    have hstep : Ok A (arrStep fuel af ctx steps (fs, a) op).1 ∧
        CacheOk (arrStep fuel af ctx steps (fs, a) op).1 (arrStep fuel af ctx steps (fs, a) op).2 ∧
        (arrStep fuel af ctx steps (fs, a) op).2.name = a.name := by
      cases op with
      | get i =>
        simp only [arrStep]
        rcases hg : a.get fuel af ctx fs i with ⟨fs', a', r⟩
        obtain ⟨_, h1, h2, h3⟩ := get_spec fuel af ctx hO hc i hg
        exact ⟨h3.1, h1, h2⟩
      | len =>
        simp only [arrStep, Arr.len]
        split
        · exact ⟨hO, hc, rfl⟩
        · exact lenLoop_inv fuel af ctx steps hO hc _
      | iter => exact iterLoop_inv fuel af ctx steps hO hc 0
      | direct op =>
        have := access_grows fuel af ctx fs op hO
        exact ⟨this.1, hc.grow this.2.2, rfl⟩
    obtain ⟨s1, s2, s3⟩ := hstep
    obtain ⟨i1, i2, i3⟩ := ih s1 s2
    exact ⟨i1, i2, i3.trans s3⟩

/-- **C27.**  After any accesses to the view and to the field set (which may still
be unread), `array(key)[i]` does exactly what `fieldset["key[i]"]` does: it gives the
same field or the same exception and reads the same fields. -/
theorem C27_item (fuel : Nat) (af : Bool) (ctx : Int) (steps : Nat) (fs : FS) (hO : Ok A fs) (key : Name) (ops : List ArrOp)
    (i : Int) (fs1 : FS) (a : Arr) (h : arrRun fuel af ctx steps (fs, Arr.new key) ops = (fs1, a)) (fuel' : Nat) :
    ((a.get fuel' af ctx fs1 i).1, (a.get fuel' af ctx fs1 i).2.2) = lookupPlace fuel' af ctx fs1 (indexedInt key i) := by
  have hc : CacheOk fs (Arr.new key) := by intro i p hm; simp [Arr.new] at hm
  obtain ⟨h1, h2, h3⟩ := arrRun_inv fuel af ctx steps ops hO hc
  rw [h] at h1 h2 h3
  simp only at h1 h2 h3
  rcases hg : a.get fuel' af ctx fs1 i with ⟨fs', a', r⟩
  obtain ⟨g1, _⟩ := get_spec fuel' af ctx h1 h2 i hg
  rw [h3] at g1
  simp only [Arr.new] at g1
  exact g1.symm

/-- The fields `key[0]` … `key[n-1]`, and no others, exist. -/
def Numbered (fs : FS) (key : Name) (n : Nat) : Prop := ∀ i : Nat, indexed key i ∈ fs.fields.map Fld.name ↔ i < n

/-- The state of a view of a completely read field set with `n` items. -/
structure ViewOk (fs : FS) (key : Name) (n : Nat) (a : Arr) : Prop where
  name : a.name = key
  cache : CacheOk fs a
  low : -1 ≤ a.maxIndex
  high : a.maxIndex < n
  bound : ∀ i p, (i, p) ∈ a.cache → i ≤ a.maxIndex
  known : a.known = true → a.maxIndex = (n : Int) - 1

theorem lookupPlace_closed (fuel : Nat) (af : Bool) (ctx : Int) {fs : FS} (hg : fs.gen = none) (hd : (fs.fields.map Fld.name).Nodup) {n : Name} :
    (∃ p, lookupPlace fuel af ctx fs n = (fs, .at p) ∧ n ∈ fs.fields.map Fld.name) ∨
    (lookupPlace fuel af ctx fs n = (fs, .raise .missingField) ∧ n ∉ fs.fields.map Fld.name) := by
  by_cases h : n ∈ fs.fields.map Fld.name
  · obtain ⟨f, hf, hn⟩ := List.mem_map.mp h
    obtain ⟨p, hp⟩ := List.mem_iff_getElem?.mp hf
    exact Or.inl ⟨p, lookupPlace_existing fuel af ctx hd hp hn, h⟩
  · refine Or.inr ⟨?_, h⟩
    unfold lookupPlace
    simp only [access, getByName, hg]
    have : findField fs n = none := by
      unfold findField
      rw [List.find?_eq_none]
      intro f hf
      simp only [decide_eq_true_eq]
      intro e
      exact h (List.mem_map.mpr ⟨f, hf, e⟩)
    rw [this]

theorem get_view (fuel : Nat) (af : Bool) (ctx : Int) {fs : FS} {key : Name} {n : Nat} (hO : Ok A fs) (hg : fs.gen = none)
    (hN : Numbered fs key n) {a : Arr} (hv : ViewOk fs key n a) (i : Nat)
    (hi : i < n ∨ (i = n ∧ a.maxIndex = (n : Int) - 1)) :
    (i < n → ∃ p a', a.get fuel af ctx fs i = (fs, a', .at p) ∧ ViewOk fs key n a' ∧ a'.maxIndex = max (i : Int) a.maxIndex ∧
      ∃ f, fs.fields[p]? = some f ∧ f.name = indexed key i) ∧
    (i = n → ∃ a', a.get fuel af ctx fs i = (fs, a', .raise .missingField) ∧ ViewOk fs key n a' ∧ a'.known = true ∧
      a'.maxIndex = a.maxIndex) := by
  rcases hget : a.get fuel af ctx fs i with ⟨fs', a', r⟩
  obtain ⟨g1, g2, g3, g4⟩ := get_spec fuel af ctx hO hv.cache (i : Int) hget
  have hnm : indexedInt a.name (i : Int) = indexed key i := by rw [hv.name]; rfl
  rw [hnm] at g1
  rcases lookupPlace_closed fuel af ctx hg hO.names.nodup (n := indexed key i) with ⟨p, q1, q2⟩ | ⟨q1, q2⟩
  · rw [q1] at g1
    injection g1 with e1 e2
    subst e1; subst e2
    have hlt := (hN i).mp q2
    refine ⟨fun _ => ?_, fun e => by omega⟩
    obtain ⟨f, f1, f2⟩ := lookupPlace_at q1
    refine ⟨p, a', rfl, ?_, ?_, f, f1, f2⟩
    all_goals
      unfold Arr.get at hget
      cases hf : a.cache.find? (fun x => decide (x.1 = (i : Int))) with
      | some x =>
        rw [hf] at hget
        injection hget with _ h2
        injection h2 with h2 _
        subst h2
        have hm := List.mem_of_find?_eq_some hf
        have he := List.find?_some hf
        simp only [decide_eq_true_eq] at he
        have hb := hv.bound x.1 x.2 hm
        first
          | exact hv
          | omega
      | none =>
        rw [hf] at hget
        simp only [hnm, q1] at hget
        injection hget with _ h2
        injection h2 with h2 _
        subst h2
        first
          | rfl
          | (refine ⟨hv.name, g2, ?_, ?_, ?_, ?_⟩
             · have := hv.low; simp only; omega
             · have := hv.high; simp only; omega
             · intro j q hm
               simp only at hm ⊢
               rcases List.mem_cons.mp hm with hm | hm
               · injection hm with hm _; omega
               · have := hv.bound j q hm; omega
             · intro hk
               have := hv.known hk
               simp only; omega)
  · rw [q1] at g1
    injection g1 with e1 e2
    subst e1; subst e2
    have hge : ¬ i < n := fun h => q2 ((hN i).mpr h)
    refine ⟨fun h => absurd h hge, fun e => ?_⟩
    have hmax : a.maxIndex = (n : Int) - 1 := by
      rcases hi with h | h
      · exact absurd h hge
      · exact h.2
    unfold Arr.get at hget
    cases hf : a.cache.find? (fun x => decide (x.1 = (i : Int))) with
    | some x =>
      rw [hf] at hget
      injection hget with _ h2
      injection h2 with _ h2
      cases h2
    | none =>
      rw [hf] at hget
      simp only [hnm, q1] at hget
      injection hget with _ h2
      injection h2 with h2 _
      subst h2
      exact ⟨_, rfl, ⟨hv.name, g2, hv.low, hv.high, hv.bound, fun _ => hmax⟩, rfl, rfl⟩

theorem lenLoop_view (fuel : Nat) (af : Bool) (ctx : Int) {fs : FS} {key : Name} {n : Nat} (hO : Ok A fs) (hg : fs.gen = none)
    (hN : Numbered fs key n) (steps : Nat) : ∀ {a : Arr}, ViewOk fs key n a → (n : Int) - a.maxIndex ≤ steps →
    ∃ a', Arr.lenLoop fuel af ctx steps fs a (a.maxIndex + 1) = (fs, a', .len n) ∧ ViewOk fs key n a' := by
  induction steps with
  | zero => intro a hv hs; have := hv.high; omega
  | succ steps ih =>
    intro a hv hs
    rw [Arr.lenLoop]
    have hl := hv.low
    have hh := hv.high
    obtain ⟨k, hk⟩ : ∃ k : Nat, a.maxIndex + 1 = k := ⟨(a.maxIndex + 1).toNat, by omega⟩
    rw [hk]
    by_cases hkn : k < n
    · obtain ⟨p, a', e1, e2, e3, _⟩ := (get_view fuel af ctx hO hg hN hv k (Or.inl hkn)).1 hkn
      rw [e1]
      simp only
      have hm : a'.maxIndex + 1 = (k : Int) + 1 := by rw [e3]; omega
      rw [← hm]
      exact ih e2 (by omega)
    · have hke : k = n := by omega
      subst hke
      obtain ⟨a', e1, e2, e3, e4⟩ := (get_view fuel af ctx hO hg hN hv k (Or.inr ⟨rfl, by omega⟩)).2 rfl
      rw [e1]
      exact ⟨a', rfl, e2⟩

theorem iterLoop_view (fuel : Nat) (af : Bool) (ctx : Int) {fs : FS} {key : Name} {n : Nat} (hO : Ok A fs) (hg : fs.gen = none)
    (hN : Numbered fs key n) (steps : Nat) : ∀ {a : Arr} (k : Nat), ViewOk fs key n a → k ≤ n → (k : Int) - 1 ≤ a.maxIndex → n - k < steps →
    ∃ a' l, Arr.iterLoop fuel af ctx steps fs a k = (fs, a', some l) ∧ ViewOk fs key n a' ∧
      l.map (fun p => (fs.fields[p]?).map Fld.name) = (List.range' k (n - k)).map (fun i => some (indexed key i)) := by
  induction steps with
  | zero => intro a k hv hk hm hs; omega
  | succ steps ih =>
    intro a k hv hk hm hs
    rw [Arr.iterLoop]
    by_cases hkn : k < n
    · obtain ⟨p, a', e1, e2, e3, f, f1, f2⟩ := (get_view fuel af ctx hO hg hN hv k (Or.inl hkn)).1 hkn
      rw [e1]
      simp only
      obtain ⟨a2, l, i1, i2, i3⟩ := ih (k + 1) e2 (by omega) (by rw [e3]; omega) (by omega)
      rw [i1]
      refine ⟨a2, p :: l, rfl, i2, ?_⟩
      have : n - k = (n - (k + 1)) + 1 := by omega
      rw [this, List.range'_succ]
      simp only [List.map_cons, i3, f1, f2, Option.map_some]
    · have hke : k = n := by omega
      subst hke
      have hh := hv.high
      obtain ⟨a', e1, e2, e3, e4⟩ := (get_view fuel af ctx hO hg hN hv k (Or.inr ⟨rfl, by omega⟩)).2 rfl
      rw [e1]
      exact ⟨a', [], rfl, e2, by simp⟩

theorem access_closed (fuel : Nat) (af : Bool) (ctx : Int) {fs : FS} (hg : fs.gen = none) (op : Op) :
    (access (fuel + 1) af ctx fs op).1 = fs := by
  cases op with
  | name n => simp only [access, getByName, hg]; split <;> rfl
  | index k =>
    simp only [access, getByIndex, readMoreFields, hg]
    split
    · rfl
    · simp only [ite_self]
      split <;> rfl
  | readMore n => simp only [access, readMoreFields, hg]
  | len => simp only [access, getLen]; rw [feedAll]; simp only [hg]
  | iter => simp only [access]; rw [iterLoop]; simp only [hg]

/-- Accesses that do not ask for a missing item. -/
def Fits (n : Nat) : ArrOp → Prop
  | .get i => 0 ≤ i ∧ i < n
  | _ => True

theorem arrRun_view (fuel : Nat) (af : Bool) (ctx : Int) (steps : Nat) {fs : FS} {key : Name} {n : Nat} (hO : Ok A fs)
    (hg : fs.gen = none) (hN : Numbered fs key n) (hst : n < steps) (ops : List ArrOp) (hf : ∀ op ∈ ops, Fits n op) :
    ∀ {a : Arr}, ViewOk fs key n a → ∃ a', arrRun (fuel + 1) af ctx steps (fs, a) ops = (fs, a') ∧ ViewOk fs key n a' := by
  induction ops with
  | nil => intro a hv; exact ⟨a, rfl, hv⟩
  | cons op ops ih =>
    intro a hv
    rw [arrRun]
    have hl := hv.low
    have hstep : ∃ a', arrStep (fuel + 1) af ctx steps (fs, a) op = (fs, a') ∧ ViewOk fs key n a' := by
      cases op with
      | get i =>
        obtain ⟨f1, f2⟩ := hf _ List.mem_cons_self
        obtain ⟨k, rfl⟩ : ∃ k : Nat, i = k := ⟨i.toNat, by omega⟩
        obtain ⟨p, a', e1, e2, _⟩ := (get_view (fuel + 1) af ctx hO hg hN hv k (Or.inl (by omega))).1 (by omega)
        simp only [arrStep, e1]
        exact ⟨a', rfl, e2⟩
      | len =>
        simp only [arrStep, Arr.len]
        split
        · exact ⟨a, rfl, hv⟩
        · by_cases h : (n : Int) - a.maxIndex ≤ steps
          · obtain ⟨a', e1, e2⟩ := lenLoop_view (fuel + 1) af ctx hO hg hN steps hv h
            rw [e1]
            exact ⟨a', rfl, e2⟩
          · omega
      | iter =>
        simp only [arrStep]
        obtain ⟨a', l, e1, e2, _⟩ := iterLoop_view (fuel + 1) af ctx hO hg hN steps 0 hv (by omega) (by omega) (by omega)
        rw [e1]
        exact ⟨a', rfl, e2⟩
      | direct op => exact ⟨a, by simp only [arrStep, access_closed fuel af ctx hg op], hv⟩
    obtain ⟨a1, e1, e2⟩ := hstep
    rw [e1]
    exact ih (fun op hop => hf op (List.mem_cons_of_mem _ hop)) e2

/-- **C27.**  In a completely read field set with the items `key[0]` … `key[n-1]`,
after any accesses that did not ask for a missing index, `len(array(key))` is `n`
and iterating gives these items in order.

Partial: the property asks for the same after accesses to missing indices; this
fails, see `C27_len_wrong_after_miss`. -/
theorem C27_length_partial (fuel : Nat) (af : Bool) (ctx : Int) (steps : Nat) (fs : FS) (key : Name) (n : Nat) (hO : Ok A fs)
    (hg : fs.gen = none) (hN : Numbered fs key n) (hst : n < steps) (ops : List ArrOp) (hf : ∀ op ∈ ops, Fits n op)
    (fs1 : FS) (a : Arr) (h : arrRun (fuel + 1) af ctx steps (fs, Arr.new key) ops = (fs1, a)) :
    fs1 = fs ∧ (∃ a', a.len (fuel + 1) af ctx steps fs = (fs, a', .len n)) ∧
    ∃ a' l, a.iterLoop (fuel + 1) af ctx steps fs 0 = (fs, a', some l) ∧
      l.map (fun p => (fs.fields[p]?).map Fld.name) = (List.range n).map (fun i => some (indexed key i)) := by
  have hv : ViewOk fs key n (Arr.new key) :=
    ⟨rfl, by intro i p hm; simp [Arr.new] at hm, by simp [Arr.new], by simp [Arr.new]; omega,
      by intro i p hm; simp [Arr.new] at hm, by simp [Arr.new]⟩
  obtain ⟨a', e1, e2⟩ := arrRun_view fuel af ctx steps hO hg hN hst ops hf hv
  rw [h] at e1
  injection e1 with e3 e4
  subst e3; subst e4
  have hl := e2.low
  refine ⟨rfl, ?_, ?_⟩
  · unfold Arr.len
    split
    · rename_i hk
      refine ⟨a, ?_⟩
      rw [e2.known hk]
      have : (n : Int) - 1 + 1 = n := by omega
      rw [this]
    · obtain ⟨a2, q1, _⟩ := lenLoop_view (fuel + 1) af ctx hO hg hN steps e2 (by omega)
      exact ⟨a2, q1⟩
  · obtain ⟨a2, l, q1, _, q3⟩ := iterLoop_view (fuel + 1) af ctx hO hg hN steps 0 e2 (by omega) (by omega) (by omega)
    refine ⟨a2, l, q1, ?_⟩
    rw [q3, List.range_eq_range']
    rfl

/-- **C27.**  The length of a fresh view of a field set that may still be unread:
the items below it exist. -/
theorem C27_items_exist (fuel : Nat) (af : Bool) (ctx : Int) (steps : Nat) (fs : FS) (hO : Ok A fs) (key : Name) (fs' : FS) (a' : Arr)
    (n : Int) (h : (Arr.new key).len fuel af ctx steps fs = (fs', a', .len n)) :
    0 ≤ n ∧ ∀ i : Nat, (i : Int) < n → indexed key i ∈ fs'.fields.map Fld.name := by
  have key' : ∀ (steps : Nat) (fs : FS) (a : Arr) (k : Nat), Ok A fs → CacheOk fs a → a.name = key →
      (∀ i : Nat, i < k → indexed key i ∈ fs.fields.map Fld.name) →
      Arr.lenLoop fuel af ctx steps fs a k = (fs', a', .len n) →
      0 ≤ n ∧ ∀ i : Nat, (i : Int) < n → indexed key i ∈ fs'.fields.map Fld.name := by
    intro steps
    induction steps with
    | zero => intro fs a k _ _ _ _ h; rw [Arr.lenLoop] at h; injection h with _ h; injection h with _ h; cases h
    | succ steps ih =>
      intro fs a k hO hc hn hk h
      rw [Arr.lenLoop] at h
      rcases hg : a.get fuel af ctx fs k with ⟨fs1, a1, r⟩
      rw [hg] at h
      obtain ⟨g1, g2, g3, g4⟩ := get_spec fuel af ctx hO hc (k : Int) hg
      have hkeep : ∀ i : Nat, i < k → indexed key i ∈ fs1.fields.map Fld.name := fun i hi =>
        (prefix_map Fld.name g4.2.2).subset (hk i hi)
      cases r with
      | «at» p =>
        simp only at h
        refine ih fs1 a1 (k + 1) g4.1 g2 (g3.trans hn) ?_ h
        intro i hi
        by_cases he : i = k
        · subst he
          obtain ⟨f, f1, f2⟩ := lookupPlace_at g1
          rw [hn] at f2
          exact List.mem_map.mpr ⟨f, List.mem_of_getElem? f1, f2⟩
        · exact hkeep i (by omega)
      | raise e =>
        cases e with
        | missingField =>
          simp only at h
          injection h with h1 h2
          injection h2 with h2 h3
          injection h3 with h3
          subst h1; subst h3
          exact ⟨by omega, fun i hi => hkeep i (by omega)⟩
        | _ => simp only at h; injection h with _ h; injection h with _ h; cases h
      | fuel => simp only at h; injection h with _ h; injection h with _ h; cases h
  unfold Arr.len at h
  simp only [Arr.new, Bool.false_eq_true, if_false] at h
  exact key' steps fs _ 0 hO (by intro i p hm; simp at hm) rfl (by intro i hi; omega) h

/-- Three items. -/
def itemsGen : Gen := listGen [.yield (.leaf "item[]".toList (.ok 8)), .yield (.leaf "x".toList (.ok 8)),
  .yield (.leaf "item[]".toList (.ok 8)), .yield (.leaf "item[]".toList (.ok 8))]

example : ((arrRun 20 true 0 9 (FSet.new (some 32) itemsGen, Arr.new "item".toList) [.get 1]).2.len 20 true 0 9
    (arrRun 20 true 0 9 (FSet.new (some 32) itemsGen, Arr.new "item".toList) [.get 1]).1).2.2 = .len 3 := by decide +kernel

/-- After one access to a missing index the length is wrong: here it is 1 instead
of 3 (and 0 if nothing was accessed before). -/
theorem C27_len_wrong_after_miss :
    ((arrRun 20 true 0 9 (FSet.new (some 32) itemsGen, Arr.new "item".toList) [.get 0, .get 7]).2.len 20 true 0 9
      (arrRun 20 true 0 9 (FSet.new (some 32) itemsGen, Arr.new "item".toList) [.get 0, .get 7]).1).2.2 = .len 1 ∧
    ((arrRun 20 true 0 9 (FSet.new (some 32) itemsGen, Arr.new "item".toList) [.get (-1)]).2.len 20 true 0 9
      (arrRun 20 true 0 9 (FSet.new (some 32) itemsGen, Arr.new "item".toList) [.get (-1)]).1).2.2 = .len 0 := by
  decide +kernel

/-- … while the items are all there. -/
example : ((arrRun 20 true 0 9 (FSet.new (some 32) itemsGen, Arr.new "item".toList) [.get 0, .get 7]).2.get 20 true 0
    (arrRun 20 true 0 9 (FSet.new (some 32) itemsGen, Arr.new "item".toList) [.get 0, .get 7]).1 2).2.2 = .at 3 := by decide +kernel

end Hachoir.Props
