import Verif.Field.FeedLemmas

/-!
# Accesses keep the invariant of field sets
-/

set_option linter.unusedVariables false

namespace Hachoir.FieldSet
open Hachoir

variable {A : Name → Prop}

/-- What every access guarantees about the field set. -/
def Grows (A : Name → Prop) (fs fs' : FS) : Prop :=
  Ok A fs' ∧ (∀ z, fs.size = some z → fs'.size = some z) ∧ fs.fields <+: fs'.fields

theorem Grows.refl {fs : FS} (h : Ok A fs) : Grows A fs fs := ⟨h, fun _ hz => hz, List.prefix_refl _⟩

theorem Grows.trans {a b c : FS} (h : Grows A a b) (h' : Grows A b c) : Grows A a c :=
  ⟨h'.1, fun z hz => h'.2.1 z (h.2.1 z hz), h.2.2.trans h'.2.2⟩

theorem step_grows (fuel : Nat) (af : Bool) (ctx : Int) {fs : FS} {g : Gen} (h : Ok A fs) (hg : fs.gen = some g)
    {r : FS × Step} (hr : feedStep fuel af ctx fs g = r) : Grows A fs r.1 := by
  have := (feed_ok fuel).2.1 _ af ctx fs g h (by rw [hg]; simp) (h.good g hg)
  rw [hr] at this
  exact ⟨this.1, this.2.1, this.2.2.1⟩

theorem feedUntil_grows (fuel : Nat) (af : Bool) (ctx : Int) (name : Name) :
    ∀ fs : FS, Ok A fs → Grows A fs (feedUntil fuel af ctx name fs).1 := by
  induction fuel with
  | zero => intro fs h; exact Grows.refl h
  | succ fuel ih =>
    intro fs h
    rw [feedUntil]
    cases hg : fs.gen with
    | none => exact Grows.refl h
    | some g =>
      simp only
      rcases hr : feedStep fuel af ctx fs g with ⟨fs', res⟩
      have hG := step_grows fuel af ctx h hg hr
      cases res with
      | more n =>
        simp only
        split
        · split <;> exact hG
        · exact hG.trans (ih fs' hG.1)
      | done new => exact hG
      | raise e => exact hG
      | fuel => exact hG

theorem readLoop_grows (fuel : Nat) (af : Bool) (ctx : Int) (n : Nat) :
    ∀ fs : FS, Ok A fs → Grows A fs (readLoop fuel af ctx n fs).1 := by
  induction n with
  | zero => intro fs h; exact Grows.refl h
  | succ n ih =>
    intro fs h
    rw [readLoop]
    cases hg : fs.gen with
    | none => exact Grows.refl h
    | some g =>
      simp only
      rcases hr : feedStep fuel af ctx fs g with ⟨fs', res⟩
      have hG := step_grows fuel af ctx h hg hr
      cases res with
      | more n => exact hG.trans (ih fs' hG.1)
      | done new => exact hG
      | raise e => exact hG
      | fuel => exact hG

theorem readMore_grows (fuel : Nat) (af : Bool) (ctx : Int) (n : Nat) (fs : FS) (h : Ok A fs) :
    Grows A fs (readMoreFields fuel af ctx fs n).1 := by
  unfold readMoreFields
  have hG := readLoop_grows fuel af ctx n fs h
  cases hg : fs.gen with
  | none => exact Grows.refl h
  | some g =>
    simp only
    rcases hr : readLoop fuel af ctx n fs with ⟨fs', res⟩
    rw [hr] at hG
    cases res <;> exact hG

theorem iterLoop_grows (fuel : Nat) (af : Bool) (ctx : Int) :
    ∀ (fs : FS) (acc : List Fld), Ok A fs → Grows A fs (iterLoop fuel af ctx fs acc).1 := by
  induction fuel with
  | zero => intro fs acc h; exact Grows.refl h
  | succ fuel ih =>
    intro fs acc h
    rw [iterLoop]
    cases hg : fs.gen with
    | none => exact Grows.refl h
    | some g =>
      simp only
      rcases hr : feedStep fuel af ctx fs g with ⟨fs', res⟩
      have hG := step_grows fuel af ctx h hg hr
      cases res with
      | more n => exact hG.trans (ih fs' _ hG.1)
      | done new => exact hG
      | raise e => exact hG
      | fuel => exact hG

theorem access_grows (fuel : Nat) (af : Bool) (ctx : Int) (fs : FS) (op : Op) (h : Ok A fs) :
    Grows A fs (access fuel af ctx fs op).1 := by
  cases op with
  | name n =>
    simp only [access, getByName]
    split
    · exact Grows.refl h
    · split
      · exact Grows.refl h
      · exact feedUntil_grows fuel af ctx n fs h
  | index k =>
    simp only [access, getByIndex]
    split
    · exact Grows.refl h
    · obtain ⟨r, hr⟩ : ∃ r, (if 0 < k + 1 - (fs.fields.length : Int) then
          readMoreFields fuel af ctx fs (k + 1 - (fs.fields.length : Int)).toNat else (fs, Out.number 0)) = r := ⟨_, rfl⟩
      rw [hr]
      have hG : Grows A fs r.1 := by
        rw [← hr]
        split
        · exact readMore_grows fuel af ctx _ fs h
        · exact Grows.refl h
      obtain ⟨fs', o⟩ := r
      cases o with
      | raise e => exact hG
      | fuel => exact hG
      | field f => simp only; split <;> exact hG
      | fields f => simp only; split <;> exact hG
      | number f => simp only; split <;> exact hG
  | readMore n => exact readMore_grows fuel af ctx n fs h
  | len =>
    simp only [access, getLen]
    have hF := (feed_ok fuel).2.2 _ af ctx fs h
    rcases hr : feedAll fuel af ctx fs with ⟨fs', res⟩
    rw [hr] at hF
    have hG : Grows A fs fs' := ⟨hF.1, hF.2.1, hF.2.2.1⟩
    cases res <;> exact hG
  | iter => exact iterLoop_grows fuel af ctx fs [] h

/-! ### Accesses inside the tree -/

theorem tiled_set (l : List Fld) (a b : Nat) (i : Nat) (f f' : Fld) (hi : l[i]? = some f) (ha : f'.addr = f.addr)
    (hs : f'.size = f.size) (h : Tiled l a b) : Tiled (l.set i f') a b := by
  induction l generalizing i a with
  | nil => exact h
  | cons x r ih =>
    cases i with
    | zero =>
      simp at hi; subst hi
      simp only [List.set_cons_zero, Tiled] at h ⊢
      exact ⟨by rw [ha]; exact h.1, by rw [hs]; exact h.2⟩
    | succ i =>
      simp only [List.set_cons_succ, Tiled] at h ⊢
      exact ⟨h.1, ih _ i (by simpa using hi) h.2⟩

theorem names_set (l : List Fld) (i : Nat) (f f' : Fld) (hi : l[i]? = some f) (hn : f'.name = f.name) :
    (l.set i f').map Fld.name = l.map Fld.name := by
  induction l generalizing i with
  | nil => rfl
  | cons x r ih =>
    cases i with
    | zero => simp at hi; subst hi; simp [hn]
    | succ i => simp only [List.set_cons_succ, List.map_cons]; rw [ih i (by simpa using hi)]

theorem accessAt_ok (fuel : Nat) (af : Bool) (path : List Nat) (op : Op) :
    ∀ (A : Name → Prop) (fs : FS), Ok A fs → Ok A (accessAt fuel af fs path op).1 ∧
      ∀ z, fs.size = some z → (accessAt fuel af fs path op).1.size = some z := by
  induction path with
  | nil =>
    intro A fs h
    have := access_grows fuel af 0 fs op h
    exact ⟨this.1, this.2.1⟩
  | cons i path ih =>
    intro A fs h
    rw [accessAt]
    split
    · rename_i n a sub hi
      obtain ⟨A', hsub⟩ := OkSome.get (h.sub n a sub (List.mem_of_getElem? hi))
      obtain ⟨h1, h2⟩ := ih A' sub hsub
      have hm : Fld.set n a sub ∈ fs.fields := List.mem_of_getElem? hi
      obtain ⟨z, hz, hz0⟩ := h.subsize n a sub hm
      have hz' := h2 z hz
      refine ⟨?_, fun z hz => hz⟩
      refine Ok.mk _ _ ?_ ?_ h.closed h.inside h.good ?_ ?_
      · exact tiled_set _ _ _ i _ _ hi rfl (by simp [Fld.size, hz, hz']) h.tiled
      · simp only
        rw [names_set _ i _ (.set n a (accessAt fuel af sub path op).1) hi rfl]
        exact h.names
      · intro n' a' s hm'
        rcases List.mem_or_eq_of_mem_set hm' with h3 | h3
        · exact h.sub n' a' s h3
        · injection h3 with _ _ h3; subst h3; exact h1.any
      · intro n' a' s hm'
        rcases List.mem_or_eq_of_mem_set hm' with h3 | h3
        · exact h.subsize n' a' s h3
        · injection h3 with _ _ h3; subst h3; exact ⟨z, hz', hz0⟩
    · exact ⟨h, fun z hz => hz⟩

theorem accessesAt_ok (fuel : Nat) (af : Bool) (hist : List (List Nat × Op)) :
    ∀ fs : FS, Ok A fs → Ok A (accessesAt fuel af fs hist).1 ∧
      ∀ z, fs.size = some z → (accessesAt fuel af fs hist).1.size = some z := by
  induction hist with
  | nil => intro fs h; exact ⟨h, fun z hz => hz⟩
  | cons x rest ih =>
    intro fs h
    obtain ⟨path, op⟩ := x
    rw [accessesAt]
    obtain ⟨h1, h2⟩ := accessAt_ok fuel af path op A fs h
    obtain ⟨h3, h4⟩ := ih _ h1
    exact ⟨h3, fun z hz => h4 z (h2 z hz)⟩

end Hachoir.FieldSet
