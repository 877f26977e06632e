import Verif.Stream.Pipe

/-! Circular doubly linked lists: the access order of `InputPipe`. -/

set_option linter.unusedVariables false

namespace Hachoir.Stream
open Hachoir

/-- Point update of a function. -/
def upd (f : Nat → Nat) (i v : Nat) : Nat → Nat := fun j => if j = i then v else f j

/-- `l` is a path for the pointers `nx` (forward) and `pv` (backward). -/
def Links (nx pv : Nat → Nat) : List Nat → Prop
  | a :: b :: l => nx a = b ∧ pv b = a ∧ Links nx pv (b :: l)
  | _ => True

/-- The elements of `ord` form a ring in this order. -/
def Ring (nx pv : Nat → Nat) : List Nat → Prop
  | [] => True
  | h :: t => Links nx pv ((h :: t) ++ [h])

theorem Links_append (nx pv : Nat → Nat) (l1 : List Nat) (a : Nat) (l2 : List Nat) :
    Links nx pv (l1 ++ a :: l2) ↔ Links nx pv (l1 ++ [a]) ∧ Links nx pv (a :: l2) := by
  induction l1 with
  | nil => simp [Links]
  | cons x xs ih =>
    cases xs with
    | nil => simp [Links]; cases l2 <;> simp [Links, and_assoc]
    | cons y ys =>
      simp only [List.cons_append, Links] at *
      rw [ih]; simp only [and_assoc]

/-- Only the forward pointers of all but the last element and the backward
pointers of all but the first matter. -/
theorem Links_congr (nx pv nx' pv' : Nat → Nat) (l : List Nat)
    (hn : ∀ x ∈ l.dropLast, nx' x = nx x) (hp : ∀ x ∈ l.tail, pv' x = pv x) (h : Links nx pv l) :
    Links nx' pv' l := by
  induction l with
  | nil => trivial
  | cons a l ih =>
    cases l with
    | nil => trivial
    | cons b l =>
      simp only [Links] at *
      refine ⟨by rw [hn a (by simp)]; exact h.1, by rw [hp b (by simp)]; exact h.2.1, ?_⟩
      apply ih
      · intro x hx; exact hn x (by simp [List.dropLast]; right; exact hx)
      · intro x hx; exact hp x (by simp at hx ⊢; right; exact hx)
      · exact h.2.2

/-- Removing the head of a ring. -/
theorem Ring_remove_head (nx pv : Nat → Nat) (h b : Nat) (t : List Nat) (last : Nat)
    (hnd : (h :: b :: t).Nodup) (hl : (b :: t).getLast? = some last)
    (hr : Ring nx pv (h :: b :: t)) :
    nx h = b ∧ pv h = last ∧ Ring (upd nx last b) (upd pv b last) (b :: t) := by
  obtain ⟨t', ht'⟩ : ∃ t', b :: t = t' ++ [last] := by
    rw [List.getLast?_eq_some_iff] at hl; exact hl
  have e1 : nx h = b := by simp [Ring, Links] at hr; exact hr.1
  have e2 : pv h = last := by
    simp only [Ring] at hr
    rw [List.cons_append, ht', List.append_assoc] at hr
    have := (Links_append nx pv (h :: t') last [h]).mp (by simpa using hr)
    exact this.2.2.1
  refine ⟨e1, e2, ?_⟩
  have h3 : Links nx pv (b :: t) := by
    simp only [Ring, List.cons_append] at hr
    have := (Links_append nx pv [] h _).mp hr
    have h4 : Links nx pv (b :: (t ++ [h])) := hr.2.2
    have h5 : b :: (t ++ [h]) = t' ++ last :: [h] := by
      rw [← List.cons_append, ht']; simp
    rw [h5, Links_append] at h4
    rw [ht']; exact h4.1
  show Links _ _ (b :: t ++ [b])
  rw [ht']
  rw [show t' ++ [last] ++ [b] = t' ++ last :: [b] by simp, Links_append]
  constructor
  · rw [← ht']
    apply Links_congr nx pv _ _ _ _ _ h3
    · intro x hx
      have : x ≠ last := by
        rintro rfl
        rw [ht'] at hx
        simp at hx
        have : (t' ++ [x]).Nodup := by rw [← ht']; exact (List.nodup_cons.mp hnd).2
        simp [List.nodup_append] at this
        exact this.2 x hx rfl
      simp [upd, this]
    · intro x hx
      have : x ≠ b := by
        rintro rfl
        have := (List.nodup_cons.mp (List.nodup_cons.mp hnd).2).1
        exact this hx
      simp [upd, this]
  · simp [Links, upd]

/-- Appending a new element to a ring. -/
theorem Ring_append (nx pv : Nat → Nat) (h : Nat) (t : List Nat) (last n : Nat)
    (hnd : (h :: t).Nodup) (hn : n ∉ h :: t) (hl : (h :: t).getLast? = some last)
    (hr : Ring nx pv (h :: t)) :
    nx last = h ∧
    ∀ nx' pv' : Nat → Nat, nx' = upd (upd nx last n) n h → pv' = upd (upd pv h n) n last →
      Ring nx' pv' (h :: t ++ [n]) := by
  obtain ⟨t', ht'⟩ : ∃ t', h :: t = t' ++ [last] := by
    rw [List.getLast?_eq_some_iff] at hl; exact hl
  have hr' : Links nx pv (t' ++ last :: [h]) := by
    have : Links nx pv (h :: t ++ [h]) := hr
    rw [ht'] at this; simpa using this
  rw [Links_append] at hr'
  have e1 : nx last = h := hr'.2.1
  refine ⟨e1, ?_⟩
  intro nx' pv' rfl rfl
  show Links _ _ (h :: t ++ [n] ++ [h])
  rw [ht', show t' ++ [last] ++ [n] ++ [h] = t' ++ last :: [n, h] by simp, Links_append]
  have hmem : ∀ x ∈ t' ++ [last], x ≠ n := by
    intro x hx hxn; subst hxn; rw [← ht'] at hx; exact hn hx
  have hnd' : (t' ++ [last]).Nodup := by rw [← ht']; exact hnd
  constructor
  · apply Links_congr nx pv _ _ _ _ _ hr'.1
    · intro x hx
      simp at hx
      have h1 : x ≠ last := by
        rintro rfl; simp [List.nodup_append] at hnd'; exact hnd'.2 x hx rfl
      have h2 := hmem x (by simp [hx])
      simp [upd, h1, h2]
    · intro x hx
      have h1 : x ≠ h := by
        rintro rfl
        rw [← ht'] at hx
        exact (List.nodup_cons.mp hnd).1 hx
      have h2 := hmem x (List.mem_of_mem_tail hx)
      simp [upd, h1, h2]
  · have h1 : last ≠ n := hmem last (by simp)
    have h2 : h ≠ n := fun e => hn (by simp [e])
    simp [Links, upd, h1, h2]

/-- Moving an element to the end of a ring, as `_get` does. -/
theorem Ring_move (nx pv : Nat → Nat) (A C : List Nat) (i last : Nat)
    (hnd : (A ++ i :: C).Nodup) (hl : C.getLast? = some last) (hr : Ring nx pv (A ++ i :: C)) :
    Ring (upd (upd (upd nx (pv i) (nx i)) i (upd nx (pv i) (nx i) last)) last i)
      (upd (upd (upd pv (nx i) (pv i)) i last) (upd nx (pv i) (nx i) last) i) (A ++ C ++ [i]) ∧
    nx i ∈ A ++ i :: C ∧ pv i ∈ A ++ i :: C ∧ upd nx (pv i) (nx i) last ∈ A ++ i :: C ∧
    nx i ≠ i ∧ pv i ≠ i ∧ upd nx (pv i) (nx i) last ≠ i := by
  obtain ⟨C', hC'⟩ : ∃ C', C = C' ++ [last] := by
    rw [List.getLast?_eq_some_iff] at hl; exact hl
  obtain ⟨c, C2, hC2⟩ : ∃ c C2, C = c :: C2 := by
    cases C with
    | nil => simp at hl
    | cons c C2 => exact ⟨c, C2, rfl⟩
  have hlastC : last ∈ C := by rw [hC']; simp
  have hcC : c ∈ C := by rw [hC2]; simp
  have hiC : i ∉ C := by
    have := (List.nodup_append.mp hnd).2.1
    exact (List.nodup_cons.mp this).1
  have hCnd : C.Nodup := (List.nodup_cons.mp (List.nodup_append.mp hnd).2.1).2
  have hc2 : c ∉ C2 := by rw [hC2] at hCnd; exact (List.nodup_cons.mp hCnd).1
  have hl2 : last ∉ C' := by
    rw [hC'] at hCnd; simp [List.nodup_append] at hCnd
    intro hx; exact hCnd.2 last hx rfl
  have hil : last ≠ i := fun e => hiC (e ▸ hlastC)
  have hic : c ≠ i := fun e => hiC (e ▸ hcC)
  cases A with
  | nil =>
    simp only [List.nil_append] at *
    have hR : Links nx pv (i :: C ++ [i]) := hr
    -- nx i = c, pv i = last, nx last = i, pv c = i
    have h1 : nx i = c ∧ pv c = i ∧ Links nx pv (C ++ [i]) := by
      rw [hC2] at hR ⊢
      exact hR
    have h2 : nx last = i ∧ pv i = last ∧ Links nx pv (C' ++ [last]) := by
      have h := h1.2.2
      rw [hC', List.append_assoc] at h
      rw [show C' ++ ([last] ++ [i]) = C' ++ last :: [i] from rfl, Links_append] at h
      exact ⟨h.2.1, h.2.2.1, h.1⟩
    have hf : upd nx (pv i) (nx i) last = c := by rw [h1.1, h2.2.1]; simp [upd]
    rw [hf, h1.1, h2.2.1]
    refine ⟨?_, by simp [hcC], by simp [hlastC], by simp [hcC], hic, hil, hic⟩
    rw [hC2]
    show Links _ _ (c :: C2 ++ [i] ++ [c])
    rw [← hC2, hC', show C' ++ [last] ++ [i] ++ [c] = C' ++ last :: [i, c] by simp, Links_append]
    constructor
    · apply Links_congr nx pv _ _ _ _ _ h2.2.2
      · intro x hx
        simp at hx
        have e1 : x ≠ last := fun e => hl2 (e ▸ hx)
        have e2 : x ≠ i := fun e => hiC (by rw [hC']; simp [e ▸ hx])
        simp [upd, e1, e2]
      · intro x hx
        rw [← hC', hC2] at hx
        simp at hx
        have e1 : x ≠ c := fun e => hc2 (e ▸ hx)
        have e2 : x ≠ i := fun e => hiC (by rw [hC2]; simp [e ▸ hx])
        simp [upd, e1, e2]
    · have e1 : i ≠ last := fun e => hil e.symm
      have e2 : i ≠ c := fun e => hic e.symm
      simp [Links, upd, e1, e2]
  | cons h A2 =>
    obtain ⟨pr, A', hA'⟩ : ∃ pr A', h :: A2 = A' ++ [pr] :=
      ⟨(h :: A2).getLast (by simp), (h :: A2).dropLast, (List.dropLast_concat_getLast (by simp)).symm⟩
    have hAnd : (h :: A2).Nodup := (List.nodup_append.mp hnd).1
    have hdisj : ∀ x ∈ h :: A2, x ∉ i :: C := by
      intro x hx hx2
      exact (List.nodup_append.mp hnd).2.2 x hx x hx2 rfl
    have hprA : pr ∈ h :: A2 := by rw [hA']; simp
    have hhA : h ∈ h :: A2 := by simp
    have hpri : pr ≠ i := fun e => hdisj pr hprA (by simp [e])
    have hhi : h ≠ i := fun e => hdisj h hhA (by simp [e])
    have hprl : pr ≠ last := fun e => hdisj pr hprA (by simp [e, hlastC])
    have hhl : h ≠ last := fun e => hdisj h hhA (by simp [e, hlastC])
    have hprc : pr ≠ c := fun e => hdisj pr hprA (by simp [e, hcC])
    have hhc : h ≠ c := fun e => hdisj h hhA (by simp [e, hcC])
    have hpr' : pr ∉ A' := by
      rw [hA'] at hAnd; simp [List.nodup_append] at hAnd
      intro hx; exact hAnd.2 pr hx rfl
    have hhA2 : h ∉ A2 := (List.nodup_cons.mp hAnd).1
    have hR : Links nx pv ((h :: A2) ++ i :: (C ++ [h])) := by
      have : Links nx pv (h :: (A2 ++ i :: C) ++ [h]) := hr
      simpa using this
    have hR2 := (Links_append nx pv (h :: A2) i (C ++ [h])).mp hR
    have hA : nx pr = i ∧ pv i = pr ∧ Links nx pv (A' ++ [pr]) := by
      have h := hR2.1
      rw [hA', List.append_assoc, show A' ++ ([pr] ++ [i]) = A' ++ pr :: [i] from rfl, Links_append] at h
      exact ⟨h.2.1, h.2.2.1, h.1⟩
    have h1 : nx i = c ∧ pv c = i ∧ Links nx pv (C ++ [h]) := by
      have h := hR2.2
      rw [hC2] at h ⊢
      exact h
    have h2 : nx last = h ∧ pv h = last ∧ Links nx pv (C' ++ [last]) := by
      have h := h1.2.2
      rw [hC', List.append_assoc] at h
      rw [show C' ++ ([last] ++ [_]) = C' ++ last :: [_] from rfl, Links_append] at h
      exact ⟨h.2.1, h.2.2.1, h.1⟩
    have hf : upd nx (pv i) (nx i) last = h := by
      rw [h1.1, hA.2.1]; simp [upd, Ne.symm hprl, h2.1]
    rw [hf, h1.1, hA.2.1]
    refine ⟨?_, by simp [hcC], ?_, by simp, hic, hpri, hhi⟩
    · show Links _ _ ((h :: A2) ++ C ++ [i] ++ [h])
      rw [hA', hC2, show A' ++ [pr] ++ (c :: C2) ++ [i] ++ [h] = A' ++ pr :: (c :: C2 ++ [i] ++ [h]) by simp,
        Links_append]
      constructor
      · apply Links_congr nx pv _ _ _ _ _ hA.2.2
        · intro x hx
          simp at hx
          have hxA : x ∈ h :: A2 := by rw [hA']; simp [hx]
          have e1 : x ≠ pr := fun e => hpr' (e ▸ hx)
          have e2 : x ≠ i := fun e => hdisj x hxA (by simp [e])
          have e3 : x ≠ last := fun e => hdisj x hxA (by simp [e, hlastC])
          simp [upd, e1, e2, e3]
        · intro x hx
          rw [← hA'] at hx
          simp at hx
          have hxA : x ∈ h :: A2 := by simp [hx]
          have e1 : x ≠ h := fun e => hhA2 (e ▸ hx)
          have e2 : x ≠ i := fun e => hdisj x hxA (by simp [e])
          have e3 : x ≠ c := fun e => hdisj x hxA (by simp [e, hcC])
          simp [upd, e1, e2, e3]
      · refine ⟨by simp [upd, hprl, hpri], by simp [upd, Ne.symm hhc, hic], ?_⟩
        show Links _ _ (c :: (C2 ++ [i] ++ [h]))
        rw [show c :: (C2 ++ [i] ++ [h]) = C' ++ last :: [i, h] by
          rw [show c :: (C2 ++ [i] ++ [h]) = (c :: C2) ++ [i, h] by simp, ← hC2, hC']; simp]
        rw [Links_append]
        constructor
        · apply Links_congr nx pv _ _ _ _ _ h2.2.2
          · intro x hx
            simp at hx
            have hxC : x ∈ C := by rw [hC']; simp [hx]
            have e1 : x ≠ last := fun e => hl2 (e ▸ hx)
            have e2 : x ≠ i := fun e => hiC (e ▸ hxC)
            have e3 : x ≠ pr := fun e => hdisj pr hprA (by simp [← e, hxC])
            simp [upd, e1, e2, e3]
          · intro x hx
            rw [← hC', hC2] at hx
            simp at hx
            have hxC : x ∈ C := by rw [hC2]; simp [hx]
            have e1 : x ≠ c := fun e => hc2 (e ▸ hx)
            have e2 : x ≠ i := fun e => hiC (e ▸ hxC)
            have e3 : x ≠ h := fun e => hdisj h hhA (by simp [← e, hxC])
            simp [upd, e1, e2, e3]
        · simp [Links, upd, hil, Ne.symm hil, hhi, Ne.symm hhi]
    · have : pr ∈ h :: A2 := hprA
      simp only [List.mem_append]; left; exact this

end Hachoir.Stream
