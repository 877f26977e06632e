import Verif.Core.Memory

/-!
# C185: calls of limited memory
-/

namespace Hachoir.Props
open Hachoir.Core.Memory

/-! ### Specification -/

/-- A function that does not limit memory itself. -/
def Flat : Prog → Prop
  | .grow _ => True
  | .free _ => True
  | .raises _ => True
  | .seq p q => Flat p ∧ Flat q
  | .limited _ _ => False

/-- A process that may set limits: it has no hard one, or it may raise it. -/
def MaySet (s : Proc) : Prop := s.hard = -1 ∨ s.root = true

/-! ### Proofs -/

theorem set_may (m : Int) (s : Proc) (h : MaySet s) (hm : m < 2 ^ 63) : setMemoryLimit m s = .accepted { s with soft := m, hard := -1 } := by
  rw [setMemoryLimit, if_neg (by omega), if_neg]
  rintro ⟨h1, h2⟩
  rcases h with h | h
  · exact h1 h
  · rw [h] at h2
    cases h2

/-- A flat function leaves the limits as they are, and keeps to the soft one. -/
theorem flat_keeps (page : Nat) : ∀ (p : Prog) (s : Proc), Flat p → (run page p s).2.1.soft = s.soft ∧ (run page p s).2.1.hard = s.hard ∧ (run page p s).2.1.root = s.root
  | .grow n, s, _ => by
    rw [run, grow]
    split <;> simp
  | .free n, s, _ => ⟨rfl, rfl, rfl⟩
  | .raises e, s, _ => ⟨rfl, rfl, rfl⟩
  | .seq p q, s, h => by
    have h1 := flat_keeps page p s h.1
    have h2 := flat_keeps page q (run page p s).2.1 h.2
    rw [run]
    simp only
    split
    · exact ⟨h2.1.trans h1.1, h2.2.1.trans h1.2.1, h2.2.2.trans h1.2.2⟩
    · exact h1

theorem flat_peak (page : Nat) : ∀ (p : Prog) (s : Proc), Flat p → s.soft ≠ -1 → (s.size : Int) ≤ s.soft →
    ((run page p s).2.2 : Int) ≤ s.soft ∧ ((run page p s).2.1.size : Int) ≤ s.soft
  | .grow n, s, _, hs, hl => by
    rw [run, grow]
    split
    · next h =>
      have := h.resolve_left hs
      exact ⟨this, this⟩
    · exact ⟨hl, hl⟩
  | .free n, s, _, hs, hl => by
    rw [run]
    refine ⟨hl, ?_⟩
    simp only
    omega
  | .raises e, s, _, hs, hl => ⟨hl, hl⟩
  | .seq p q, s, h, hs, hl => by
    have h1 := flat_peak page p s h.1 hs hl
    have hk := flat_keeps page p s h.1
    have h2 := flat_peak page q (run page p s).2.1 h.2 (by rw [hk.1]; exact hs) (by rw [hk.1]; exact h1.2)
    rw [hk.1] at h2
    rw [run]
    simp only
    split
    · refine ⟨?_, h2.2⟩
      simp only
      have := h1.1
      have := h2.1
      omega
    · exact h1

theorem restore_may (old : Int) (r : Outcome × Proc × Nat) (h : MaySet r.2.1) (ho : old < 2 ^ 63) : restore old r = (r.1, { r.2.1 with soft := old, hard := -1 }, r.2.2) := by
  rw [restore, set_may old _ h ho]

/-- A limited call, where limits may be set. -/
theorem limited_run (page : Nat) (p : Prog) (limit : Nat) (s : Proc) (h : MaySet s) (hs : s.size + limit < 2 ^ 63) :
    run page (.limited limit p) s = restore (getMemoryLimit page s) (run page p { s with soft := (s.size + limit : Nat), hard := -1 }) := by
  rw [run, set_may _ s h (by omega)]

theorem flat_limited (page : Nat) (p : Prog) (limit : Nat) (s : Proc) (hf : Flat p) (h : MaySet s) (hs : s.size + limit < 2 ^ 63) (ho : getMemoryLimit page s < 2 ^ 63) :
    run page (.limited limit p) s = ((run page p { s with soft := (s.size + limit : Nat), hard := -1 }).1,
      { size := (run page p { s with soft := (s.size + limit : Nat), hard := -1 }).2.1.size, soft := getMemoryLimit page s, hard := -1, root := s.root },
      (run page p { s with soft := (s.size + limit : Nat), hard := -1 }).2.2) := by
  have hk := flat_keeps page p { s with soft := (s.size + limit : Nat), hard := -1 } hf
  rw [limited_run page p limit s h hs, restore_may _ _ (.inl hk.2.1) ho]
  simp only [hk.2.2]

/-- **C185**: a function called with a limit never has more bytes than it began with and the limit, and ends as it would under this limit. -/
theorem C185_limited (page : Nat) (p : Prog) (limit : Nat) (s : Proc) (hf : Flat p) (h : MaySet s) (hs : s.size + limit < 2 ^ 63) (ho : getMemoryLimit page s < 2 ^ 63) :
    (run page (.limited limit p) s).2.2 ≤ s.size + limit ∧
      (run page (.limited limit p) s).1 = (run page p { s with soft := (s.size + limit : Nat), hard := -1 }).1 := by
  have hp := flat_peak page p { s with soft := (s.size + limit : Nat), hard := -1 } hf (by simp only; omega) (by simp only; omega)
  rw [flat_limited page p limit s hf h hs ho]
  refine ⟨?_, rfl⟩
  have := hp.1
  simp only at this ⊢
  omega

/-- What is taken in all, if nothing is given back. -/
def need : Prog → Nat
  | .grow n => n
  | .seq p q => need p + need q
  | .limited _ p => need p
  | _ => 0

theorem flat_fits (page : Nat) : ∀ (p : Prog) (s : Proc), Flat p → ((s.size + need p : Nat) : Int) ≤ s.soft →
    (run page p s).1 ≠ .memory ∧ (run page p s).2.1.size ≤ s.size + need p
  | .grow n, s, _, h => by
    rw [need] at h
    rw [run, grow, if_pos (.inr h)]
    exact ⟨by simp, by simp [need]⟩
  | .free n, s, _, h => by
    rw [run]
    refine ⟨by simp, ?_⟩
    simp only
    omega
  | .raises e, s, _, h => by
    rw [run]
    exact ⟨by simp, by simp only; omega⟩
  | .seq p q, s, hf, h => by
    rw [need] at h
    have h1 := flat_fits page p s hf.1 (by omega)
    have hk := flat_keeps page p s hf.1
    have h2 := flat_fits page q (run page p s).2.1 hf.2 (by rw [hk.1]; have := h1.2; omega)
    rw [run, need]
    simp only
    split
    · exact ⟨h2.1, by have := h2.2; have := h1.2; simp only; omega⟩
    · exact ⟨h1.1, by have := h1.2; omega⟩

/-- **C185**: a function that takes no more than the limit is not refused memory. -/
theorem C185_enough (page : Nat) (p : Prog) (limit : Nat) (s : Proc) (hf : Flat p) (h : MaySet s) (hs : s.size + limit < 2 ^ 63) (ho : getMemoryLimit page s < 2 ^ 63)
    (hn : need p ≤ limit) : (run page (.limited limit p) s).1 ≠ .memory := by
  rw [(C185_limited page p limit s hf h hs ho).2]
  exact (flat_fits page p _ hf (by simp only; omega)).1

/-- **C185**: a process without limits has none after the call, however it ends. -/
theorem C185_unlimited (page : Nat) (p : Prog) (limit : Nat) (s : Proc) (hf : Flat p) (hsoft : s.soft = -1) (hhard : s.hard = -1) (hs : s.size + limit < 2 ^ 63) :
    (run page (.limited limit p) s).2.1.soft = -1 ∧ (run page (.limited limit p) s).2.1.hard = -1 := by
  have hg : getMemoryLimit page s = -1 := by rw [getMemoryLimit, hsoft]; rfl
  rw [flat_limited page p limit s hf (.inl hhard) hs (by rw [hg]; decide), hg]
  exact ⟨rfl, rfl⟩

/-- **C185** (disagreement): a process with a limit has one after the call that is larger by the size of a page, and its hard limit is gone. -/
theorem C185_raised (page : Nat) (p : Prog) (limit : Nat) (s : Proc) (hf : Flat p) (h : MaySet s) (hs : s.size + limit < 2 ^ 63) (hsoft : 0 < s.soft) (ho : s.soft * page < 2 ^ 63) :
    (run page (.limited limit p) s).2.1.soft = s.soft * page ∧ (run page (.limited limit p) s).2.1.hard = -1 := by
  have hg : getMemoryLimit page s = s.soft * page := by rw [getMemoryLimit, if_pos hsoft]
  rw [flat_limited page p limit s hf h hs (by rw [hg]; exact ho), hg]
  exact ⟨rfl, rfl⟩

/-- **C185** (disagreement): where the larger limit does not fit in 64 bits, what the function returned or raised is lost, and the limit of the call stays. -/
theorem C185_overflow (page : Nat) (p : Prog) (limit : Nat) (s : Proc) (hf : Flat p) (h : MaySet s) (hs : s.size + limit < 2 ^ 63) (hsoft : 0 < s.soft) (ho : 2 ^ 63 ≤ s.soft * page) :
    (run page (.limited limit p) s).1 = .overflow ∧ (run page (.limited limit p) s).2.1.soft = (s.size + limit : Nat) := by
  have hk := flat_keeps page p { s with soft := (s.size + limit : Nat), hard := -1 } hf
  have hg : getMemoryLimit page s = s.soft * page := by rw [getMemoryLimit, if_pos hsoft]
  rw [limited_run page p limit s h hs, hg, restore, setMemoryLimit, if_pos ho]
  exact ⟨rfl, hk.1⟩

/-- **C185** (disagreement): a process with a hard limit that it may not raise calls the function without the limit. -/
theorem C185_hard (page : Nat) (p : Prog) (limit : Nat) (s : Proc) (hs : s.size + limit < 2 ^ 63) (hh : s.hard ≠ -1) (hr : s.root = false) : run page (.limited limit p) s = run page p s := by
  rw [run, setMemoryLimit, if_neg (by omega), if_pos ⟨hh, hr⟩]

/-- **C185** (disagreement): a call with a larger limit inside of one with a smaller limit takes more than the smaller allows. -/
theorem C185_nested (page : Nat) (s : Proc) (h : MaySet s) (outer inner : Nat) (hoi : outer < inner) (hs : s.size + inner < 2 ^ 63) (ho : getMemoryLimit page s < 2 ^ 63)
    (hp : ((s.size + outer : Nat) : Int) * page < 2 ^ 63) :
    (run page (.limited outer (.limited inner (.grow inner))) s).1 = .done ∧ (run page (.limited outer (.limited inner (.grow inner))) s).2.2 = s.size + inner := by
  have hg : getMemoryLimit page { s with soft := (s.size + outer : Nat), hard := -1 } < 2 ^ 63 := by
    rw [getMemoryLimit]
    split
    · exact hp
    · simp only
      omega
  have e := flat_limited page (.grow inner) inner { s with soft := (s.size + outer : Nat), hard := -1 } trivial (.inl rfl) hs hg
  have e2 : run page (.grow inner) { s with soft := (s.size + inner : Nat), hard := -1 } = (.done, { s with size := s.size + inner, soft := (s.size + inner : Nat), hard := -1 }, s.size + inner) := by
    rw [run, grow, if_pos (.inr (Int.le_refl _))]
  simp only [e2] at e
  rw [limited_run page _ outer s h (by omega), e, restore_may _ _ (.inl rfl) ho]
  exact ⟨rfl, rfl⟩

/-! ### Examples -/

example : (run 4096 (.limited 100 (.seq (.grow 60) (.seq (.free 30) (.grow 70)))) ⟨1000, -1, -1, false⟩) = (.done, ⟨1100, -1, -1, false⟩, 1100) := by decide +kernel

example : (run 4096 (.limited 100 (.seq (.grow 60) (.grow 70))) ⟨1000, -1, -1, false⟩) = (.memory, ⟨1060, -1, -1, false⟩, 1060) := by decide +kernel

example : (run 4096 (.limited 100 (.raises "KeyError")) ⟨1000, 5000, -1, false⟩) = (.raised "KeyError", ⟨1000, 20480000, -1, false⟩, 1000) := by decide +kernel

end Hachoir.Props
