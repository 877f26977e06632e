import Verif.Archive.Bzip2
import Verif.Archive.HuffmanLemmas
import Verif.Spec.Bzip2

/-!
# Lemmas for bzip2
-/

set_option linter.unusedVariables false

namespace Hachoir.Archive
open Hachoir Hachoir.Stream Spec Spec.Bzip2

/-! ### Reading -/

theorem bitsAt_length {data : Bytes} {addr : Nat} {bits : List Bool} (h : BitsAt .big data addr bits) :
    bits.length ≤ 8 * data.length := by
  have := h.length_le
  rw [List.length_drop] at this
  simp only [Archive.streamBits] at this
  rw [length_bitsMSB] at this
  omega

section
variable {data : Bytes} {s : InputStream} (hs : stringInputStream data = .ok s)
include hs

theorem readN {addr n v : Nat} (hn : 0 < n) (hv : v < 2 ^ n) (h : BitsAt .big data addr (toBitsMSB n v)) :
    readAt s addr n = .ok v := by
  unfold readAt
  have := readBits_at hs (by simp) h (by
    intro e
    have := congrArg List.length e
    rw [length_toBitsMSB] at this
    simp at this
    omega)
  rw [length_toBitsMSB] at this
  rw [this]
  simp only [ofBitsMSB_toBitsMSB, Nat.mod_eq_of_lt hv]

theorem readOne {addr : Nat} {b : Bool} (h : BitsAt .big data addr [b]) : readAt s addr 1 = .ok b.toNat :=
  readBit_at hs (by simp) h

theorem zeroTerminated_unary : ∀ (n fuel addr v : Nat), n < fuel → BitsAt .big data addr (unary n) →
    zeroTerminated s fuel addr v = .ok (addr + (n + 1), v + n) := by
  intro n
  induction n with
  | zero =>
    intro fuel addr v hf h
    obtain ⟨fuel, rfl⟩ : ∃ k, fuel = k + 1 := ⟨fuel - 1, by omega⟩
    rw [zeroTerminated, readOne hs (b := false) h]
    rfl
  | succ n ih =>
    intro fuel addr v hf h
    obtain ⟨fuel, rfl⟩ : ∃ k, fuel = k + 1 := ⟨fuel - 1, by omega⟩
    have e : unary (n + 1) = [true] ++ unary n := by simp [unary, List.replicate_succ]
    rw [e] at h
    obtain ⟨h1, h2⟩ := h.append
    rw [zeroTerminated, readOne hs h1]
    simp only [Bool.toNat_true, Nat.one_ne_zero, if_false]
    rw [ih fuel (addr + 1) (v + 1) (by omega) h2]
    congr 2 <;> omega

theorem readFlags_at : ∀ (flags : List Bool) (addr : Nat), BitsAt .big data addr flags →
    readFlags s flags.length addr = .ok flags := by
  intro flags
  induction flags with
  | nil => intro addr _; rfl
  | cons b l ih =>
    intro addr h
    have h' : BitsAt .big data addr ([b] ++ l) := h
    obtain ⟨h1, h2⟩ := h'.append
    rw [List.length_cons, readFlags, readOne hs h1, ih (addr + 1) h2]
    cases b <;> rfl

end

/-! ### The alphabet -/

theorem flagged_range (used : Nat → Bool) : ∀ (n k : Nat),
    flagged k ((List.range' k n).map used) = (List.range' k n).filter used := by
  intro n
  induction n with
  | zero => intro k; rfl
  | succ n ih =>
    intro k
    rw [List.range'_succ, List.map_cons, flagged, ih (k + 1), List.filter_cons]

theorem map_range_shift (used : Nat → Bool) (k n : Nat) :
    (List.range n).map (fun j => used (k + j)) = (List.range' k n).map used := by
  rw [List.range'_eq_map_range, List.map_map]
  rfl

theorem readUsed_at {data : Bytes} {s : InputStream} (hs : stringInputStream data = .ok s) (used : Nat → Bool) :
    ∀ (n k addr : Nat),
    BitsAt .big data addr (((List.range' k n).filter (groupUsed used)).flatMap (groupBits used)) →
    readUsed s ((List.range' k n).map (groupUsed used)) k addr =
      .ok (addr + (((List.range' k n).filter (groupUsed used)).flatMap (groupBits used)).length,
        (List.range' (16 * k) (16 * n)).filter used) := by
  intro n
  induction n with
  | zero => intro k addr _; rfl
  | succ n ih =>
    intro k addr h
    have hsplit : List.range' (16 * k) (16 * (n + 1)) = List.range' (16 * k) 16 ++ List.range' (16 * (k + 1)) (16 * n) := by
      rw [show 16 * (n + 1) = 16 + 16 * n by omega, show 16 * (k + 1) = 16 * k + 16 by omega, ← List.range'_append_1]
    rw [hsplit, List.filter_append, List.range'_succ, List.map_cons, readUsed]
    rw [List.range'_succ] at h
    by_cases hk : groupUsed used k = true
    · rw [List.filter_cons_of_pos hk, List.flatMap_cons] at h ⊢
      obtain ⟨h1, h2⟩ := h.append
      have hl : (groupBits used k).length = 16 := by simp [groupBits]
      rw [hl] at h2
      have hf := readFlags_at hs _ addr h1
      rw [hl] at hf
      rw [if_pos hk, hf]
      simp only
      rw [ih (k + 1) (addr + 16) h2]
      simp only [List.length_append, hl]
      rw [groupBits, map_range_shift, Nat.mul_comm k 16, flagged_range]
      congr 2
      omega
    · rw [List.filter_cons_of_neg hk] at h ⊢
      rw [if_neg hk, ih (k + 1) addr h]
      have : (List.range' (16 * k) 16).filter used = [] := by
        rw [List.filter_eq_nil_iff]
        intro a ha hu
        rw [List.mem_range'_1] at ha
        apply hk
        rw [groupUsed, List.any_eq_true]
        exact ⟨a - 16 * k, by simp; omega, by rw [show 16 * k + (a - 16 * k) = a by omega]; exact hu⟩
      rw [this, List.nil_append]

theorem readUsed_all {data : Bytes} {s : InputStream} (hs : stringInputStream data = .ok s) (used : Nat → Bool)
    (addr : Nat) (h : BitsAt .big data addr (usedBits used)) :
    ∃ map, readFlags s 16 addr = .ok map ∧
      readUsed s map 0 (addr + 16) = .ok (addr + (usedBits used).length, alphabet used) := by
  unfold usedBits at h ⊢
  obtain ⟨h1, h2⟩ := h.append
  have hl : ((List.range 16).map (groupUsed used)).length = 16 := by simp
  rw [hl] at h2
  have hf := readFlags_at hs _ addr h1
  rw [hl] at hf
  refine ⟨_, hf, ?_⟩
  rw [List.range_eq_range'] at h2
  rw [List.length_append, hl, List.range_eq_range', readUsed_at hs used 16 0 (addr + 16) h2]
  unfold alphabet
  rw [List.range_eq_range']
  simp only [Nat.mul_zero]
  congr 2
  omega

/-! ### Move-to-front -/

theorem moveToFront_idxOf : ∀ (l : List Nat) (x : Nat), x ∈ l → moveToFront l (l.idxOf x) = toFront l x := by
  intro l x hx
  have key : ∀ l : List Nat, x ∈ l → (l.drop (l.idxOf x)).take 1 = [x] ∧
      l.take (l.idxOf x) ++ l.drop (l.idxOf x + 1) = l.erase x := by
    intro l
    induction l with
    | nil => intro h; cases h
    | cons a l ih =>
      intro h
      by_cases ha : a = x
      · subst ha
        simp
      · have hx' : x ∈ l := by
          rcases List.mem_cons.1 h with h | h
          · exact absurd h.symm ha
          · exact h
        obtain ⟨i1, i2⟩ := ih hx'
        have e : (a :: l).idxOf x = l.idxOf x + 1 := by
          rw [List.idxOf_cons, cond_eq_ite, if_neg (by simpa using ha)]
        rw [e, List.drop_succ_cons, List.take_succ_cons, List.drop_succ_cons, List.cons_append, i2,
          List.erase_cons_tail (by simpa using ha)]
        exact ⟨i1, rfl⟩
  obtain ⟨k1, k2⟩ := key l hx
  unfold moveToFront toFront
  rw [k1, List.append_assoc, k2]
  rfl

theorem mem_toFront (l : List Nat) (x y : Nat) (hy : y ∈ l) : y ∈ toFront l x := by
  unfold toFront
  by_cases h : y = x
  · rw [h]; simp
  · exact List.mem_cons_of_mem _ ((List.mem_erase_of_ne h).2 hy)

theorem length_toFront (l : List Nat) (x : Nat) (hx : x ∈ l) : (toFront l x).length = l.length := by
  unfold toFront
  rw [List.length_cons, List.length_erase_of_mem hx]
  have := List.length_pos_of_mem hx
  omega

section
variable {data : Bytes} {s : InputStream} (hs : stringInputStream data = .ok s) {fuel : Nat}
  (hfuel : 8 * data.length < fuel)
include hs hfuel

theorem readSelectors_at : ∀ (sel groups : List Nat) (addr : Nat), (∀ x ∈ sel, x ∈ groups) →
    BitsAt .big data addr ((mtf groups sel).flatMap unary) →
    readSelectors s fuel sel.length groups addr = .ok (addr + ((mtf groups sel).flatMap unary).length, sel) := by
  intro sel
  induction sel with
  | nil => intro groups addr _ _; rfl
  | cons x sel ih =>
    intro groups addr hmem h
    rw [mtf, List.flatMap_cons] at h ⊢
    obtain ⟨h1, h2⟩ := h.append
    have hl : (unary (groups.idxOf x)).length = groups.idxOf x + 1 := by simp [unary]
    have hlen := bitsAt_length h1
    rw [hl] at h2 hlen
    rw [List.length_cons, readSelectors, zeroTerminated_unary hs _ fuel addr 0 (by omega) h1]
    simp only [Nat.zero_add]
    rw [moveToFront_idxOf groups x (hmem x (by simp))]
    have := ih (toFront groups x) (addr + (groups.idxOf x + 1))
      (fun y hy => mem_toFront groups x y (hmem y (by simp [hy]))) h2
    unfold toFront at this ⊢
    simp only [this, List.length_append, hl]
    rw [Nat.add_assoc]

/-! ### Tables -/

theorem readLength_at : ∀ (steps : List Bool) (addr : Nat) (n : Int) (fuel : Nat), steps.length < fuel →
    BitsAt .big data addr (stepBits steps) →
    readLength s fuel addr n =
      .ok (addr + (stepBits steps).length, walk n steps) := by
  intro steps
  induction steps with
  | nil =>
    intro addr n fuel hf h
    obtain ⟨fuel, rfl⟩ : ∃ k, fuel = k + 1 := ⟨fuel - 1, by simp at hf; omega⟩
    rw [readLength, readOne hs (b := false) h]
    rfl
  | cons d steps ih =>
    intro addr n fuel hf h
    obtain ⟨fuel, rfl⟩ : ∃ k, fuel = k + 1 := ⟨fuel - 1, by simp at hf; omega⟩
    have e : stepBits (d :: steps) = [true] ++ ([d] ++ (stepBits steps)) := by simp [stepBits]
    rw [e] at h ⊢
    obtain ⟨h1, h2⟩ := h.append
    obtain ⟨h2, h3⟩ := h2.append
    simp only [List.length_singleton] at h2 h3
    rw [readLength, readOne hs h1]
    simp only [Bool.toNat_true, Nat.one_ne_zero, if_false]
    rw [readOne hs h2]
    simp only
    have hc : (if d.toNat ≠ 0 then n - 1 else n + 1) = (if d = true then n - 1 else n + 1) := by cases d <;> rfl
    rw [hc, ih (addr + 2) _ fuel (by simp at hf; omega) h3, walk]
    simp only [List.length_append, List.length_singleton]
    congr 2
    omega

omit hs hfuel in
theorem length_steps (steps : List Bool) :
    (stepBits steps).length = 2 * steps.length + 1 := by
  induction steps with
  | nil => rfl
  | cons d l ih =>
    have e : stepBits (d :: l) = [true] ++ ([d] ++ (stepBits l)) := by simp [stepBits]
    rw [e, List.length_append, List.length_append, ih]
    simp only [List.length_cons, List.length_nil]
    omega

theorem readLengths_at : ∀ (steps : List (List Bool)) (addr : Nat) (n : Int),
    BitsAt .big data addr (steps.flatMap stepBits) →
    readLengths s fuel steps.length addr n =
      .ok (addr + (steps.flatMap stepBits).length, walks n steps) := by
  intro steps
  induction steps with
  | nil => intro addr n _; rfl
  | cons st steps ih =>
    intro addr n h
    rw [List.flatMap_cons] at h ⊢
    obtain ⟨h1, h2⟩ := h.append
    have hlen := bitsAt_length h1
    rw [length_steps] at hlen
    rw [List.length_cons, readLengths, readLength_at hs hfuel st addr n fuel (by omega) h1]
    simp only
    rw [ih _ _ h2, walks, List.length_append]
    simp only [Nat.add_assoc]

theorem readTable_at (t : LengthTable) (addr : Nat) (hstart : t.start < 32) (hne : t.steps ≠ [])
    (hpos : ∀ l ∈ walks t.start t.steps, 0 < l ∧ l ≤ 257) (h : BitsAt .big data addr t.bits) :
    ∃ tree, readTable s fuel t.steps.length addr = .ok (addr + t.bits.length, tree) ∧ Codes t.lengths tree := by
  unfold LengthTable.bits at h ⊢
  obtain ⟨h1, h2⟩ := h.append
  rw [length_toBitsMSB] at h2
  have hw : walks (t.start : Int) t.steps ≠ [] := by
    cases hst : t.steps with
    | nil => exact absurd hst hne
    | cons a l => simp [walks]
  obtain ⟨tree, htree⟩ := buildTree_ok t.lengths (by
    unfold LengthTable.lengths
    intro e
    rw [List.map_eq_nil_iff] at e
    exact hw e)
  refine ⟨tree, ?_, buildTree_get htree⟩
  unfold readTable
  rw [readN hs (by omega) hstart h1]
  simp only
  rw [readLengths_at hs hfuel t.steps (addr + 5) _ h2]
  simp only
  have hall : (walks (t.start : Int) t.steps).all (fun l => decide (0 ≤ l)) = true := by
    rw [List.all_eq_true]
    intro l hl
    have := (hpos l hl).1
    simp
    omega
  have htree' : buildTree ((walks (t.start : Int) t.steps).map Int.toNat) = .ok tree := htree
  rw [if_pos hall, htree']
  simp only [List.length_append, length_toBitsMSB, Nat.add_assoc]

theorem readTables_at (n : Nat) : ∀ (ts : List LengthTable) (addr : Nat),
    (∀ t ∈ ts, t.steps.length = n + 1) → (∀ t ∈ ts, t.start < 32) →
    (∀ t ∈ ts, ∀ l ∈ walks t.start t.steps, 0 < l ∧ l ≤ 257) →
    BitsAt .big data addr (ts.flatMap LengthTable.bits) →
    ∃ trees, readTables s fuel (n + 1) ts.length addr = .ok (addr + (ts.flatMap LengthTable.bits).length, trees) ∧
      trees.length = ts.length ∧
      ∀ (i : Nat) (t : LengthTable), ts[i]? = some t → ∃ tree, trees[i]? = some tree ∧ Codes t.lengths tree := by
  intro ts
  induction ts with
  | nil => intro addr _ _ _ _; exact ⟨[], rfl, rfl, by simp⟩
  | cons t ts ih =>
    intro addr h1 h2 h3 h
    rw [List.flatMap_cons] at h ⊢
    obtain ⟨g1, g2⟩ := h.append
    obtain ⟨tree, e1, e2⟩ := readTable_at hs hfuel t addr (h2 t (by simp))
      (by
        intro e
        have := h1 t (by simp)
        rw [e] at this
        simp at this) (h3 t (by simp)) g1
    rw [h1 t (by simp)] at e1
    obtain ⟨trees, e3, e4, e5⟩ := ih (addr + t.bits.length) (fun x hx => h1 x (by simp [hx]))
      (fun x hx => h2 x (by simp [hx])) (fun x hx => h3 x (by simp [hx])) g2
    refine ⟨tree :: trees, ?_, by simp [e4], ?_⟩
    · rw [List.length_cons, readTables, e1]
      simp only
      rw [e3]
      simp only [List.length_append, Nat.add_assoc]
    · intro i u hu
      cases i with
      | zero =>
        simp only [List.getElem?_cons_zero, Option.some.injEq] at hu
        subst hu
        exact ⟨tree, by simp, e2⟩
      | succ i =>
        rw [List.getElem?_cons_succ] at hu ⊢
        exact e5 i u hu

end

/-! ### Runs -/

/-- What the codes of a block stand for: the state of the loop is the list, the run so far and
the weight of the next digit. -/
def undo : List Nat → Nat → Nat → List Nat → List Nat
  | _, _, _, [] => []
  | l, run, power, c :: cs =>
    if c ≤ 1 then
      let power := if run = 0 then 1 else power
      List.replicate ((c + 1) * power) (l.headD 0) ++ undo l (run + (c + 1) * power) (power <<< 1) cs
    else
      (moveToFront l (c - 1)).headD 0 :: undo (moveToFront l (c - 1)) 0 power cs

theorem undo_digits (l : List Nat) : ∀ (n run power : Nat) (cs : List Nat),
    (run = 0 → power = 1) → 0 < power →
    ∃ power', undo l run power (digits n ++ cs) =
      List.replicate (n * power) (l.headD 0) ++ undo l (run + n * power) power' cs ∧
      (n = 0 → power' = power) := by
  intro n
  induction n using Nat.strongRecOn with
  | _ n ih =>
    intro run power cs h0 hp
    rw [digits]
    by_cases hn : n = 0
    · subst hn
      exact ⟨power, by simp, fun _ => rfl⟩
    · rw [if_neg hn]
      have hpow : (if run = 0 then 1 else power) = power := by
        split
        · rename_i h; exact (h0 h).symm
        · rfl
      have hsh : power <<< 1 = 2 * power := by rw [Nat.shiftLeft_eq]; omega
      by_cases hodd : n % 2 = 1
      · rw [if_pos hodd, List.cons_append, undo, if_pos (by omega)]
        simp only [hpow, hsh]
        obtain ⟨p', e, _⟩ := ih (n / 2) (by omega) (run + (0 + 1) * power) (2 * power) cs (by omega) (by omega)
        refine ⟨p', ?_, fun h => absurd h hn⟩
        rw [e, ← List.append_assoc, ← List.replicate_append_replicate.symm]
        have : (0 + 1) * power + n / 2 * (2 * power) = n * power := by
          rw [← Nat.mul_assoc, ← Nat.add_mul]
          congr 1; omega
        rw [this, Nat.add_assoc, this]
      · rw [if_neg hodd, List.cons_append, undo, if_pos (by omega)]
        simp only [hpow, hsh]
        obtain ⟨p', e, _⟩ := ih (n / 2 - 1) (by omega) (run + (1 + 1) * power) (2 * power) cs (by omega) (by omega)
        refine ⟨p', ?_, fun h => absurd h hn⟩
        rw [e, ← List.append_assoc, ← List.replicate_append_replicate.symm]
        have : (1 + 1) * power + (n / 2 - 1) * (2 * power) = n * power := by
          rw [← Nat.mul_assoc, ← Nat.add_mul]
          congr 1; omega
        rw [this, Nat.add_assoc, this]

theorem undo_power (l : List Nat) (p q : Nat) (cs : List Nat) : undo l 0 p cs = undo l 0 q cs := by
  induction cs generalizing l with
  | nil => rfl
  | cons c cs ih =>
    rw [undo, undo]
    split
    · rfl
    · rw [ih]

theorem undo_runs : ∀ (text l : List Nat) (zeros : Nat), (∀ x ∈ text, x ∈ l) →
    undo l 0 1 (runs zeros (mtf l text)) = List.replicate zeros (l.headD 0) ++ text := by
  intro text
  induction text with
  | nil =>
    intro l zeros _
    rw [mtf, runs]
    obtain ⟨p, e, _⟩ := undo_digits l zeros 0 1 [] (by simp) (by omega)
    rw [List.append_nil] at e
    rw [e]
    simp [undo]
  | cons x text ih =>
    intro l zeros hmem
    have hx := hmem x (by simp)
    rw [mtf]
    cases hi : l.idxOf x with
    | zero =>
      have hhead : ∃ l', l = x :: l' := by
        cases l with
        | nil => cases hx
        | cons a l =>
          by_cases ha : a = x
          · exact ⟨l, by rw [ha]⟩
          · rw [List.idxOf_cons, cond_eq_ite, if_neg (by simpa using ha)] at hi
            omega
      obtain ⟨l', rfl⟩ := hhead
      have hf : toFront (x :: l') x = x :: l' := by simp [toFront]
      rw [runs, hf, ih (x :: l') (zeros + 1) (fun y hy => hmem y (by simp [hy]))]
      simp [List.replicate_succ']
    | succ i =>
      rw [runs]
      obtain ⟨p, e, _⟩ := undo_digits l zeros 0 1 ((i + 2) :: runs 0 (mtf (toFront l x) text)) (by simp) (by omega)
      rw [e, undo, if_neg (by omega)]
      have : i + 2 - 1 = l.idxOf x := by omega
      rw [this, moveToFront_idxOf l x hx, undo_power _ p 1,
        ih (toFront l x) 0 (fun y hy => mem_toFront l x y (hmem y (by simp [hy])))]
      simp [toFront]

/-- The codes are within the alphabet, without the end of the block. -/
theorem runs_lt : ∀ (text l : List Nat) (zeros : Nat), (∀ x ∈ text, x ∈ l) →
    ∀ c ∈ runs zeros (mtf l text), c ≤ 1 ∨ (2 ≤ c ∧ c ≤ l.length) := by
  have hd : ∀ n, ∀ c ∈ digits n, c ≤ 1 := by
    intro n
    induction n using Nat.strongRecOn with
    | _ n ih =>
      intro c hc
      rw [digits] at hc
      split at hc
      · cases hc
      · split at hc
        · rcases List.mem_cons.1 hc with rfl | hc
          · omega
          · exact ih _ (by omega) c hc
        · rcases List.mem_cons.1 hc with rfl | hc
          · omega
          · exact ih _ (by omega) c hc
  intro text
  induction text with
  | nil => intro l zeros _ c hc; exact .inl (hd _ c hc)
  | cons x text ih =>
    intro l zeros hmem c hc
    have hx := hmem x (by simp)
    have ih := fun z => ih (toFront l x) z (fun y hy => mem_toFront l x y (hmem y (by simp [hy]))) c
    rw [length_toFront l x hx] at ih
    rw [mtf] at hc
    cases hi : l.idxOf x with
    | zero => rw [hi, runs] at hc; exact ih _ hc
    | succ i =>
      rw [hi, runs] at hc
      rcases List.mem_append.1 hc with hc | hc
      · exact .inl (hd _ c hc)
      · rcases List.mem_cons.1 hc with rfl | hc
        · right
          have := List.idxOf_lt_length_of_mem hx
          omega
        · exact ih _ hc

/-- The length of the list does not change. -/
theorem length_moveToFront (l : List Nat) (i : Nat) (h : i < l.length) : (moveToFront l i).length = l.length := by
  unfold moveToFront
  simp only [List.length_append, List.length_take, List.length_drop]
  omega

end Hachoir.Archive
