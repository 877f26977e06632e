import Verif.Formats.GifLzw
import Verif.Spec.Lzw
import Verif.Props.InputStream

/-!
# Lemmas on the LZW loop
-/

set_option linter.unusedVariables false

namespace Hachoir.Formats
open Hachoir Hachoir.Stream Spec

theorem readBits_toBits (data : Bytes) (s : InputStream) (hs : stringInputStream data = .ok s)
    (addr n v : Nat) (rest : List Bool) (hn : 0 < n) (hv : v < 2 ^ n)
    (h : (toBitsLSB n v ++ rest) <+: (bitsLSB data).drop addr) :
    readBits s addr n .little = .ok v ∧ rest <+: (bitsLSB data).drop (addr + n) := by
  obtain ⟨t, ht⟩ := h
  have hl : addr + n ≤ 8 * data.length := by
    have := congrArg List.length ht
    rw [List.length_drop, length_bitsLSB] at this
    simp only [List.length_append, length_toBitsLSB] at this
    omega
  constructor
  · rw [_root_.Props.C01_readBits_little data s hs addr n hl, ← ht, List.append_assoc,
      List.take_left' (length_toBitsLSB n v), ofBitsLSB_toBitsLSB, Nat.mod_eq_of_lt hv]
  · refine ⟨t, ?_⟩
    rw [← List.drop_drop, ← ht, List.append_assoc, List.drop_left' (length_toBitsLSB n v)]

theorem log2_unique (x k : Nat) (h1 : 2 ^ k ≤ x) (h2 : x < 2 ^ (k + 1)) : Nat.log2 x = k := by
  have hx : x ≠ 0 := by
    have := Nat.two_pow_pos k
    omega
  exact (Nat.log2_eq_iff hx).2 ⟨h1, h2⟩

theorem lzwWidth_zero (sb : Nat) (h : 1 ≤ sb) : lzwWidth sb 0 = sb + 1 := by
  unfold lzwWidth
  rw [log2_unique _ sb (by omega)]
  have : 2 ^ 1 ≤ 2 ^ sb := Nat.pow_le_pow_right (by omega) h
  rw [Nat.pow_succ]
  omega

theorem lt_lzwWidth (sb i : Nat) : 2 ^ sb + 1 + i < 2 ^ lzwWidth sb i := Nat.lt_log2_self

theorem le_lzwWidth (sb i : Nat) : 2 ^ (lzwWidth sb i - 1) ≤ 2 ^ sb + 1 + i := by
  unfold lzwWidth
  rw [Nat.add_sub_cancel]
  exact Nat.log2_self_le (by rw [Nat.add_assoc]; exact Nat.ne_of_gt (Nat.add_pos_right _ (by omega)))

theorem lzwWidth_pos (sb i : Nat) : 0 < lzwWidth sb i := Nat.succ_pos _

theorem lzwWidth_succ (sb i : Nat) :
    lzwWidth sb (i + 1) =
      if 2 ^ sb + 1 + (i + 1) ≥ 2 ^ lzwWidth sb i then lzwWidth sb i + 1 else lzwWidth sb i := by
  have h1 := lt_lzwWidth sb i
  have h2 := le_lzwWidth sb i
  obtain ⟨k, hk⟩ : ∃ k, lzwWidth sb i = k + 1 := ⟨_, rfl⟩
  rw [hk] at h1 h2 ⊢
  rw [Nat.add_sub_cancel] at h2
  unfold lzwWidth
  split
  next h =>
    rw [log2_unique _ (k + 1) h]
    rw [Nat.pow_succ _ (k + 1)]
    omega
  next h =>
    rw [log2_unique _ k (by omega) (by omega)]

/-- What the decoder knows after `i` phrases of the segment `ws`. -/
def LzwInv (sb : Nat) (ws : List (List Nat)) (i : Nat) (st : LzwState) : Prop :=
  (i = 0 ∧ st.dict = [] ∧ st.obuf = [] ∧ (st.nbits = sb ∨ st.nbits = sb + 1)) ∨
  (∃ k, i = k + 1 ∧ st.nbits = lzwWidth sb k ∧ st.dict.length = k ∧
    (∀ j, j < k → st.dict[j]? = lzwEntry ws j) ∧ ws[k]? = some st.obuf ∧ st.obuf ≠ [])

theorem LzwInv.width {sb i : Nat} {ws : List (List Nat)} {st : LzwState} (hsb : 2 ≤ sb)
    (h : LzwInv sb ws i st) :
    (if st.compressCode sb ≥ 2 ^ st.nbits then st.nbits + 1 else st.nbits) = lzwWidth sb i := by
  rcases h with ⟨hi, hd, ho, hn⟩ | ⟨k, hi, hn, hd, he, hw, ho⟩
  · subst hi
    rw [lzwWidth_zero sb (by omega)]
    have h2 : 2 ^ 2 ≤ 2 ^ sb := Nat.pow_le_pow_right (by omega) hsb
    unfold LzwState.compressCode
    rw [hd]
    rcases hn with hn | hn <;> rw [hn]
    · rw [if_pos (by omega)]
    · rw [if_neg]
      rw [Nat.pow_succ, List.length_nil]
      omega
  · subst hi
    rw [lzwWidth_succ, hn]
    unfold LzwState.compressCode
    rw [hd, show 2 ^ sb + 2 + k = 2 ^ sb + 1 + (k + 1) by omega]

theorem LzwInv.compress {sb i : Nat} {ws : List (List Nat)} {st : LzwState}
    (h : LzwInv sb ws i st) : st.compressCode sb = 2 ^ sb + 1 + (if i = 0 then 1 else i) := by
  unfold LzwState.compressCode
  rcases h with ⟨hi, hd, ho, hn⟩ | ⟨k, hi, hn, hd, he, hw, ho⟩
  · subst hi; rw [hd]; rfl
  · subst hi; rw [hd, if_neg (by omega)]; omega

theorem codeFor_ne_nil {sb i c : Nat} {ws : List (List Nat)} (h : LzwCodeFor sb ws i c) :
    ∃ p w, ws[i]? = some (p :: w) := by
  rcases h with ⟨_, h⟩ | ⟨j, w, _, _, h, he⟩
  · exact ⟨_, _, h⟩
  · unfold lzwEntry at he
    split at he
    · simp only [Option.some.injEq] at he
      subst he
      rename_i a p q _ _
      cases a with
      | nil => exact ⟨_, _, h⟩
      | cons x xs => exact ⟨_, _, h⟩
    · cases he

theorem codeFor_lt {sb i c : Nat} {ws : List (List Nat)} (h : LzwCodeFor sb ws i c) :
    c < 2 ^ lzwWidth sb i := by
  have h1 := lt_lzwWidth sb i
  rcases h with ⟨h, _⟩ | ⟨j, w, hj, h, _⟩ <;> omega

theorem codeFor_ne {sb i c : Nat} {ws : List (List Nat)} (h : LzwCodeFor sb ws i c) :
    c ≠ 2 ^ sb ∧ c ≠ 2 ^ sb + 1 := by
  rcases h with ⟨h, _⟩ | ⟨j, w, hj, h, _⟩ <;> omega

/-- The field for the code `c` of the phrase `w` sent after `i` phrases. -/
def phraseField (sb i total c : Nat) (w : List Nat) : GifCode :=
  { width := lzwWidth sb i, value := c, word := w, guessed := decide (c = 2 ^ sb + 1 + i),
    total := total + w.length }

theorem lzwCode_step {sb i c : Nat} {ws : List (List Nat)} {st : LzwState} (hi : LzwInv sb ws i st)
    (hc : LzwCodeFor sb ws i c) (w : List Nat) (hw : ws[i]? = some w) :
    ∃ st', lzwCode sb { st with nbits := lzwWidth sb i } c =
        .ok (st', phraseField sb i st.total c w) ∧ LzwInv sb ws (i + 1) st' ∧
      st'.total = st.total + w.length := by
  obtain ⟨p, w', hpw⟩ := codeFor_ne_nil hc
  have hwp : w = p :: w' := by
    rw [hw] at hpw
    exact Option.some.inj hpw
  -- the dictionary of the next state
  have next : ∀ (d : List (List Nat)) (nb t : Nat), nb = lzwWidth sb i →
      d = (if st.obuf ≠ [] then st.dict ++ [st.obuf ++ [p]] else st.dict) →
      LzwInv sb ws (i + 1) { nbits := nb, dict := d, obuf := w, total := t } := by
    intro d nb t hnb hd
    refine Or.inr ⟨i, rfl, hnb, ?_, ?_, hw, by rw [hwp]; simp⟩
    · rcases hi with ⟨h0, hd0, ho, _⟩ | ⟨k, hk, _, hl, _, _, ho⟩
      · subst h0
        simp [hd, ho, hd0]
      · simp only [hd, if_pos ho, List.length_append, List.length_singleton]
        omega
    · intro j hj
      rcases hi with ⟨h0, hd0, ho, _⟩ | ⟨k, hk, _, hl, he, hk2, ho⟩
      · omega
      · simp only [hd, if_pos ho]
        by_cases hjk : j < k
        · rw [List.getElem?_append_left (by omega), he j hjk]
        · have : j = k := by omega
          subst this
          rw [List.getElem?_append_right (by omega)]
          subst hk
          rw [show j - st.dict.length = 0 by omega]
          unfold lzwEntry
          rw [hk2, hpw]
          rfl
  unfold lzwCode
  rcases hc with ⟨hlt, hwc⟩ | ⟨j, w2, hj, hceq, hw2, hent⟩
  · rw [if_pos hlt]
    have hwc' : w = [c] := by
      rw [hw] at hwc
      exact Option.some.inj hwc
    have hpc : p = c := by
      rw [hwp] at hwc'
      exact (List.cons.inj hwc').1
    subst hwc'
    refine ⟨{ nbits := lzwWidth sb i, dict := (if st.obuf ≠ [] then st.dict ++ [st.obuf ++ [c]] else st.dict), obuf := [c], total := st.total + 1 }, ?_, ?_, rfl⟩
    · have hg : decide (c = 2 ^ sb + 1 + i) = false := by
        rw [decide_eq_false_iff_not]; omega
      unfold phraseField
      rw [hg]
      rfl
    · exact next _ _ _ rfl (by rw [hpc])
  · have hwe : w2 = w := by
      rw [hw] at hw2
      exact (Option.some.inj hw2).symm
    subst hwe
    have ho : st.obuf ≠ [] := by
      rcases hi with ⟨h0, _⟩ | ⟨k, _, _, _, _, _, ho⟩
      · omega
      · exact ho
    rw [if_neg (by omega)]
    have hst' : LzwInv sb ws (i + 1) { nbits := lzwWidth sb i, dict := st.dict ++ [st.obuf ++ [p]], obuf := w2, total := st.total + w2.length } :=
      next _ _ _ rfl (by rw [if_pos ho])
    rcases hi with ⟨h0, _⟩ | ⟨k, hk, hn, hl, he, hk2, _⟩
    · omega
    · subst hk
      by_cases hjk : j < k
      · have hlook : LzwState.lookup { st with nbits := lzwWidth sb (k + 1) } sb c = some (p :: w') := by
          unfold LzwState.lookup
          rw [hceq, Nat.add_sub_cancel_left, ← hwp, ← hent]
          exact he j hjk
        simp only [hlook]
        refine ⟨_, ?_, hst', rfl⟩
        have hg : decide (c = 2 ^ sb + 1 + (k + 1)) = false := by
          rw [decide_eq_false_iff_not]; omega
        unfold phraseField
        rw [hg, hwp]
      · have hjk' : j = k := by omega
        subst hjk'
        have hlook : LzwState.lookup { st with nbits := lzwWidth sb (j + 1) } sb c = none := by
          unfold LzwState.lookup
          rw [hceq, Nat.add_sub_cancel_left]
          exact List.getElem?_eq_none (show st.dict.length ≤ j by omega)
        simp only [hlook]
        obtain ⟨q, qs, hq⟩ : ∃ q qs, st.obuf = q :: qs := by
          cases h : st.obuf with
          | nil => exact absurd h ho
          | cons a b => exact ⟨a, b, rfl⟩
        have hwq : st.obuf ++ [p] = p :: w' := by
          unfold lzwEntry at hent
          rw [hk2, hpw] at hent
          rw [← hwp]
          exact Option.some.inj hent
        have hqp : q = p := by
          rw [hq] at hwq
          exact (List.cons.inj hwq).1
        subst hqp
        refine ⟨_, ?_, hst', rfl⟩
        have hg : decide (c = 2 ^ sb + 1 + (j + 1)) = true := by
          rw [decide_eq_true_iff]; omega
        unfold phraseField
        rw [hg, hwp, ← hwq]
        simp only [hq]

/-- The fields for the codes `cs` of the phrases `ws`, sent after `i` phrases of the segment. -/
def phraseFields (sb : Nat) : Nat → Nat → List (List Nat) → List Nat → List GifCode
  | i, total, w :: ws, c :: cs =>
    phraseField sb i total c w :: phraseFields sb (i + 1) (total + w.length) ws cs
  | _, _, _, _ => []

/-- The field of a clear or end code sent after `i` phrases. -/
def specialField (sb i total c : Nat) : GifCode :=
  { width := lzwWidth sb i, value := c, word := [], guessed := false, total := total }

theorem gifLoop_phrases (data : Bytes) (s : InputStream) (hs : stringInputStream data = .ok s)
    (sb : Nat) (hsb : 2 ≤ sb) (ws : List (List Nat)) (n : Nat) (more : List Nat) (rest : List Bool)
    (cs : List Nat) (i addr : Nat) (st : LzwState) (hi : LzwInv sb ws i st)
    (hc : ∀ j c, cs[j]? = some c → LzwCodeFor sb ws (i + j) c)
    (hb : (lzwBits (lzwWidth sb) i (cs ++ more) ++ rest) <+: (bitsLSB data).drop addr) :
    ∃ st', gifLoop s sb (n + cs.length) addr st =
        (phraseFields sb i st.total (ws.drop i) cs ++
            (gifLoop s sb n (addr + (lzwBits (lzwWidth sb) i cs).length) st').1,
          (gifLoop s sb n (addr + (lzwBits (lzwWidth sb) i cs).length) st').2) ∧
      LzwInv sb ws (i + cs.length) st' ∧
      (lzwBits (lzwWidth sb) (i + cs.length) more ++ rest) <+:
        (bitsLSB data).drop (addr + (lzwBits (lzwWidth sb) i cs).length) ∧
      st'.total = st.total + (((ws.drop i).take cs.length).map List.length).sum := by
  induction cs generalizing i addr st with
  | nil =>
    refine ⟨st, ?_, hi, by simpa [lzwBits] using hb, by simp⟩
    simp [phraseFields, lzwBits]
  | cons c cs ih =>
    have hc0 : LzwCodeFor sb ws i c := hc 0 c rfl
    obtain ⟨p, w', hw⟩ := codeFor_ne_nil hc0
    obtain ⟨st1, hstep, hinv1, htot1⟩ := lzwCode_step hi hc0 _ hw
    simp only [List.cons_append, lzwBits, List.append_assoc] at hb
    obtain ⟨hread, hrest⟩ := readBits_toBits data s hs addr (lzwWidth sb i) c _ (lzwWidth_pos sb i)
      (codeFor_lt hc0) hb
    obtain ⟨st2, h1, h2, h3, h4⟩ := ih (i + 1) (addr + lzwWidth sb i) st1 hinv1
      (fun j c hj => by
        have := hc (j + 1) c (by simpa using hj)
        rwa [show i + (j + 1) = i + 1 + j by omega] at this) hrest
    have hdrop : ws.drop i = (p :: w') :: ws.drop (i + 1) := by
      obtain ⟨hlt, hget⟩ := List.getElem?_eq_some_iff.1 hw
      rw [← hget]
      exact List.drop_eq_getElem_cons hlt
    have hlen : addr + (lzwBits (lzwWidth sb) i (c :: cs)).length =
        addr + lzwWidth sb i + (lzwBits (lzwWidth sb) (i + 1) cs).length := by
      simp only [lzwBits, List.length_append, length_toBitsLSB]
      omega
    refine ⟨st2, ?_, ?_, ?_, ?_⟩
    · rw [List.length_cons, ← Nat.add_assoc, gifLoop]
      simp only [hi.width hsb, hread, if_neg (codeFor_ne hc0).1, if_neg (codeFor_ne hc0).2, hstep]
      rw [h1, hlen, hdrop, phraseFields, htot1]
      rfl
    · rw [List.length_cons, show i + (cs.length + 1) = i + 1 + cs.length by omega]
      exact h2
    · rw [List.length_cons, show i + (cs.length + 1) = i + 1 + cs.length by omega, hlen]
      exact h3
    · rw [h4, htot1, hdrop]
      simp only [List.length_cons, List.take_succ_cons, List.map_cons, List.sum_cons]
      omega

theorem gifLoop_end (data : Bytes) (s : InputStream) (hs : stringInputStream data = .ok s)
    (sb : Nat) (hsb : 2 ≤ sb) (ws : List (List Nat)) (n i addr : Nat) (st : LzwState)
    (hi : LzwInv sb ws i st) (rest : List Bool)
    (hb : (lzwBits (lzwWidth sb) i [2 ^ sb + 1] ++ rest) <+: (bitsLSB data).drop addr) :
    gifLoop s sb (n + 1) addr st =
      ([specialField sb i st.total (2 ^ sb + 1)], addr + lzwWidth sb i, none) := by
  simp only [lzwBits, List.append_nil] at hb
  obtain ⟨hread, hrest⟩ := readBits_toBits data s hs addr (lzwWidth sb i) _ _ (lzwWidth_pos sb i)
    (by have := lt_lzwWidth sb i; omega) hb
  rw [gifLoop]
  simp only [hi.width hsb, hread]
  rw [if_neg (by omega), if_pos trivial]
  rfl

theorem gifLoop_clear (data : Bytes) (s : InputStream) (hs : stringInputStream data = .ok s)
    (sb : Nat) (hsb : 2 ≤ sb) (ws : List (List Nat)) (n i addr : Nat) (st : LzwState)
    (hi : LzwInv sb ws i st) (hedge : ∀ k, 2 ^ sb + 1 + i ≠ 2 ^ k) (rest : List Bool)
    (hb : (lzwBits (lzwWidth sb) i [2 ^ sb] ++ rest) <+: (bitsLSB data).drop addr) :
    ∃ st', gifLoop s sb (n + 1) addr st =
        (specialField sb i st.total (2 ^ sb) :: (gifLoop s sb n (addr + lzwWidth sb i) st').1,
          (gifLoop s sb n (addr + lzwWidth sb i) st').2) ∧
      (∀ ws', LzwInv sb ws' 0 st') ∧ rest <+: (bitsLSB data).drop (addr + lzwWidth sb i) ∧
      st'.total = st.total := by
  simp only [lzwBits, List.append_nil] at hb
  obtain ⟨hread, hrest⟩ := readBits_toBits data s hs addr (lzwWidth sb i) _ _ (lzwWidth_pos sb i)
    (by have := lt_lzwWidth sb i; omega) hb
  have hne : st.compressCode sb ≠ 2 ^ (lzwWidth sb i - 1) := by
    rw [hi.compress]
    split
    next h0 =>
      subst h0
      rw [lzwWidth_zero sb (by omega), Nat.add_sub_cancel]
      omega
    next => exact hedge _
  refine ⟨{ nbits := sb + 1, dict := [], obuf := [], total := st.total }, ?_,
    fun ws' => Or.inl ⟨rfl, rfl, rfl, Or.inr rfl⟩, hrest, rfl⟩
  rw [gifLoop]
  simp only [hi.width hsb, hread, if_pos trivial, if_neg hne]
  rfl

end Hachoir.Formats
