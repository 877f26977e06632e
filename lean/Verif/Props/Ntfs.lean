import Verif.Formats.Ntfs
import Verif.Formats.PrefixLemmas

/-!
# C77: the run list of a file names the clusters of the file

A file is stored in runs: so many clusters from such a cluster on, or so many clusters that are
not stored at all (a hole).  The specification `RunBytes` says which bytes stand for a list of
runs, whatever widths the writer chose.
-/

set_option linter.unusedVariables false

namespace Hachoir.Props
open Hachoir Hachoir.Stream Hachoir.Formats Spec

/-! ### Specification -/

/-- A number of clusters and the first of them; `none` for a hole. -/
abbrev Run := Nat × Option Int

/-- The cluster a run begins at, for the run behind it: a hole changes nothing. -/
def lastCluster (prev : Int) : Run → Int
  | (_, some lcn) => lcn
  | (_, none) => prev

/-- `bs` stand for the run `r` behind a run at cluster `prev`: a byte with the two widths, the
length, the distance from the run before. -/
inductive OneRun (prev : Int) : Run → Bytes → Prop where
  | stored (len dist : Bytes) (h1 : len.length < 16) (h2 : dist.length < 16) (h3 : dist ≠ []) :
      OneRun prev (ofBytesLE len, some (prev + twosComplement (8 * dist.length) (ofBytesLE dist)))
        (UInt8.ofNat (16 * dist.length + len.length) :: (len ++ dist))
  | hole (len : Bytes) (h1 : len.length < 16) (h2 : len ≠ []) :
      OneRun prev (ofBytesLE len, none) (UInt8.ofNat len.length :: len)

/-- `bs` stand for the runs: their bytes one behind the other and a zero. -/
inductive RunBytes : Int → List Run → Bytes → Prop where
  | nil (prev : Int) : RunBytes prev [] [0]
  | cons (prev : Int) (r : Run) (rs : List Run) (bs cs : Bytes) (h1 : OneRun prev r bs)
      (h2 : RunBytes (lastCluster prev r) rs cs) : RunBytes prev (r :: rs) (bs ++ cs)

/-- What is shown of the runs: a hole has the cluster of the run before. -/
def shownRuns (prev : Int) : List Run → List (Nat × Int)
  | [] => []
  | r :: rs => (r.1, lastCluster prev r) :: shownRuns (lastCluster prev r) rs

/-! ### Reading -/

theorem readBits_bytes_little (data : Bytes) (s : InputStream) (hs : stringInputStream data = .ok s)
    (k m : Nat) (hm : 0 < m) :
    readBits s (8 * k : Nat) (m * 8) .little =
      if m ≤ (data.drop k).length then .ok (ofBytesLE ((data.drop k).take m)) else .error .readStream := by
  rw [List.length_drop, Nat.mul_comm m 8]
  rcases Nat.lt_or_ge (data.length - k) m with h | h
  · rw [if_neg (by omega)]
    exact _root_.Props.C01_readBits_past_end data s hs (8 * k) (8 * m) (by omega) (by omega) .little (by simp)
  · rw [if_pos h, _root_.Props.C01_readBits_little data s hs (8 * k) (8 * m) (by omega), ← bitsLSB_drop,
      ← bitsLSB_take, ofBytesLE_eq]

/-- The value of a field that is made only for a width that is not zero. -/
def optValue (bs : Bytes) (m : Nat) : Option Nat := if m = 0 then none else some (ofBytesLE (bs.take m))

theorem optBits_eq (data : Bytes) (s : InputStream) (hs : stringInputStream data = .ok s) (k m : Nat) :
    optBits s (8 * k : Nat) m =
      if m ≤ (data.drop k).length then .ok (optValue (data.drop k) m) else .error .readStream := by
  unfold optBits optValue
  by_cases h : m = 0
  · subst h; simp
  · rw [if_neg h, readBits_bytes_little data s hs k m (by omega)]
    by_cases h2 : m ≤ (data.drop k).length
    · rw [if_pos h2, if_pos h2]; simp [h]
    · rw [if_neg h2, if_neg h2]

theorem signBit (v m : Nat) (hm : 0 < m) (h : v < 256 ^ m) :
    (if v &&& (1 <<< (m * 8 - 1)) ≠ 0 then (v : Int) - (1 <<< (m * 8) : Nat) else v) =
      twosComplement (8 * m) v := by
  have hp : 2 ^ (8 * m) = 2 * 2 ^ (8 * m - 1) := by rw [← Nat.pow_succ']; congr 1; omega
  rw [pow256] at h
  have e : v &&& (1 <<< (m * 8 - 1)) = 2 ^ (8 * m - 1) * (v / 2 ^ (8 * m - 1) % 2) := by
    rw [Nat.mul_comm m 8, Nat.one_shiftLeft]
    apply Nat.eq_of_testBit_eq
    intro i
    rw [Nat.testBit_and, Nat.testBit_two_pow]
    rcases Nat.mod_two_eq_zero_or_one (v / 2 ^ (8 * m - 1)) with h | h
    · rw [h, Nat.mul_zero, Nat.zero_testBit]
      by_cases hi : 8 * m - 1 = i
      · rw [← hi, Nat.testBit_eq_decide_div_mod_eq]; simp [h]
      · simp [hi]
    · rw [h, Nat.mul_one, Nat.testBit_two_pow]
      by_cases hi : 8 * m - 1 = i
      · rw [← hi, Nat.testBit_eq_decide_div_mod_eq]; simp [h]
      · simp [hi]
  rw [e]
  unfold twosComplement
  have hpos : 0 < 2 ^ (8 * m - 1) := Nat.two_pow_pos _
  by_cases h2 : v < 2 ^ (8 * m - 1)
  · rw [Nat.div_eq_of_lt h2, if_neg (by simp), if_pos h2]
  · have h3 : v / 2 ^ (8 * m - 1) = 1 := by
      apply Nat.div_eq_of_lt_le <;> omega
    rw [h3, if_pos (by simp), if_neg h2, Nat.mul_comm m 8, Nat.one_shiftLeft]
    congr 1

/-- An entry that is not the end: its widths, its values and its size. -/
theorem runEntry_eq (data : Bytes) (s : InputStream) (hs : stringInputStream data = .ok s)
    (k : Nat) (b : UInt8) (bs : Bytes) (hd : data.drop k = b :: bs) (hb : b.toNat ≠ 0) :
    runEntry s (8 * k : Nat) =
      if b.toNat % 16 + b.toNat / 16 ≤ bs.length then
        .ok (⟨b.toNat, optValue bs (b.toNat % 16),
          (optValue (bs.drop (b.toNat % 16)) (b.toNat / 16)).map fun v => (v, b.toNat / 16 * 8)⟩,
          8 * (1 + b.toNat % 16 + b.toNat / 16))
      else .error .readStream := by
  unfold runEntry
  have hd2 := drop_succ_of_cons data k b bs hd
  have e1 : b.toNat >>> 4 = b.toNat / 16 := Nat.shiftRight_eq_div_pow _ _
  have e2 : b.toNat &&& 0xf = b.toNat % 16 := Nat.and_two_pow_sub_one_eq_mod b.toNat 4
  rw [readBits_byte data s hs k .little (by simp), hd]
  simp only [hb, if_false, e1, e2]
  rw [addr_succ, optBits_eq data s hs (k + 1) (b.toNat % 16), hd2]
  generalize b.toNat % 16 = l at *
  generalize b.toNat / 16 = d at *
  by_cases h : l ≤ bs.length
  · rw [if_pos h]
    simp only
    rw [show ((8 * (k + 1) : Nat) : Int) + (l : Int) * 8 = ((8 * (k + 1 + l) : Nat) : Int) by push_cast; ring,
      optBits_eq data s hs (k + 1 + l) d, ← List.drop_drop, hd2, List.length_drop]
    by_cases h2 : l + d ≤ bs.length
    · rw [if_pos (by omega), if_pos h2]
      simp only [Except.ok.injEq, Prod.mk.injEq, true_and]
      omega
    · rw [if_neg (by omega), if_neg h2]
  · rw [if_neg h, if_neg (by omega)]

theorem runEntry_end (data : Bytes) (s : InputStream) (hs : stringInputStream data = .ok s)
    (k : Nat) (b : UInt8) (bs : Bytes) (hd : data.drop k = b :: bs) (hb : b.toNat = 0) :
    runEntry s (8 * k : Nat) = .ok (⟨0, none, none⟩, 8) := by
  unfold runEntry
  rw [readBits_byte data s hs k .little (by simp), hd]
  simp only [hb, if_true]

theorem runEntry_eof (data : Bytes) (s : InputStream) (hs : stringInputStream data = .ok s)
    (k : Nat) (hd : data.drop k = []) : runEntry s (8 * k : Nat) = .error .readStream := by
  unfold runEntry
  rw [readBits_byte data s hs k .little (by simp), hd]

/-- An entry that is read stands for one run, and the other way round. -/
theorem oneRun_of_bytes (prev : Int) (b : UInt8) (bs : Bytes) (hb : b.toNat ≠ 0)
    (hl : b.toNat % 16 + b.toNat / 16 ≤ bs.length) :
    ∃ r, OneRun prev r (b :: bs.take (b.toNat % 16 + b.toNat / 16)) ∧
      (⟨b.toNat, optValue bs (b.toNat % 16),
          (optValue (bs.drop (b.toNat % 16)) (b.toNat / 16)).map fun v => (v, b.toNat / 16 * 8)⟩ : RunEntry).value
        = (r.1, lastCluster prev r - prev) := by
  have hb256 : b.toNat < 256 := b.toNat_lt
  have hlen : (bs.take (b.toNat % 16)).length = b.toNat % 16 := by simp; omega
  have hsplit : bs.take (b.toNat % 16 + b.toNat / 16) =
      bs.take (b.toNat % 16) ++ (bs.drop (b.toNat % 16)).take (b.toNat / 16) := List.take_add
  have hdlen : ((bs.drop (b.toNat % 16)).take (b.toNat / 16)).length = b.toNat / 16 := by simp; omega
  have hval : runLength (optValue bs (b.toNat % 16)) = ofBytesLE (bs.take (b.toNat % 16)) := by
    unfold optValue
    by_cases h : b.toNat % 16 = 0
    · rw [if_pos h, h]; simp [ofBytesLE, runLength]
    · rw [if_neg h]; rfl
  by_cases hd : b.toNat / 16 = 0
  · have hm : b.toNat % 16 = b.toNat := by omega
    refine ⟨(ofBytesLE (bs.take (b.toNat % 16)), none), ?_, ?_⟩
    · have := OneRun.hole (prev := prev) (bs.take (b.toNat % 16)) (by rw [hlen]; omega)
        (by intro h; rw [h] at hlen; simp at hlen; omega)
      rw [hd, Nat.add_zero]
      rw [hlen, hm] at this
      rw [hm]
      have hb2 : UInt8.ofNat b.toNat = b := by simp
      rw [hb2] at this
      exact this
    · simp only [RunEntry.value, hval, lastCluster, Int.sub_self]
      rw [show optValue (bs.drop (b.toNat % 16)) (b.toNat / 16) = none from if_pos hd]
      rfl
  · refine ⟨(ofBytesLE (bs.take (b.toNat % 16)), some (prev +
      twosComplement (8 * (b.toNat / 16)) (ofBytesLE ((bs.drop (b.toNat % 16)).take (b.toNat / 16))))), ?_, ?_⟩
    · have := OneRun.stored (prev := prev) (bs.take (b.toNat % 16)) ((bs.drop (b.toNat % 16)).take (b.toNat / 16))
        (by rw [hlen]; omega) (by rw [hdlen]; omega)
        (by intro h; rw [h] at hdlen; simp at hdlen; omega)
      rw [hlen, hdlen, ← hsplit, Nat.div_add_mod, UInt8.ofNat_toNat] at this
      exact this
    · simp only [RunEntry.value, hval, lastCluster]
      rw [show optValue (bs.drop (b.toNat % 16)) (b.toNat / 16) = some _ from if_neg hd]
      simp only [Option.map_some, runOffset, Prod.mk.injEq, true_and]
      have := ofBytesLE_lt ((bs.drop (b.toNat % 16)).take (b.toNat / 16))
      rw [hdlen] at this
      rw [signBit _ _ (by omega) this]
      omega

theorem byte_toNat (n : Nat) (hn : n < 256) : (UInt8.ofNat n).toNat = n := by
  rw [UInt8.toNat_ofNat', Nat.mod_eq_of_lt hn]

theorem oneRun_head (prev : Int) (r : Run) (bs : Bytes) (h : OneRun prev r bs) :
    ∃ b cs, bs = b :: cs ∧ b.toNat ≠ 0 ∧ cs.length = b.toNat % 16 + b.toNat / 16 := by
  cases h with
  | stored len dist h1 h2 h3 =>
    have hne : 0 < dist.length := List.length_pos_iff.2 h3
    have hb := byte_toNat (16 * dist.length + len.length) (by omega)
    refine ⟨_, _, rfl, ?_, ?_⟩
    · omega
    · rw [List.length_append]; omega
  | hole len h1 h2 =>
    have hne : 0 < len.length := List.length_pos_iff.2 h2
    have hb := byte_toNat len.length (by omega)
    refine ⟨_, _, rfl, ?_, ?_⟩
    · omega
    · omega

theorem oneRun_unique (prev : Int) (r r' : Run) (bs : Bytes) (h : OneRun prev r bs) (h' : OneRun prev r' bs) :
    r = r' := by
  have e16 : ∀ n, n < 256 → (UInt8.ofNat n).toNat = n := by
    intro n hn; rw [UInt8.toNat_ofNat', Nat.mod_eq_of_lt hn]
  generalize hc : bs = cs at h'
  cases h with
  | stored len dist h1 h2 h3 =>
    have hne : 0 < dist.length := List.length_pos_iff.2 h3
    cases h' with
    | stored len' dist' h1' h2' h3' =>
      simp only [List.cons.injEq] at hc
      have hh := congrArg UInt8.toNat hc.1
      rw [e16 _ (by omega), e16 _ (by omega)] at hh
      obtain ⟨ha, hb⟩ := List.append_inj hc.2 (by omega)
      rw [ha, hb]
    | hole len' h1' h2' =>
      simp only [List.cons.injEq] at hc
      have hh := congrArg UInt8.toNat hc.1
      rw [e16 _ (by omega), e16 _ (by omega)] at hh
      omega
  | hole len h1 h2 =>
    cases h' with
    | stored len' dist' h1' h2' h3' =>
      have hne : 0 < dist'.length := List.length_pos_iff.2 h3'
      simp only [List.cons.injEq] at hc
      have hh := congrArg UInt8.toNat hc.1
      rw [e16 _ (by omega), e16 _ (by omega)] at hh
      omega
    | hole len' h1' h2' =>
      simp only [List.cons.injEq] at hc
      rw [hc.2]

theorem runValues_cons (prev : Int) (e : RunEntry) (l : List RunEntry) (he : e.header ≠ 0) (r : Run)
    (hv : e.value = (r.1, lastCluster prev r - prev)) :
    runValues prev (e :: l) = (r.1, lastCluster prev r) :: runValues (lastCluster prev r) l := by
  have e1 : prev + e.value.2 = lastCluster prev r := by rw [hv]; show prev + (_ - _) = _; omega
  have e2 : e.value.1 = r.1 := by rw [hv]
  rw [runValues]
  simp only [e1, e2]
  rw [if_pos he]

theorem runBytes_ne (prev : Int) (rs : List Run) (bs : Bytes) (h : RunBytes prev rs bs) : bs ≠ [] := by
  cases h with
  | nil => simp
  | cons _ r rs es ds h1 h2 =>
    obtain ⟨b, cs, rfl, _⟩ := oneRun_head _ _ _ h1
    simp

/-- The bytes of runs are recognised. -/
theorem runBytes_unique (prev : Int) (rs rs' : List Run) (bs bs' data : Bytes) (h : RunBytes prev rs bs)
    (h' : RunBytes prev rs' bs') (hp : bs <+: data) (hp' : bs' <+: data) : rs = rs' ∧ bs = bs' := by
  induction h generalizing rs' bs' data with
  | nil prev =>
    cases h' with
    | nil => exact ⟨rfl, rfl⟩
    | cons _ r rs cs ds h1 h2 =>
      obtain ⟨b, es, rfl, hb, _⟩ := oneRun_head _ _ _ h1
      obtain ⟨t, rfl⟩ := hp
      obtain ⟨t', ht'⟩ := hp'
      simp only [List.cons_append, List.cons.injEq] at ht'
      exact absurd (congrArg UInt8.toNat ht'.1) hb
  | cons prev r rs cs ds h1 h2 ih =>
    obtain ⟨b, es, rfl, hb, hl⟩ := oneRun_head _ _ _ h1
    cases h' with
    | nil =>
      obtain ⟨t, rfl⟩ := hp
      obtain ⟨t', ht'⟩ := hp'
      simp only [List.cons_append, List.cons.injEq] at ht'
      exact absurd (congrArg UInt8.toNat ht'.1.symm) hb
    | cons _ r' rs' cs' ds' h1' h2' =>
      obtain ⟨b', es', rfl, hb', hl'⟩ := oneRun_head _ _ _ h1'
      obtain ⟨t, rfl⟩ := hp
      obtain ⟨t', ht'⟩ := hp'
      simp only [List.cons_append, List.cons.injEq, List.append_assoc] at ht'
      obtain ⟨hbb, ht'⟩ := ht'
      subst hbb
      obtain ⟨hes, ht2⟩ := List.append_inj ht' (by omega)
      subst hes
      have hrr := oneRun_unique prev r r' _ h1 h1'
      subst hrr
      obtain ⟨ha, hb⟩ := ih rs' ds' (ds ++ t) h2' ⟨t, rfl⟩ ⟨t', ht2⟩
      rw [ha, hb]
      exact ⟨rfl, rfl⟩

/-- The first entry of the bytes of some runs. -/
theorem runBytes_cases (prev : Int) (rs : List Run) (bs : Bytes) (b : UInt8) (cs : Bytes)
    (h : RunBytes prev rs bs) (hp : bs <+: b :: cs) (hb : b.toNat ≠ 0) :
    b.toNat % 16 + b.toNat / 16 ≤ cs.length ∧
      ∃ r rs' ds, OneRun prev r (b :: cs.take (b.toNat % 16 + b.toNat / 16)) ∧
        RunBytes (lastCluster prev r) rs' ds ∧ ds <+: cs.drop (b.toNat % 16 + b.toNat / 16) := by
  cases h with
  | nil =>
    obtain ⟨t, ht⟩ := hp
    simp only [List.cons_append, List.cons.injEq] at ht
    exact absurd (congrArg UInt8.toNat ht.1.symm) hb
  | cons _ r rs es ds h1 h2 =>
    obtain ⟨b', es', rfl, hb', hl'⟩ := oneRun_head _ _ _ h1
    obtain ⟨t, ht⟩ := hp
    simp only [List.cons_append, List.cons.injEq, List.append_assoc] at ht
    obtain ⟨rfl, rfl⟩ := ht
    refine ⟨by rw [List.length_append]; omega, r, rs, ds, ?_, h2, ⟨t, ?_⟩⟩
    · rw [← hl', List.take_left]; exact h1
    · rw [← hl', List.drop_left]

/-- What follows the address is the bytes of some runs, or reading fails. -/
theorem runEntries_total (data : Bytes) (s : InputStream) (hs : stringInputStream data = .ok s)
    (n k : Nat) (prev : Int) (hn : data.length ≤ k + n) :
    (∃ rs bs l, RunBytes prev rs bs ∧ bs <+: data.drop k ∧
      runEntries s (n + 1) (8 * k : Nat) = .ok (l, 8 * bs.length) ∧ runValues prev l = shownRuns prev rs) ∨
    (runEntries s (n + 1) (8 * k : Nat) = .error .readStream ∧
      ∀ rs bs, RunBytes prev rs bs → ¬ bs <+: data.drop k) := by
  induction n generalizing k prev with
  | zero =>
    have hd : data.drop k = [] := List.drop_eq_nil_of_le (by omega)
    right
    rw [runEntries, runEntry_eof data s hs k hd, hd]
    exact ⟨rfl, fun rs bs h hp => runBytes_ne prev rs bs h (List.prefix_nil.1 hp)⟩
  | succ n ih =>
    rw [runEntries]
    cases hd : data.drop k with
    | nil =>
      right
      rw [runEntry_eof data s hs k hd]
      exact ⟨rfl, fun rs bs h hp => runBytes_ne prev rs bs h (List.prefix_nil.1 hp)⟩
    | cons b bs =>
      by_cases hb : b.toNat = 0
      · left
        have hb0 : b = 0 := UInt8.toNat_inj.1 hb
        refine ⟨[], [0], [⟨0, none, none⟩], .nil prev, ?_, ?_, ?_⟩
        · rw [hb0]; simp
        · rw [runEntry_end data s hs k b bs hd hb]
          simp
        · rfl
      · rw [runEntry_eq data s hs k b bs hd hb]
        by_cases hl : b.toNat % 16 + b.toNat / 16 ≤ bs.length
        · rw [if_pos hl]
          have hh : (⟨b.toNat, optValue bs (b.toNat % 16), (optValue (bs.drop (b.toNat % 16))
            (b.toNat / 16)).map fun v => (v, b.toNat / 16 * 8)⟩ : RunEntry).header ≠ 0 := hb
          simp only
          rw [if_neg hb]
          obtain ⟨r, hr, hv⟩ := oneRun_of_bytes prev b bs hb hl
          generalize (⟨b.toNat, optValue bs (b.toNat % 16), (optValue (bs.drop (b.toNat % 16))
            (b.toNat / 16)).map fun v => (v, b.toNat / 16 * 8)⟩ : RunEntry) = ent at *
          generalize hm : b.toNat % 16 + b.toNat / 16 = m at *
          have hdm : data.drop (k + (1 + m)) = bs.drop m := by
            rw [← List.drop_drop, hd, Nat.add_comm 1 m, List.drop_succ_cons]
          rw [show ((8 * k : Nat) : Int) + ((8 * (1 + b.toNat % 16 + b.toNat / 16) : Nat) : Int) =
            ((8 * (k + (1 + m)) : Nat) : Int) by omega]
          rcases ih (k + (1 + m)) (lastCluster prev r) (by omega) with ⟨rs, cs, l, h1, h2, h3, h4⟩ | ⟨h3, h5⟩
          · left
            refine ⟨r :: rs, (b :: bs.take m) ++ cs, ent :: l, .cons prev r rs _ cs hr h1, ?_, ?_, ?_⟩
            · rw [hdm] at h2
              obtain ⟨t, ht⟩ := h2
              exact ⟨t, by rw [List.append_assoc, ht, List.cons_append, List.take_append_drop]⟩
            · rw [h3]
              simp only [Except.ok.injEq, Prod.mk.injEq]
              refine ⟨trivial, ?_⟩
              rw [List.length_append, List.length_cons, List.length_take]
              omega
            · rw [runValues_cons prev _ l hh r hv, h4, shownRuns]
          · right
            rw [h3]
            refine ⟨rfl, fun rs cs h hp => ?_⟩
            obtain ⟨_, r', rs', ds, g1, g2, g3⟩ := runBytes_cases prev rs cs b bs h hp hb
            rw [hm] at g1 g3
            have := oneRun_unique prev r r' _ hr g1
            subst this
            exact h5 rs' ds g2 (by rw [hdm]; exact g3)
        · right
          rw [if_neg hl]
          exact ⟨rfl, fun rs cs h hp => hl (runBytes_cases prev rs cs b bs h hp hb).1⟩

/-! ### Theorems -/

/-- C77, all data: the value and the extent of the field are those of the runs whose bytes stand
there, and if no bytes of runs stand there reading fails. -/
theorem C77_any (data : Bytes) (s : InputStream) (hs : stringInputStream data = .ok s) (n k : Nat)
    (hn : data.length < n) :
    (∀ v size, runList s n (8 * k : Nat) = .ok (v, size) ↔
      ∃ rs bs, RunBytes 0 rs bs ∧ bs <+: data.drop k ∧ v = shownRuns 0 rs ∧ size = 8 * bs.length) ∧
    (runList s n (8 * k : Nat) = .error .readStream ↔ ∀ rs bs, RunBytes 0 rs bs → ¬ bs <+: data.drop k) := by
  cases n with
  | zero => omega
  | succ n =>
    unfold runList
    rcases runEntries_total data s hs n k 0 (by omega) with ⟨rs, bs, l, h1, h2, h3, h4⟩ | ⟨h1, h2⟩
    · rw [h3]
      simp only [h4, Except.ok.injEq, Prod.mk.injEq, reduceCtorEq, false_iff]
      refine ⟨fun v size => ⟨?_, ?_⟩, fun h => h rs bs h1 h2⟩
      · rintro ⟨rfl, rfl⟩
        exact ⟨rs, bs, h1, h2, rfl, rfl⟩
      · rintro ⟨rs', bs', g1, g2, rfl, rfl⟩
        obtain ⟨rfl, rfl⟩ := runBytes_unique 0 rs rs' bs bs' _ h1 g1 h2 g2
        exact ⟨rfl, rfl⟩
    · rw [h1]
      simp only [reduceCtorEq, false_iff, true_iff]
      exact ⟨fun v size ⟨rs, bs, g1, g2, _⟩ => h2 rs bs g1 g2, h2⟩

/-- The runs of a file without holes. -/
def storedRuns (rs : List (Nat × Int)) : List Run := rs.map fun r => (r.1, some r.2)

theorem shown_stored (prev : Int) (rs : List (Nat × Int)) : shownRuns prev (storedRuns rs) = rs := by
  induction rs generalizing prev with
  | nil => rfl
  | cons r rs ih =>
    show (r.1, r.2) :: shownRuns r.2 (storedRuns rs) = _
    rw [ih]

/-- C77: the run list of a file without holes has exactly the runs of the file as its value,
whatever widths were chosen, and ends where they end. -/
theorem C77_runs_partial (data : Bytes) (s : InputStream) (hs : stringInputStream data = .ok s) (n k : Nat)
    (hn : data.length < n) (rs : List (Nat × Int)) (bs : Bytes) (h : RunBytes 0 (storedRuns rs) bs)
    (hp : bs <+: data.drop k) : runList s n (8 * k : Nat) = .ok (rs, 8 * bs.length) :=
  ((C77_any data s hs n k hn).1 rs _).2 ⟨_, bs, h, hp, (shown_stored 0 rs).symm, rfl⟩

/-- Bytes that stand for a number. -/
def leBytes : Nat → Nat → Bytes
  | 0, _ => []
  | m + 1, v => UInt8.ofNat (v % 256) :: leBytes m (v / 256)

theorem leBytes_spec (m v : Nat) : (leBytes m v).length = m ∧ (v < 256 ^ m → ofBytesLE (leBytes m v) = v) := by
  induction m generalizing v with
  | zero => exact ⟨rfl, fun h => by simp at h; simp [leBytes, ofBytesLE, h]⟩
  | succ m ih =>
    refine ⟨by simp [leBytes, (ih (v / 256)).1], fun h => ?_⟩
    rw [leBytes, ofBytesLE, (ih (v / 256)).2 (by rw [Nat.div_lt_iff_lt_mul (by omega)]; rwa [Nat.pow_succ] at h),
      byte_toNat _ (Nat.mod_lt _ (by omega))]
    omega

/-- The claim covers every file: runs whose lengths and distances have at most 15 bytes can be
written. -/
theorem C77_writable (prev : Int) (rs : List (Nat × Int))
    (h : ∀ r ∈ rs, r.1 < 256 ^ 15 ∧ -2 ^ 118 ≤ r.2 ∧ r.2 < 2 ^ 118) (hprev : -2 ^ 118 ≤ prev ∧ prev < 2 ^ 118) :
    ∃ bs, RunBytes prev (storedRuns rs) bs := by
  induction rs generalizing prev with
  | nil => exact ⟨_, .nil prev⟩
  | cons r rs ih =>
    obtain ⟨h1, h2, h3⟩ := h r (by simp)
    obtain ⟨bs, hbs⟩ := ih r.2 (fun x hx => h x (by simp [hx])) ⟨h2, h3⟩
    obtain ⟨hl, hv⟩ := leBytes_spec 15 r.1
    obtain ⟨hl2, hv2⟩ := leBytes_spec 15 ((r.2 - prev) % 2 ^ 120).toNat
    have hone := OneRun.stored (prev := prev) (leBytes 15 r.1) (leBytes 15 ((r.2 - prev) % 2 ^ 120).toNat)
      (by omega) (by omega) (by intro h; rw [h] at hl2; cases hl2)
    rw [hv h1, hv2 (by omega), hl, hl2] at hone
    have htwo : prev + twosComplement (8 * 15) ((r.2 - prev) % 2 ^ 120).toNat = r.2 := by
      unfold twosComplement
      split <;> omega
    rw [htwo] at hone
    exact ⟨_, .cons prev (r.1, some r.2) (storedRuns rs) _ bs hone hbs⟩

/-- C77 (disagreement): a hole is shown as clusters that are stored.  A file of eight clusters
at cluster 100, a hole of eight clusters and a file that has the same eight clusters twice have
the same value. -/
theorem C77_hole :
    ∃ a b s t, RunBytes 0 [(8, some 100), (8, none)] a ∧ RunBytes 0 [(8, some 100), (8, some 100)] b ∧
      stringInputStream a = .ok s ∧ stringInputStream b = .ok t ∧
      (runList s 9 ((8 * 0 : Nat) : Int)).map Prod.fst = .ok [(8, 100), (8, 100)] ∧
      (runList t 9 ((8 * 0 : Nat) : Int)).map Prod.fst = .ok [(8, 100), (8, 100)] := by
  refine ⟨[0x11, 8, 100, 0x01, 8, 0], [0x11, 8, 100, 0x11, 8, 0, 0], _, _, ?_, ?_, rfl, rfl, ?_, ?_⟩
  · have h1 := OneRun.stored (prev := 0) [8] [100] (by decide) (by decide) (by decide)
    have h2 := OneRun.hole (prev := 100) [8] (by decide) (by decide)
    exact .cons 0 (8, some 100) _ _ _ h1 (.cons 100 (8, none) _ _ _ h2 (.nil 100))
  · have h1 := OneRun.stored (prev := 0) [8] [100] (by decide) (by decide) (by decide)
    have h2 := OneRun.stored (prev := 100) [8] [0] (by decide) (by decide) (by decide)
    exact .cons 0 (8, some 100) _ _ _ h1 (.cons 100 (8, some 100) _ _ _ h2 (.nil 100))
  · decide +kernel
  · decide +kernel

/-- Two runs behind a byte of something else: 0x1834 clusters from 0x5634 on, then 0x20 clusters
two clusters before. -/
example : ∃ s, stringInputStream [7, 0x22, 0x34, 0x18, 0x34, 0x56, 0x11, 0x20, 0xfe, 0, 9] = .ok s ∧
    runList s 12 ((8 * 1 : Nat) : Int) = .ok ([(0x1834, 0x5634), (0x20, 0x5632)], 72) := by
  refine ⟨_, rfl, ?_⟩
  have h1 := OneRun.stored (prev := 0) [0x34, 0x18] [0x34, 0x56] (by decide) (by decide) (by decide)
  have h2 := OneRun.stored (prev := 0x5634) [0x20] [0xfe] (by decide) (by decide) (by decide)
  exact C77_runs_partial [7, 0x22, 0x34, 0x18, 0x34, 0x56, 0x11, 0x20, 0xfe, 0, 9] _ rfl 12 1 (by decide)
    [(0x1834, 0x5634), (0x20, 0x5632)] [0x22, 0x34, 0x18, 0x34, 0x56, 0x11, 0x20, 0xfe, 0]
    (.cons 0 (0x1834, some 0x5634) _ _ _ h1 (.cons 0x5634 (0x20, some 0x5632) _ _ _ h2 (.nil 0x5632)))
    ⟨[9], rfl⟩

end Hachoir.Props
