import Verif.Stream.Compose
import Verif.Stream.InputLemmas
import Verif.Props.Tools

/-! # Lemmas for concatenated and fragmented streams -/

set_option linter.unusedVariables false

namespace Hachoir.Stream
open Hachoir Hachoir.Tools

theorem concatRead_eq (d0 d1 : Bytes) (s0 s1 : InputStream) (h0 : s0.read = stringRead d0)
    (h1 : s1.read = stringRead d1) (a n : Nat) (hn : 0 < n) :
    concatRead s0 (8 * d0.length) s1 (a : Int) n = stringRead (d0 ++ d1) (a : Int) n := by
  unfold concatRead
  simp only [h0, h1]
  by_cases ha : a < 8 * d0.length
  · rw [if_pos (by omega)]
    have hs : (((8 * d0.length : Nat) : Int) - (a : Int)).toNat = 8 * d0.length - a := by omega
    rw [hs]
    obtain ⟨n0, hn0⟩ : ∃ n0, min n (8 * d0.length - a) = n0 := ⟨_, rfl⟩
    simp only [hn0]
    rw [stringRead_ok d0 a n0 (by omega)]
    simp only [Bool.false_eq_true, if_false]
    by_cases hle : n ≤ 8 * d0.length - a
    · have : n0 = n := by omega
      subst this
      rw [if_pos (by omega), stringRead_ok (d0 ++ d1) a n0 (by rw [List.length_append]; omega),
        List.drop_append_of_le_length (by omega), List.take_append_of_le_length (by rw [List.length_drop]; omega)]
    · have e0 : n0 = 8 * d0.length - a := by omega
      rw [if_neg (by omega)]
      have hz : ((0 : Nat) : Int) = 0 := rfl
      have hfirst : (d0.drop (a / 8)).take ((n0 + a % 8 + 7) / 8) = d0.drop (a / 8) := by
        rw [List.take_of_length_le]; rw [List.length_drop]; omega
      rw [hfirst, ← hz]
      rcases Nat.lt_or_ge (8 * d1.length) (n - n0) with hbig | hok
      · rw [stringRead_err d1 0 (n - n0) (by omega) (by omega), stringRead_err (d0 ++ d1) a n
          (by rw [List.length_append]; omega) (by omega)]
      · rw [stringRead_ok d1 0 (n - n0) (by omega), stringRead_ok (d0 ++ d1) a n (by rw [List.length_append]; omega)]
        simp only [Bool.false_eq_true, if_false, Nat.zero_mod, ne_eq, not_true_eq_false, Nat.zero_div, List.drop_zero]
        rw [List.drop_append_of_le_length (by omega), List.take_append, List.length_drop,
          List.take_of_length_le (by rw [List.length_drop]; omega : (d0.drop (a / 8)).length ≤ _)]
        have e : (n - n0 + 0 + 7) / 8 = (n + a % 8 + 7) / 8 - (d0.length - a / 8) := by omega
        rw [e]
  · rw [if_neg (by omega), if_neg (by omega)]
    have hs : -(((8 * d0.length : Nat) : Int) - (a : Int)) = ((a - 8 * d0.length : Nat) : Int) := by omega
    rw [hs, stringRead_nat, stringRead_nat]
    have e1 : (a - 8 * d0.length) / 8 = a / 8 - d0.length := by omega
    have e2 : (a - 8 * d0.length) % 8 = a % 8 := by omega
    rw [e1, e2, List.drop_append, List.drop_eq_nil_of_le (by omega : d0.length ≤ a / 8), List.nil_append]
    by_cases hl : ((d1.drop (a / 8 - d0.length)).take ((n + a % 8 + 7) / 8)).length = (n + a % 8 + 7) / 8
    · simp [hl]
    · simp only [if_neg hl]

/-! ### Fragments -/

/-- The part of the parent's bytes named by a fragment (byte address, byte size). -/
def fslice (P : Bytes) (f : Nat × Nat) : Bytes := (P.drop f.1).take f.2

/-- A fragment lies inside the parent. -/
def ffull (P : Bytes) (f : Nat × Nat) : Prop := f.1 + f.2 ≤ P.length

def flatF (P : Bytes) (l : List (Nat × Nat)) : Bytes := (l.map (fslice P)).flatten

/-- The model's fragment table (bits) for byte fragments `l` starting at byte `off`. -/
def scanB : Nat → List (Nat × Nat) → List (Nat × Nat × Nat)
  | _, [] => []
  | off, (x, y) :: r => (8 * off, 8 * x, 8 * y) :: scanB (off + y) r

/-- The fields after, in bits. -/
def bitsF (l : List (Option (Nat × Nat))) : List (Option (Nat × Nat)) :=
  l.map (fun o => o.map (fun f => (8 * f.1, 8 * f.2)))

def sizes (l : List (Nat × Nat)) : Nat := (l.map (·.2)).sum

theorem scanB_append (off : Nat) (l m : List (Nat × Nat)) :
    scanB off (l ++ m) = scanB off l ++ scanB (off + sizes l) m := by
  induction l generalizing off with
  | nil => simp [scanB, sizes]
  | cons f l ih => obtain ⟨x, y⟩ := f; simp [scanB, ih, sizes, Nat.add_assoc]

theorem length_scanB (off : Nat) (l : List (Nat × Nat)) : (scanB off l).length = l.length := by
  induction l generalizing off with
  | nil => rfl
  | cons f l ih => obtain ⟨x, y⟩ := f; simp [scanB, ih]

theorem length_fslice_full (P : Bytes) (f : Nat × Nat) (h : ffull P f) : (fslice P f).length = f.2 := by
  unfold ffull at h; simp [fslice]; omega

theorem length_flatF_full (P : Bytes) (l : List (Nat × Nat)) (h : ∀ f ∈ l, ffull P f) :
    (flatF P l).length = sizes l := by
  induction l with
  | nil => rfl
  | cons f l ih =>
    have h1 := length_fslice_full P f (h f (by simp))
    have h2 := ih (fun g hg => h g (by simp [hg]))
    simp only [flatF, sizes, List.map_cons, List.flatten_cons, List.length_append, List.sum_cons] at *
    omega

theorem flatF_append (P : Bytes) (l m : List (Nat × Nat)) : flatF P (l ++ m) = flatF P l ++ flatF P m := by
  simp [flatF]

/-- All fragments but the last lie inside the parent. -/
def initFull (P : Bytes) : List (Nat × Nat) → Prop
  | [] => True
  | [_] => True
  | f :: r => ffull P f ∧ initFull P r

theorem initFull_append (P : Bytes) (l : List (Nat × Nat)) (f : Nat × Nat) :
    initFull P (l ++ [f]) ↔ ∀ g ∈ l, ffull P g := by
  induction l with
  | nil => simp [initFull]
  | cons g l ih =>
    cases l with
    | nil => simp [initFull]
    | cons h l => simp only [List.cons_append, initFull] at ih ⊢; rw [ih]; simp

theorem initFull_tail (P : Bytes) (l m : List (Nat × Nat)) (h : initFull P (l ++ m)) : initFull P m := by
  induction l with
  | nil => exact h
  | cons g l ih =>
    cases hlm : l ++ m with
    | nil => rw [List.append_eq_nil_iff] at hlm; rw [hlm.2]; trivial
    | cons a b =>
      rw [List.cons_append, hlm] at h
      exact ih (by rw [hlm]; exact h.2)

/-- The read loop delivers the bytes of the remaining fragments. -/
theorem fragLoop_ok (P : Bytes) (parent : InputStream) (hp : parent.read = stringRead P) (missing : Bool)
    (more : List (Nat × Nat)) :
    ∀ (x y t size off : Nat) (s : Option Nat) (d : Bytes), 0 < size → t ≤ 8 * y → (s = none ∨ t % 8 = 0) →
      (t < 8 * y ∨ t = 0) →
      initFull P ((x, y) :: more) → size + t ≤ 8 * (flatF P ((x, y) :: more)).length →
      fragLoop parent (((8 * x + t : Nat)) : Int) (8 * y - t) size s d missing (scanB off more) =
        .ok (s.getD (t % 8), d ++ ((flatF P ((x, y) :: more)).drop (t / 8)).take ((size + t % 8 + 7) / 8), missing) := by
  induction more with
  | nil =>
    intro x y t size off s d hsize ht hs ht2 hfull hlen
    have hfl : flatF P [(x, y)] = (P.drop x).take y := by simp [flatF, fslice]
    rw [hfl] at hlen ⊢
    have hl : ((P.drop x).take y).length = min y (P.length - x) := by simp
    rw [hl] at hlen
    have hn : min (8 * y - t) size = size := by omega
    unfold fragLoop
    simp only [hn, hp]
    rw [stringRead_ok P (8 * x + t) size (by omega)]
    have e1 : (8 * x + t) % 8 = t % 8 := by omega
    have e2 : (8 * x + t) / 8 = x + t / 8 := by omega
    rw [e1, e2]
    have hcond : ¬ (s.isSome = true ∧ t % 8 ≠ 0) := by
      rcases hs with rfl | h
      · simp
      · simp [h]
    simp only [Bool.false_eq_true, if_false, hcond, Nat.sub_self, if_true]
    congr 3
    rw [List.drop_take, List.take_take, List.drop_drop]
    congr 2
    omega
  | cons f more ih =>
    obtain ⟨x', y'⟩ := f
    intro x y t size off s d hsize ht hs ht2 hfull hlen
    have hf : ffull P (x, y) := hfull.1
    have hrest : initFull P ((x', y') :: more) := hfull.2
    have hsl : (fslice P (x, y)).length = y := length_fslice_full P _ hf
    unfold ffull at hf
    simp only at hf
    have hfl : flatF P ((x, y) :: (x', y') :: more) = fslice P (x, y) ++ flatF P ((x', y') :: more) := by
      simp [flatF]
    rw [hfl, List.length_append, hsl] at hlen
    rw [hfl]
    have e1 : (8 * x + t) % 8 = t % 8 := by omega
    have e2 : (8 * x + t) / 8 = x + t / 8 := by omega
    have hcond : ¬ (s.isSome = true ∧ t % 8 ≠ 0) := by
      rcases hs with rfl | h
      · simp
      · simp [h]
    unfold fragLoop
    simp only [hp]
    by_cases hbig : size ≤ 8 * y - t
    · have hn : min (8 * y - t) size = size := by omega
      simp only [hn]
      rw [stringRead_ok P (8 * x + t) size (by omega), e1, e2]
      simp only [Bool.false_eq_true, if_false, hcond, Nat.sub_self, if_true]
      congr 3
      rw [List.drop_append_of_le_length (by omega), List.take_append_of_le_length (by rw [List.length_drop]; omega)]
      unfold fslice
      rw [List.drop_take, List.take_take, List.drop_drop]
      congr 2
      simp only; omega
    · have hn : min (8 * y - t) size = 8 * y - t := by omega
      simp only [hn]
      rw [stringRead_nat, e1, e2]
      have hk : (8 * y - t + t % 8 + 7) / 8 = y - t / 8 := by omega
      rw [hk]
      have hsl2 : (P.drop (x + t / 8)).take (y - t / 8) = (fslice P (x, y)).drop (t / 8) := by
        unfold fslice; rw [List.drop_take, List.drop_drop]
      rw [hsl2, if_pos (by rw [List.length_drop]; omega)]
      simp only [Bool.false_eq_true, if_false, hcond]
      rw [if_neg (by omega)]
      simp only [scanB]
      have := ih x' y' 0 (size - (8 * y - t)) (off + y') (some (s.getD (t % 8))) (d ++ (fslice P (x, y)).drop (t / 8))
        (by omega) (by omega) (Or.inr rfl) (Or.inr rfl) hrest (by omega)
      simp only [Nat.add_zero, Nat.sub_zero, Nat.zero_mod, Nat.zero_div, List.drop_zero, Option.getD_some] at this
      rw [this]
      congr 3
      rw [List.append_assoc]
      congr 1
      rw [List.drop_append_of_le_length (by omega), List.take_append,
        List.take_of_length_le (by rw [List.length_drop]; omega : ((fslice P (x, y)).drop (t / 8)).length ≤ _),
        List.length_drop, hsl]
      congr 2
      omega

/-- Specification: contents of a fragmented stream (byte fragments; `none` ends
the list; a fragment that leaves the parent is cut there and ends the list). -/
def fragContent (P : Bytes) : List (Option (Nat × Nat)) → Bytes
  | [] => []
  | none :: _ => []
  | some f :: rest =>
    if P.length < f.1 + f.2 then (P.drop f.1).take f.2
    else (P.drop f.1).take f.2 ++ fragContent P rest

/-- Invariant of a fragmented stream whose fragments are `all`. -/
structure FInv (P : Bytes) (all : List (Option (Nat × Nat))) (st : FragState) (init : List (Nat × Nat))
    (last : Nat × Nat) (rest : List (Option (Nat × Nat))) : Prop where
  split : all = (init ++ [last]).map some ++ rest
  frags : st.fragments = scanB 0 (init ++ [last])
  full : ∀ f ∈ init, ffull P f
  start : 8 * sizes init ≤ st.currentSize
  cover : st.currentSize ≤ 8 * (flatF P (init ++ [last])).length
  size : (st.size = none ∧ st.next = bitsF rest) ∨
    (st.size = some st.currentSize ∧ st.currentSize = 8 * (fragContent P all).length)

theorem fragContent_split (P : Bytes) (init : List (Nat × Nat)) (h : ∀ f ∈ init, ffull P f)
    (l : List (Option (Nat × Nat))) : fragContent P (init.map some ++ l) = flatF P init ++ fragContent P l := by
  induction init with
  | nil => simp [flatF]
  | cons f init ih =>
    have hf := h f (by simp)
    unfold ffull at hf
    simp only [List.map_cons, List.cons_append, fragContent]
    rw [if_neg (by omega), ih (fun g hg => h g (by simp [hg]))]
    simp [flatF, fslice]

theorem flat_prefix_content (P : Bytes) (init : List (Nat × Nat)) (h : ∀ f ∈ init, ffull P f) (last : Nat × Nat)
    (rest : List (Option (Nat × Nat))) :
    flatF P (init ++ [last]) <+: fragContent P ((init ++ [last]).map some ++ rest) := by
  rw [List.map_append, List.append_assoc, fragContent_split P init h, flatF_append]
  refine (List.prefix_append_right_inj _).mpr ?_
  simp only [List.map_cons, List.map_nil, List.cons_append, List.nil_append, fragContent]
  have : flatF P [last] = (P.drop last.1).take last.2 := by simp [flatF, fslice]
  rw [this]
  split
  · exact List.prefix_refl _
  · exact List.prefix_append _ _

theorem setSize_none (s : FragState) (h : s.size = none) (hc : s.currentSize ≠ 0) :
    s.setSize = .ok { s with size := some s.currentSize } := by
  unfold FragState.setSize
  simp [h, hc]

theorem feedLoop_ok (P : Bytes) (all : List (Option (Nat × Nat))) (hne : fragContent P all ≠ []) (end_ : Nat)
    (rest : List (Option (Nat × Nat))) :
    ∀ (init : List (Nat × Nat)) (last : Nat × Nat), all = (init ++ [last]).map some ++ rest →
      (∀ f ∈ init, ffull P f) → 8 * sizes init < end_ →
      ∃ st' missing init' last' rest',
        feedLoop (8 * P.length) end_ none (scanB 0 (init ++ [last])) (8 * sizes init) (8 * last.1) (8 * last.2)
          (bitsF rest) = .ok (st', missing) ∧
        FInv P all st' init' last' rest' ∧
        (missing = false → st'.currentSize = end_ ∧ end_ ≤ 8 * (fragContent P all).length) ∧
        (missing = true → st'.size = some (8 * (fragContent P all).length) ∧
          8 * (fragContent P all).length < end_) := by
  have hcpos : 0 < (fragContent P all).length := List.length_pos_iff.mpr hne
  induction rest with
  | nil =>
    intro init last hall hfull hlt
    have hcont : fragContent P all = flatF P (init ++ [last]) := by
      rw [hall, List.append_nil, List.map_append, fragContent_split P init hfull, flatF_append]
      simp [fragContent, flatF, fslice]
    have hlen : (flatF P (init ++ [last])).length = sizes init + (fslice P last).length := by
      rw [flatF_append, List.length_append, length_flatF_full P init hfull]; simp [flatF]
    have hsl : (fslice P last).length = min last.2 (P.length - last.1) := by simp [fslice]
    unfold feedLoop
    by_cases hin : 8 * last.1 + min (8 * last.2) (end_ - 8 * sizes init) ≤ 8 * P.length
    · rw [if_pos hin]
      simp only
      by_cases hend : end_ ≤ 8 * sizes init + 8 * last.2
      · rw [if_pos hend]
        by_cases heq : 8 * sizes init + 8 * last.2 = end_
        · rw [if_pos ⟨heq, rfl⟩, setSize_none _ rfl (by simp only; omega)]
          refine ⟨_, _, init, last, [], rfl, ⟨hall, rfl, hfull, by simp only; omega, by simp only; omega,
            Or.inr ⟨rfl, by simp only; rw [hcont]; omega⟩⟩, fun _ => ⟨rfl, by rw [hcont]; omega⟩, by simp⟩
        · rw [if_neg (fun h => heq h.1)]
          refine ⟨_, _, init, last, [], rfl, ⟨hall, rfl, hfull, by simp only; omega, by simp only; omega,
            Or.inl ⟨rfl, rfl⟩⟩, fun _ => ⟨rfl, by rw [hcont]; omega⟩, by simp⟩
      · rw [if_neg hend]
        simp only [bitsF, List.map_nil]
        rw [hcont] at hcpos
        rw [setSize_none _ rfl (by simp only; omega)]
        refine ⟨_, _, init, last, [], rfl, ⟨hall, rfl, hfull, by simp only; omega, by simp only; omega,
          Or.inr ⟨rfl, by simp only; rw [hcont]; omega⟩⟩, by simp, fun _ => ⟨?_, by rw [hcont]; omega⟩⟩
        simp only [Option.some.injEq]
        rw [hcont]; omega
    · rw [if_neg hin]
      simp only
      rw [hcont] at hcpos
      rw [setSize_none _ rfl (by simp only; omega)]
      refine ⟨_, _, init, last, [], rfl, ⟨hall, rfl, hfull, by simp only; omega, by simp only; omega,
        Or.inr ⟨rfl, by simp only; rw [hcont]; omega⟩⟩, by simp, fun _ => ⟨?_, by rw [hcont]; omega⟩⟩
      simp only [Option.some.injEq]
      rw [hcont]; omega
  | cons o rest ih =>
    intro init last hall hfull hlt
    have hpre : flatF P (init ++ [last]) <+: fragContent P all := by
      rw [hall]; exact flat_prefix_content P init hfull last _
    have hple := hpre.length_le
    have hlen : (flatF P (init ++ [last])).length = sizes init + (fslice P last).length := by
      rw [flatF_append, List.length_append, length_flatF_full P init hfull]; simp [flatF]
    have hsl : (fslice P last).length = min last.2 (P.length - last.1) := by simp [fslice]
    have hcut : P.length < last.1 + last.2 → fragContent P all = flatF P (init ++ [last]) := by
      intro h
      rw [hall, List.map_append, List.append_assoc, fragContent_split P init hfull, flatF_append]
      simp [fragContent, flatF, fslice, h]
    unfold feedLoop
    by_cases hin : 8 * last.1 + min (8 * last.2) (end_ - 8 * sizes init) ≤ 8 * P.length
    · rw [if_pos hin]
      simp only
      by_cases hend : end_ ≤ 8 * sizes init + 8 * last.2
      · rw [if_pos hend, if_neg (by simp [bitsF])]
        refine ⟨_, _, init, last, o :: rest, rfl, ⟨hall, rfl, hfull, by simp only; omega, by simp only; omega,
          Or.inl ⟨rfl, rfl⟩⟩, fun _ => ⟨rfl, by omega⟩, by simp⟩
      · rw [if_neg hend]
        have hlfull : ffull P last := by unfold ffull; omega
        have hsl2 : (fslice P last).length = last.2 := length_fslice_full P last hlfull
        cases o with
        | none =>
          have hcont : fragContent P all = flatF P (init ++ [last]) := by
            have hf2 : ∀ f ∈ init ++ [last], ffull P f := by
              intro f hf
              rcases List.mem_append.mp hf with h | h
              · exact hfull f h
              · simp at h; subst h; exact hlfull
            rw [hall, fragContent_split P _ hf2]
            simp [fragContent]
          simp only [bitsF, List.map_cons, Option.map_none]
          rw [hcont] at hcpos
          rw [setSize_none _ rfl (by simp only; omega)]
          refine ⟨_, _, init, last, none :: rest, rfl, ⟨hall, rfl, hfull, by simp only; omega, by simp only; omega,
            Or.inr ⟨rfl, by simp only; rw [hcont]; omega⟩⟩, by simp, fun _ => ⟨?_, by rw [hcont]; omega⟩⟩
          simp only [Option.some.injEq]
          rw [hcont]; omega
        | some f =>
          simp only [bitsF, List.map_cons, Option.map_some]
          have hf2 : ∀ g ∈ init ++ [last], ffull P g := by
            intro g hg
            rcases List.mem_append.mp hg with h | h
            · exact hfull g h
            · simp at h; subst h; exact hlfull
          have hsz : sizes (init ++ [last]) = sizes init + last.2 := by simp [sizes]
          have hih := ih (init ++ [last]) f (by rw [hall]; simp) hf2 (by rw [hsz]; omega)
          rw [scanB_append 0 (init ++ [last]) [f], hsz] at hih
          simp only [scanB, Nat.zero_add, Nat.mul_add] at hih
          exact hih
    · rw [if_neg hin]
      simp only
      have hcont := hcut (by omega)
      rw [hcont] at hcpos
      rw [setSize_none _ rfl (by simp only; omega)]
      refine ⟨_, _, init, last, o :: rest, rfl, ⟨hall, rfl, hfull, by simp only; omega, by simp only; omega,
        Or.inr ⟨rfl, by simp only; rw [hcont]; omega⟩⟩, by simp, fun _ => ⟨?_, by rw [hcont]; omega⟩⟩
      simp only [Option.some.injEq]
      rw [hcont]; omega

theorem scanB_get (off : Nat) (l : List (Nat × Nat)) (i : Nat) (x y : Nat) (h : l[i]? = some (x, y)) :
    (scanB off l)[i]? = some (8 * (off + sizes (l.take i)), 8 * x, 8 * y) := by
  induction l generalizing off i with
  | nil => simp at h
  | cons f l ih =>
    obtain ⟨x', y'⟩ := f
    cases i with
    | zero => simp at h; simp [scanB, sizes, h]
    | succ i =>
      simp only [List.getElem?_cons_succ] at h
      simp only [scanB, List.getElem?_cons_succ, ih _ i h, List.take_succ_cons, sizes, List.map_cons, List.sum_cons,
        Nat.add_assoc]

theorem scanB_inv (off : Nat) (l : List (Nat × Nat)) (i : Nat) (z : Nat × Nat × Nat) (h : (scanB off l)[i]? = some z) :
    ∃ x y, l[i]? = some (x, y) ∧ z = (8 * (off + sizes (l.take i)), 8 * x, 8 * y) := by
  have hi : i < l.length := by
    have := (List.getElem?_eq_some_iff.mp h).1
    rwa [length_scanB] at this
  have hg : l[i]? = some ((l[i]).1, (l[i]).2) := by rw [List.getElem?_eq_getElem hi]
  refine ⟨_, _, hg, ?_⟩
  rw [scanB_get off l i _ _ hg] at h
  exact (Option.some.inj h).symm

theorem sizes_take_mono (l : List (Nat × Nat)) (i j : Nat) (h : i ≤ j) : sizes (l.take i) ≤ sizes (l.take j) := by
  induction l generalizing i j with
  | nil => simp
  | cons f l ih =>
    cases i with
    | zero => simp [sizes]
    | succ i =>
      cases j with
      | zero => omega
      | succ j =>
        have := ih i j (by omega)
        simp only [List.take_succ_cons, sizes, List.map_cons, List.sum_cons] at *
        omega

/-- One read of a fragmented stream. -/
theorem fragRead_ok (P : Bytes) (parent : InputStream) (hp : parent.read = stringRead P)
    (all : List (Option (Nat × Nat))) (hne : fragContent P all ≠ []) (st : FragState)
    (init : List (Nat × Nat)) (last : Nat × Nat) (rest : List (Option (Nat × Nat)))
    (h : FInv P all st init last rest) (a n : Nat) (hn : 0 < n) :
    (∃ init' last' rest', FInv P all (fragRead parent (8 * P.length) st a n).1 init' last' rest') ∧
    (a + n ≤ 8 * (fragContent P all).length →
      (fragRead parent (8 * P.length) st a n).2 =
        .ok (a % 8, ((fragContent P all).drop (a / 8)).take ((n + a % 8 + 7) / 8), false)) ∧
    (8 * (fragContent P all).length < a + n →
      (fragRead parent (8 * P.length) st a n).2 = .error .readStream ∨
      ∃ sh d, (fragRead parent (8 * P.length) st a n).2 = .ok (sh, d, true)) := by
  -- reading after a successful feed
  have key : ∀ (st' : FragState) (init' : List (Nat × Nat)) (last' : Nat × Nat) (rest' : List (Option (Nat × Nat)))
      (m : Nat) (missing : Bool), FInv P all st' init' last' rest' → 0 < m → a + m ≤ st'.currentSize →
      fragFetch parent st'.fragments a m missing =
        .ok (a % 8, ((fragContent P all).drop (a / 8)).take ((m + a % 8 + 7) / 8), missing) := by
    intro st' init' last' rest' m missing hI hm hcur
    obtain ⟨l, hl⟩ : ∃ l, init' ++ [last'] = l := ⟨_, rfl⟩
    have hfr := hI.frags
    rw [hl] at hfr
    have hlpos : 0 < l.length := by rw [← hl]; simp
    have hmono : Props.Monotone' st'.fragments (fun x => decide (x.1 ≤ a)) := by
      intro i j x y hij hx hy ht
      rw [hfr] at hx hy
      obtain ⟨x1, y1, hx1, rfl⟩ := scanB_inv _ _ _ _ hx
      obtain ⟨x2, y2, hx2, rfl⟩ := scanB_inv _ _ _ _ hy
      have := sizes_take_mono l i j hij
      simp only [decide_eq_true_eq] at ht ⊢
      omega
    obtain ⟨r, hr1, hr2, hr3⟩ := Props.C16_lowerBound st'.fragments _ hmono
    unfold fragFetch
    rw [hr1]
    simp only
    have hr0 : 0 < r := by
      have h0 : l[0]? = some ((l[0]).1, (l[0]).2) := by rw [List.getElem?_eq_getElem hlpos]
      have := scanB_get 0 l 0 _ _ h0
      rw [← hfr] at this
      have := (hr3 0 _ this).mp (by simp [sizes])
      omega
    have hrl : r ≤ l.length := by rw [hfr, length_scanB] at hr2; exact hr2
    have hlt : r - 1 < l.length := by omega
    have hg : l[r - 1]? = some ((l[r - 1]).1, (l[r - 1]).2) := by rw [List.getElem?_eq_getElem hlt]
    obtain ⟨x, hx⟩ : ∃ x, (l[r - 1]).1 = x := ⟨_, rfl⟩
    obtain ⟨y, hy⟩ : ∃ y, (l[r - 1]).2 = y := ⟨_, rfl⟩
    rw [hx, hy] at hg
    have hsg := scanB_get 0 l (r - 1) x y hg
    have hsg' := hsg
    rw [← hfr] at hsg'
    rw [hsg']
    simp only
    have htest := (hr3 _ _ hsg').mpr (by omega)
    simp only [decide_eq_true_eq, Nat.zero_add] at htest
    obtain ⟨off, hoff⟩ : ∃ off, sizes (l.take (r - 1)) = off := ⟨_, rfl⟩
    rw [hoff] at htest hsg
    -- split the list
    have hsplit : l = l.take (r - 1) ++ (x, y) :: l.drop r := by
      have h1 : l.drop (r - 1) = (x, y) :: l.drop r := by
        rw [List.drop_eq_getElem_cons hlt]
        have : l[r - 1] = (x, y) := by rw [← hx, ← hy]
        rw [this]
        congr 2; omega
      rw [← h1, List.take_append_drop]
    obtain ⟨pre, hpre⟩ : ∃ pre, l.take (r - 1) = pre := ⟨_, rfl⟩
    obtain ⟨more, hmore⟩ : ∃ more, l.drop r = more := ⟨_, rfl⟩
    rw [hpre, hmore] at hsplit
    rw [hpre] at hoff
    have hdrop : st'.fragments.drop r = scanB (off + y) more := by
      rw [hfr, hsplit, show pre ++ (x, y) :: more = (pre ++ [(x, y)]) ++ more by simp, scanB_append,
        List.drop_append_of_le_length]
      · rw [List.drop_eq_nil_of_le]
        · simp [sizes]
          simp [sizes] at hoff
          rw [hoff]
        · rw [length_scanB, ← hpre]; simp; omega
      · rw [length_scanB, ← hpre]; simp; omega
    rw [hdrop]
    have hIf : initFull P l := by rw [← hl]; exact (initFull_append P init' last').mpr hI.full
    have hIf2 : initFull P ((x, y) :: more) := initFull_tail P pre _ (by rw [← hsplit]; exact hIf)
    have hprefull : ∀ f ∈ pre, ffull P f := by
      intro f hf
      have hmem : f ∈ init' := by
        have h1 : pre = init'.take (r - 1) := by
          rw [← hpre, ← hl, List.take_append_of_le_length]
          have : l.length = init'.length + 1 := by rw [← hl]; simp
          omega
        rw [h1] at hf
        exact List.mem_of_mem_take hf
      exact hI.full f hmem
    have hpl : (flatF P pre).length = off := by rw [length_flatF_full P pre hprefull, hoff]
    have hflat : flatF P l = flatF P pre ++ flatF P ((x, y) :: more) := by rw [hsplit, flatF_append]
    have hcov := hI.cover
    rw [hl, hflat, List.length_append, hpl] at hcov
    have hbound : a - 8 * off < 8 * y := by
      cases hmm : more with
      | nil =>
        rw [hmm] at hcov
        have : (flatF P [(x, y)]).length ≤ y := by simp [flatF, fslice]
        omega
      | cons g more' =>
        obtain ⟨gx, gy⟩ := g
        have hgr : l[r]? = some (gx, gy) := by
          have : (l.drop r)[0]? = some (gx, gy) := by rw [hmore, hmm]; rfl
          simpa using this
        have hs2 := scanB_get 0 l r gx gy hgr
        rw [← hfr] at hs2
        have hnot : ¬ (8 * (0 + sizes (l.take r)) ≤ a) := by
          intro hle
          have := (hr3 _ _ hs2).mp (by simpa using hle)
          omega
        have htk : sizes (l.take r) = off + y := by
          have : l.take r = pre ++ [(x, y)] := by
            rw [hsplit, show pre ++ (x, y) :: more = (pre ++ [(x, y)]) ++ more by simp]
            have : pre.length = r - 1 := by rw [← hpre]; simp; omega
            rw [List.take_append_of_le_length (by simp; omega), List.take_of_length_le (by simp; omega)]
          rw [this]; simp [sizes]; simp [sizes] at hoff; rw [hoff]
        omega
    rw [hpre, hoff]
    have ea : ((8 * x : Nat) : Int) - (((8 * (0 + off) : Nat) : Int) - (a : Int)) = ((8 * x + (a - 8 * off) : Nat) : Int) := by
      omega
    have es : (((8 * y : Nat) : Int) + (((8 * (0 + off) : Nat) : Int) - (a : Int))).toNat = 8 * y - (a - 8 * off) := by
      omega
    rw [ea, es]
    have hloop := fragLoop_ok P parent hp missing more x y (a - 8 * off) m (off + y) none [] hm (by omega) (Or.inl rfl)
      (Or.inl hbound) hIf2 (by omega)
    rw [hloop]
    have e8 : (a - 8 * off) % 8 = a % 8 := by omega
    have e9 : (a - 8 * off) / 8 = a / 8 - off := by omega
    rw [e8, e9]
    simp only [Option.getD_none, List.nil_append]
    -- relate the flattened fragments to the content
    have hpc : flatF P l <+: fragContent P all := by
      rw [← hl, hI.split]; exact flat_prefix_content P init' hI.full last' rest'
    obtain ⟨tail, htail⟩ := hpc
    rw [← htail, hflat]
    have hwin : ((flatF P pre ++ flatF P ((x, y) :: more) ++ tail).drop (a / 8)).take ((m + a % 8 + 7) / 8) =
        ((flatF P ((x, y) :: more)).drop (a / 8 - off)).take ((m + a % 8 + 7) / 8) := by
      rw [List.append_assoc, List.drop_append, List.drop_eq_nil_of_le (by omega), List.nil_append, hpl,
        List.drop_append_of_le_length (by omega), List.take_append_of_le_length (by rw [List.length_drop]; omega)]
    rw [hwin]
  unfold fragRead
  rw [if_neg (by omega)]
  unfold fragFeed
  by_cases hcur : st.currentSize < a + n
  · rw [if_pos hcur]
    rcases h.size with ⟨hs1, hs2⟩ | ⟨hs1, hs2⟩
    · rw [if_neg (by rw [hs1]; simp)]
      have hlast : st.fragments.getLast? = some (8 * sizes init, 8 * last.1, 8 * last.2) := by
        rw [h.frags, scanB_append]
        simp [scanB]
      rw [hlast]
      simp only
      obtain ⟨st', missing, init', last', rest', hf, hI, hm0, hm1⟩ :=
        feedLoop_ok P all hne (a + n) rest init last h.split h.full (by have := h.start; omega)
      rw [hs1, hs2, h.frags, hf]
      simp only
      cases missing with
      | false =>
        obtain ⟨hc1, hc2⟩ := hm0 rfl
        simp only [Bool.false_eq_true, if_false, false_and]
        rw [key st' init' last' rest' n false hI hn (by omega)]
        exact ⟨⟨init', last', rest', hI⟩, fun _ => rfl, fun hlt => by omega⟩
      | true =>
        obtain ⟨hc1, hc2⟩ := hm1 rfl
        simp only [if_true, hc1, Option.getD_some, true_and]
        by_cases hz : 8 * (fragContent P all).length - a = 0
        · rw [if_pos hz]
          exact ⟨⟨init', last', rest', hI⟩, fun hle => by omega, fun _ => Or.inr ⟨_, _, rfl⟩⟩
        · rw [if_neg hz]
          have hcs : st'.currentSize = 8 * (fragContent P all).length := by
            rcases hI.size with ⟨g1, _⟩ | ⟨g1, g2⟩
            · rw [g1] at hc1; cases hc1
            · exact g2
          rw [key st' init' last' rest' _ true hI (by omega) (by omega)]
          exact ⟨⟨init', last', rest', hI⟩, fun hle => by omega, fun _ => Or.inr ⟨_, _, rfl⟩⟩
    · rw [if_pos hs1]
      exact ⟨⟨init, last, rest, h⟩, fun hle => by omega, fun _ => Or.inl rfl⟩
  · rw [if_neg hcur]
    simp only [Bool.false_eq_true, if_false, false_and]
    rw [key st init last rest n false h hn (by omega)]
    have hle : st.currentSize ≤ 8 * (fragContent P all).length := by
      have h1 := h.cover
      have h2 : flatF P (init ++ [last]) <+: fragContent P all := by
        rw [h.split]; exact flat_prefix_content P init h.full last rest
      have := h2.length_le
      omega
    exact ⟨⟨init, last, rest, h⟩, fun _ => rfl, fun hlt => by omega⟩

/-- The initial state. -/
theorem FragState_init_ok (P : Bytes) (first : Nat × Nat) (rest : List (Option (Nat × Nat)))
    (hne : fragContent P (some first :: rest) ≠ []) (hfirst : ffull P first ∨ rest ≠ []) :
    ∃ st, FragState.init (8 * first.1, 8 * first.2) (bitsF rest) = .ok st ∧
      FInv P (some first :: rest) st [] first rest := by
  cases rest with
  | nil =>
    have hf : ffull P first := by simpa using hfirst
    have hl := length_fslice_full P first hf
    have hcont : fragContent P [some first] = fslice P first := by simp [fragContent, fslice]
    have hpos : 0 < (fslice P first).length := by rw [← hcont]; exact List.length_pos_iff.mpr hne
    refine ⟨⟨scanB 0 [first], [], 8 * first.2, some (8 * first.2)⟩, ?_, ?_⟩
    · unfold FragState.init
      simp only [bitsF, List.map_nil]
      rw [setSize_none _ rfl (by simp only; omega)]
      obtain ⟨x, y⟩ := first
      rfl
    · exact ⟨rfl, rfl, by simp, by simp [sizes], by simp [flatF, hl], Or.inr ⟨rfl, by rw [hcont, hl]⟩⟩
  | cons o rest =>
    refine ⟨⟨scanB 0 [first], bitsF (o :: rest), 0, none⟩, ?_, ?_⟩
    · obtain ⟨x, y⟩ := first; rfl
    · exact ⟨rfl, rfl, by simp, by simp [sizes], by simp, Or.inl ⟨rfl, rfl⟩⟩

end Hachoir.Stream
