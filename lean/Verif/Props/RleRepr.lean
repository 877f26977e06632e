import Verif.Formats.GifLzw
import Verif.Spec.Lzw
import Mathlib.Data.List.Forall2

/-!
# C60: the run-length text of a list
-/

set_option linter.unusedVariables false

namespace Hachoir.Props
open Hachoir Hachoir.Formats Spec

/-- The two kinds of terms that `add_rle` makes. -/
def GoodTerm (t : Bytes) (l : List Nat) : Prop :=
  (∃ n x, t = [91] ++ decimal x ++ [93, 42] ++ decimal n ∧ l = List.replicate n x) ∨
  (∃ items, ListItems items l ∧ t = [91] ++ items ++ [93])

theorem goodTerm_term {t : Bytes} {l : List Nat} (h : GoodTerm t l) : ListTerm t l := by
  rcases h with ⟨n, x, ht, hl⟩ | ⟨items, hi, ht⟩
  · have := ListTerm.repeated n (ListItems.one x)
    rw [ht, hl]
    have h2 : (List.replicate n [x]).flatten = List.replicate n x := by simp
    rw [h2] at this
    simpa using this
  · rw [ht]
    exact ListTerm.display hi

theorem items_snoc {t : Bytes} {l : List Nat} (n : Nat) (h : ListItems t l) :
    ListItems (t ++ [44, 32] ++ decimal n) (l ++ [n]) := by
  induction h with
  | one m => exact ListItems.more m (ListItems.one n)
  | more m h ih =>
    have := ListItems.more m ih
    simpa using this

theorem addRle_good (previous runlen : Nat) (hr : 1 ≤ runlen) (result : List Bytes) (ls : List (List Nat))
    (h : List.Forall₂ GoodTerm result ls) :
    ∃ ms, List.Forall₂ GoodTerm (addRle previous runlen result) ms ∧
      ms.reverse.flatten = ls.reverse.flatten ++ List.replicate runlen previous ∧
      addRle previous runlen result ≠ [] := by
  unfold addRle
  split
  next hgt =>
    refine ⟨List.replicate runlen previous :: ls, List.Forall₂.cons (Or.inl ⟨_, _, rfl, rfl⟩) h, by simp, by simp⟩
  next hle =>
    have h1 : runlen = 1 := by omega
    subst h1
    have hsingle : GoodTerm ([91] ++ showInt previous ++ [93]) [previous] :=
      Or.inr ⟨_, ListItems.one previous, rfl⟩
    cases h with
    | nil => exact ⟨[[previous]], List.Forall₂.cons hsingle List.Forall₂.nil, by simp, by simp⟩
    | @cons last l before ls' hlast hbefore =>
      simp only
      split
      next hstar =>
        rcases hlast with ⟨n, x, ht, hl⟩ | ⟨items, hi, ht⟩
        · exact absurd (by rw [ht]; simp) hstar
        · refine ⟨(l ++ [previous]) :: ls', List.Forall₂.cons (Or.inr ⟨_, items_snoc previous hi, ?_⟩) hbefore, by simp, by simp⟩
          rw [ht]
          simp [showInt]
      next hstar =>
        exact ⟨[previous] :: l :: ls', List.Forall₂.cons hsingle (List.Forall₂.cons hlast hbefore), by simp, by simp⟩

theorem rleLoop_good (rest : List Nat) (previous runlen : Nat) (hr : 1 ≤ runlen) (result : List Bytes)
    (ls : List (List Nat)) (h : List.Forall₂ GoodTerm result ls) :
    ∃ ms, List.Forall₂ GoodTerm (rleLoop rest previous runlen result) ms ∧
      ms.reverse.flatten = ls.reverse.flatten ++ List.replicate runlen previous ++ rest ∧
      rleLoop rest previous runlen result ≠ [] := by
  induction rest generalizing previous runlen result ls with
  | nil =>
    obtain ⟨ms, h1, h2, h3⟩ := addRle_good previous runlen hr result ls h
    exact ⟨ms, h1, by rw [h2, List.append_nil], h3⟩
  | cons e rest ih =>
    unfold rleLoop
    split
    next he =>
      subst he
      obtain ⟨ms, h1, h2, h3⟩ := ih e (runlen + 1) (by omega) result ls h
      refine ⟨ms, h1, ?_, h3⟩
      rw [h2, List.replicate_succ']
      simp
    next he =>
      obtain ⟨ms, h1, h2, h3⟩ := addRle_good previous runlen hr result ls h
      obtain ⟨ks, k1, k2, k3⟩ := ih e 1 (by omega) _ ms h1
      refine ⟨ks, k1, ?_, k3⟩
      rw [k2, h2]
      simp

theorem joinPlus_expr (ts : List Bytes) (ls : List (List Nat)) (h : List.Forall₂ GoodTerm ts ls)
    (hne : ts ≠ []) : ListExpr (joinPlus ts) ls.flatten := by
  induction h with
  | nil => exact absurd rfl hne
  | @cons t l ts ls ht hts ih =>
    cases hts with
    | nil =>
      simp only [joinPlus, List.flatten_cons, List.flatten_nil, List.append_nil]
      exact ListExpr.term (goodTerm_term ht)
    | cons a b =>
      rw [List.flatten_cons, joinPlus]
      · exact ListExpr.plus (goodTerm_term ht) (ih (by simp))
      · simp

/-- C60: the text of `rle_repr` is a Python expression whose value is the list it was made
from. -/
theorem C60_rleRepr (chain : List Nat) : ListExpr (rleRepr chain) chain := by
  cases chain with
  | nil => exact ListExpr.term ListTerm.empty
  | cons p rest =>
    obtain ⟨ms, h1, h2, h3⟩ := rleLoop_good rest p 1 (by omega) [] [] List.Forall₂.nil
    have := joinPlus_expr _ _ (List.rel_reverse h1) (by simpa using h3)
    rw [h2] at this
    exact this

/-- Value of a list of decimal digits. -/
def digitsValue (l : List UInt8) : Nat := l.foldl (fun a c => 10 * a + (c.toNat - 48)) 0

theorem digitsValue_decimal (n : Nat) : digitsValue (decimal n) = n := by
  induction n using Nat.strongRecOn with
  | _ n ih =>
    rw [decimal]
    split
    next h =>
      simp only [digitsValue, List.foldl_cons, List.foldl_nil]
      rw [UInt8.toNat_ofNat']
      omega
    next h =>
      have := ih (n / 10) (by omega)
      simp only [digitsValue, List.foldl_append, List.foldl_cons, List.foldl_nil] at this ⊢
      rw [this, UInt8.toNat_ofNat']
      omega

/-- No decimal digit at the front. -/
def NoDigit (r : Bytes) : Prop := ∀ c t, r = c :: t → c.toNat < 48 ∨ 57 < c.toNat

theorem digits_split (d e r u : Bytes) (hd : ∀ c ∈ d, 48 ≤ c.toNat ∧ c.toNat ≤ 57)
    (he : ∀ c ∈ e, 48 ≤ c.toNat ∧ c.toNat ≤ 57) (hr : NoDigit r) (hu : NoDigit u) (h : d ++ r = e ++ u) :
    d = e ∧ r = u := by
  induction d generalizing e with
  | nil =>
    cases e with
    | nil => exact ⟨rfl, h⟩
    | cons c e =>
      have h1 := hr c (e ++ u) (by simpa using h)
      have h2 := he c (by simp)
      omega
  | cons x d ih =>
    cases e with
    | nil =>
      have h1 := hu x (d ++ r) (by simpa using h.symm)
      have h2 := hd x (by simp)
      omega
    | cons y e =>
      simp only [List.cons_append, List.cons.injEq] at h
      have := ih e (fun c hc => hd c (by simp [hc])) (fun c hc => he c (by simp [hc])) h.2
      exact ⟨by rw [h.1, this.1], this.2⟩

theorem decimal_split {n m : Nat} {r u : Bytes} (hr : NoDigit r) (hu : NoDigit u)
    (h : decimal n ++ r = decimal m ++ u) : n = m ∧ r = u := by
  obtain ⟨h1, h2⟩ := digits_split _ _ _ _ (decimal_digits n) (decimal_digits m) hr hu h
  refine ⟨?_, h2⟩
  rw [← digitsValue_decimal n, h1, digitsValue_decimal]

theorem noDigit_cons (c : UInt8) (t : Bytes) (h : c.toNat < 48 ∨ 57 < c.toNat) : NoDigit (c :: t) := by
  intro d s hs
  cases hs
  exact h

theorem items_unique {t u : Bytes} {l m : List Nat} (h1 : ListItems t l) (h2 : ListItems u m) (r v : Bytes)
    (h : t ++ 93 :: r = u ++ 93 :: v) : l = m ∧ r = v := by
  induction h1 generalizing u m with
  | one n =>
    cases h2 with
    | one n' =>
      obtain ⟨e1, e2⟩ := decimal_split (noDigit_cons _ _ (by decide)) (noDigit_cons _ _ (by decide)) h
      exact ⟨by rw [e1], (List.cons.inj e2).2⟩
    | more n' hm =>
      simp only [List.append_assoc, List.cons_append, List.nil_append] at h
      obtain ⟨e1, e2⟩ := decimal_split (noDigit_cons _ _ (by decide)) (noDigit_cons _ _ (by decide)) h
      exact absurd (List.cons.inj e2).1 (by decide)
  | more n hi ih =>
    cases h2 with
    | one n' =>
      simp only [List.append_assoc, List.cons_append, List.nil_append] at h
      obtain ⟨e1, e2⟩ := decimal_split (noDigit_cons _ _ (by decide)) (noDigit_cons _ _ (by decide)) h
      exact absurd (List.cons.inj e2).1 (by decide)
    | more n' hm =>
      simp only [List.append_assoc, List.cons_append, List.nil_append] at h
      obtain ⟨e1, e2⟩ := decimal_split (noDigit_cons _ _ (by decide)) (noDigit_cons _ _ (by decide)) h
      have := ih hm (by simpa using e2)
      exact ⟨by rw [e1, this.1], this.2⟩

theorem items_head {t : Bytes} {l : List Nat} (h : ListItems t l) : ∃ c s, t = c :: s ∧ 48 ≤ c.toNat ∧ c.toNat ≤ 57 := by
  have key : ∀ n x, ∃ c s, decimal n ++ x = c :: s ∧ 48 ≤ c.toNat ∧ c.toNat ≤ 57 := by
    intro n x
    have h1 := decimal_digits n
    cases h2 : decimal n with
    | nil => exact absurd h2 (decimal_ne_nil n)
    | cons c s =>
      rw [h2] at h1
      exact ⟨c, s ++ x, rfl, h1 c (by simp)⟩
  cases h with
  | one n => simpa using key n []
  | more n h => simpa using key n _

/-- What follows a term in a sum: nothing or a space. -/
def AfterTerm (r : Bytes) : Prop := r = [] ∨ ∃ t, r = 32 :: t

theorem AfterTerm.noDigit {r : Bytes} (h : AfterTerm r) : NoDigit r := by
  rcases h with rfl | ⟨t, rfl⟩
  · intro c t h; cases h
  · exact noDigit_cons _ _ (by decide)

theorem term_unique {t u : Bytes} {l m : List Nat} (h1 : ListTerm t l) (h2 : ListTerm u m) (r v : Bytes)
    (hr : AfterTerm r) (hv : AfterTerm v) (h : t ++ r = u ++ v) : l = m ∧ r = v := by
  have star : ∀ (x : Bytes) (y : Bytes), AfterTerm x → x ≠ 42 :: y := by
    rintro x y (rfl | ⟨t, rfl⟩) h <;> cases h
  cases h1 with
  | empty =>
    cases h2 with
    | empty => exact ⟨rfl, by simpa using h⟩
    | display hi =>
      obtain ⟨c, s, hc, h48, h57⟩ := items_head hi
      subst hc
      simp only [List.append_assoc, List.cons_append, List.nil_append, List.cons.injEq] at h
      rw [← h.2.1] at h57
      exact absurd h57 (by decide)
    | repeated n hi =>
      obtain ⟨c, s, hc, h48, h57⟩ := items_head hi
      subst hc
      simp only [List.append_assoc, List.cons_append, List.nil_append, List.cons.injEq] at h
      rw [← h.2.1] at h57
      exact absurd h57 (by decide)
  | display hi1 =>
    cases h2 with
    | empty =>
      obtain ⟨c, s, hc, h48, h57⟩ := items_head hi1
      subst hc
      simp only [List.append_assoc, List.cons_append, List.nil_append, List.cons.injEq] at h
      rw [h.2.1] at h57
      exact absurd h57 (by decide)
    | display hi2 =>
      simp only [List.append_assoc, List.cons_append, List.nil_append, List.cons.injEq, true_and] at h
      exact items_unique hi1 hi2 _ _ h
    | repeated n hi2 =>
      simp only [List.append_assoc, List.cons_append, List.nil_append, List.cons.injEq, true_and] at h
      exact absurd (items_unique hi1 hi2 _ _ h).2 (star _ _ hr)
  | repeated n1 hi1 =>
    cases h2 with
    | empty =>
      obtain ⟨c, s, hc, h48, h57⟩ := items_head hi1
      subst hc
      simp only [List.append_assoc, List.cons_append, List.nil_append, List.cons.injEq] at h
      rw [h.2.1] at h57
      exact absurd h57 (by decide)
    | display hi2 =>
      simp only [List.append_assoc, List.cons_append, List.nil_append, List.cons.injEq, true_and] at h
      exact absurd (items_unique hi1 hi2 _ _ h).2.symm (star _ _ hv)
    | repeated n2 hi2 =>
      simp only [List.append_assoc, List.cons_append, List.nil_append, List.cons.injEq, true_and] at h
      obtain ⟨e1, e2⟩ := items_unique hi1 hi2 _ _ h
      obtain ⟨e3, e4⟩ := decimal_split hr.noDigit hv.noDigit (List.cons.inj e2).2
      exact ⟨by rw [e1, e3], e4⟩

/-- C60: a text has at most one value as a list expression, so the specification is not
ambiguous. -/
theorem C60_unambiguous {t : Bytes} {l m : List Nat} (h1 : ListExpr t l) (h2 : ListExpr t m) : l = m := by
  suffices h : ∀ u m, ListExpr u m → t = u → l = m from h t m h2 rfl
  clear h2
  induction h1 with
  | term ht =>
    intro u m hu h
    cases hu with
    | term hu => exact (term_unique ht hu [] [] (Or.inl rfl) (Or.inl rfl) (by simpa using h)).1
    | plus hu hrest =>
      have := (term_unique ht hu [] _ (Or.inl rfl) (Or.inr ⟨_, rfl⟩) (by simpa using h)).2
      cases this
  | plus ht hrest ih =>
    intro u m hu h
    cases hu with
    | term hu =>
      have := (term_unique ht hu _ [] (Or.inr ⟨_, rfl⟩) (Or.inl rfl) (by simpa using h)).2
      cases this
    | plus hu hrest2 =>
      simp only [List.append_assoc, List.cons_append, List.nil_append] at h
      obtain ⟨e1, e2⟩ := term_unique ht hu _ _ (Or.inr ⟨_, rfl⟩) (Or.inr ⟨_, rfl⟩) h
      rw [e1, ih _ _ hrest2 (by simpa using e2)]

/-- C60: different lists have different texts. -/
theorem C60_injective (a b : List Nat) (h : rleRepr a = rleRepr b) : a = b :=
  C60_unambiguous (C60_rleRepr a) (h ▸ C60_rleRepr b)

example : rleRepr [20, 7, 16, 16, 16, 65] = "[20, 7] + [16]*3 + [65]".toUTF8.toList := by
  decide +kernel

end Hachoir.Props
