import Verif.Archive.LzxLemmas
import Verif.Spec.Jumps

/-!
# Lemmas about the translation of jumps
-/

set_option linter.unusedVariables false
set_option linter.unusedSimpArgs false

namespace Hachoir.Archive.LZX
open Hachoir Hachoir.Stream Hachoir.Archive Spec.Lzx Spec.Jumps
open Spec (ofBytesLE twosComplement)

/-! ## Numbers -/

theorem unpack_target (a b c d : UInt8) : unpackInt [a, b, c, d] = .ok (target a b c d) := by
  unfold unpackInt target twosComplement
  simp only [ofBytesLE]
  congr 1

theorem target_range (a b c d : UInt8) : -2147483648 ≤ target a b c d ∧ target a b c d < 2147483648 := by
  unfold target twosComplement
  simp only [ofBytesLE]
  have := a.toNat_lt
  have := b.toNat_lt
  have := c.toNat_lt
  have := d.toNat_lt
  norm_num
  split <;> omega

theorem pack_bytes (v : Int) (h1 : -2147483648 ≤ v) (h2 : v < 2147483648) : packInt v = .ok (bytes v) := by
  unfold packInt bytes
  rw [if_pos ⟨h1, h2⟩]
  norm_num

theorem length_bytes (v : Int) : (bytes v).length = 4 := rfl

theorem bytes_target (a b c d : UInt8) : bytes (target a b c d) = [a, b, c, d] := by
  unfold bytes target twosComplement
  obtain ⟨v, hv⟩ : ∃ v, ofBytesLE [a, b, c, d] = v := ⟨_, rfl⟩
  rw [hv]
  simp only [ofBytesLE] at hv
  have ha := a.toNat_lt
  have hb := b.toNat_lt
  have hc := c.toNat_lt
  have hd := d.toNat_lt
  have hn : ((if v < 2 ^ (32 - 1) then (v : Int) else (v : Int) - 2 ^ 32) % 2 ^ 32).toNat = v := by
    norm_num
    split <;> omega
  rw [hn]
  have e1 : v % 256 = a.toNat := by omega
  have e2 : v / 256 % 256 = b.toNat := by omega
  have e3 : v / 65536 % 256 = c.toNat := by omega
  have e4 : v / 16777216 = d.toNat := by omega
  simp only [e1, e2, e3, e4, UInt8.ofNat_toNat]

theorem target_bytes (v : Int) (h1 : -2147483648 ≤ v) (h2 : v < 2147483648) :
    ∃ a b c d, bytes v = [a, b, c, d] ∧ target a b c d = v := by
  refine ⟨_, _, _, _, rfl, ?_⟩
  unfold target twosComplement
  simp only [ofBytesLE, UInt8.toNat_ofNat']
  norm_num
  obtain ⟨n, hn⟩ : ∃ n, (v % 4294967296).toNat = n := ⟨_, rfl⟩
  rw [hn]
  have hlt : n < 4294967296 := by omega
  have e : n % 256 + 256 * (n / 256 % 256 + 256 * (n / 65536 % 256 + 256 * (n / 16777216 % 256))) = n := by omega
  rw [e]
  split <;> omega

/-! ## Scanning a list -/

/-- The bytes from `pos` on, with the jumps at positions below `e` translated. -/
def scan (n e : Nat) : Nat → Bytes → Bytes
  | pos, x :: a :: b :: c :: d :: rest =>
    if pos < e then
      if x = 0xE8 ∧ pos % 32768 < 32758 then
        x :: (bytes (relative n pos (target a b c d)) ++ scan n e (pos + 5) rest)
      else x :: scan n e (pos + 1) (a :: b :: c :: d :: rest)
    else x :: a :: b :: c :: d :: rest
  | _, l => l

theorem length_scan (n e pos : Nat) (l : Bytes) : (scan n e pos l).length = l.length := by
  fun_induction scan n e pos l with
  | case1 pos x a b c d rest h1 h2 ih => simp [length_bytes, ih]; omega
  | case2 pos x a b c d rest h1 h2 ih => simp [ih]
  | case3 => rfl
  | case4 => rfl

theorem scan_stop (n e pos : Nat) (l : Bytes) (h : e ≤ pos) : scan n e pos l = l := by
  fun_cases scan n e pos l with
  | case1 => omega
  | case2 => omega
  | case3 => rfl
  | case4 => rfl

theorem scan_jump (n e pos : Nat) (x a b c d : UInt8) (rest : Bytes) (h : pos < e) (hx : x = 0xE8)
    (hp : pos % 32768 < 32758) : scan n e pos (x :: a :: b :: c :: d :: rest)
      = x :: (bytes (relative n pos (target a b c d)) ++ scan n e (pos + 5) rest) := by
  rw [scan, if_pos h, if_pos ⟨hx, hp⟩]

theorem scan_step (n e pos : Nat) (x a b c d : UInt8) (rest : Bytes)
    (hx : ¬ (pos < e ∧ x = 0xE8 ∧ pos % 32768 < 32758)) : scan n e pos (x :: a :: b :: c :: d :: rest)
      = x :: scan n e (pos + 1) (a :: b :: c :: d :: rest) := by
  by_cases h : pos < e
  · rw [scan, if_pos h, if_neg (by tauto)]
  · rw [scan_stop n e pos _ (by omega), scan_stop n e (pos + 1) _ (by omega)]

theorem five {l : Bytes} (h : 5 ≤ l.length) : ∃ x a b c d rest, l = x :: a :: b :: c :: d :: rest := by
  match l, h with
  | x :: a :: b :: c :: d :: rest, _ => exact ⟨x, a, b, c, d, rest, rfl⟩

theorem relative_range (n pos : Nat) (hn : n < 2147483648) (hp : pos < 2147483648) (v : Int) (h1 : -2147483648 ≤ v)
    (h2 : v < 2147483648) : -2147483648 ≤ relative n pos v ∧ relative n pos v < 2147483648 := by
  unfold relative
  split
  · omega
  · split <;> omega

theorem lzxJump_spec (n : Nat) (hn : n < 2147483648) (pre rest : Bytes) (x a b c d : UInt8)
    (hp : pre.length < 2147483648) :
    lzxJump n (pre ++ x :: a :: b :: c :: d :: rest) pre.length
      = .ok ((pre ++ x :: bytes (relative n pre.length (target a b c d))) ++ rest) := by
  unfold lzxJump
  have h1 : (pre ++ x :: a :: b :: c :: d :: rest).drop (pre.length + 1) = a :: b :: c :: d :: rest := by
    rw [← List.drop_drop, List.drop_left]; rfl
  have h2 : (pre ++ x :: a :: b :: c :: d :: rest).drop (pre.length + 5) = rest := by
    rw [← List.drop_drop, List.drop_left]; rfl
  have h3 : (pre ++ x :: a :: b :: c :: d :: rest).take (pre.length + 1) = pre ++ [x] := by
    rw [List.take_append, List.take_of_length_le (by omega)]
    simp
  rw [h1, h2, h3]
  simp only [List.take_succ_cons, List.take_zero]
  rw [unpack_target]
  simp only
  have hr := target_range a b c d
  by_cases hin : -(pre.length : Int) ≤ target a b c d ∧ target a b c d < n
  · rw [if_pos hin]
    have : (if target a b c d < 0 then target a b c d + n else target a b c d - pre.length)
        = relative n pre.length (target a b c d) := by
      unfold relative
      split
      · rw [if_neg (by omega), if_pos (by omega)]
      · rw [if_pos (by omega)]
    rw [this]
    have hrr := relative_range n pre.length hn hp _ hr.1 hr.2
    rw [pack_bytes _ hrr.1 hrr.2]
    simp
  · rw [if_neg hin]
    have : relative n pre.length (target a b c d) = target a b c d := by
      unfold relative
      rw [if_neg (by omega), if_neg (by omega)]
    rw [this, bytes_target]
    simp

theorem lzxJumps_scan (n : Nat) (hn : n < 2147483648) (e : Nat) (rest : Bytes) :
    ∀ (pre : Bytes), (pre ++ rest).length < 2147483648 →
      (e ≤ pre.length ∨ e + 5 ≤ (pre ++ rest).length) →
      lzxJumps n e (pre ++ rest) pre.length = .ok (pre ++ scan n e pre.length rest) := by
  induction hk : rest.length using Nat.strongRecOn generalizing rest with
  | _ k ih =>
    intro pre h1 h2
    by_cases hlt : pre.length < e
    · have hlen : e + 5 ≤ (pre ++ rest).length := h2.resolve_left (by omega)
      rw [List.length_append] at hlen h1
      obtain ⟨x, a, b, c, d, r, rfl⟩ := five (l := rest) (by omega)
      simp only [List.length_cons] at hlen h1 hk
      unfold lzxJumps
      rw [dif_pos hlt]
      have hx : (pre ++ x :: a :: b :: c :: d :: r).getD pre.length 0 = x := by simp [List.getD_eq_getElem?_getD]
      rw [hx]
      have hnext : ∀ y : Bytes, y = a :: b :: c :: d :: r →
          lzxJumps n e (pre ++ x :: y) (pre.length + 1) = .ok (pre ++ x :: scan n e (pre.length + 1) y) := by
        intro y hy
        have := ih y.length (by rw [hy]; simp; omega) y rfl (pre ++ [x])
          (by rw [hy]; simp; omega) (Or.inr (by rw [hy]; simp; omega))
        simp only [List.length_append, List.length_singleton, List.append_assoc, List.singleton_append] at this
        exact this
      by_cases h8 : x = 0xE8
      · by_cases hf : 32768 - 10 ≤ pre.length % 32768
        · rw [if_neg (by simp [h8]), if_pos hf, hnext _ rfl]
          have : scan n e pre.length (x :: a :: b :: c :: d :: r)
              = x :: scan n e (pre.length + 1) (a :: b :: c :: d :: r) := by
            rw [scan, if_pos hlt, if_neg (by omega)]
          rw [this]
        · rw [if_neg (by simp [h8]), if_neg hf, lzxJump_spec n hn pre r x a b c d (by omega)]
          simp only
          have := ih r.length (by omega) r rfl (pre ++ x :: bytes (relative n pre.length (target a b c d)))
            (by simp [length_bytes]; omega) (Or.inr (by simp [length_bytes]; omega))
          simp only [List.length_append, List.length_cons, length_bytes] at this
          rw [show pre.length + (4 + 1) = pre.length + 5 by omega] at this
          rw [this]
          have : scan n e pre.length (x :: a :: b :: c :: d :: r)
              = x :: (bytes (relative n pre.length (target a b c d)) ++ scan n e (pre.length + 5) r) := by
            rw [scan, if_pos hlt, if_pos ⟨h8, by omega⟩]
          rw [this]
          simp
      · rw [if_pos h8, hnext _ rfl]
        have : scan n e pre.length (x :: a :: b :: c :: d :: r)
            = x :: scan n e (pre.length + 1) (a :: b :: c :: d :: r) := by
          rw [scan, if_pos hlt, if_neg (by tauto)]
        rw [this]
    · unfold lzxJumps
      rw [dif_neg hlt, scan_stop _ _ _ _ (by omega)]

/-- Without the byte E8 nothing changes. -/
theorem lzxJumps_none (n e : Nat) (data : Bytes) (h : 0xE8 ∉ data) (pos : Nat) (he : e ≤ data.length) :
    lzxJumps n e data pos = .ok data := by
  induction hk : e - pos using Nat.strongRecOn generalizing pos with
  | _ k ih =>
    unfold lzxJumps
    by_cases hlt : pos < e
    · rw [dif_pos hlt, if_pos, ih (e - (pos + 1)) (by omega) (pos + 1) rfl]
      rw [List.getD_eq_getElem?_getD, List.getElem?_eq_getElem (by omega), Option.getD_some]
      intro hx
      exact h (hx ▸ List.getElem_mem _)
    · rw [dif_neg hlt]

theorem scan_append (n e : Nat) (l c : Bytes) (pos : Nat) (h : e + 5 ≤ pos + l.length ∨ e ≤ pos) :
    scan n e pos (l ++ c) = scan n e pos l ++ c := by
  induction hk : l.length using Nat.strongRecOn generalizing l pos with
  | _ k ih =>
    by_cases hlt : pos < e
    · have hlen := h.resolve_right (by omega)
      obtain ⟨x, a, b, c', d, r, rfl⟩ := five (l := l) (by omega)
      simp only [List.length_cons] at hlen hk
      simp only [List.cons_append]
      rw [scan, if_pos hlt, scan, if_pos hlt]
      split
      · have := ih r.length (by omega) r (pos + 5) (Or.inl (by omega)) rfl
        rw [this]
        simp
      · have := ih (a :: b :: c' :: d :: r).length (by simp; omega) (a :: b :: c' :: d :: r) (pos + 1)
          (Or.inl (by simp; omega)) rfl
        simp only [List.cons_append] at this
        rw [this]
        rfl
    · rw [scan_stop _ _ _ _ (by omega), scan_stop _ _ _ _ (by omega)]

/-- Scanning in two steps: no jump may begin in the four bytes before the first end. -/
theorem scan_two (n e e' : Nat) (he : e ≤ e') (l : Bytes) :
    ∀ pos, pos ≤ e → e ≤ pos + l.length → e' + 5 ≤ pos + l.length ∨ e = e' →
      (∀ p, pos ≤ p → p < e → e < p + 5 → l[p - pos]? ≠ some 0xE8) →
      scan n e' pos l = (scan n e pos l).take (e - pos) ++ scan n e' e ((scan n e pos l).drop (e - pos)) := by
  induction hk : l.length using Nat.strongRecOn generalizing l with
  | _ k ih =>
    intro pos h1 h2 h3 h4
    by_cases heq : pos = e
    · subst heq
      rw [scan_stop n pos pos l (Nat.le_refl _)]
      simp
    · by_cases hee : e = e'
      · subst hee
        rw [scan_stop n e e _ (Nat.le_refl _), List.take_append_drop]
      · have hlen := h3.resolve_right hee
        obtain ⟨x, a, b, c, d, r, rfl⟩ := five (l := l) (by omega)
        simp only [List.length_cons] at h2 hlen hk
        by_cases hj : x = 0xE8 ∧ pos % 32768 < 32758
        · have hpos : pos + 5 ≤ e := by
            by_contra hc
            exact h4 pos (Nat.le_refl _) (by omega) (by omega) (by simp [hj.1])
          rw [scan_jump n e' pos x a b c d r (by omega) hj.1 hj.2, scan_jump n e pos x a b c d r (by omega) hj.1 hj.2]
          have hr := ih r.length (by omega) r rfl (pos + 5) hpos (by omega) (Or.inl (by omega)) (by
            intro p q1 q2 q3
            have := h4 p (by omega) q2 q3
            rwa [show p - pos = (p - (pos + 5)) + 5 by omega, List.getElem?_cons_succ, List.getElem?_cons_succ,
              List.getElem?_cons_succ, List.getElem?_cons_succ, List.getElem?_cons_succ] at this)
          rw [hr]
          obtain ⟨k, hk'⟩ : ∃ k, e - pos = k + 5 := ⟨e - pos - 5, by omega⟩
          have hk2 : e - (pos + 5) = k := by omega
          rw [hk', hk2]
          obtain ⟨y1, y2, y3, y4, hy⟩ : ∃ y1 y2 y3 y4, bytes (relative n pos (target a b c d)) = [y1, y2, y3, y4] :=
            ⟨_, _, _, _, rfl⟩
          rw [hy]
          simp
        · rw [scan_step n e' pos x a b c d r (by tauto), scan_step n e pos x a b c d r (by tauto)]
          have hr := ih (a :: b :: c :: d :: r).length (by simp; omega) (a :: b :: c :: d :: r) rfl (pos + 1) (by omega)
            (by simp; omega) (Or.inl (by simp; omega)) (by
              intro p q1 q2 q3
              have := h4 p (by omega) q2 q3
              rwa [show p - pos = (p - (pos + 1)) + 1 by omega, List.getElem?_cons_succ] at this)
          rw [hr]
          obtain ⟨k, hk'⟩ : ∃ k, e - pos = k + 1 := ⟨e - pos - 1, by omega⟩
          have hk2 : e - (pos + 1) = k := by omega
          rw [hk', hk2]
          simp

/-! ## Frames -/

theorem inFrame_scan (n e : Nat) (fr tail : Bytes) :
    ∀ pos, (∀ j, j < fr.length → ((pos + j < e ∧ (pos + j) % 32768 < 32758) ↔ 10 < fr.length - j)) →
      e + 5 ≤ pos + fr.length + tail.length ∨ e ≤ pos →
      inFrame (relative n) pos fr ++ scan n e (pos + fr.length) tail = scan n e pos (fr ++ tail) := by
  induction hk : fr.length using Nat.strongRecOn generalizing fr with
  | _ k ih =>
    intro pos hj hend
    by_cases h5 : 10 < fr.length
    · obtain ⟨x, a, b, c, d, r, rfl⟩ := five (l := fr) (by omega)
      simp only [List.length_cons] at hk h5 hj
      have h0 := (hj 0 (by omega)).2 (by omega)
      rw [Nat.add_zero] at h0
      simp only [List.cons_append]
      by_cases hx : x = 0xE8
      · rw [inFrame, if_neg (by omega), if_pos hx, scan_jump n e pos x a b c d (r ++ tail) h0.1 hx h0.2]
        have := ih r.length (by omega) r rfl (pos + 5) (by
          intro j hjl
          have := hj (j + 5) (by omega)
          rw [show pos + 5 + j = pos + (j + 5) by omega, this]
          omega) (hend.imp (by omega) (by omega))
        rw [← this, show pos + k = pos + 5 + r.length by omega]
        simp
      · rw [inFrame, if_neg (by omega), if_neg hx, scan_step n e pos x a b c d (r ++ tail) (by tauto)]
        have := ih (a :: b :: c :: d :: r).length (by simp; omega) (a :: b :: c :: d :: r) rfl (pos + 1) (by
          intro j hjl
          simp only [List.length_cons] at hjl
          have := hj (j + 1) (by omega)
          rw [show pos + 1 + j = pos + (j + 1) by omega, this]
          simp only [List.length_cons]
          omega) (by simp only [List.length_cons]; exact hend.imp (by omega) (by omega))
        simp only [List.cons_append] at this
        rw [← this, show pos + k = pos + 1 + (a :: b :: c :: d :: r).length by simp; omega]
        simp
    · have hid : inFrame (relative n) pos fr = fr := by
        match fr with
        | [] => rfl
        | [_] => rfl
        | [_, _] => rfl
        | [_, _, _] => rfl
        | [_, _, _, _] => rfl
        | x :: a :: b :: c :: d :: r =>
          rw [inFrame, if_pos (by simp only [List.length_cons] at h5; omega)]
      rw [hid]
      clear ih hid
      induction fr generalizing pos k with
      | nil => subst hk; simp
      | cons x fr ihf =>
        simp only [List.length_cons] at hk hj h5
        have h0 := hj 0 (by omega)
        rw [Nat.add_zero] at h0
        have hno : ¬ (pos < e ∧ pos % 32768 < 32758) := fun h => by have := h0.1 h; omega
        have := ihf fr.length rfl (pos + 1) (by
          intro j hjl
          have := hj (j + 1) (by omega)
          rw [show pos + 1 + j = pos + (j + 1) by omega, this]
          omega) (hend.imp (by omega) (by omega)) (by omega)
        have hstep : scan n e pos (x :: (fr ++ tail)) = x :: scan n e (pos + 1) (fr ++ tail) := by
          by_cases hpe : pos < e
          · have hlen : 4 ≤ (fr ++ tail).length := by
              rw [List.length_append]
              rcases hend with h | h
              · omega
              · omega
            obtain ⟨x', a, b, c, d, r, he⟩ := five (l := x :: (fr ++ tail)) (by simp only [List.length_cons]; omega)
            rw [List.cons.injEq] at he
            rw [he.2]
            exact scan_step n e pos x a b c d r (by tauto)
          · rw [scan_stop n e pos _ (by omega), scan_stop n e (pos + 1) _ (by omega)]
        rw [List.cons_append, List.cons_append, hstep, ← this, show pos + k = pos + 1 + fr.length by omega]

theorem inAll_scan (n : Nat) (data : Bytes) :
    ∀ pos, pos % 32768 = 0 → inAll (relative n) pos data = scan n (pos + data.length - 10) pos data := by
  induction hk : data.length using Nat.strongRecOn generalizing data with
  | _ k ih =>
    intro pos hp
    unfold inAll
    by_cases hl : data.length ≤ 32768
    · rw [dif_pos hl]
      have := inFrame_scan n (pos + k - 10) data [] pos (by intro j hj; omega) (by
        rw [hk]; simp only [List.length_nil]
        by_cases h : 10 ≤ k
        · left; omega
        · right; omega)
      rw [List.append_nil] at this
      rw [← this]
      simp [scan]
    · rw [dif_neg hl, ih (data.drop 32768).length (by simp; omega) (data.drop 32768) rfl (pos + 32768) (by omega)]
      have hlen : (data.take 32768).length = 32768 := by simp; omega
      have := inFrame_scan n (pos + k - 10) (data.take 32768) (data.drop 32768) pos (by intro j hj; omega) (by
        left; rw [hlen]; simp; omega)
      rw [hlen, List.take_append_drop] at this
      rw [← this]
      congr 2
      simp; omega

/-! ## Block by block -/

theorem scan_none (n e pos : Nat) (l : Bytes) (h : 0xE8 ∉ l) : scan n e pos l = l := by
  fun_induction scan n e pos l with
  | case1 pos x a b c d rest h1 h2 ih => exact absurd (h2.1 ▸ List.mem_cons_self) h
  | case2 pos x a b c d rest h1 h2 ih => rw [ih (fun h' => h (List.mem_cons_of_mem _ h'))]
  | case3 => rfl
  | case4 => rfl

theorem scan_drop (n e : Nat) (l : Bytes) :
    ∀ pos, pos ≤ e → (∀ p, pos ≤ p → p < e → e < p + 5 → l[p - pos]? ≠ some 0xE8) →
      (scan n e pos l).drop (e - pos) = l.drop (e - pos) := by
  induction hk : l.length using Nat.strongRecOn generalizing l with
  | _ k ih =>
    intro pos h1 h4
    by_cases heq : pos = e
    · subst heq; rw [scan_stop n pos pos l (Nat.le_refl _)]
    · match l with
      | [] => rfl
      | [_] => rfl
      | [_, _] => rfl
      | [_, _, _] => rfl
      | [_, _, _, _] => rfl
      | x :: a :: b :: c :: d :: r =>
        by_cases hj : x = 0xE8 ∧ pos % 32768 < 32758
        · have h5 : pos + 5 ≤ e := by
            by_contra hc
            exact h4 pos (Nat.le_refl _) (by omega) (by omega) (by simp [hj.1])
          rw [scan_jump n e pos x a b c d r (by omega) hj.1 hj.2]
          have := ih r.length (by rw [← hk]; simp; omega) r rfl (pos + 5) h5 (by
            intro p hp1 hp2 hp3
            have := h4 p (by omega) hp2 hp3
            rw [show p - pos = p - (pos + 5) + 5 by omega] at this
            simpa using this)
          rw [show e - pos = e - (pos + 5) + 5 by omega]
          obtain ⟨p, q, u, v, hb⟩ : ∃ p q u v, bytes (relative n pos (target a b c d)) = [p, q, u, v] := ⟨_, _, _, _, rfl⟩
          rw [hb]
          simpa using this
        · rw [scan_step n e pos x a b c d r (by tauto)]
          have := ih (a :: b :: c :: d :: r).length (by rw [← hk]; simp) (a :: b :: c :: d :: r) rfl (pos + 1) (by omega) (by
            intro p hp1 hp2 hp3
            have := h4 p (by omega) hp2 hp3
            rw [show p - pos = p - (pos + 1) + 1 by omega] at this
            rwa [List.getElem?_cons_succ] at this)
          rw [show e - pos = e - (pos + 1) + 1 by omega]
          rw [List.drop_succ_cons, List.drop_succ_cons]
          exact this

theorem lzxEnd_calm {c : Nat} (h : c ≤ 5 ∨ 10 ≤ c) : lzxEnd c = c - 10 := by
  unfold lzxEnd sliceBound
  split <;> omega

theorem translated_scan (n : Nat) (h0 : 0 < n) (hn : n < 2147483648) (raw : Bytes) (hraw : raw.length < 2147483648)
    (is : List Info) : ∀ done rem, raw = done ++ rem → rem.length = (is.map Info.size).sum →
      Calm raw done.length is →
      translated (some n) (scan n (done.length - 10) 0 done) is rem = .ok (scan n (raw.length - 10) 0 raw) := by
  induction is with
  | nil =>
    intro done rem hr hl _
    obtain rfl : rem = [] := by simpa using hl
    rw [List.append_nil] at hr
    rw [hr]; rfl
  | cons i is ih =>
    intro done rem hr hl hc
    obtain ⟨hc1, hc2, hc3, hc4⟩ := hc
    simp only [List.map_cons, List.sum_cons] at hl
    obtain ⟨ch, hch⟩ : ∃ ch, rem.take i.size = ch := ⟨_, rfl⟩
    have hchl : ch.length = i.size := by rw [← hch, List.length_take]; omega
    have hrem : rem = ch ++ rem.drop i.size := by rw [← hch, List.take_append_drop]
    have hraw' : raw = (done ++ ch) ++ rem.drop i.size := by rw [hr, List.append_assoc, ← hrem]
    have hlen : (done ++ ch).length = done.length + i.size := by rw [List.length_append, hchl]
    have htot : (done ++ ch).length ≤ raw.length := by rw [hraw']; simp
    have hget : ∀ p, p < (done ++ ch).length → (done ++ ch)[p]? = raw[p]? := by
      intro p hp
      rw [hraw', List.getElem?_append_left hp]
    have hclear : ∀ p, 0 ≤ p → p < done.length - 10 → done.length - 10 < p + 5 → (done ++ ch)[p - 0]? ≠ some 0xE8 := by
      intro p _ hp1 hp2
      rw [Nat.sub_zero, hget p (by omega)]
      exact hc2 p (by omega) (by omega)
    have happ : scan n (done.length - 10) 0 done ++ ch = scan n (done.length - 10) 0 (done ++ ch) :=
      (scan_append n _ done ch 0 (by omega)).symm
    have htwo := scan_two n (done.length - 10) ((done ++ ch).length - 10) (by omega) (done ++ ch) 0 (by omega) (by omega)
      (by omega) hclear
    have hdrop := scan_drop n (done.length - 10) (done ++ ch) 0 (by omega) hclear
    have key : lzxFixups (some n) i.e8 (scan n (done.length - 10) 0 done).length (scan n (done.length - 10) 0 done ++ ch)
        = .ok (scan n ((done ++ ch).length - 10) 0 (done ++ ch)) := by
      rw [length_scan, happ]
      simp only [lzxFixups]
      by_cases he : i.e8 = true
      · rw [if_pos ⟨he, h0⟩, length_scan, lzxEnd_calm (by omega)]
        obtain ⟨out, hout⟩ : ∃ out, scan n (done.length - 10) 0 (done ++ ch) = out := ⟨_, rfl⟩
        have hol : out.length = (done ++ ch).length := by rw [← hout, length_scan]
        rw [hout] at htwo ⊢
        rw [Nat.sub_zero] at htwo
        have htl : (out.take (done.length - 10)).length = done.length - 10 := by rw [List.length_take]; omega
        have hs := lzxJumps_scan n hn ((done ++ ch).length - 10) (out.drop (done.length - 10)) (out.take (done.length - 10))
        rw [List.take_append_drop, htl, hol] at hs
        rw [hs (by omega) (by omega), htwo]
      · have hnone : 0xE8 ∉ (done ++ ch).drop (done.length - 10) := by
          intro hm
          obtain ⟨k, hk⟩ := List.mem_iff_getElem?.1 hm
          rw [List.getElem?_drop] at hk
          have hlt : done.length - 10 + k < (done ++ ch).length := by
            by_contra hcon
            rw [List.getElem?_eq_none (by omega)] at hk
            cases hk
          rw [hget _ hlt] at hk
          exact hc3 (by simpa using he) _ (by omega) (by omega) hk
        rw [if_neg (fun h => he h.1), htwo, hdrop, Nat.sub_zero, scan_none _ _ _ _ hnone]
        rw [Nat.sub_zero] at hdrop
        rw [← hdrop, List.take_append_drop]
    simp only [translated]
    rw [hch, key]
    have := ih (done ++ ch) (rem.drop i.size) hraw' (by rw [List.length_drop]; omega) (by rw [hlen]; exact hc4)
    exact this

theorem block_data_length {level slots pos : Nat} {x y : State} {i : Info} {b : List Bool}
    (h : Spec.Lzx.BlockBits level slots pos x i y b) : y.data.length = x.data.length + i.size := by
  cases h with
  | verbatim => assumption
  | aligned => assumption
  | stored => simp

theorem blocks_length {level slots pos : Nat} {x y : State} {is : List Info} {b : List Bool}
    (h : Spec.Lzx.BlocksBits level slots pos x is y b) : y.data.length = x.data.length + (is.map Info.size).sum := by
  induction h with
  | nil => simp
  | cons pos s t u i is b bs hb hbs ih => rw [ih, block_data_length hb]; simp; omega

theorem file_length {level : Nat} {filesize : Option Nat} {infos : List Info} {raw file : Bytes}
    (h : File level filesize infos raw file) : raw.length = (infos.map Info.size).sum := by
  obtain ⟨slots, u, bs, pad, -, hu, -, hb, -⟩ := h.bits
  have := blocks_length hb
  rw [hu] at this
  rw [this]
  exact Nat.zero_add _

theorem translated_relative {level n : Nat} {infos : List Info} {raw file : Bytes}
    (h : File level (some n) infos raw file) (h0 : 0 < n) (hn : n < 2147483648) (hraw : raw.length < 2147483648)
    (hc : Calm raw 0 infos) : translated (some n) [] infos raw = .ok (makeRelative n raw) := by
  have := translated_scan n h0 hn raw hraw infos [] raw rfl (file_length h) hc
  rw [makeRelative, inAll_scan n raw 0 rfl, Nat.zero_add]
  exact this

/-- Nothing to translate. -/
theorem translated_none (filesize : Option Nat) (hf : filesize = none ∨ filesize = some 0) (is : List Info) :
    ∀ out raw, raw.length = (is.map Info.size).sum → translated filesize out is raw = .ok (out ++ raw) := by
  induction is with
  | nil => intro out raw h; obtain rfl : raw = [] := by simpa using h
           simp [translated]
  | cons i is ih =>
    intro out raw h
    simp only [List.map_cons, List.sum_cons] at h
    have : lzxFixups filesize i.e8 out.length (out ++ raw.take i.size) = .ok (out ++ raw.take i.size) := by
      rcases hf with rfl | rfl <;> simp [lzxFixups]
    simp only [translated]
    rw [this]
    have := ih (out ++ raw.take i.size) (raw.drop i.size) (by rw [List.length_drop]; omega)
    rw [List.append_assoc, List.take_append_drop] at this
    exact this

theorem translated_clear (filesize : Option Nat) (is : List Info) :
    ∀ out raw, 0xE8 ∉ out → 0xE8 ∉ raw → raw.length = (is.map Info.size).sum →
      translated filesize out is raw = .ok (out ++ raw) := by
  induction is with
  | nil => intro out raw _ _ h; obtain rfl : raw = [] := by simpa using h
           simp [translated]
  | cons i is ih =>
    intro out raw h1 h2 h
    simp only [List.map_cons, List.sum_cons] at h
    have h3 : 0xE8 ∉ out ++ raw.take i.size := by
      simp only [List.mem_append, not_or]
      exact ⟨h1, fun hm => h2 (List.mem_of_mem_take hm)⟩
    have : lzxFixups filesize i.e8 out.length (out ++ raw.take i.size) = .ok (out ++ raw.take i.size) := by
      unfold lzxFixups
      split
      · rfl
      · split
        · apply lzxJumps_none _ _ _ h3
          unfold lzxEnd sliceBound; split <;> omega
        · rfl
    simp only [translated]
    rw [this]
    have := ih (out ++ raw.take i.size) (raw.drop i.size) h3 (fun hm => h2 (List.mem_of_mem_drop hm))
      (by rw [List.length_drop]; omega)
    rw [List.append_assoc, List.take_append_drop] at this
    exact this

theorem length_unpackInt {l : Bytes} {v : Int} (h : unpackInt l = .ok v) : l.length = 4 := by
  unfold unpackInt at h
  split at h
  · rfl
  · cases h

theorem length_lzxJump (n : Nat) (data out : Bytes) (pos : Nat) (h : lzxJump n data pos = .ok out) :
    out.length = data.length := by
  unfold lzxJump at h
  obtain ⟨l, hl⟩ : ∃ l, (data.drop (pos + 1)).take 4 = l := ⟨_, rfl⟩
  rw [hl] at h
  cases hu : unpackInt l with
  | error e => rw [hu] at h; cases h
  | ok v =>
    rw [hu] at h
    simp only at h
    have hlen := length_unpackInt hu
    rw [← hl, List.length_take, List.length_drop] at hlen
    split at h
    · obtain ⟨w, hw⟩ : ∃ w : Int, (if v < 0 then v + (n : Int) else v - pos) = w := ⟨_, rfl⟩
      rw [hw] at h
      cases hb : packInt w with
      | error e => rw [hb] at h; cases h
      | ok b =>
        rw [hb] at h
        cases h
        have := length_packInt hb
        simp; omega
    · cases h; rfl

theorem length_lzxJumps (n e : Nat) (data : Bytes) (pos : Nat) (out : Bytes) (h : lzxJumps n e data pos = .ok out) :
    out.length = data.length := by
  induction hk : e - pos using Nat.strongRecOn generalizing pos data with
  | _ k ih =>
    unfold lzxJumps at h
    split at h
    · split at h
      · exact ih (e - (pos + 1)) (by omega) data (pos + 1) h rfl
      · split at h
        · exact ih (e - (pos + 1)) (by omega) data (pos + 1) h rfl
        · cases hj : lzxJump n data pos with
          | error e => rw [hj] at h; cases h
          | ok d =>
            rw [hj] at h
            rw [ih (e - (pos + 5)) (by omega) d (pos + 5) h rfl, length_lzxJump n data d pos hj]
    · cases h; rfl

theorem length_translated (filesize : Option Nat) (is : List Info) : ∀ out raw,
    raw.length = (is.map Info.size).sum → ∀ res, translated filesize out is raw = .ok res →
      res.length = out.length + raw.length := by
  induction is with
  | nil => intro out raw h res hr
           obtain rfl : raw = [] := by simpa using h
           cases hr; simp
  | cons i is ih =>
    intro out raw h res hr
    simp only [List.map_cons, List.sum_cons] at h
    simp only [translated] at hr
    cases hf : lzxFixups filesize i.e8 out.length (out ++ raw.take i.size) with
    | error e => rw [hf] at hr; cases hr
    | ok o =>
      rw [hf] at hr
      have ho : o.length = (out ++ raw.take i.size).length := by
        unfold lzxFixups at hf
        split at hf
        · cases hf; rfl
        · split at hf
          · exact length_lzxJumps _ _ _ _ _ hf
          · cases hf; rfl
      rw [ih o (raw.drop i.size) (by rw [List.length_drop]; omega) res hr, ho]
      simp; omega

/-! ## There and back -/

theorem relative_absolute (n pos : Nat) (r : Int) : relative n pos (absolute n pos r) = r := by
  unfold absolute
  split
  · unfold relative; rw [if_pos (by omega)]; omega
  · split
    · unfold relative; rw [if_neg (by omega), if_pos (by omega)]; omega
    · unfold relative; rw [if_neg (by omega), if_neg (by omega)]

theorem absolute_range (n pos : Nat) (hn : n < 2147483648) (hp : pos < 2147483648) (v : Int) (h1 : -2147483648 ≤ v)
    (h2 : v < 2147483648) : -2147483648 ≤ absolute n pos v ∧ absolute n pos v < 2147483648 := by
  unfold absolute
  split
  · omega
  · split <;> omega

theorem length_inFrame (f : Nat → Int → Int) (pos : Nat) (l : Bytes) : (inFrame f pos l).length = l.length := by
  fun_induction inFrame f pos l with
  | case1 => rfl
  | case2 pos a b c d rest h ih => simp [length_bytes, ih]; omega
  | case3 pos x a b c d rest h1 h2 ih => simp [ih]
  | case4 => rfl

theorem inFrame_inverse (n : Nat) (hn : n < 2147483648) (l : Bytes) :
    ∀ pos, pos + l.length < 2147483648 → inFrame (relative n) pos (inFrame (absolute n) pos l) = l := by
  intro pos
  fun_induction inFrame (absolute n) pos l with
  | case1 pos x a b c d rest h =>
    intro _
    rw [inFrame, if_pos h]
  | case2 pos a b c d rest h ih =>
    intro hlt
    simp only [List.length_cons] at hlt
    have hr := target_range a b c d
    have hab := absolute_range n pos hn (by omega) _ hr.1 hr.2
    obtain ⟨a', b', c', d', h1, h2⟩ := target_bytes _ hab.1 hab.2
    rw [h1]
    simp only [List.cons_append, List.nil_append]
    rw [inFrame, if_neg (by rw [length_inFrame]; exact h), if_pos rfl, h2, relative_absolute, bytes_target,
      ih (by omega)]
    rfl
  | case3 pos x a b c d rest h1 h2 ih =>
    intro hlt
    have hi := ih (by simp only [List.length_cons] at hlt ⊢; omega)
    have hlen := length_inFrame (absolute n) (pos + 1) (a :: b :: c :: d :: rest)
    obtain ⟨y, hy⟩ : ∃ y, inFrame (absolute n) (pos + 1) (a :: b :: c :: d :: rest) = y := ⟨_, rfl⟩
    rw [hy] at hi hlen ⊢
    simp only [List.length_cons] at hlen
    obtain ⟨x', p, q, r, t, u, he⟩ := five (l := x :: y) (by simp only [List.length_cons]; omega)
    rw [List.cons.injEq] at he
    rw [he.2] at hi hlen ⊢
    simp only [List.length_cons] at hlen
    rw [inFrame, if_neg (by omega), if_neg h2, hi]
  | case4 pos l h =>
    intro _
    match l, h with
    | [], _ => rfl
    | [_], _ => rfl
    | [_, _], _ => rfl
    | [_, _, _], _ => rfl
    | [_, _, _, _], _ => rfl
    | x :: a :: b :: c :: d :: r, h => exact absurd rfl (h x a b c d r)

theorem length_inAll (f : Nat → Int → Int) (pos : Nat) (l : Bytes) : (inAll f pos l).length = l.length := by
  fun_induction inAll f pos l with
  | case1 pos l h => exact length_inFrame f pos l
  | case2 pos l h ih => rw [List.length_append, length_inFrame, ih]; simp; omega

theorem inAll_inverse (n : Nat) (hn : n < 2147483648) (l : Bytes) :
    ∀ pos, pos + l.length < 2147483648 → inAll (relative n) pos (inAll (absolute n) pos l) = l := by
  intro pos
  fun_induction inAll (absolute n) pos l with
  | case1 pos l h =>
    intro hlt
    rw [inAll, dif_pos (by rw [length_inFrame]; exact h), inFrame_inverse n hn l pos hlt]
  | case2 pos l h ih =>
    intro hlt
    have h1 : (inFrame (absolute n) pos (l.take 32768)).length = 32768 := by rw [length_inFrame]; simp; omega
    have h2 : (inAll (absolute n) (pos + 32768) (l.drop 32768)).length = l.length - 32768 := by rw [length_inAll]; simp
    rw [inAll, dif_neg (by rw [List.length_append, h1, h2]; omega), List.take_left' h1, List.drop_left' h1,
      inFrame_inverse n hn _ pos (by simp; omega), ih (by simp; omega), List.take_append_drop]

end Hachoir.Archive.LZX
