import Verif.Core.Timestamp
import Verif.Spec.Calendar

/-!
# Lemmas about dates
-/

namespace Hachoir.Time
open Hachoir Spec

theorem isLeap_iff (y : Nat) : isLeap y = true ↔ Leap y := by
  unfold isLeap Leap
  simp only [Bool.and_eq_true, Bool.or_eq_true, beq_iff_eq, bne_iff_ne, ne_eq]
  omega

theorem daysInMonth_eq (y m : Nat) (h1 : 1 ≤ m) (h2 : m ≤ 12) : daysInMonth y m = monthLength y m := by
  unfold daysInMonth monthLength
  have hl := isLeap_iff y
  have : m = 1 ∨ m = 2 ∨ m = 3 ∨ m = 4 ∨ m = 5 ∨ m = 6 ∨ m = 7 ∨ m = 8 ∨ m = 9 ∨ m = 10 ∨ m = 11 ∨ m = 12 := by omega
  by_cases hy : Leap y
  · have hb := hl.2 hy
    rcases this with h | h | h | h | h | h | h | h | h | h | h | h <;> subst h <;> simp [hb, hy]
  · have hb : isLeap y = false := by
      cases hx : isLeap y with
      | false => rfl
      | true => exact absurd (hl.1 hx) hy
    rcases this with h | h | h | h | h | h | h | h | h | h | h | h <;> subst h <;> simp [hb, hy]

/-- The number of a day. -/
def ord (d : Day) : Nat := ymd2ord d.year d.month d.day

theorem valid_next {d : Day} (h : d.Valid) : d.next.Valid := by
  obtain ⟨h1, h2, h3, h4, h5⟩ := h
  unfold Day.next
  split
  · exact ⟨h1, h2, h3, by simp, by simp; omega⟩
  · split
    · refine ⟨h1, by simp, by simp; omega, by simp, ?_⟩
      simp only [monthLength]
      repeat' split
      all_goals omega
    · refine ⟨by simp, by simp, by simp, by simp, ?_⟩
      simp [monthLength]

theorem valid_later {d : Day} (h : d.Valid) (n : Nat) : (d.later n).Valid := by
  induction n with
  | zero => exact h
  | succ n ih => exact valid_next ih

theorem div_succ_pred (y k : Nat) (h : 1 ≤ y) (_ : 0 < k) :
    y / k = (y - 1) / k + (if y % k = 0 then 1 else 0) := by
  obtain ⟨z, rfl⟩ : ∃ z, y = z + 1 := ⟨y - 1, by omega⟩
  simp only [Nat.add_sub_cancel]
  rw [Nat.succ_div]
  congr 1
  by_cases hd : k ∣ z + 1
  · rw [if_pos hd, if_pos (Nat.mod_eq_zero_of_dvd hd)]
  · rw [if_neg hd, if_neg (fun e => hd (Nat.dvd_of_mod_eq_zero e))]

theorem daysBeforeYear_succ (y : Nat) (h : 1 ≤ y) :
    daysBeforeYear (y + 1) = daysBeforeYear y + (if isLeap y then 366 else 365) := by
  unfold daysBeforeYear
  simp only [Nat.add_sub_cancel]
  have h4 := div_succ_pred y 4 h (by omega)
  have h100 := div_succ_pred y 100 h (by omega)
  have h400 := div_succ_pred y 400 h (by omega)
  have hge : (y - 1) / 100 ≤ (y - 1) / 4 := Nat.div_le_div_left (by omega) (by omega)
  have d1 : y % 400 = 0 → y % 100 = 0 := by omega
  have d2 : y % 100 = 0 → y % 4 = 0 := by omega
  have hl : (isLeap y = true) ↔ (y % 4 = 0 ∧ (¬ y % 100 = 0 ∨ y % 400 = 0)) := by
    unfold isLeap
    simp only [Bool.and_eq_true, Bool.or_eq_true, beq_iff_eq, bne_iff_ne, ne_eq]
  rw [h4, h100, h400]
  by_cases p4 : y % 4 = 0
  · by_cases p100 : y % 100 = 0
    · by_cases p400 : y % 400 = 0
      · rw [if_pos (hl.2 ⟨p4, Or.inr p400⟩), if_pos p4, if_pos p100, if_pos p400]; omega
      · rw [if_neg (show ¬ isLeap y = true from fun e => by rcases (hl.1 e).2 with q | q <;> contradiction), if_pos p4, if_pos p100, if_neg p400]; omega
    · rw [if_pos (hl.2 ⟨p4, Or.inl p100⟩), if_pos p4, if_neg p100, if_neg (fun e => p100 (d1 e))]; omega
  · rw [if_neg (show ¬ isLeap y = true from fun e => p4 (hl.1 e).1), if_neg p4, if_neg (fun e => p4 (d2 e)), if_neg (fun e => p4 (d2 (d1 e)))]; omega

theorem daysBeforeMonth_succ (y m : Nat) (h1 : 1 ≤ m) (h2 : m < 12) :
    daysBeforeMonth y (m + 1) = daysBeforeMonth y m + daysInMonth y m := by
  unfold daysBeforeMonth daysInMonth
  have : m = 1 ∨ m = 2 ∨ m = 3 ∨ m = 4 ∨ m = 5 ∨ m = 6 ∨ m = 7 ∨ m = 8 ∨ m = 9 ∨ m = 10 ∨ m = 11 := by omega
  cases hl : isLeap y <;>
    rcases this with h | h | h | h | h | h | h | h | h | h | h <;> subst h <;> simp [daysBeforeMonthTable]

theorem ord_next {d : Day} (h : d.Valid) : ord d.next = ord d + 1 := by
  obtain ⟨h1, h2, h3, h4, h5⟩ := h
  unfold Day.next ord ymd2ord
  split
  · simp only; omega
  · rename_i hlast
    have hday : d.day = monthLength d.year d.month := by omega
    split
    · rename_i hm
      simp only
      rw [daysBeforeMonth_succ _ _ h2 hm, daysInMonth_eq _ _ h2 h3]
      omega
    · have hm : d.month = 12 := by omega
      simp only
      rw [daysBeforeYear_succ _ h1, hday, hm]
      unfold daysBeforeMonth
      simp only [daysBeforeMonthTable, monthLength]
      cases hl : isLeap d.year <;> simp <;> omega

theorem ord_later {d : Day} (h : d.Valid) (n : Nat) : ord (d.later n) = ord d + n := by
  induction n with
  | zero => rfl
  | succ n ih =>
    show ord (d.later n).next = _
    rw [ord_next (valid_later h n), ih]
    omega

/-- Number of a day in its year, from 0. -/
def dayOfYear (d : Day) : Nat := daysBeforeMonth d.year d.month + (d.day - 1)

theorem monthDay_table : ∀ leap : Bool, ∀ m : Fin 13, ∀ day : Fin 32, 1 ≤ m.val → 1 ≤ day.val →
    day.val ≤ (if m.val == 2 && leap then 29 else [0, 31, 28, 31, 30, 31, 30, 31, 31, 30, 31, 30, 31].getD m 0) →
    monthDay leap (daysBeforeMonthTable.getD m 0 + (if m.val > 2 && leap then 1 else 0) + (day.val - 1))
      = (m.val, day.val) := by
  decide +kernel

theorem monthLength_le (y m : Nat) : monthLength y m ≤ 31 := by
  unfold monthLength
  repeat' split
  all_goals omega

theorem monthDay_spec {d : Day} (h : d.Valid) : monthDay (isLeap d.year) (dayOfYear d) = (d.month, d.day) := by
  obtain ⟨h1, h2, h3, h4, h5⟩ := h
  have h31 := monthLength_le d.year d.month
  rw [← daysInMonth_eq _ _ h2 h3] at h5 h31
  have := monthDay_table (isLeap d.year) ⟨d.month, by omega⟩ ⟨d.day, by omega⟩ h2 h4 (by unfold daysInMonth at h5; exact h5)
  exact this

theorem dayOfYear_table : ∀ leap : Bool, ∀ m : Fin 13, ∀ day : Fin 32, 1 ≤ m.val → 1 ≤ day.val →
    day.val ≤ (if m.val == 2 && leap then 29 else [0, 31, 28, 31, 30, 31, 30, 31, 31, 30, 31, 30, 31].getD m 0) →
    daysBeforeMonthTable.getD m 0 + (if m.val > 2 && leap then 1 else 0) + (day.val - 1) < (if leap then 366 else 365)
    ∧ (daysBeforeMonthTable.getD m 0 + (if m.val > 2 && leap then 1 else 0) + (day.val - 1) = 365 →
        m.val = 12 ∧ day.val = 31) := by
  decide +kernel

theorem dayOfYear_lt {d : Day} (h : d.Valid) : dayOfYear d < (if isLeap d.year then 366 else 365) ∧
    (dayOfYear d = 365 → d.month = 12 ∧ d.day = 31) := by
  obtain ⟨h1, h2, h3, h4, h5⟩ := h
  have h31 := monthLength_le d.year d.month
  rw [← daysInMonth_eq _ _ h2 h3] at h5 h31
  have := dayOfYear_table (isLeap d.year) ⟨d.month, by omega⟩ ⟨d.day, by omega⟩ h2 h4 (by unfold daysInMonth at h5; exact h5)
  exact this

theorem ord_eq {d : Day} (h : d.Valid) : ord d = daysBeforeYear d.year + dayOfYear d + 1 := by
  obtain ⟨h1, h2, h3, h4, h5⟩ := h
  unfold ord ymd2ord dayOfYear
  omega

theorem divmod_add (k a r : Nat) (h : r < k) : (k * a + r) / k = a ∧ (k * a + r) % k = r := by
  constructor
  · rw [Nat.mul_add_div (by omega), Nat.div_eq_of_lt h, Nat.add_zero]
  · rw [Nat.mul_add_mod, Nat.mod_eq_of_lt h]

theorem daysBeforeYear_parts (a b c e : Nat) (hb : b ≤ 3) (hc : c ≤ 24) (he : e ≤ 3) :
    daysBeforeYear (400 * a + 100 * b + 4 * c + e + 1) = 146097 * a + (36524 * b + (1461 * c + 365 * e)) := by
  unfold daysBeforeYear
  simp only [Nat.add_sub_cancel]
  have h4 : (400 * a + 100 * b + 4 * c + e) / 4 = 100 * a + 25 * b + c := by omega
  have h100 : (400 * a + 100 * b + 4 * c + e) / 100 = 4 * a + b := by omega
  have h400 : (400 * a + 100 * b + 4 * c + e) / 400 = a := by omega
  rw [h4, h100, h400]
  omega

theorem isLeap_parts (a b c e : Nat) (hb : b ≤ 3) (hc : c ≤ 24) (he : e ≤ 3) :
    isLeap (400 * a + 100 * b + 4 * c + e + 1) = (e == 3 && (c != 24 || b == 3)) := by
  have h4 : (400 * a + 100 * b + 4 * c + e + 1) % 4 = 0 ↔ e = 3 := by omega
  have h100 : (400 * a + 100 * b + 4 * c + e + 1) % 100 = 0 ↔ e = 3 ∧ c = 24 := by omega
  have h400 : (400 * a + 100 * b + 4 * c + e + 1) % 400 = 0 ↔ e = 3 ∧ c = 24 ∧ b = 3 := by omega
  rw [Bool.eq_iff_iff]
  unfold isLeap
  simp only [Bool.and_eq_true, Bool.or_eq_true, beq_iff_eq, bne_iff_ne, ne_eq]
  rw [h4, h100, h400]
  omega

theorem ord2ymd_day (a b c e n : Nat) (hb : b ≤ 3) (hc : c ≤ 24) (he : e ≤ 3) (hn : n < 365) :
    ord2ymd (146097 * a + (36524 * b + (1461 * c + 365 * e)) + n + 1)
      = (400 * a + 100 * b + 4 * c + e + 1, (monthDay (e == 3 && (c != 24 || b == 3)) n).1,
          (monthDay (e == 3 && (c != 24 || b == 3)) n).2) := by
  unfold ord2ymd
  simp only [Nat.add_sub_cancel]
  have r : 146097 * a + (36524 * b + (1461 * c + 365 * e)) + n = 146097 * a + (36524 * b + (1461 * c + (365 * e + n))) := by
    omega
  obtain ⟨e1, e2⟩ := divmod_add 146097 a (36524 * b + (1461 * c + (365 * e + n))) (by omega)
  obtain ⟨f1, f2⟩ := divmod_add 36524 b (1461 * c + (365 * e + n)) (by omega)
  obtain ⟨f3, f4⟩ := divmod_add 1461 c (365 * e + n) (by omega)
  obtain ⟨f5, f6⟩ := divmod_add 365 e n hn
  rw [r, e1, e2, f1, f2, f3, f4, f5, f6]
  have g : (e == 4 || b == 4) = false := by
    simp only [Bool.or_eq_false_iff, beq_eq_false_iff_ne]; omega
  rw [g]
  simp only [Bool.false_eq_true, if_false]
  congr 1
  omega

theorem ord2ymd_leapday (a b c : Nat) (hb : b ≤ 3) (hc : c ≤ 24) (hl : c ≠ 24 ∨ b = 3) :
    ord2ymd (146097 * a + (36524 * b + (1461 * c + 365 * 3)) + 365 + 1)
      = (400 * a + 100 * b + 4 * c + 3 + 1, 12, 31) := by
  unfold ord2ymd
  simp only [Nat.add_sub_cancel]
  have r : 146097 * a + (36524 * b + (1461 * c + 365 * 3)) + 365 = 146097 * a + (36524 * b + (1461 * c + 1460)) := by
    omega
  obtain ⟨e1, e2⟩ := divmod_add 146097 a (36524 * b + (1461 * c + 1460)) (by omega)
  rw [r, e1, e2]
  by_cases hbig : c = 24
  · have hb : b = 3 := by omega
    subst hbig
    subst hb
    have g : (36524 * 3 + (1461 * 24 + 1460)) / 36524 = 4 := rfl
    have g2 : (36524 * 3 + (1461 * 24 + 1460)) % 36524 = 0 := rfl
    rw [g, g2]
    simp
    omega
  · obtain ⟨f1, f2⟩ := divmod_add 36524 b (1461 * c + 1460) (by omega)
    obtain ⟨f3, f4⟩ := divmod_add 1461 c 1460 (by omega)
    rw [f1, f2, f3, f4]
    simp
    omega

theorem ord2ymd_ord {d : Day} (h : d.Valid) : ord2ymd (ord d) = (d.year, d.month, d.day) := by
  have hmd := monthDay_spec h
  obtain ⟨hlt, hlast⟩ := dayOfYear_lt h
  rw [ord_eq h]
  obtain ⟨n, hn⟩ : ∃ n, dayOfYear d = n := ⟨_, rfl⟩
  rw [hn] at hmd hlt hlast ⊢
  obtain ⟨a, b, c, e, hb, hc, he, hy⟩ : ∃ a b c e, b ≤ 3 ∧ c ≤ 24 ∧ e ≤ 3 ∧
      d.year = 400 * a + 100 * b + 4 * c + e + 1 := by
    have := h.1
    refine ⟨(d.year - 1) / 400, (d.year - 1) % 400 / 100, (d.year - 1) % 100 / 4, (d.year - 1) % 4, ?_, ?_, ?_, ?_⟩
    all_goals omega
  rw [hy] at hmd hlt ⊢
  rw [daysBeforeYear_parts a b c e hb hc he]
  rw [isLeap_parts a b c e hb hc he] at hmd hlt
  by_cases h365 : n = 365
  · have hl : (e == 3 && (c != 24 || b == 3)) = true := by
      cases hx : (e == 3 && (c != 24 || b == 3)) with
      | true => rfl
      | false => rw [hx] at hlt; simp at hlt; omega
    simp only [Bool.and_eq_true, Bool.or_eq_true, beq_iff_eq, bne_iff_ne, ne_eq] at hl
    obtain ⟨hm, hd⟩ := hlast h365
    subst h365
    obtain ⟨rfl, hl⟩ := hl
    rw [hm, hd, ord2ymd_leapday a b c hb hc hl]
  · have hn365 : n < 365 := by split at hlt <;> omega
    rw [ord2ymd_day a b c e n hb hc he hn365, hmd]

theorem ord2ymd_later {d : Day} (h : d.Valid) (n : Nat) :
    ord2ymd (ord d + n) = ((d.later n).year, (d.later n).month, (d.later n).day) := by
  rw [← ord_later h, ord2ymd_ord (valid_later h n)]

theorem later_inj {d : Day} (h : d.Valid) {m n : Nat} (e : d.later m = d.later n) : m = n := by
  have := congrArg ord e
  rw [ord_later h, ord_later h] at this
  omega

/-- Days, hours, minutes and seconds after midnight. -/
theorem moment_later (d : Day) (n : Nat) : (midnight d).later n
    = ⟨d.later (n / 86400), n % 86400 / 3600, n % 3600 / 60, n % 60⟩ := by
  induction n with
  | zero => rfl
  | succ n ih =>
    show ((midnight d).later n).next = _
    rw [ih]
    unfold Moment.next
    simp only
    split
    · have : (n + 1) / 86400 = n / 86400 := by omega
      rw [this]
      congr 1 <;> omega
    · split
      · have : (n + 1) / 86400 = n / 86400 := by omega
        rw [this]
        congr 1 <;> omega
      · split
        · have : (n + 1) / 86400 = n / 86400 := by omega
          rw [this]
          congr 1 <;> omega
        · have : (n + 1) / 86400 = n / 86400 + 1 := by omega
          rw [this]
          have h1 : (n + 1) % 86400 / 3600 = 0 := by omega
          have h2 : (n + 1) % 3600 / 60 = 0 := by omega
          have h3 : (n + 1) % 60 = 0 := by omega
          rw [h1, h2, h3]
          rfl

/-- A date and time of day with microseconds. -/
def ofMoment (t : Moment) (us : Nat) : DateTime :=
  ⟨t.day.year, t.day.month, t.day.day, t.hour, t.minute, t.second, us⟩

theorem addMicroseconds_spec {d : Day} (h : d.Valid) (us : Nat) :
    addMicroseconds d.year d.month d.day us
      = if ord d + us / 86400000000 ≤ maxOrdinal then .ok (ofMoment ((midnight d).later (us / 1000000)) (us % 1000000))
        else .error .overflow := by
  unfold addMicroseconds
  have hpos : 0 < ord d := by rw [ord_eq h]; omega
  by_cases hbig : us / 86400000000 > 999999999
  · rw [if_pos hbig, if_neg (by unfold maxOrdinal; omega)]
  · rw [if_neg hbig]
    simp only
    show (if 0 < ord d + us / 86400000000 ∧ ord d + us / 86400000000 ≤ maxOrdinal then _ else _) = _
    by_cases hle : ord d + us / 86400000000 ≤ maxOrdinal
    · rw [if_pos ⟨by omega, hle⟩, if_pos hle]
      have h1 : us / 1000000 / 86400 = us / 86400000000 := by rw [Nat.div_div_eq_div_mul]
      have : ord2ymd (ymd2ord d.year d.month d.day + us / 86400000000) = _ := ord2ymd_later h (us / 86400000000)
      rw [this, moment_later, h1]
      unfold ofMoment
      simp only
      obtain ⟨s, hs⟩ : ∃ s, us / 1000000 = s := ⟨_, rfl⟩
      rw [hs]
      congr 2 <;> omega
    · rw [if_neg (fun e => hle e.2), if_neg hle]

end Hachoir.Time
