import Verif.Core.CalendarLemmas
import Verif.Core.FloatLemmas
import Verif.Archive.DeflateLemmas

/-!
# C45: timestamps

The specification is the calendar as a rule for the next day and the clock as a rule for the
next second (`Spec.Moment.later`): the date of a timestamp is reached by that many steps.
-/

set_option linter.unusedVariables false
set_option linter.unusedSimpArgs false

namespace Hachoir.Props
open Hachoir Hachoir.Time Hachoir.Stream Hachoir.Archive Spec

/-! ## Seconds -/

/-- **C45**, UNIX timestamps: the moment that many seconds after 1970; anything outside
0..2147483647 is a ValueError. -/
theorem C45_unix (v : Int) :
    timestampUNIX v = if 0 ≤ v ∧ v ≤ 2147483647
      then .ok (ofMoment ((midnight ⟨1970, 1, 1⟩).later v.toNat) 0) else .error .value := by
  unfold timestampUNIX
  by_cases h : 0 ≤ v ∧ v ≤ 2147483647
  · rw [if_neg (by simpa using h), if_pos h]
    have := addMicroseconds_spec (d := ⟨1970, 1, 1⟩) (by decide) (v.toNat * 1000000)
    simp only at this
    rw [this, if_pos]
    · have h1 : v.toNat * 1000000 / 1000000 = v.toNat := by omega
      have h2 : v.toNat * 1000000 % 1000000 = 0 := by omega
      rw [h1, h2]
    · have : ord ⟨1970, 1, 1⟩ = 719163 := by decide
      rw [this]
      unfold maxOrdinal
      omega
  · rw [if_pos h, if_neg h]

/-- **C45**, Mac timestamps: the moment that many seconds after 1904; every 32 bit value has
a date, other values give a text. -/
theorem C45_mac32 (v : Int) :
    timestampMac32 v = if 0 ≤ v ∧ v ≤ 4294967295
      then .ok (.date (ofMoment ((midnight ⟨1904, 1, 1⟩).later v.toNat) 0)) else .ok .invalid := by
  unfold timestampMac32
  by_cases h : 0 ≤ v ∧ v ≤ 4294967295
  · rw [if_neg (by simpa using h), if_pos h]
    have := addMicroseconds_spec (d := ⟨1904, 1, 1⟩) (by decide) (v.toNat * 1000000)
    simp only at this
    rw [this, if_pos]
    · have h1 : v.toNat * 1000000 / 1000000 = v.toNat := by omega
      have h2 : v.toNat * 1000000 % 1000000 = 0 := by omega
      rw [h1, h2]
    · have : ord ⟨1904, 1, 1⟩ = 695056 := by decide
      rw [this]
      unfold maxOrdinal
      omega
  · rw [if_pos h, if_neg h]

/-- Moments after different numbers of seconds are different. -/
theorem later_moment_inj {d : Day} (h : d.Valid) {m n : Nat}
    (e : (midnight d).later m = (midnight d).later n) : m = n := by
  rw [moment_later, moment_later] at e
  injection e with e1 e2 e3 e4
  have := later_inj h e1
  omega

/-- **C45**: different timestamps are never shown as the same date. -/
theorem C45_unix_injective (v w : Int) (d : DateTime) (hv : timestampUNIX v = .ok d) (hw : timestampUNIX w = .ok d) :
    v = w := by
  rw [C45_unix] at hv hw
  split at hv
  · split at hw
    · rename_i h1 h2
      injection hv with hv
      injection hw with hw
      rw [← hw] at hv
      unfold ofMoment at hv
      injection hv with a b c d e f g
      have : v.toNat = w.toNat := by
        apply later_moment_inj (d := ⟨1970, 1, 1⟩) (by decide)
        rw [moment_later, moment_later] at *
        simp only at a b c d e f
        congr 1
        generalize Day.later ⟨1970, 1, 1⟩ (v.toNat / 86400) = x at *
        generalize Day.later ⟨1970, 1, 1⟩ (w.toNat / 86400) = y at *
        cases x; cases y
        simp only at a b c
        rw [a, b, c]
      omega
    · cases hw
  · cases hv

/-- The date exists: month, day, hour, minute and second are in range. -/
theorem C45_unix_valid (v : Int) (d : DateTime) (h : timestampUNIX v = .ok d) :
    Day.Valid ⟨d.year, d.month, d.day⟩ ∧ d.hour < 24 ∧ d.minute < 60 ∧ d.second < 60 ∧ d.microsecond = 0 := by
  rw [C45_unix] at h
  split at h
  · injection h with h
    subst h
    rw [moment_later]
    refine ⟨valid_later (d := ⟨1970, 1, 1⟩) (by decide) _, ?_, ?_, ?_, rfl⟩
    all_goals simp only [ofMoment]; omega
  · cases h

/-! ## Tenths of microseconds -/

/-- Number of microseconds from a day to the end of year 9999. -/
def untilEnd (d : Day) : Nat := (maxOrdinal + 1 - ord d) * 86400000000

theorem addMicroseconds_end {d : Day} (h : d.Valid) (hd : ord d ≤ maxOrdinal) (us : Nat) :
    addMicroseconds d.year d.month d.day us
      = if us < untilEnd d then .ok (ofMoment ((midnight d).later (us / 1000000)) (us % 1000000))
        else .error .overflow := by
  rw [addMicroseconds_spec h]
  have : ord d + us / 86400000000 ≤ maxOrdinal ↔ us < untilEnd d := by
    unfold untilEnd
    rw [← Nat.div_lt_iff_lt_mul (by omega)]
    omega
  simp only [this]

/-- **C45** (partial: at most 16 microseconds off).  A 60 bit UUID timestamp is the moment
that many 100 ns after 15 October 1582, up to 16 microseconds; the result is a ValueError
only if the date is beyond year 9999 (up to 16 microseconds). -/
theorem C45_uuid60_partial (v : Nat) :
    (∃ us, timestampUUID60 v = .ok (ofMoment ((midnight ⟨1582, 10, 15⟩).later (us / 1000000)) (us % 1000000)) ∧
      10 * us ≤ v + 160 ∧ v ≤ 10 * us + 160) ∨
    (timestampUUID60 v = .error .value ∧ 10 * untilEnd ⟨1582, 10, 15⟩ ≤ v + 160) := by
  unfold timestampUUID60
  rw [if_neg (by omega)]
  have hadd := addMicroseconds_end (d := ⟨1582, 10, 15⟩) (by decide) (by decide) (trueDiv v 10).round
  simp only at hadd
  rw [Int.toNat_natCast, hadd]
  have hu : untilEnd ⟨1582, 10, 15⟩ = 265621593600000000 := by decide
  have herr := tenth_error v
  split
  · rename_i hlt
    left
    refine ⟨_, rfl, ?_⟩
    rcases herr with h | ⟨h1, h2⟩
    · exact h
    · rw [hu] at hlt; omega
  · rename_i hge
    right
    refine ⟨rfl, ?_⟩
    rcases herr with ⟨h1, h2⟩ | ⟨h1, h2⟩
    · omega
    · rw [hu]; omega

/-- **C45** (partial: at most 16 microseconds off).  The same for 64 bit Windows timestamps
since 1601. -/
theorem C45_win64_partial (v : Nat) :
    (∃ us, timestampWin64 v = .ok (ofMoment ((midnight ⟨1601, 1, 1⟩).later (us / 1000000)) (us % 1000000)) ∧
      10 * us ≤ v + 160 ∧ v ≤ 10 * us + 160) ∨
    (timestampWin64 v = .error .value ∧ 10 * untilEnd ⟨1601, 1, 1⟩ ≤ v + 160) := by
  unfold timestampWin64 durationWin64
  rw [if_neg (by omega)]
  have hadd := addMicroseconds_end (d := ⟨1601, 1, 1⟩) (by decide) (by decide) (trueDiv v 10).round
  simp only at hadd
  simp only [Int.toNat_natCast]
  have hu : untilEnd ⟨1601, 1, 1⟩ = 265046774400000000 := by decide
  have herr := tenth_error v
  by_cases hbig : (trueDiv v 10).round / 86400000000 > 999999999
  · rw [if_pos hbig]
    right
    refine ⟨rfl, ?_⟩
    rcases herr with ⟨h1, h2⟩ | ⟨h1, h2⟩
    · omega
    · rw [hu]; omega
  · rw [if_neg hbig]
    simp only
    rw [hadd]
    split
    · rename_i hlt
      left
      refine ⟨_, rfl, ?_⟩
      rcases herr with h | ⟨h1, h2⟩
      · exact h
      · rw [hu] at hlt; omega
    · rename_i hge
      right
      refine ⟨rfl, ?_⟩
      rcases herr with ⟨h1, h2⟩ | ⟨h1, h2⟩
      · omega
      · rw [hu]; omega

/-- **C45** (partial): durations up to `2 ^ 50` microseconds are exact, tenths rounded to
the nearest microsecond, ties to even. -/
theorem C45_duration_exact_partial (v : Nat) (h : v < 10 * 2 ^ 50) :
    ∃ us, durationWin64 v = .ok us ∧ 10 * us ≤ v + 5 ∧ v ≤ 10 * us + 5 ∧ (v % 10 = 0 → 10 * us = v) := by
  have hb := roundHalfEven_bound v 10 (by omega)
  refine ⟨roundHalfEven v 10, ?_, by omega, by omega, by omega⟩
  unfold durationWin64
  rw [if_neg (by omega)]
  simp only [Int.toNat_natCast, tenth_exact v h]
  rw [if_neg (by omega)]

/-- **C45**: durations in milliseconds are exact. -/
theorem C45_duration_millis (v : Nat) (h : v < 2 ^ 56) : durationMillisWin64 v = .ok (1000 * v) := by
  unfold durationMillisWin64
  rw [if_neg (by omega)]
  simp only [Int.toNat_natCast]
  rw [if_neg (by omega), Nat.mul_comm]

/-- The full claim is false: 10 February 2006 12:45:56.671001 is a whole number of
microseconds, but is shown one microsecond earlier. -/
theorem C45_win64_inexact :
    timestampWin64 127840491566710010 = .ok ⟨2006, 2, 10, 12, 45, 56, 671000⟩ ∧
    timestampWin64 127840491566710000 = .ok ⟨2006, 2, 10, 12, 45, 56, 671000⟩ := by
  decide +kernel

/-- It is 16 microseconds off in the year 9500. -/
theorem C45_win64_sixteen :
    ∃ us, 10 * us = 2490000000000000160 ∧ timestampWin64 2490000000000000160
      = .ok (ofMoment ((midnight ⟨1601, 1, 1⟩).later ((us - 16) / 1000000)) ((us - 16) % 1000000)) := by
  refine ⟨249000000000000016, rfl, ?_⟩
  rw [moment_later]
  rcases C45_win64_partial 2490000000000000160 with ⟨us, h, _⟩ | ⟨h, _⟩
  · have : timestampWin64 2490000000000000160 = noOverflow (addMicroseconds 1601 1 1 249000000000000000) := by
      decide +kernel
    rw [this]
    have hadd := addMicroseconds_end (d := ⟨1601, 1, 1⟩) (by decide) (by decide) 249000000000000000
    simp only at hadd
    rw [hadd, if_pos (by decide), moment_later]
    rfl
  · have : timestampWin64 2490000000000000160 ≠ .error .value := by decide +kernel
    exact absurd h this

/-! ## MS-DOS -/

/-- **C45** (partial: month 0 and day 0 are read as 1).  The date is the one of the numbers,
or a ValueError if there is no such date or time. -/
theorem C45_msdos_partial (second minute hour day month year : Nat) (hy : year < 128) (hm : 1 ≤ month) (hd : 1 ≤ day) :
    msdosValue second minute hour day month year
      = if Day.Valid ⟨1980 + year, month, day⟩ ∧ hour < 24 ∧ minute < 60 ∧ 2 * second < 60
        then .ok ⟨1980 + year, month, day, hour, minute, 2 * second, 0⟩ else .error .value := by
  unfold msdosValue datetime
  rw [if_neg (show ¬ month = 0 by omega), if_neg (show ¬ day = 0 by omega), if_neg (by omega)]
  by_cases h1 : 1 ≤ month ∧ month ≤ 12
  · rw [if_neg (by simpa using h1)]
    rw [daysInMonth_eq _ _ h1.1 h1.2]
    unfold Day.Valid
    simp only
    by_cases h2 : 1 ≤ day ∧ day ≤ monthLength (1980 + year) month
    · rw [if_neg (by simpa using h2)]
      by_cases h3 : hour ≤ 23
      · rw [if_neg (by simpa using h3)]
        by_cases h4 : minute ≤ 59
        · rw [if_neg (by simpa using h4)]
          by_cases h5 : 2 * second ≤ 59
          · rw [if_neg (by simpa using h5), if_pos ⟨⟨by omega, h1.1, h1.2, h2.1, h2.2⟩, by omega, by omega, by omega⟩]
          · rw [if_pos h5, if_neg (fun h => h5 (by omega))]
        · rw [if_pos h4, if_neg (fun h => h4 (by omega))]
      · rw [if_pos h3, if_neg (fun h => h3 (by omega))]
    · rw [if_pos h2, if_neg (fun h => h2 ⟨h.1.2.2.2.1, h.1.2.2.2.2⟩)]
  · rw [if_pos h1, if_neg (fun h => h1 ⟨h.1.2.1, h.1.2.2.1⟩)]

/-- The full claim is false: month 0 and day 0 are not rejected. -/
theorem C45_msdos_zero : msdosValue 0 0 0 0 0 0 = .ok ⟨1980, 1, 1, 0, 0, 0, 0⟩ ∧
    msdosValue 0 0 0 0 5 20 = .ok ⟨2000, 5, 1, 0, 0, 0, 0⟩ := by
  decide

theorem toBitsLSB_split (v a b : Nat) : toBitsLSB (a + b) v = toBitsLSB a v ++ toBitsLSB b (v / 2 ^ a) := by
  induction a generalizing v with
  | zero => simp [toBitsLSB]
  | succ a ih =>
    rw [show a + 1 + b = (a + b) + 1 by omega]
    simp only [toBitsLSB, List.cons_append]
    rw [ih, Nat.div_div_eq_div_mul, Nat.pow_succ, Nat.mul_comm 2]

theorem toBitsLSB_mod (v a : Nat) : toBitsLSB a (v % 2 ^ a) = toBitsLSB a v := by
  induction a generalizing v with
  | zero => rfl
  | succ a ih =>
    simp only [toBitsLSB]
    congr 1
    · have : v % 2 ^ (a + 1) % 2 = v % 2 := Nat.mod_mod_of_dvd _ ⟨2 ^ a, by rw [Nat.pow_succ, Nat.mul_comm]⟩
      rw [this]
    · rw [← ih (v / 2)]
      congr 1
      rw [Nat.pow_succ, Nat.mul_comm, Nat.mod_mul_right_div_self]

theorem readBits_part {data : Bytes} {s : InputStream} (hs : stringInputStream data = .ok s) {addr v a n b : Nat}
    (hn : 0 < n) (h : BitsAt .little data addr (toBitsLSB (a + (n + b)) v)) :
    readBits s (addr + a : Nat) n .little = .ok (v / 2 ^ a % 2 ^ n) := by
  rw [toBitsLSB_split] at h
  have h2 := h.append.2
  rw [toBitsLSB_split, length_toBitsLSB] at h2
  refine readBits_num hs hn (Nat.mod_lt _ (Nat.two_pow_pos n)) ?_
  rw [toBitsLSB_mod]
  exact h2.append.1

/-- **C45**, MS-DOS timestamps in a file: a 32 bit little endian number, time in the low
half; the parts are where the format has them. -/
theorem C45_msdos_file {data : Bytes} {s : InputStream} (hs : stringInputStream data = .ok s) (addr v : Nat)
    (h : toBitsLSB 32 v <+: (bitsLSB data).drop addr) :
    timeDateMSDOS32 s .little addr
      = msdosValue (v % 32) (v / 32 % 64) (v / 2048 % 32) (v / 65536 % 32) (v / 2097152 % 16) (v / 33554432 % 128) := by
  have h : BitsAt .little data addr (toBitsLSB 32 v) := h
  have r1 := readBits_part hs (a := 0) (n := 5) (b := 27) (by omega) h
  have r2 := readBits_part hs (a := 5) (n := 6) (b := 21) (by omega) h
  have r3 := readBits_part hs (a := 11) (n := 5) (b := 16) (by omega) h
  have r4 := readBits_part hs (a := 16) (n := 5) (b := 11) (by omega) h
  have r5 := readBits_part hs (a := 21) (n := 4) (b := 7) (by omega) h
  have r6 := readBits_part hs (a := 25) (n := 7) (b := 0) (by omega) h
  unfold timeDateMSDOS32
  simp only [Nat.add_zero, Nat.pow_zero, Nat.div_one] at r1
  simp only [r1, r2, r3, r4, r5, r6, bind, Except.bind]
  rfl

/-- **C45**, MS-DOS timestamps with the date in the low half. -/
theorem C45_msdos_date_first {data : Bytes} {s : InputStream} (hs : stringInputStream data = .ok s) (addr v : Nat)
    (h : toBitsLSB 32 v <+: (bitsLSB data).drop addr) :
    dateTimeMSDOS32 s .little addr
      = msdosValue (v / 65536 % 32) (v / 2097152 % 64) (v / 134217728 % 32) (v % 32) (v / 32 % 16) (v / 512 % 128) := by
  have h : BitsAt .little data addr (toBitsLSB 32 v) := h
  have r1 := readBits_part hs (a := 0) (n := 5) (b := 27) (by omega) h
  have r2 := readBits_part hs (a := 5) (n := 4) (b := 23) (by omega) h
  have r3 := readBits_part hs (a := 9) (n := 7) (b := 16) (by omega) h
  have r4 := readBits_part hs (a := 16) (n := 5) (b := 11) (by omega) h
  have r5 := readBits_part hs (a := 21) (n := 6) (b := 5) (by omega) h
  have r6 := readBits_part hs (a := 27) (n := 5) (b := 0) (by omega) h
  unfold dateTimeMSDOS32
  simp only [Nat.add_zero, Nat.pow_zero, Nat.div_one] at r1
  simp only [r1, r2, r3, r4, r5, r6, bind, Except.bind]
  rfl

/-! ## Examples -/

example : timestampUNIX 1154175644 = .ok ⟨2006, 7, 29, 12, 20, 44, 0⟩ := by decide +kernel
example : timestampUNIX 2147483648 = .error .value := by decide +kernel
/-- 29 February 2000. -/
example : timestampUNIX 951782400 = .ok ⟨2000, 2, 29, 0, 0, 0, 0⟩ := by decide +kernel
example : timestampMac32 2843043290 = .ok (.date ⟨1994, 2, 2, 14, 14, 50, 0⟩) := by decide +kernel
example : timestampUUID60 130435676263032368 = .ok ⟨1996, 2, 14, 5, 13, 46, 303236⟩ := by decide +kernel
example : timestampWin64 (2 ^ 64 - 1) = .error .value := by decide +kernel
example : durationWin64 1072580000 = .ok 107258000 := by decide +kernel
/-- 2021-02-29 does not exist. -/
example : msdosValue 0 0 0 29 2 41 = .error .value := by decide
example : msdosValue 29 59 23 29 2 40 = .ok ⟨2020, 2, 29, 23, 59, 58, 0⟩ := by decide
example : ∀ s, stringInputStream [0x7d, 0xbf, 0x5d, 0x50] = .ok s →
    timeDateMSDOS32 s .little 0 = .ok ⟨2020, 2, 29, 23, 59, 58, 0⟩ := by
  intro s hs; cases hs; decide +kernel

end Hachoir.Props
