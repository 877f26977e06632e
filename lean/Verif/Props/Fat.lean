import Verif.Formats.Fat
import Verif.Core.CalendarLemmas
import Verif.Props.Mbr

/-!
# C97: allocation tables and dates of FAT file systems
-/

namespace Hachoir.Props
open Hachoir Hachoir.Stream Hachoir.Formats Hachoir.Formats.Fat Hachoir.Time Spec

/-! ## What the bytes of a table are -/

/-- A table with entries of 12 bits: two entries share three bytes. -/
inductive Fat12Bytes : List Nat → Bytes → Prop
  | nil : Fat12Bytes [] []
  | pair (a b : Nat) (l : List Nat) (bs : Bytes) (ha : a < 4096) (hb : b < 4096) (h : Fat12Bytes l bs) :
      Fat12Bytes (a :: b :: l)
        (UInt8.ofNat (a % 256) :: UInt8.ofNat (a / 256 + 16 * (b % 16)) :: UInt8.ofNat (b / 16) :: bs)

/-- A table with entries of 16 or 32 bits, lowest byte first. -/
inductive FatBytes (n : Nat) : List Nat → Bytes → Prop
  | nil : FatBytes n [] []
  | cons (v : Nat) (l : List Nat) (bs : Bytes) (hv : v < 256 ^ n) (h : FatBytes n l bs) :
      FatBytes n (v :: l) (leBytes n v ++ bs)

/-- The meaning of an entry of a table with entries of 12, 16 or (in fact) 28 bits. -/
def fatMeaning (bits v : Nat) : EntryKind :=
  if v = 0 then .free
  else if v = 1 then .reservedCluster
  else if 2 ^ bits - 8 ≤ v then .chainEnd
  else if v = 2 ^ bits - 9 then .bad
  else if 2 ^ bits - 16 ≤ v then .reservedValue
  else .number v

/-! ## Tables -/

theorem C97_fat12 (data : Bytes) (s : InputStream) (hs : stringInputStream data = .ok s)
    (l : List Nat) (bs : Bytes) (hb : Fat12Bytes l bs) (k fuel : Nat) (hp : bs <+: data.drop k) (hf : l.length < fuel) :
    readEntries s 12 fuel (8 * k) (8 * (k + bs.length)) = .ok l := by
  induction hb generalizing k fuel with
  | nil =>
    obtain ⟨f, rfl⟩ : ∃ f, fuel = f + 1 := ⟨fuel - 1, by simp only [List.length_nil] at hf; omega⟩
    rw [readEntries, if_neg (by simp)]
  | pair a b l bs ha hb h ih =>
    simp only [List.length_cons] at hf
    obtain ⟨f, rfl⟩ : ∃ f, fuel = f + 1 + 1 := ⟨fuel - 2, by omega⟩
    have e : UInt8.ofNat (a % 256) :: UInt8.ofNat (a / 256 + 16 * (b % 16)) :: UInt8.ofNat (b / 16) :: bs
        = [UInt8.ofNat (a % 256), UInt8.ofNat (a / 256 + 16 * (b % 16)), UInt8.ofNat (b / 16)] ++ bs := rfl
    rw [e] at hp ⊢
    have hl : ([UInt8.ofNat (a % 256), UInt8.ofNat (a / 256 + 16 * (b % 16)), UInt8.ofNat (b / 16)] : Bytes).length = 3 := rfl
    have hl2 : ([UInt8.ofNat (a % 256), UInt8.ofNat (a / 256 + 16 * (b % 16)), UInt8.ofNat (b / 16)] ++ bs : Bytes).length
        = bs.length + 3 := by rw [List.length_append, hl]; omega
    have p0 := prefix_left hp
    have p1 := drop_prefix hp
    rw [hl] at p1
    have hv : ofBytesLE [UInt8.ofNat (a % 256), UInt8.ofNat (a / 256 + 16 * (b % 16)), UInt8.ofNat (b / 16)]
        = a + 4096 * b := by
      simp only [ofBytesLE, UInt8.toNat_ofNat']
      omega
    have r1 := readBits_in data s hs k 0 12 _ p0 (by rw [hl]; omega) (by rw [hl]; omega) ((8 * k : Nat) : Int) rfl
    have r2 := readBits_in data s hs k 12 12 _ p0 (by rw [hl]) (by rw [hl]; omega) ((8 * k + 12 : Nat) : Int) rfl
    rw [hv] at r1 r2
    have v1 : (a + 4096 * b) / 2 ^ 0 % 2 ^ 12 = a := by omega
    have v2 : (a + 4096 * b) / 2 ^ 12 % 2 ^ 12 = b := by omega
    rw [v1] at r1
    rw [v2] at r2
    rw [readEntries, if_pos (by omega), r1]
    simp only
    rw [readEntries, if_pos (by omega), r2]
    simp only
    have := ih (k + 3) f p1 (by omega)
    rw [show 8 * k + 12 + 12 = 8 * (k + 3) by omega, hl2, show k + (bs.length + 3) = k + 3 + bs.length by omega, this]

theorem C97_fat (data : Bytes) (s : InputStream) (hs : stringInputStream data = .ok s) (n : Nat) (hn : 0 < n)
    (l : List Nat) (bs : Bytes) (hb : FatBytes n l bs) (k fuel : Nat) (hp : bs <+: data.drop k) (hf : l.length < fuel) :
    readEntries s (8 * n) fuel (8 * k) (8 * (k + bs.length)) = .ok l := by
  induction hb generalizing k fuel with
  | nil =>
    obtain ⟨f, rfl⟩ : ∃ f, fuel = f + 1 := ⟨fuel - 1, by simp only [List.length_nil] at hf; omega⟩
    rw [readEntries, if_neg (by simp; omega)]
  | cons v l bs hv h ih =>
    simp only [List.length_cons] at hf
    obtain ⟨f, rfl⟩ : ∃ f, fuel = f + 1 := ⟨fuel - 1, by omega⟩
    obtain ⟨hl, hle⟩ := leBytes_spec n v
    have p0 := prefix_left hp
    have p1 := drop_prefix hp
    rw [hl] at p1
    have r1 := readBits_in data s hs k 0 (8 * n) _ p0 (by rw [hl]; omega) (by rw [hl]; omega) ((8 * k : Nat) : Int) rfl
    have e : (256 : Nat) ^ n = 2 ^ (8 * n) := by rw [Nat.pow_mul]
    rw [hle (by rw [e] at hv; first | exact hv | (rw [e]; exact hv)), Nat.pow_zero, Nat.div_one, Nat.mod_eq_of_lt (by rw [← e]; exact hv)] at r1
    rw [readEntries, if_pos (by rw [List.length_append, hl]; omega), r1]
    simp only
    have := ih (k + n) f p1 (by omega)
    rw [show 8 * k + 8 * n = 8 * (k + n) by omega, List.length_append, hl, show k + (n + bs.length) = k + n + bs.length by omega, this]

/-- The text of an entry, for all entries of tables of 12 and 16 bits and those of 32 bits whose four
unused bits are zero. -/
theorem C97_meaning (version v : Nat) (hver : version = 12 ∨ version = 16 ∨ version = 32) (hv : v < 2 ^ min 28 version) :
    entryKind version v = fatMeaning (min 28 version) v := by
  have key : ∀ b : Nat, 32 ≤ (2 : Nat) ^ b → v < 2 ^ b →
      (let maxEntry : Int := ((2 ^ b : Nat) : Int)
       let j := (1 - (v : Int)) % maxEntry
       if j = 0 then EntryKind.reservedCluster
        else if j = 1 then .free
        else if j < 10 then .chainEnd
        else if j = 10 then .bad
        else if j < 18 then .reservedValue
        else .number v) = fatMeaning b v := by
    intro b hb hvb
    unfold fatMeaning
    generalize (2 : Nat) ^ b = N at hb hvb ⊢
    simp only
    have hj : (1 - (v : Int)) % (N : Int) = if v ≤ 1 then 1 - (v : Int) else (N : Int) + 1 - v := by
      split
      · exact Int.emod_eq_of_lt (by omega) (by omega)
      · rw [← Int.add_emod_right, Int.emod_eq_of_lt (by omega) (by omega)]; omega
    rw [hj]
    repeat' split
    all_goals first | rfl | omega
  rcases hver with rfl | rfl | rfl
  · exact key 12 (by decide) hv
  · exact key 16 (by decide) hv
  · exact key 28 (by decide) hv

/-- An entry of 32 bits of which the unused bits are set is not shown as the number of a cluster. -/
theorem C97_unused_bits : entryKind 32 (2 ^ 28 + 5) = .number (2 ^ 28 + 5) ∧ fatMeaning 28 ((2 ^ 28 + 5) % 2 ^ 28) = .number 5 := by
  decide

/-- Following the clusters of any file that has one fails. -/
theorem C97_chain (version dataStart clusterSize fuel cluster : Nat) (h1 : 1 < cluster)
    (h2 : cluster < 2 ^ min 28 version - 16) :
    clusters version dataStart clusterSize (fuel + 1) cluster = .error .type := by
  unfold clusters
  have : (1 : Nat) <<< min 28 version = 2 ^ min 28 version := by rw [Nat.one_shiftLeft]
  simp only [this]
  rw [if_pos ⟨h1, h2⟩, clusterLoop, fatLookUp, if_neg (by omega)]

/-! ## Dates -/

/-- The two bytes of a day. -/
def fatDay (d : Day) : Bytes := leBytes 2 (d.day + 32 * d.month + 512 * (d.year - 1980))

/-- The two bytes of a time of day, in steps of two seconds. -/
def fatTime (hour minute second : Nat) : Bytes := leBytes 2 (second / 2 + 32 * minute + 2048 * hour)

theorem day_bound (d : Day) (hd : d.Valid) : d.day < 32 := by
  obtain ⟨_, _, _, _, h⟩ := hd
  have : monthLength d.year d.month ≤ 31 := by unfold monthLength; (repeat' split) <;> omega
  omega

theorem valid_day (d : Day) (hd : d.Valid) : validDay d.year d.month d.day = true := by
  obtain ⟨_, h1, h2, h3, h4⟩ := hd
  unfold validDay
  rw [daysInMonth_eq _ _ h1 h2]
  simp only [Bool.and_eq_true, decide_eq_true_eq]
  exact ⟨⟨⟨h1, h2⟩, h3⟩, h4⟩

theorem fat_day (data : Bytes) (s : InputStream) (hs : stringInputStream data = .ok s) (k : Nat) (d : Day) (hd : d.Valid)
    (h80 : 1980 ≤ d.year) (h107 : d.year ≤ 2107) (hp : fatDay d <+: data.drop k) :
    readBits s ((8 * k : Nat) : Int) 5 .little = .ok d.day ∧
      readBits s ((8 * k + 5 : Nat) : Int) 4 .little = .ok d.month ∧
      readBits s ((8 * k + 9 : Nat) : Int) 7 .little = .ok (d.year - 1980) := by
  have hday := day_bound d hd
  obtain ⟨_, _, hm, _, _⟩ := hd
  unfold fatDay at hp
  obtain ⟨hl, hle⟩ := leBytes_spec 2 (d.day + 32 * d.month + 512 * (d.year - 1980))
  have r := fun a b h ad had => readBits_in data s hs k a b _ hp h (by rw [hl]; omega) ad had
  rw [hle (by omega), hl] at r
  refine ⟨?_, ?_, ?_⟩
  · rw [r 0 5 (by omega) ((8 * k : Nat) : Int) rfl]; exact congrArg Except.ok (by omega)
  · rw [r 5 4 (by omega) _ rfl]; exact congrArg Except.ok (by omega)
  · rw [r 9 7 (by omega) _ rfl]; exact congrArg Except.ok (by omega)

theorem fat_time (data : Bytes) (s : InputStream) (hs : stringInputStream data = .ok s) (k hour minute second : Nat)
    (hh : hour < 24) (hm : minute < 60) (hsec : second < 60) (hp : fatTime hour minute second <+: data.drop k) :
    readBits s ((8 * k : Nat) : Int) 5 .little = .ok (second / 2) ∧
      readBits s ((8 * k + 5 : Nat) : Int) 6 .little = .ok minute ∧
      readBits s ((8 * k + 11 : Nat) : Int) 5 .little = .ok hour := by
  unfold fatTime at hp
  obtain ⟨hl, hle⟩ := leBytes_spec 2 (second / 2 + 32 * minute + 2048 * hour)
  have r := fun a b h ad had => readBits_in data s hs k a b _ hp h (by rw [hl]; omega) ad had
  rw [hle (by omega), hl] at r
  refine ⟨?_, ?_, ?_⟩
  · rw [r 0 5 (by omega) ((8 * k : Nat) : Int) rfl]; exact congrArg Except.ok (by omega)
  · rw [r 5 6 (by omega) _ rfl]; exact congrArg Except.ok (by omega)
  · rw [r 11 5 (by omega) _ rfl]; exact congrArg Except.ok (by omega)

/-- The day of the last access. -/
theorem C97_access (data : Bytes) (s : InputStream) (hs : stringInputStream data = .ok s) (k : Nat) (d : Day) (hd : d.Valid)
    (h80 : 1980 ≤ d.year) (h107 : d.year ≤ 2107) (hp : fatDay d <+: data.drop k) :
    readDate s (8 * k) 2 = .ok (.date d.year d.month d.day) := by
  obtain ⟨r1, r2, r3⟩ := fat_day data s hs k d hd h80 h107 hp
  have hv := valid_day d hd
  obtain ⟨_, hm1, hm, hd1, _⟩ := hd
  unfold readDate
  simp only [show ¬ 4 < 2 by omega, show ¬ 2 < 2 by omega, if_false, bind, Except.bind, pure, Except.pure]
  rw [r1]; simp only
  rw [r2]; simp only
  rw [r3]; simp only
  rw [show d.year - 1980 + 1980 = d.year by omega, if_neg (by omega), if_pos hv]

/-- Two bytes that are no day of the calendar: nothing is shown for zero, "invalid" for all others. -/
theorem C97_access_none (data : Bytes) (s : InputStream) (hs : stringInputStream data = .ok s) (k v : Nat) (hv : v < 65536)
    (hn : ¬ (Day.mk (v / 512 + 1980) (v / 32 % 16) (v % 32)).Valid) (hp : leBytes 2 v <+: data.drop k) :
    readDate s (8 * k) 2 = .ok (if v = 0 then .none else .invalid) := by
  obtain ⟨hl, hle⟩ := leBytes_spec 2 v
  have r := fun a b h ad had => readBits_in data s hs k a b _ hp h (by rw [hl]; omega) ad had
  rw [hle (by omega), hl] at r
  have r1 : readBits s ((8 * k : Nat) : Int) 5 .little = .ok (v % 32) := by
    rw [r 0 5 (by omega) ((8 * k : Nat) : Int) rfl]; exact congrArg Except.ok (by omega)
  have r2 : readBits s ((8 * k + 5 : Nat) : Int) 4 .little = .ok (v / 32 % 16) := r 5 4 (by omega) _ rfl
  have r3 : readBits s ((8 * k + 9 : Nat) : Int) 7 .little = .ok (v / 512) := by
    rw [r 9 7 (by omega) _ rfl]; exact congrArg Except.ok (by omega)
  unfold readDate
  simp only [show ¬ 4 < 2 by omega, show ¬ 2 < 2 by omega, if_false, bind, Except.bind, pure, Except.pure]
  rw [r1]; simp only
  rw [r2]; simp only
  rw [r3]; simp only
  by_cases h0 : v = 0
  · subst h0; rfl
  · rw [if_neg h0, if_neg (fun h => h0 (by omega)), if_neg]
    intro hval
    apply hn
    unfold validDay at hval
    simp only [Bool.and_eq_true, decide_eq_true_eq] at hval
    obtain ⟨⟨⟨h1, h2⟩, h3⟩, h4⟩ := hval
    rw [daysInMonth_eq _ _ h1 h2] at h4
    exact ⟨by show 1 ≤ v / 512 + 1980; omega, h1, h2, h3, h4⟩

/-- The time of the last change: to two seconds. -/
theorem C97_modify (data : Bytes) (s : InputStream) (hs : stringInputStream data = .ok s) (k : Nat) (d : Day) (hd : d.Valid)
    (h80 : 1980 ≤ d.year) (h107 : d.year ≤ 2107) (hour minute second : Nat) (hh : hour < 24) (hm : minute < 60) (hsec : second < 60)
    (hp : fatTime hour minute second ++ fatDay d <+: data.drop k) :
    readDate s (8 * k) 4 = .ok (.time d.year d.month d.day hour minute (second - second % 2) 0) := by
  have p1 := drop_prefix hp
  have hlt : (fatTime hour minute second).length = 2 := (leBytes_spec 2 _).1
  rw [hlt] at p1
  obtain ⟨r1, r2, r3⟩ := fat_day data s hs (k + 2) d hd h80 h107 p1
  obtain ⟨t1, t2, t3⟩ := fat_time data s hs k hour minute second hh hm hsec (prefix_left hp)
  have hv := valid_day d hd
  obtain ⟨_, hm1, hm', hd1, _⟩ := hd
  unfold readDate
  simp only [show ¬ 4 < 4 by omega, show 2 < 4 by omega, if_false, if_true, bind, Except.bind, pure, Except.pure]
  rw [t1]; simp only
  rw [t2]; simp only
  rw [t3]; simp only
  rw [show 8 * k + 16 = 8 * (k + 2) by omega]
  rw [r1]; simp only
  rw [r2]; simp only
  rw [r3]; simp only
  rw [show d.year - 1980 + 1980 = d.year by omega, if_neg (by omega), hv, if_pos (by
    simp only [Bool.true_and, Bool.and_eq_true, decide_eq_true_eq]; omega)]
  have e1 : (200 * (second / 2) + 0) / 100 = second - second % 2 := by omega
  have e2 : (200 * (second / 2) + 0) % 100 * 10000 = 0 := by omega
  rw [e1, e2]

/-- The time of creation: to a hundredth of a second. -/
theorem C97_create (data : Bytes) (s : InputStream) (hs : stringInputStream data = .ok s) (k : Nat) (d : Day) (hd : d.Valid)
    (h80 : 1980 ≤ d.year) (h107 : d.year ≤ 2107) (hour minute second cs : Nat) (hh : hour < 24) (hm : minute < 60) (hsec : second < 60)
    (hcs : cs < 100)
    (hp : [UInt8.ofNat (100 * (second % 2) + cs)] ++ (fatTime hour minute second ++ fatDay d) <+: data.drop k) :
    readDate s (8 * k) 5 = .ok (.time d.year d.month d.day hour minute second (10000 * cs)) := by
  have p0 := drop_prefix hp
  rw [show ([UInt8.ofNat (100 * (second % 2) + cs)] : Bytes).length = 1 from rfl] at p0
  have p1 := drop_prefix p0
  have hlt : (fatTime hour minute second).length = 2 := (leBytes_spec 2 _).1
  rw [hlt] at p1
  have c := byte_in data s hs k (100 * (second % 2) + cs) (by omega) (prefix_left hp) ((8 * k : Nat) : Int) rfl
  obtain ⟨r1, r2, r3⟩ := fat_day data s hs (k + 1 + 2) d hd h80 h107 p1
  obtain ⟨t1, t2, t3⟩ := fat_time data s hs (k + 1) hour minute second hh hm hsec (prefix_left p0)
  have hv := valid_day d hd
  obtain ⟨_, hm1, hm', hd1, _⟩ := hd
  unfold readDate
  simp only [show 4 < 5 by omega, show 2 < 5 by omega, if_true, bind, Except.bind, pure, Except.pure]
  rw [c]; simp only
  rw [show 8 * k + 8 = 8 * (k + 1) by omega]
  rw [t1]; simp only
  rw [t2]; simp only
  rw [t3]; simp only
  rw [show 8 * (k + 1) + 16 = 8 * (k + 1 + 2) by omega]
  rw [r1]; simp only
  rw [r2]; simp only
  rw [r3]; simp only
  rw [show d.year - 1980 + 1980 = d.year by omega, if_neg (by omega), hv, if_pos (by
    simp only [Bool.true_and, Bool.and_eq_true, decide_eq_true_eq]; omega)]
  have e1 : (200 * (second / 2) + (100 * (second % 2) + cs)) / 100 = second := by omega
  have e2 : (200 * (second / 2) + (100 * (second % 2) + cs)) % 100 * 10000 = 10000 * cs := by omega
  rw [e1, e2]

/-! ## Examples -/

example : Fat12Bytes [0xff0, 0x003] [0xf0, 0x3f, 0x00] := .pair _ _ _ _ (by omega) (by omega) .nil
example : FatBytes 2 [0xfff8, 3] [0xf8, 0xff, 3, 0] := .cons 0xfff8 _ _ (by decide) (.cons 3 _ _ (by decide) .nil)
example : fatMeaning 12 0xff7 = .bad ∧ fatMeaning 12 0xff8 = .chainEnd ∧ fatMeaning 12 0xff6 = .reservedValue
    ∧ fatMeaning 12 0xfef = .number 0xfef := by decide

example (s : InputStream) (hs : stringInputStream [0xf0, 0x3f, 0x00] = .ok s) :
    readEntries s 12 3 0 24 = .ok [0xff0, 0x003] :=
  C97_fat12 _ s hs _ _ (.pair 0xff0 3 _ _ (by omega) (by omega) .nil) 0 3 (List.prefix_refl _) (by simp)

example (s : InputStream) (hs : stringInputStream [0x65, 0x2d, 0x4d, 0x5d, 0x58] = .ok s) :
    readDate s 0 5 = .ok (.time 2024 2 29 9 41 27 10000) :=
  C97_create _ s hs 0 ⟨2024, 2, 29⟩ (by decide) (by decide) (by decide) 9 41 27 1 (by omega) (by omega) (by omega) (by omega)
    (by decide)

example (s : InputStream) (hs : stringInputStream [0x5e, 0x58] = .ok s) : readDate s 0 2 = .ok .invalid :=
  C97_access_none _ s hs 0 0x585e (by decide) (by decide) (by decide)

end Hachoir.Props
