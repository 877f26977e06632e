import Verif.Metadata.NamedDate
import Verif.Props.ParseDate
import Verif.Props.ArchiveMeta

/-!
# C159: dates written with names of months
-/

namespace Hachoir.Props
open Hachoir Hachoir.Metadata Hachoir.Time

/-! ### Specification -/

/-- The same letters, in any case. -/
def SameLetters (t : List Char) (n : String) : Prop := t.map Char.toLower = n.toList.map Char.toLower

def WeekdayName (t : List Char) : Prop := ∃ n ∈ ["Mon", "Tue", "Wed", "Thu", "Fri", "Sat", "Sun"], SameLetters t n

def ShortMonth (t : List Char) (m : Nat) : Prop :=
  ∃ p ∈ [("Jan", 1), ("Feb", 2), ("Mar", 3), ("Apr", 4), ("May", 5), ("Jun", 6), ("Jul", 7), ("Aug", 8), ("Sep", 9), ("Oct", 10), ("Nov", 11), ("Dec", 12)], p.2 = m ∧ SameLetters t p.1

def LongMonth (t : List Char) (m : Nat) : Prop :=
  ∃ p ∈ [("January", 1), ("February", 2), ("March", 3), ("April", 4), ("May", 5), ("June", 6), ("July", 7), ("August", 8), ("September", 9), ("October", 10), ("November", 11), ("December", 12)],
    p.2 = m ∧ SameLetters t p.1

/-- One or two digits. -/
def Small (f : List Char) (n : Nat) : Prop := Denotes f n ∧ (f.length = 1 ∨ f.length = 2)

/-- The parts of a moment. -/
structure Stamp (y b d h mi s : List Char) (r : DateTime) : Prop where
  year : Denotes y r.year
  four : y.length = 4
  month : ShortMonth b r.month
  day : Small d r.day
  hour : Small h r.hour
  minute : Small mi r.minute
  second : Small s r.second
  micro : r.microsecond = 0
  good : GoodTime r

/-- The time zone: none, or `+HH00`. -/
def ZoneMeans (zp : List (List Char)) (z : Option Int) : Prop :=
  (zp = [] ∧ z = none) ∨ ∃ f n, zp = ['+' :: (f ++ ['0', '0'])] ∧ f.length = 2 ∧ Denotes f n ∧ z = some (n : Int)

/-- The meaning of the parts. -/
inductive NamedMeans : List (List Char) → Named → Prop
  | iso (a y b d h mi s : List Char) (r : DateTime) (zp : List (List Char)) (z : Option Int) : WeekdayName a → Stamp y b d h mi s r → ZoneMeans zp z →
      NamedMeans ([a ++ [','], d, b, y, h, mi, s] ++ zp) (.datetime r z)
  | riff (a y b d h mi s : List Char) (r : DateTime) (zp : List (List Char)) (z : Option Int) : WeekdayName a → Stamp y b d h mi s r → ZoneMeans zp z →
      NamedMeans ([a, b, d, h, mi, s, y] ++ zp) (.datetime r z)
  | month (b y : List Char) (Y M : Nat) : LongMonth b M → Denotes y Y → y.length = 4 → GoodDay Y M 1 → NamedMeans [b, y] (.date ⟨Y, M, 1, 0, 0, 0, 0⟩)

/-! ### Parts -/

theorem isWeekday_iff (t : List Char) : isWeekday t = true ↔ WeekdayName t := by
  simp only [isWeekday, WeekdayName, SameLetters, lowered, List.any_eq_true, beq_iff_eq]
  generalize t.map Char.toLower = u
  constructor
  · rintro ⟨n, hn, rfl⟩
    have : ∀ n ∈ ["mon", "tue", "wed", "thu", "fri", "sat", "sun"], ∃ m ∈ ["Mon", "Tue", "Wed", "Thu", "Fri", "Sat", "Sun"], n.toList = m.toList.map Char.toLower := by decide +kernel
    exact this n hn
  · rintro ⟨n, hn, rfl⟩
    have : ∀ n ∈ ["Mon", "Tue", "Wed", "Thu", "Fri", "Sat", "Sun"], ∃ m ∈ ["mon", "tue", "wed", "thu", "fri", "sat", "sun"], m.toList = n.toList.map Char.toLower := by decide +kernel
    exact this n hn

theorem monthOf_some (names : List String) (t : List Char) (m : Nat) (h : monthOf names t = some m) : ∃ i, ∃ h : i < names.length, m = i + 1 ∧ names[i].toList = lowered t := by
  rw [monthOf, Option.map_eq_some_iff] at h
  obtain ⟨i, hi, rfl⟩ := h
  rw [List.findIdx?_eq_some_iff_getElem] at hi
  obtain ⟨h, h1, _⟩ := hi
  exact ⟨i, h, rfl, by simpa using h1⟩

theorem shortMonth_iff (t : List Char) (m : Nat) : monthOf shortNames t = some m ↔ ShortMonth t m := by
  constructor
  · intro h
    obtain ⟨i, hi, rfl, e⟩ := monthOf_some _ _ _ h
    simp only [ShortMonth, SameLetters]
    rw [lowered] at e
    rw [← e]
    have : ∀ i : Fin 12, ∃ p ∈ [("Jan", 1), ("Feb", 2), ("Mar", 3), ("Apr", 4), ("May", 5), ("Jun", 6), ("Jul", 7), ("Aug", 8), ("Sep", 9), ("Oct", 10), ("Nov", 11), ("Dec", 12)],
        p.2 = i.val + 1 ∧ (shortNames[i.val]).toList = p.1.toList.map Char.toLower := by decide +kernel
    exact this ⟨i, hi⟩
  · rintro ⟨p, hp, rfl, e⟩
    rw [monthOf, lowered]
    rw [SameLetters] at e
    rw [e]
    clear e
    revert p
    decide +kernel

theorem longMonth_iff (t : List Char) (m : Nat) : monthOf longNames t = some m ↔ LongMonth t m := by
  constructor
  · intro h
    obtain ⟨i, hi, rfl, e⟩ := monthOf_some _ _ _ h
    simp only [LongMonth, SameLetters]
    rw [lowered] at e
    rw [← e]
    have : ∀ i : Fin 12, ∃ p ∈ [("January", 1), ("February", 2), ("March", 3), ("April", 4), ("May", 5), ("June", 6), ("July", 7), ("August", 8), ("September", 9), ("October", 10), ("November", 11), ("December", 12)],
        p.2 = i.val + 1 ∧ (longNames[i.val]).toList = p.1.toList.map Char.toLower := by decide +kernel
    exact this ⟨i, hi⟩
  · rintro ⟨p, hp, rfl, e⟩
    rw [monthOf, lowered]
    rw [SameLetters] at e
    rw [e]
    clear e
    revert p
    decide +kernel

theorem ranged_iff (lo hi : Nat) (f : List Char) : ranged lo hi f = true ↔ Small f (number f) ∧ lo ≤ number f ∧ number f ≤ hi := by
  simp only [ranged, Bool.and_eq_true, decide_eq_true_eq, oneOrTwo_iff, Small]
  tauto

theorem denotes_number (f : List Char) (n : Nat) (h : Denotes f n) : number f = n := ((denotes_iff f n).mp h).2.symm

theorem moment_iff (y b d h mi s : List Char) (r : DateTime) : moment y b d h mi s = some r ↔ Stamp y b d h mi s r := by
  constructor
  · intro e
    rw [moment] at e
    split at e
    · rename_i hc
      simp only [Bool.and_eq_true, exactly_iff, ranged_iff] at hc
      obtain ⟨⟨⟨⟨⟨y1, y2⟩, d1⟩, h1⟩, m1⟩, s1⟩ := hc
      split at e
      · rename_i m hm
        split at e
        · rename_i r' hr
          cases e
          obtain ⟨g, g1, g2, g3, rfl⟩ := (datetime_iff _ _ _ _ _ _ _).mp hr
          exact ⟨y2, y1, (shortMonth_iff _ _).mp hm, d1.1, h1.1, m1.1, s1.1, rfl, g, g1, g2, g3, by show 0 < 1000000; decide⟩
        · cases e
      · cases e
    · cases e
  · rintro ⟨y1, y2, m, d1, h1, m1, s1, u, g⟩
    have ny := denotes_number _ _ y1
    have nd := denotes_number _ _ d1.1
    have nh := denotes_number _ _ h1.1
    have nm := denotes_number _ _ m1.1
    have ns := denotes_number _ _ s1.1
    obtain ⟨g0, g1, g2, g3, _⟩ := g
    have hd : 1 ≤ r.day ∧ r.day ≤ 31 := by
      obtain ⟨⟨h1, h2, h3, h4, h5⟩, h6⟩ := g0
      simp only at h4 h5
      have : Spec.monthLength r.year r.month ≤ 31 := by
        unfold Spec.monthLength
        repeat' split
        all_goals omega
      omega
    rw [moment, if_pos, (shortMonth_iff _ _).mpr m]
    · simp only
      have : datetime (number y) r.month (number d) (number h) (number mi) (number s) = .ok r := by
        rw [datetime_iff, ny, nd, nh, nm, ns]
        refine ⟨g0, g1, g2, g3, ?_⟩
        cases r
        simp_all
      rw [this]
    · simp only [Bool.and_eq_true, exactly_iff, ranged_iff, nd, nh, nm, ns, ny]
      exact ⟨⟨⟨⟨⟨y2, y1⟩, d1, hd⟩, h1, by omega, by omega⟩, m1, by omega, by omega⟩, s1, by omega, by omega⟩

theorem zoneOf_spec (fs : List (List Char)) (hc : ∀ f ∈ fs, '-' ∉ f) : ∃ zp, fs = (zoneOf fs).1 ++ zp ∧ ZoneMeans zp (zoneOf fs).2 := by
  rw [zoneOf]
  split
  · rename_i g a b c d hl
    split
    · rename_i hx
      simp only [Bool.and_eq_true, Bool.or_eq_true, beq_iff_eq, decide_eq_true_eq] at hx
      obtain ⟨⟨⟨⟨⟨hg, ha⟩, hb⟩, rfl⟩, rfl⟩, _⟩ := hx
      have hmem := List.mem_of_getLast? hl
      have hg' : g = '+' := by
        rcases hg with h | h
        · exact h
        · exact absurd (by simp [h]) (hc _ hmem)
      subst hg'
      have hne : fs ≠ [] := List.ne_nil_of_mem hmem
      refine ⟨[['+', a, b, '0', '0']], ?_, .inr ⟨[a, b], number [a, b], rfl, rfl, (denotes_iff _ _).mpr ⟨by simp [ha, hb], rfl⟩, by simp⟩⟩
      have := List.dropLast_append_getLast hne
      rw [List.getLast?_eq_some_getLast hne] at hl
      rw [Option.some.injEq] at hl
      rw [hl] at this
      exact this.symm
    · exact ⟨[], by simp, .inl ⟨rfl, rfl⟩⟩
  · exact ⟨[], by simp, .inl ⟨rfl, rfl⟩⟩

theorem zoneOf_append (l : List (List Char)) (x : List Char) (zp : List (List Char)) (z : Option Int) (hx : x.length ≠ 5) (h : ZoneMeans zp z) :
    zoneOf ((l ++ [x]) ++ zp) = (l ++ [x], z) := by
  rcases h with ⟨rfl, rfl⟩ | ⟨f, n, rfl, hf, hd, rfl⟩
  · rw [List.append_nil, zoneOf]
    split
    · rename_i g a b c d hl
      rw [List.getLast?_append] at hl
      simp at hl
      rw [hl] at hx
      exact absurd rfl hx
    · rfl
  · match f, hf with
    | [a, b], _ =>
      obtain ⟨h1, h2⟩ := (denotes_iff _ _).mp hd
      simp only [List.all_cons, List.all_nil, Bool.and_true, Bool.and_eq_true] at h1
      rw [zoneOf]
      simp only [List.cons_append, List.nil_append, List.getLast?_append, List.getLast?_singleton, Option.some_or, List.dropLast_concat]
      rw [if_pos (by simp [h1.1, h1.2])]
      simp [h2]

theorem named_iff (fs : List (List Char)) (hc : ∀ f ∈ fs, '-' ∉ f) (r : Named) : namedFields fs = some r ↔ NamedMeans fs r := by
  constructor
  · intro h
    obtain ⟨zp, hfs, hz⟩ := zoneOf_spec fs hc
    rw [namedFields] at h
    generalize (zoneOf fs).1 = w at h hfs
    generalize (zoneOf fs).2 = z at h hz
    split at h
    · rename_i x hx
      cases h
      rw [isoStamp.eq_def] at hx
      split at hx
      · rename_i a d b y hh mi s
        split at hx
        · rename_i hw
          simp only [Bool.and_eq_true, decide_eq_true_eq] at hw
          have hne : a ≠ [] := by rintro rfl; simp at hw
          have ha : a = a.dropLast ++ [','] := by
            have := List.dropLast_append_getLast hne
            rw [List.getLast?_eq_some_getLast hne, Option.some.injEq] at hw
            rw [hw.1] at this
            exact this.symm
          rw [hfs, ha]
          exact .iso _ _ _ _ _ _ _ _ _ _ ((isWeekday_iff _).mp hw.2) ((moment_iff _ _ _ _ _ _ _).mp hx) hz
        · cases hx
      · cases hx
    · split at h
      · rename_i x hx
        cases h
        rw [riffStamp.eq_def] at hx
        split at hx
        · split at hx
          · rename_i hw
            rw [hfs]
            exact .riff _ _ _ _ _ _ _ _ _ _ ((isWeekday_iff _).mp hw) ((moment_iff _ _ _ _ _ _ _).mp hx) hz
          · cases hx
        · cases hx
      · rw [Option.map_eq_some_iff] at h
        obtain ⟨x, hx, rfl⟩ := h
        rw [monthYear.eq_def] at hx
        split at hx
        · split at hx
          · rename_i hy
            rw [exactly_iff] at hy
            split at hx
            · rename_i m hm
              split at hx
              · rename_i r' hr
                cases hx
                obtain ⟨g, -, -, -, rfl⟩ := (datetime_iff _ _ _ _ _ _ _).mp hr
                exact .month _ _ _ _ ((longMonth_iff _ _).mp hm) hy.2 hy.1 g
              · cases hx
            · cases hx
          · cases hx
        · cases hx
  · intro h
    rw [namedFields]
    cases h with
    | iso a y b d hh mi s r zp z hw hs hz =>
      have := zoneOf_append [a ++ [','], d, b, y, hh, mi] s zp z (by rcases hs.second.2 with h | h <;> omega) hz
      simp only [List.cons_append, List.nil_append] at this ⊢
      rw [this]
      simp only [isoStamp]
      rw [if_pos (by simp [(isWeekday_iff _).mpr hw]), (moment_iff _ _ _ _ _ _ _).mpr hs]
    | riff a y b d hh mi s r zp z hw hs hz =>
      have := zoneOf_append [a, b, d, hh, mi, s] y zp z (by rw [hs.four]; decide) hz
      simp only [List.cons_append, List.nil_append] at this ⊢
      rw [this]
      have hn : isoStamp [a, b, d, hh, mi, s, y] = none := by
        simp only [isoStamp]
        rw [if_neg]
        intro hc
        simp only [Bool.and_eq_true, decide_eq_true_eq] at hc
        obtain ⟨n, hn, e⟩ := hw
        rw [SameLetters] at e
        have h1 : (a.map Char.toLower).getLast? = some ',' := by
          rw [List.getLast?_map, hc.1]; rfl
        rw [e] at h1
        clear e
        revert n
        decide +kernel
      rw [hn]
      simp only [riffStamp]
      rw [if_pos ((isWeekday_iff _).mpr hw), (moment_iff _ _ _ _ _ _ _).mpr hs]
    | month b y Y M hm hy hl g =>
      have := zoneOf_append [b] y [] none (by omega) (.inl ⟨rfl, rfl⟩)
      simp only [List.cons_append, List.nil_append] at this
      rw [this]
      simp only [isoStamp, riffStamp, monthYear]
      rw [if_pos ((exactly_iff 4 y).mpr ⟨hl, by rw [denotes_number _ _ hy]; exact hy⟩), (longMonth_iff _ _).mpr hm, denotes_number _ _ hy]
      simp only
      rw [(datetime_iff Y M 1 0 0 0 ⟨Y, M, 1, 0, 0, 0, 0⟩).mpr ⟨g, by decide, by decide, by decide, rfl⟩]
      rfl

/-! ### Texts -/

theorem normalize_clean (t : List Char) : ∀ (b : Bool), ∀ c ∈ normalize b t, isSep c = false := by
  induction t with
  | nil => intro b c hc; simp [normalize] at hc
  | cons x t ih =>
    intro b c hc
    rw [normalize] at hc
    split at hc
    · split at hc
      · exact ih _ c hc
      · rcases List.mem_cons.1 hc with rfl | hc
        · decide
        · exact ih _ c hc
    · rename_i hx
      rcases List.mem_cons.1 hc with rfl | hc
      · simpa using hx
      · exact ih _ c hc

theorem splitTilde_mem (t : List Char) : ∀ f ∈ splitTilde t, ∀ c ∈ f, c ∈ t := by
  induction t with
  | nil => intro f hf c hc; simp [splitTilde] at hf; simp [hf] at hc
  | cons x t ih =>
    intro f hf c hc
    rw [splitTilde] at hf
    split at hf
    · rcases List.mem_cons.1 hf with rfl | hf
      · simp at hc
      · exact List.mem_cons_of_mem _ (ih f hf c hc)
    · split at hf
      · rcases List.mem_cons.1 hf with rfl | hf
        · simp at hc; simp [hc]
        · simp at hf
      · rename_i g gs hg
        rcases List.mem_cons.1 hf with rfl | hf
        · rcases List.mem_cons.1 hc with rfl | hc
          · simp
          · exact List.mem_cons_of_mem _ (ih g (by rw [hg]; simp) c hc)
        · exact List.mem_cons_of_mem _ (ih f (by rw [hg]; simp [hf]) c hc)

/-- The parts of a text. -/
def partsOf (t : List Char) : List (List Char) := splitTilde (normalize false (stripText t))

theorem parts_no_minus (t : List Char) : ∀ f ∈ partsOf t, '-' ∉ f := by
  intro f hf hc
  have := normalize_clean _ _ '-' (splitTilde_mem _ f hf _ hc)
  exact absurd this (by decide)

theorem white_lower (c : Char) (h : isWhite c = true) : c.toLower = c := by
  have h2 : ¬ (65 ≤ c.toNat ∧ c.toNat ≤ 90) := by
    unfold isWhite at h
    simp only [Bool.or_eq_true, Bool.and_eq_true, decide_eq_true_eq, beq_iff_eq] at h
    omega
  unfold Char.toLower
  split
  · rename_i hx
    exact absurd ⟨hx.1, hx.2⟩ h2
  · rfl

theorem letters_field (t : List Char) (n : String) (h : SameLetters t n) (hn : n.toList ≠ []) (hw : ∀ c ∈ n.toList.map Char.toLower, isWhite c = false) :
    t ≠ [] ∧ ∀ c ∈ t, isWhite c = false := by
  rw [SameLetters] at h
  refine ⟨?_, fun c hc => ?_⟩
  · rintro rfl
    simp at h
    exact hn (by simp [h])
  · by_contra hx
    rw [Bool.not_eq_false] at hx
    have : c.toLower ∈ n.toList.map Char.toLower := by rw [← h]; exact List.mem_map_of_mem hc
    have := hw _ this
    rw [white_lower c hx, hx] at this
    cases this

theorem weekday_field (t : List Char) (h : WeekdayName t) : t ≠ [] ∧ ∀ c ∈ t, isWhite c = false := by
  obtain ⟨n, hn, h⟩ := h
  have : ∀ n ∈ ["Mon", "Tue", "Wed", "Thu", "Fri", "Sat", "Sun"], n.toList ≠ [] ∧ ∀ c ∈ n.toList.map Char.toLower, isWhite c = false := by decide +kernel
  exact letters_field t n h (this n hn).1 (this n hn).2

theorem short_field (t : List Char) (m : Nat) (h : ShortMonth t m) : t ≠ [] ∧ ∀ c ∈ t, isWhite c = false := by
  obtain ⟨n, hn, _, h⟩ := h
  have : ∀ n ∈ [("Jan", 1), ("Feb", 2), ("Mar", 3), ("Apr", 4), ("May", 5), ("Jun", 6), ("Jul", 7), ("Aug", 8), ("Sep", 9), ("Oct", 10), ("Nov", 11), ("Dec", 12)],
    n.1.toList ≠ [] ∧ ∀ c ∈ n.1.toList.map Char.toLower, isWhite c = false := by decide +kernel
  exact letters_field t n.1 h (this n hn).1 (this n hn).2

theorem long_field (t : List Char) (m : Nat) (h : LongMonth t m) : t ≠ [] ∧ ∀ c ∈ t, isWhite c = false := by
  obtain ⟨n, hn, _, h⟩ := h
  have : ∀ n ∈ [("January", 1), ("February", 2), ("March", 3), ("April", 4), ("May", 5), ("June", 6), ("July", 7), ("August", 8), ("September", 9), ("October", 10), ("November", 11), ("December", 12)],
    n.1.toList ≠ [] ∧ ∀ c ∈ n.1.toList.map Char.toLower, isWhite c = false := by decide +kernel
  exact letters_field t n.1 h (this n hn).1 (this n hn).2

theorem digits_field (t : List Char) (n : Nat) (h : Denotes t n) (hl : 0 < t.length) : t ≠ [] ∧ ∀ c ∈ t, isWhite c = false :=
  ⟨List.ne_nil_of_length_pos hl, fun c hc => digit_no_space c (h.1 c hc)⟩

theorem zone_field (zp : List (List Char)) (z : Option Int) (h : ZoneMeans zp z) : ∀ f ∈ zp, f ≠ [] ∧ ∀ c ∈ f, isWhite c = false := by
  rcases h with ⟨rfl, _⟩ | ⟨f, n, rfl, hf, hd, _⟩
  · simp
  · intro g hg
    rw [List.mem_singleton] at hg
    subst hg
    refine ⟨by simp, fun c hc => ?_⟩
    simp only [List.mem_cons, List.mem_append, List.not_mem_nil, or_false] at hc
    rcases hc with rfl | hc | rfl | rfl
    · decide
    · exact digit_no_space c (hd.1 c hc)
    · decide
    · decide

theorem stamp_fields (y b d h mi s : List Char) (r : DateTime) (hs : Stamp y b d h mi s r) : ∀ f ∈ [y, b, d, h, mi, s], f ≠ [] ∧ ∀ c ∈ f, isWhite c = false := by
  have sm : ∀ f n, Small f n → f ≠ [] ∧ ∀ c ∈ f, isWhite c = false := fun f n h => digits_field f n h.1 (by rcases h.2 with h | h <;> omega)
  intro f hf
  simp only [List.mem_cons, List.not_mem_nil, or_false] at hf
  rcases hf with rfl | rfl | rfl | rfl | rfl | rfl
  · exact digits_field _ _ hs.year (by rw [hs.four]; decide)
  · exact short_field _ _ hs.month
  · exact sm _ _ hs.day
  · exact sm _ _ hs.hour
  · exact sm _ _ hs.minute
  · exact sm _ _ hs.second

theorem comma_field (a : List Char) (h : WeekdayName a) : (a ++ [',']) ≠ [] ∧ ∀ c ∈ a ++ [','], isWhite c = false := by
  refine ⟨by simp, fun c hc => ?_⟩
  rcases List.mem_append.1 hc with hc | hc
  · exact (weekday_field a h).2 c hc
  · rw [List.mem_singleton.1 hc]; decide

theorem named_fields (fs : List (List Char)) (r : Named) (h : NamedMeans fs r) : ∀ f ∈ fs, f ≠ [] ∧ ∀ c ∈ f, isWhite c = false := by
  cases h with
  | iso a y b d hh mi s r zp z hw hs hz =>
    have hst := stamp_fields _ _ _ _ _ _ _ hs
    intro f hf
    rcases List.mem_append.1 hf with hf | hf
    · simp only [List.mem_cons, List.not_mem_nil, or_false] at hf
      rcases hf with rfl | rfl | rfl | rfl | rfl | rfl | rfl
      · exact comma_field a hw
      all_goals exact hst _ (by simp)
    · exact zone_field _ _ hz f hf
  | riff a y b d hh mi s r zp z hw hs hz =>
    have hst := stamp_fields _ _ _ _ _ _ _ hs
    intro f hf
    rcases List.mem_append.1 hf with hf | hf
    · simp only [List.mem_cons, List.not_mem_nil, or_false] at hf
      rcases hf with rfl | rfl | rfl | rfl | rfl | rfl | rfl
      · exact weekday_field _ hw
      all_goals exact hst _ (by simp)
    · exact zone_field _ _ hz f hf
  | month b y Y M hm hy hl g =>
    intro f hf
    simp only [List.mem_cons, List.not_mem_nil, or_false] at hf
    rcases hf with rfl | rfl
    · exact long_field _ _ hm
    · exact digits_field _ _ hy (by omega)

theorem separated_ends_white (fs : List (List Char)) (t : List Char) (h : Separated fs t) (hd : ∀ f ∈ fs, ∀ c ∈ f, isWhite c = false) :
    t ≠ [] ∧ (∀ c ∈ t.head?, isWhite c = false) ∧ (∀ c ∈ t.getLast?, isWhite c = false) := by
  induction h with
  | one f hf =>
    exact ⟨hf.1, fun c hc => hd f (by simp) c (List.mem_of_mem_head? hc), fun c hc => hd f (by simp) c (List.mem_of_getLast? hc)⟩
  | cons f sep fs rest hf hs hr ih =>
    obtain ⟨i1, i2, i3⟩ := ih fun g hg => hd g (by simp [hg])
    refine ⟨by simp [i1], fun c hc => ?_, fun c hc => ?_⟩
    · cases f with
      | nil => exact absurd rfl hf.1
      | cons x f =>
        simp only [List.cons_append, List.head?_cons, Option.mem_some_iff] at hc
        subst hc
        exact hd (x :: f) (by simp) x (by simp)
    · rw [List.getLast?_append] at hc
      cases hg : rest.getLast? with
      | none => exact absurd (List.getLast?_eq_none_iff.1 hg) i1
      | some z =>
        rw [hg] at hc
        exact i3 c (by rw [hg]; exact hc)

theorem parts_separated (before core after : List Char) (fs : List (List Char)) (hb : ∀ c ∈ before, isWhite c = true) (ha : ∀ c ∈ after, isWhite c = true) (hs : Separated fs core)
    (hd : ∀ f ∈ fs, ∀ c ∈ f, isWhite c = false) : partsOf (before ++ core ++ after) = fs := by
  obtain ⟨e1, e2, e3⟩ := separated_ends_white fs core hs hd
  rw [partsOf, stripText_core before core after hb ha e1 e2 e3, split_of_separated fs core hs]

theorem named_not_digits (fs : List (List Char)) (r : Named) (h : NamedMeans fs r) : ∃ f ∈ fs, ¬ Digits f := by
  have key : ∀ (t : List Char) (n : String), SameLetters t n → (∃ c ∈ n.toList.map Char.toLower, ∀ x : Char, digit x = true → x.toLower ≠ c) → ¬ Digits t := by
    rintro t n h ⟨c, hc, hx⟩ hd
    rw [SameLetters] at h
    rw [← h, List.mem_map] at hc
    obtain ⟨x, hx1, hx2⟩ := hc
    exact hx x ((digit_iff x).mpr (hd x hx1)) hx2
  have low : ∀ c : Char, 97 ≤ c.toNat → ∀ x : Char, digit x = true → x.toLower ≠ c := by
    intro c hc x hx e
    unfold digit at hx
    simp only [Bool.and_eq_true, decide_eq_true_eq] at hx
    have : x.toLower = x := by
      unfold Char.toLower
      split
      · rename_i h1
        have : 65 ≤ x.toNat := h1.1
        omega
      · rfl
    rw [this] at e
    subst e
    omega
  have wk : ∀ a, WeekdayName a → ¬ Digits a := by
    rintro a ⟨n, hn, h⟩
    have : ∀ n ∈ ["Mon", "Tue", "Wed", "Thu", "Fri", "Sat", "Sun"], ∃ c ∈ n.toList.map Char.toLower, 97 ≤ c.toNat := by decide +kernel
    obtain ⟨c, h1, h2⟩ := this n hn
    exact key a n h ⟨c, h1, low c h2⟩
  cases h with
  | iso a y b d hh mi s r zp z hw hs hz =>
    refine ⟨a ++ [','], by simp, fun h => wk a hw fun c hc => h c (by simp [hc])⟩
  | riff a y b d hh mi s r zp z hw hs hz => exact ⟨a, by simp, wk a hw⟩
  | month b y Y M hm hy hl g =>
    obtain ⟨n, hn, _, h⟩ := hm
    have : ∀ n ∈ [("January", 1), ("February", 2), ("March", 3), ("April", 4), ("May", 5), ("June", 6), ("July", 7), ("August", 8), ("September", 9), ("October", 10), ("November", 11), ("December", 12)],
      ∃ c ∈ n.1.toList.map Char.toLower, 97 ≤ c.toNat := by decide +kernel
    obtain ⟨c, h1, h2⟩ := this n hn
    exact ⟨b, by simp, key b n.1 h ⟨c, h1, low c h2⟩⟩

/-- **C159.** A text is read as a date with the name of a month exactly when it is made, white space around it apart, of the parts of one of the three forms with
separators between them; the result is the moment that the parts denote. -/
theorem C159_named (t : List Char) (r : Named) : readDate t = some (.named r) ↔
    ∃ before core after fs, t = before ++ core ++ after ∧ (∀ c ∈ before, isWhite c = true) ∧ (∀ c ∈ after, isWhite c = true) ∧ Separated fs core ∧ NamedMeans fs r := by
  constructor
  · intro h
    rw [readDate] at h
    split at h
    · cases h
    · rw [Option.map_eq_some_iff] at h
      obtain ⟨x, hx, e⟩ := h
      cases e
      have hm := (named_iff _ (parts_no_minus t) _).mp hx
      obtain ⟨before, after, e, hb, ha⟩ := stripText_split t
      exact ⟨before, stripText t, after, _, e, hb, ha, separated_of_split _ _ rfl fun f hf => (named_fields _ _ hm f hf).1, hm⟩
  · rintro ⟨before, core, after, fs, e, hb, ha, hs, hm⟩
    have hp := parts_separated before core after fs hb ha hs fun f hf => (named_fields _ _ hm f hf).2
    rw [← e] at hp
    have hn : parseNumeric t = none := by
      cases hq : parseNumeric t with
      | none => rfl
      | some q =>
        have : parseFields (partsOf t) = some q := hq
        rw [hp, parseFields_iff] at this
        obtain ⟨f, hf, hd⟩ := named_not_digits fs r hm
        exact absurd (means_fields _ _ this f hf).2 hd
    rw [readDate, hn]
    simp only
    have : namedFields (partsOf t) = some r := (named_iff _ (parts_no_minus t) _).mpr (by rw [hp]; exact hm)
    rw [partsOf] at this
    rw [this]
    rfl

example : readDate " Thu, 19 Jul 2007 09:03:57 +0200\n".toList = some (.named (.datetime ⟨2007, 7, 19, 9, 3, 57, 0⟩ (some 2))) := by decide +kernel
example : readDate "Sun Feb 24 15:51:09 2008".toList = some (.named (.datetime ⟨2008, 2, 24, 15, 51, 9, 0⟩ none)) := by decide +kernel
example : readDate "February 2007".toList = some (.named (.date ⟨2007, 2, 1, 0, 0, 0, 0⟩)) := by decide +kernel
/-- The name of the day is not compared with the date. -/
example : readDate "MON, 19 JUL 2007 9:3:57".toList = some (.named (.datetime ⟨2007, 7, 19, 9, 3, 57, 0⟩ none)) := by decide +kernel

/-! ### Time zones -/

theorem separated_append (fs : List (List Char)) (t sep f : List Char) (h : Separated fs t) (hs : Separator sep) (hf : CleanField f) : Separated (fs ++ [f]) (t ++ sep ++ f) := by
  induction h with
  | one g hg => exact .cons g sep [f] f hg hs (.one f hf)
  | cons g s gs rest hg hgs hr ih =>
    have := Separated.cons g s (gs ++ [f]) (rest ++ sep ++ f) hg hgs ih
    simpa [List.append_assoc] using this

theorem zone_ne (zp : List (List Char)) (z : Option Int) (f : List Char) (h : ZoneMeans zp z) (hf : zp = [f]) : ∃ g n, f = '+' :: (g ++ ['0', '0']) ∧ g.length = 2 ∧ Denotes g n := by
  rcases h with ⟨rfl, _⟩ | ⟨g, n, rfl, h1, h2, _⟩
  · cases hf
  · rw [List.cons.injEq] at hf
    exact ⟨g, n, hf.1.symm, h1, h2⟩

/-- A moment with one part more, which is not a time zone as it should be, is not read. -/
theorem no_extra (fs : List (List Char)) (r : DateTime) (f t : List Char) (h : NamedMeans fs (.datetime r none)) (hf : ∀ g n, f = '+' :: (g ++ ['0', '0']) → g.length = 2 → ¬ Denotes g n)
    (hp : partsOf t = fs ++ [f]) : readDate t = none := by
  have hl : fs.length = 7 := by
    cases h with
    | iso a y b d hh mi s r zp z hw hs hz => rcases hz with ⟨rfl, _⟩ | ⟨_, _, _, _, _, e⟩ <;> [rfl; cases e]
    | riff a y b d hh mi s r zp z hw hs hz => rcases hz with ⟨rfl, _⟩ | ⟨_, _, _, _, _, e⟩ <;> [rfl; cases e]
  have hn : parseNumeric t = none := by
    cases hq : parseNumeric t with
    | none => rfl
    | some q =>
      have : parseFields (partsOf t) = some q := hq
      rw [hp, parseFields_iff] at this
      obtain ⟨g, hg, hd⟩ := named_not_digits fs _ h
      exact absurd (means_fields _ _ this g (by simp [hg])).2 hd
  rw [readDate, hn]
  simp only
  cases hq : namedFields (splitTilde (normalize false (stripText t))) with
  | none => rfl
  | some q =>
    have := (named_iff _ (parts_no_minus t) q).mp hq
    rw [hp] at this
    exfalso
    have key : ∀ (l zp : List (List Char)) (z : Option Int), fs ++ [f] = l ++ zp → l.length = 7 → ZoneMeans zp z → False := by
      intro l zp z e hll hz
      have e2 := List.append_inj e (by omega)
      obtain ⟨g, n, h1, h2, h3⟩ := zone_ne zp z f hz e2.2.symm
      exact hf g n h1 h2 h3
    generalize hx : fs ++ [f] = x at this
    cases this with
    | iso a y b d hh mi s r zp z hw hs hz => exact key [a ++ [','], d, b, y, hh, mi, s] zp z hx rfl hz
    | riff a y b d hh mi s r zp z hw hs hz => exact key [a, b, d, hh, mi, s, y] zp z hx rfl hz
    | month b y Y M hm hy hl' g =>
      have := congrArg List.length hx
      simp [hl] at this

/-- **C159** (disagreement): a moment west of Greenwich is not read at all: the sign is a separator, and what is left of the time zone is no time zone. -/
theorem C159_west (fs : List (List Char)) (core f : List Char) (r : DateTime) (hs : Separated fs core) (h : NamedMeans fs (.datetime r none)) (hf : f.length = 4) (hd : Digits f) :
    readDate (core ++ [' ', '-'] ++ f) = none := by
  have hne : f ≠ [] := by rintro rfl; cases hf
  have hcl : CleanField f := by
    refine clean_of f hne fun c hc => ?_
    have := (digit_iff c).mpr (hd c hc)
    unfold digit at this
    simp only [Bool.and_eq_true, decide_eq_true_eq] at this
    simp only [isSep, Bool.or_eq_false_iff, beq_eq_false_iff_ne]
    refine ⟨⟨⟨⟨⟨?_, ?_⟩, ?_⟩, ?_⟩, ?_⟩, ?_⟩ <;> (rintro rfl; exact absurd this (by decide))
  have hsep := separated_append fs core [' ', '-'] f hs (.inr ⟨by simp, by simp⟩) hcl
  refine no_extra fs r f _ h ?_ ?_
  · rintro g n rfl hg
    simp [hg] at hf
  · have := parts_separated [] _ [] _ (by simp) (by simp) hsep fun g hg => by
      rcases List.mem_append.1 hg with hg | hg
      · exact (named_fields _ _ h g hg).2
      · rw [List.mem_singleton.1 hg]
        exact fun c hc => digit_no_space c (hd c hc)
    simpa using this

example : readDate "Thu, 19 Jul 2007 09:03:57 -0500".toList = none := by decide +kernel

/-- **C159** (disagreement): a moment with a time zone that is not of full hours is not read at all. -/
theorem C159_half (fs : List (List Char)) (core f : List Char) (r : DateTime) (hs : Separated fs core) (h : NamedMeans fs (.datetime r none)) (hd : Digits f)
    (hm : f.drop 2 ≠ ['0', '0']) : readDate (core ++ [' '] ++ '+' :: f) = none := by
  have hcl : CleanField ('+' :: f) := by
    refine clean_of _ (by simp) fun c hc => ?_
    rcases List.mem_cons.1 hc with rfl | hc
    · decide
    have := (digit_iff c).mpr (hd c hc)
    unfold digit at this
    simp only [Bool.and_eq_true, decide_eq_true_eq] at this
    simp only [isSep, Bool.or_eq_false_iff, beq_eq_false_iff_ne]
    refine ⟨⟨⟨⟨⟨?_, ?_⟩, ?_⟩, ?_⟩, ?_⟩, ?_⟩ <;> (rintro rfl; exact absurd this (by decide))
  have hsep := separated_append fs core [' '] ('+' :: f) hs (.inr ⟨by simp, by simp⟩) hcl
  refine no_extra fs r ('+' :: f) _ h ?_ ?_
  · rintro g n e hg
    rw [List.cons.injEq] at e
    rw [e.2, List.drop_append_of_le_length (by omega), List.drop_of_length_le (by omega)] at hm
    exact absurd rfl hm
  · have := parts_separated [] _ [] _ (by simp) (by simp) hsep fun g hg => by
      rcases List.mem_append.1 hg with hg | hg
      · exact (named_fields _ _ h g hg).2
      · rw [List.mem_singleton.1 hg]
        intro c hc
        rcases List.mem_cons.1 hc with rfl | hc
        · decide
        · exact digit_no_space c (hd c hc)
    simpa using this

example : readDate "Thu, 19 Jul 2007 09:03:57 +0530".toList = none := by decide +kernel

/-! ### What is told -/

/-- The dates told of moments with time zones: those from 1850 to the last day of 2030, in UTC. -/
def zonedTold (r : DateTime) (z : Int) : Bool := clock ⟨1850, 1, 1, 0, 0, 0, 0⟩ ≤ instant r z && instant r z ≤ clock ⟨2030, 12, 31, 0, 0, 0, 0⟩

theorem readConv_named (t : List Char) (r : DateTime) (z : Option Int) (h : readDate t = some (.named (.datetime r z))) : readConv (t.map Char.toNat) = .value (.datetime r z) := by
  have : (t.map Char.toNat).map Char.ofNat = t := by
    rw [List.map_map]
    conv_rhs => rw [← List.map_id t]
    refine List.map_congr_left fun c _ => ?_
    simp
  rw [readConv, this, h]

/-- **C159.** A text with the time zone `+HH00` given as creation date of new metadata is told as the moment with its time zone, when the moment is one of those told. -/
theorem C159_told (cfg : Config) (env : Env) (hw : Writes env) (he : env.parseDatetime = readConv) (h : Text) (t : List Char) (r : DateTime) (z : Nat) (hz : z < 24)
    (ht : readDate t = some (.named (.datetime r (some z)))) :
    ∃ m, (Metadata.new env h).set cfg "creation_date" (.value (.text (t.map Char.toNat))) = .ok m ∧
      toldFor m "creation_date" = if zonedTold r z then [.datetime r (some (z : Int))] else [] := by
  obtain ⟨x, hx⟩ := hw.date r (some (z : Int))
  have hc := readConv_named t r _ ht
  rw [show Metadata.new env h = ⟨h, filled env fun _ => []⟩ by rw [filled_nil]; rfl]
  have hu : utcOffset (z : Int) = .ok (z : Int) := by rw [utcOffset, if_pos (by omega)]
  have hf : Filter.call .datetime (.datetime r (some (z : Int))) = .ok (zonedTold r z) := by
    simp only [Filter.call, bind, Except.bind, hu]
    rfl
  have ha := set_filled cfg env h (fun _ => []) "creation_date" (.value (.text (t.map Char.toNat))) _ (if zonedTold r z then [⟨.datetime r (some (z : Int)), x⟩] else []) (by decide) (reg_creation env) (by
    rw [Data.add, Data.candidate]
    simp only [Data.convert, setDatetime, he, hc, bind, Except.bind, Data.typeOk, Value.isInstance, List.any_cons, Bool.or_true, Bool.true_or, Bool.not_true, Bool.false_eq_true, if_false,
      contains, Data.filterOk, hf, Data.createItem, hx, List.nil_append]
    cases zonedTold r z <;> rfl)
  refine ⟨_, ha, ?_⟩
  rw [told_filled env h _ _ _ (reg_creation env), Function.update_self]
  split <;> rfl

theorem updateKey_error (k : String) (g : Data → Except PyErr Data) (e : PyErr) : ∀ (l : List Data) (d0 : Data), l.find? (fun d => d.key = k) = some d0 → g d0 = .error e → updateKey k g l = .error e
  | [], _, h, _ => by simp at h
  | d :: l, d0, h, hg => by
    rw [updateKey]
    by_cases hk : d.key = k
    · rw [List.find?_cons_of_pos (by simpa using hk)] at h
      obtain rfl : d = d0 := by simpa using h
      rw [if_pos hk, hg]
      rfl
    · rw [List.find?_cons_of_neg (by simpa using hk)] at h
      rw [if_neg hk, updateKey_error k g e l d0 h hg]
      rfl

/-- **C159** (disagreement): a time zone of 24 hours and more makes the assignment raise an exception. -/
theorem C159_raises (cfg : Config) (env : Env) (he : env.parseDatetime = readConv) (h : Text) (t : List Char) (r : DateTime) (z : Nat) (hz : 24 ≤ z)
    (ht : readDate t = some (.named (.datetime r (some z)))) : (Metadata.new env h).set cfg "creation_date" (.value (.text (t.map Char.toNat))) = .error .value := by
  have hc := readConv_named t r _ ht
  have hu : utcOffset (z : Int) = .error .value := by rw [utcOffset, if_neg (by omega)]
  have h0 : trackTotal "creation_date" (.value (.text (t.map Char.toNat))) = none := by unfold trackTotal; rw [if_neg (by decide)]
  rw [Metadata.set, h0]
  simp only
  rw [Metadata.addTo, Metadata.new]
  have : updateKey "creation_date" (fun d => d.add cfg (.value (.text (t.map Char.toNat)))) (registerAllItems env) = .error .value := by
    refine updateKey_error _ _ _ _ _ (reg_creation env) ?_
    have hf : Filter.call .datetime (.datetime r (some (z : Int))) = .error .value := by
      simp only [Filter.call, bind, Except.bind, hu]
    rw [Data.add, Data.candidate]
    simp only [Data.convert, setDatetime, he, hc, bind, Except.bind, Data.typeOk, Value.isInstance, List.any_cons, Bool.or_true, Bool.true_or, Bool.not_true, Bool.false_eq_true, if_false,
      contains, Data.filterOk, hf]
  rw [this]
  rfl

example : readDate "Thu, 19 Jul 2007 09:03:57 +9900".toList = some (.named (.datetime ⟨2007, 7, 19, 9, 3, 57, 0⟩ (some 99))) := by decide +kernel
example : zonedTold ⟨2007, 7, 19, 9, 3, 57, 0⟩ 2 = true := by decide +kernel

end Hachoir.Props
