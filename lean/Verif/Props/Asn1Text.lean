import Verif.Props.Asn1
import Verif.Props.ParseDate

/-!
# C79, C80: texts of ASN.1 object identifiers and times
-/

set_option linter.unusedVariables false

namespace Hachoir.Props
open Hachoir Hachoir.Stream Hachoir.Formats

/-! ### Object identifiers -/

/-- The dotted text of an object identifier. -/
def dotted : List Nat → Bytes
  | [] => []
  | [n] => Spec.decimal n
  | n :: ns => Spec.decimal n ++ 46 :: dotted ns

/-- The content of the object identifier `a.b.arcs`: the first two numbers are one number. -/
def oidContent (a b : Nat) (arcs : List Nat) : Bytes :=
  ((40 * a + b) :: arcs).flatMap fun n => Spec.groups (Spec.digitsBE n)

theorem dotJoin_decimal (n : Nat) (ns : List Nat) : dotJoin (Spec.decimal n :: ns.map Spec.decimal) = dotted (n :: ns) := by
  induction ns generalizing n with
  | nil => rfl
  | cons m ns ih =>
    show Spec.decimal n ++ 46 :: dotJoin (Spec.decimal m :: ns.map Spec.decimal) = _
    rw [ih]
    rfl

theorem dotJoin_head (t : Bytes) (u : Bytes) (ts : List Bytes) : dotJoin ((t ++ 46 :: u) :: ts) = t ++ 46 :: dotJoin (u :: ts) := by
  cases ts with
  | nil => rfl
  | cons v ts => simp [dotJoin]

theorem formatObjectID_eq (a b : Nat) (hb : b < 40) (arcs : List Nat) :
    formatObjectID (40 * a + b) arcs = dotted (a :: b :: arcs) := by
  unfold formatObjectID formatFirstObjectID
  rw [show (40 * a + b) / 40 = a by omega, show (40 * a + b) % 40 = b by omega, dotJoin_head, dotJoin_decimal]
  rfl

/-- C79: an object identifier `a.b.arcs` is read and described by its dotted text.  Missing: second
numbers of 40 and more, which are possible below 2. -/
theorem C79_oid_partial (data : Bytes) (s : InputStream) (hs : stringInputStream data = .ok s) (n k : Nat)
    (hn : data.length < n) (a b : Nat) (ha : a ≤ 2) (hb : b < 40) (arcs : List Nat) (harcs : ∀ x ∈ arcs, x < 2 ^ 56)
    (form : Nat) (hf : form < 2) (lb : Bytes) (hl : LengthBytes (oidContent a b arcs).length lb)
    (hp : (asnTag 0 form 6 :: (lb ++ oidContent a b arcs)) <+: data.drop k) :
    ∃ first items, asnObject s n (8 * k : Nat) =
        .ok (.leaf 0 form 6 (.oid first items), 8 * (1 + lb.length + (oidContent a b arcs).length)) ∧
      formatObjectID first items = dotted (a :: b :: arcs) := by
  have hc : oidContent a b arcs = UInt8.ofNat (40 * a + b) :: (arcs.map Spec.digitsBE).flatMap Spec.groups := by
    unfold oidContent
    rw [List.flatMap_cons, List.flatMap_map, Spec.digitsBE, Spec.digitsLE, if_pos (by omega)]
    rfl
  have hb8 : (UInt8.ofNat (40 * a + b)).toNat = 40 * a + b := by
    rw [UInt8.toNat_ofNat', Nat.mod_eq_of_lt (by omega)]
  have hleaf := LeafBytes.oid form (UInt8.ofNat (40 * a + b)) (arcs.map Spec.digitsBE) (by
    intro ds hds
    obtain ⟨x, hx, rfl⟩ := List.mem_map.1 hds
    exact ⟨Spec.digitsBE_digits x, Spec.digitsBE_length 7 x (by have := harcs x hx; norm_num at this ⊢; exact this)⟩)
  rw [← hc, hb8, List.map_map] at hleaf
  have hmap : List.map (Spec.ofDigitsBE 128 ∘ Spec.digitsBE) arcs = arcs := by
    rw [List.map_congr_left (f := Spec.ofDigitsBE 128 ∘ Spec.digitsBE) (g := id)
      (fun x _ => Spec.ofDigitsBE_digitsBE x), List.map_id]
  rw [hmap] at hleaf
  have ho := AsnBytes.leaf 0 form 6 _ lb _ ⟨by omega, hf, by omega⟩ hl hleaf
  refine ⟨_, _, ?_, formatObjectID_eq a b hb arcs⟩
  rw [C78_objects_partial data s hs n k hn _ _ ho (by rw [SmallSets]; trivial) hp]
  simp only [Except.ok.injEq, Prod.mk.injEq, true_and, List.length_cons, List.length_append]
  omega

/-- 1.2.840.113549 -/
example : ∃ s, stringInputStream [6, 6, 0x2a, 0x86, 0x48, 0x86, 0xf7, 0x0d] = .ok s ∧
    ∃ first items, asnObject s 9 ((8 * 0 : Nat) : Int) = .ok (.leaf 0 0 6 (.oid first items), 64) ∧
      formatObjectID first items = "1.2.840.113549".toUTF8.data.toList := by
  refine ⟨_, rfl, ?_⟩
  have hcont : oidContent 1 2 [840, 113549] = [0x2a, 0x86, 0x48, 0x86, 0xf7, 0x0d] := by decide +kernel
  obtain ⟨first, items, h1, h2⟩ := C79_oid_partial [6, 6, 0x2a, 0x86, 0x48, 0x86, 0xf7, 0x0d] _ rfl 9 0 (by decide)
    1 2 (by decide) (by decide) [840, 113549] (by decide) 0 (by decide) [6] (by rw [hcont]; exact .short 6 (by decide))
    ⟨[], by rw [hcont]; rfl⟩
  refine ⟨first, items, ?_, ?_⟩
  · rw [hcont] at h1; exact h1
  · rw [h2]; decide +kernel

/-- C79 (disagreement): 2.999 is described as 3.16.55, 2.40 as 3.0. -/
theorem C79_second :
    ∃ s t, stringInputStream (6 :: 2 :: oidContent 2 999 []) = .ok s ∧
      asnObject s 9 ((8 * 0 : Nat) : Int) = .ok (.leaf 0 0 6 (.oid 136 [55]), 32) ∧
      formatObjectID 136 [55] = dotted [3, 16, 55] ∧
      stringInputStream (6 :: 1 :: oidContent 2 40 []) = .ok t ∧
      asnObject t 9 ((8 * 0 : Nat) : Int) = .ok (.leaf 0 0 6 (.oid 120 []), 24) ∧
      formatObjectID 120 [] = dotted [3, 0] := by
  refine ⟨_, _, rfl, ?_, ?_, rfl, ?_, ?_⟩ <;> decide +kernel

/-! ### Times -/

/-- Two decimal digits. -/
def twoDigits (n : Nat) : Bytes := [UInt8.ofNat (48 + n / 10), UInt8.ofNat (48 + n % 10)]

/-- The text of a time without seconds: year of the century, month, day, hour, minute. -/
def utcText (y m d h mi : Nat) : Bytes :=
  twoDigits (y % 100) ++ twoDigits m ++ twoDigits d ++ twoDigits h ++ twoDigits mi

theorem pyInt_two (n : Nat) (h : n < 100) : pyInt (twoDigits n) = some (n : Int) := by
  have : ∀ n : Fin 100, pyInt (twoDigits n.val) = some (n.val : Int) := by decide +kernel
  exact this ⟨n, h⟩

theorem utcNumber_two (value : Bytes) (i n : Nat) (h : n < 100) (hv : (value.take (i + 2)).drop i = twoDigits n) :
    utcNumber value i (i + 2) = .ok n := by
  unfold utcNumber
  rw [hv, pyInt_two n h]
  simp

theorem formatUTCTime_eq (y m d h mi : Nat) (hy : 1950 ≤ y ∧ y ≤ 2049) (hm : m < 100) (hd : d < 100) (hh : h < 100)
    (hmi : mi < 100) (rest : Bytes) :
    formatUTCTime (utcText y m d h mi ++ rest) =
      match (utcText y m d h mi ++ rest).getLast? with
      | none => .error .index
      | some c =>
        if c = 90 then
          match utcNumber (utcText y m d h mi ++ rest) 10 12 with
          | .error e => .error e
          | .ok second => Time.datetime y m d h mi second
        else Time.datetime y m d h mi 0 := by
  have hyear : (if ((y % 100 : Nat) : Int) < 50 then ((y % 100 : Nat) : Int) + 2000
      else ((y % 100 : Nat) : Int) + 1900).toNat = y := by split <;> omega
  unfold formatUTCTime
  have htake : List.take 2 (utcText y m d h mi ++ rest) = twoDigits (y % 100) := rfl
  rw [htake, pyInt_two _ (by omega)]
  simp only
  rw [utcNumber_two _ 2 m hm rfl]
  simp only
  rw [utcNumber_two _ 4 d hd rfl]
  simp only
  rw [utcNumber_two _ 6 h hh rfl]
  simp only
  rw [utcNumber_two _ 8 mi hmi rfl]
  simp only [hyear]
  rfl

/-- C80: a time with seconds in Universal Time is described as this time, for the years 1950 to
2049.  Missing: the other forms. -/
theorem C80_utc_partial (y m d h mi s : Nat) (hy : 1950 ≤ y ∧ y ≤ 2049) (hday : GoodDay y m d) (hh : h < 24)
    (hmi : mi < 60) (hs : s < 60) :
    formatUTCTime (utcText y m d h mi ++ twoDigits s ++ [90]) = .ok ⟨y, m, d, h, mi, s, 0⟩ := by
  have hv := hday.1
  unfold Spec.Day.Valid at hv
  simp only at hv
  have hml : Spec.monthLength y m ≤ 31 := by unfold Spec.monthLength; split <;> split <;> omega
  rw [List.append_assoc, formatUTCTime_eq y m d h mi hy (by omega) (by omega) (by omega) (by omega),
    ← List.append_assoc, List.getLast?_concat]
  simp only [if_true]
  rw [utcNumber_two _ 10 s (by omega) rfl]
  exact (datetime_iff y m d h mi s _).2 ⟨hday, hh, hmi, hs, rfl⟩

example : GoodDay 1999 12 31 ∧ formatUTCTime "991231235958Z".toUTF8.data.toList = .ok ⟨1999, 12, 31, 23, 59, 58, 0⟩ := by
  have hg : GoodDay 1999 12 31 := by unfold GoodDay; decide
  exact ⟨hg, C80_utc_partial 1999 12 31 23 59 58 (by decide) hg (by decide) (by decide) (by decide)⟩

/-- C80, the other forms: with an offset from Universal Time the hour is shown as it stands and
the seconds as zero, whatever the offset and the seconds are; without seconds in Universal Time
there is no description (ValueError). -/
theorem C80_other (y m d h mi : Nat) (hy : 1950 ≤ y ∧ y ≤ 2049) (hday : GoodDay y m d) (hh : h < 24) (hmi : mi < 60) :
    (∀ rest c, c ≠ 90 → formatUTCTime (utcText y m d h mi ++ (rest ++ [c])) = .ok ⟨y, m, d, h, mi, 0, 0⟩) ∧
    formatUTCTime (utcText y m d h mi ++ [90]) = .error .value := by
  have hv := hday.1
  unfold Spec.Day.Valid at hv
  simp only at hv
  have hml : Spec.monthLength y m ≤ 31 := by unfold Spec.monthLength; split <;> split <;> omega
  constructor
  · intro rest c hc
    rw [formatUTCTime_eq y m d h mi hy (by omega) (by omega) (by omega) (by omega), ← List.append_assoc,
      List.getLast?_concat]
    simp only
    rw [if_neg hc]
    exact (datetime_iff y m d h mi 0 _).2 ⟨hday, hh, hmi, by omega, rfl⟩
  · rw [formatUTCTime_eq y m d h mi hy (by omega) (by omega) (by omega) (by omega), List.getLast?_concat]
    simp only [if_true]
    have : utcNumber (utcText y m d h mi ++ [90]) 10 12 = .error .value := by
      unfold utcNumber
      have hcut : List.drop 10 (List.take 12 (utcText y m d h mi ++ [90])) = [90] := rfl
      rw [hcut]
      rfl
    rw [this]

/-- C80 (disagreement): noon at +0200, which is 10:00:30, is described as 12:00:00. -/
theorem C80_offset :
    formatUTCTime "990101120030+0200".toUTF8.data.toList = .ok ⟨1999, 1, 1, 12, 0, 0, 0⟩ := by
  have hg : GoodDay 1999 1 1 := by unfold GoodDay; decide
  exact (C80_other 1999 1 1 12 0 (by decide) hg (by decide) (by decide)).1 "30+020".toUTF8.data.toList 48 (by decide)

end Hachoir.Props
