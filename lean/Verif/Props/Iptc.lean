import Verif.Formats.Iptc
import Verif.Props.Ar
import Verif.Props.Arj
import Verif.Props.Asn1Text
import Verif.Props.Disks
import Verif.Props.Macho
import Verif.Props.Real
import Verif.Props.Tcpdump

/-!
# C147: IPTC records and Photoshop resources

Specification apart from the code: records of the IPTC information interchange model (IIM) and resources as Photoshop writes them.
-/

namespace Hachoir.Props
open Hachoir Hachoir.Stream Hachoir.Field Hachoir.Formats Hachoir.Formats.Iptc _root_.Spec

/-! ### Records -/

/-- A record: number of the dataset, tag and data. -/
structure IptcRecord where
  dataset : Nat
  tag : Nat
  data : Bytes

/-- The record version of dataset 2 has 2 bytes, the urgency 1. -/
structure IptcGood (r : IptcRecord) : Prop where
  dataset : r.dataset < 256
  tag : r.tag < 256
  size : r.data.length < 32768
  version : r.dataset = 2 → r.tag = 0 → r.data.length = 2
  urgency : r.dataset = 2 → r.tag = 10 → r.data.length = 1

def iptcBytes (r : IptcRecord) : Bytes :=
  [0x1C] ++ (beBytes 1 r.dataset ++ (beBytes 1 r.tag ++ (beBytes 2 r.data.length ++ r.data)))

/-- The content holds the data. -/
def IptcHolds (data : Bytes) : Content → Prop
  | .num v => v = ofBytesBE data
  | .text b => b = data
  | .raw b => b = data

/-- A chunk is what the record says. -/
structure IptcIs (r : IptcRecord) (c : Chunk) : Prop where
  dataset : c.dataset = r.dataset
  tag : c.tag = r.tag
  size : c.size = r.data.length
  empty : c.content = none ↔ r.data = []
  content : ∀ x, c.content = some x → IptcHolds r.data x
  text : ∀ x, c.content = some x → r.dataset = 2 → r.tag ∈ [55, 60, 80, 90, 101, 116, 120, 231] → x = .text r.data

theorem reads_size (v : Nat) (h : v < 32768) (n : Nat) : Reads (sizeLoop 0 (n + 1)) v (beBytes 2 v) := by
  rw [← List.append_nil (beBytes 2 v)]
  refine Reads.bind (reads_int_be 2 v (by decide) (by omega)) ?_
  rw [if_pos (by omega), Nat.zero_mul, Nat.zero_add, Nat.mod_eq_of_lt (by omega)]
  exact reads_pure _

theorem reads_iptc_content (r : IptcRecord) (h : IptcGood r) : ∃ x, Reads (contentOf (kind r.dataset r.tag) r.data.length) x r.data ∧
    IptcIs r ⟨r.dataset, r.tag, r.data.length, x⟩ := by
  by_cases h0 : r.data = []
  · refine ⟨none, ?_, rfl, rfl, rfl, by simp [h0], by simp, by simp⟩
    rw [h0, List.length_nil, contentOf.eq_def, if_pos rfl]
    exact reads_pure _
  · have hl := List.length_pos_of_ne_nil h0
    have hs := h.size
    have hb := ofBytesBE_lt r.data
    rw [contentOf.eq_def, if_neg (by omega)]
    have e : r.data = r.data ++ [] := (List.append_nil _).symm
    cases hk : kind r.dataset r.tag with
    | u16 =>
      have hd : r.dataset = 2 ∧ r.tag = 0 := by
        unfold kind at hk
        split_ifs at hk
        exact ⟨by assumption, by assumption⟩
      have l := h.version hd.1 hd.2
      refine ⟨some (.num (ofBytesBE r.data)), ?_, rfl, rfl, rfl, by simp [h0], by simp [IptcHolds], ?_⟩
      · have := Reads.rmap (f := fun v => some (Content.num v)) (reads_be_any 2 r.data l (by decide))
        exact this
      · intro x _ _ ht
        rw [hd.2] at ht
        simp at ht
    | u8 =>
      have hd : r.dataset = 2 ∧ r.tag = 10 := by
        unfold kind at hk
        split_ifs at hk
        exact ⟨by assumption, by assumption⟩
      have l := h.urgency hd.1 hd.2
      refine ⟨some (.num (ofBytesBE r.data)), ?_, rfl, rfl, rfl, by simp [h0], by simp [IptcHolds], ?_⟩
      · have := Reads.rmap (f := fun v => some (Content.num v)) (reads_be_any 1 r.data l (by decide))
        exact this
      · intro x _ _ ht
        rw [hd.2] at ht
        simp at ht
    | text =>
      refine ⟨some (.text r.data), ?_, rfl, rfl, rfl, by simp [h0], by simp [IptcHolds], by simp⟩
      exact Reads.rmap (f := fun v => some (Content.text v)) (reads_fixed .big .eightBit (by decide) _ r.data rfl (by omega))
    | raw =>
      refine ⟨some (.raw r.data), ?_, rfl, rfl, rfl, by simp [h0], by simp [IptcHolds], ?_⟩
      · exact Reads.rmap (f := fun v => some (Content.raw v)) (reads_raw r.data h0)
      · intro x _ hd ht
        exfalso
        rw [kind, if_pos hd] at hk
        simp only [List.mem_cons, List.not_mem_nil, or_false] at ht
        rcases ht with ht | ht | ht | ht | ht | ht | ht | ht <;> rw [ht] at hk <;> exact absurd hk (by decide)

theorem reads_chunk (r : IptcRecord) (h : IptcGood r) (n : Nat) : ∃ c, Reads (chunk (n + 1)) c (iptcBytes r) ∧ IptcIs r c := by
  obtain ⟨x, hx, hi⟩ := reads_iptc_content r h
  refine ⟨_, ?_, hi⟩
  refine Reads.bind (v := 0x1C) (reads_int_be 1 0x1C (by decide) (by decide)) ?_
  rw [if_neg (by decide)]
  refine Reads.bind (reads_int_be 1 _ (by decide) h.dataset) ?_
  refine Reads.bind (reads_int_be 1 _ (by decide) h.tag) ?_
  refine Reads.bind (reads_size _ h.size n) ?_
  exact Reads.map (f := fun x => Chunk.mk r.dataset r.tag r.data.length x) (hx.all.within _ rfl)

theorem ReadsAll.left {α : Type} {f : Nat → Rd α} {v : α} {bs : Bytes} (h : ReadsAll (f bs.length) v bs) : ReadsAll (left >>= f) v bs := by
  intro data s hs k hp
  show Rd.bind Iptc.left f s _ (8 * k) = _
  rw [Rd.bind, Iptc.left, show (8 * (k + bs.length) - 8 * k) / 8 = bs.length by omega]
  exact h data s hs k hp

/-- **C147.** All records of an IPTC block are read as written, up to less than 5 bytes of padding. -/
theorem C147_records : ∀ (rs : List IptcRecord) (n : Nat) (pad : Bytes), (∀ r ∈ rs, IptcGood r) → rs.length + 1 < n → pad.length < 5 →
    ∃ cs, ReadsAll (chunks n) (cs, pad) (rs.flatMap iptcBytes ++ pad) ∧ List.Forall₂ IptcIs rs cs
  | [], n + 1, pad, _, _, hp => by
    refine ⟨[], ?_, .nil⟩
    refine ReadsAll.left ?_
    rw [List.flatMap_nil, List.nil_append, if_neg (by omega)]
    exact (Reads.rmap (f := fun b => (([] : List Chunk), b)) (reads_raw_or pad _ rfl)).all
  | r :: rs, n + 2, pad, h, hn, hp => by
    obtain ⟨cs, h1, h2⟩ := C147_records rs (n + 1) pad (fun x hx => h x (by simp [hx])) (by simpa using hn) hp
    obtain ⟨c, h3, h4⟩ := reads_chunk r (h r (by simp)) n
    refine ⟨c :: cs, ?_, .cons h4 h2⟩
    refine ReadsAll.left ?_
    have hl : 5 ≤ ((r :: rs).flatMap iptcBytes ++ pad).length := by
      rw [List.flatMap_cons, List.append_assoc, List.length_append, iptcBytes, List.length_append, List.length_append, List.length_append,
        List.length_append, beBytes_length, beBytes_length, beBytes_length]
      have : ([0x1C] : Bytes).length = 1 := rfl
      omega
    rw [if_pos hl, List.flatMap_cons, List.append_assoc]
    exact Reads.bind_all h3 (ReadsAll.map h1 fun cs => (c :: cs.1, cs.2))

/-- **C147, violated.** Data of 32768 bytes and more are announced by `80 04` and a size of 4 bytes, but the code takes the words as
digits of 15 bits: whatever the size, it reads 131072 and more, and goes on with the lower half of the size as data. -/
theorem C147_extended_wrong (size : Nat) (h : size < 2 ^ 31) (n : Nat) :
    Reads (sizeLoop 0 (n + 2)) (131072 + size / 65536) (beBytes 2 0x8004 ++ beBytes 2 (size / 65536)) := by
  refine Reads.bind (reads_int_be 2 _ (by decide) (by decide)) ?_
  rw [if_neg (by decide), ← List.append_nil (beBytes 2 (size / 65536))]
  refine Reads.bind (reads_int_be 2 _ (by decide) (by omega)) ?_
  rw [if_pos (by omega), Nat.mod_eq_of_lt (show size / 65536 < 0x8000 by omega)]
  exact reads_pure _

/-! ### What is told -/

/-- The meaning of the tags of dataset 2 that are told. -/
def iimMeaning : List (Nat × Key) :=
  [(80, .author), (90, .city), (101, .country), (116, .copyright), (120, .title), (231, .comment)]

/-- Text on one line, without spaces around it. -/
structure PlainText (b : Bytes) : Prop where
  first : ∀ c ∈ b.head?, c ≠ 32
  last : ∀ c ∈ b.getLast?, c ≠ 32
  lines : ∀ c ∈ b, c ≠ 13 ∧ c ≠ 10

theorem strip_plain (b : Bytes) (h1 : ∀ c ∈ b.head?, c ≠ 32) (h2 : ∀ c ∈ b.getLast?, c ≠ 32) : stripText (· == (32 : UInt8)) b = b := by
  have d : ∀ l : Bytes, (∀ c ∈ l.head?, c ≠ 32) → l.dropWhile (· == 32) = l := by
    intro l hl
    cases l with
    | nil => rfl
    | cons c l =>
      rw [List.dropWhile_cons, if_neg]
      simpa using hl c (by simp)
  rw [stripText, d b h1, d, List.reverse_reverse]
  rw [List.head?_reverse]
  exact h2

theorem strip_spaces (m n : Nat) (b : Bytes) (h1 : ∀ c ∈ b.head?, c ≠ 32) (h2 : ∀ c ∈ b.getLast?, c ≠ 32) (hb : b ≠ []) :
    stripText (· == (32 : UInt8)) (List.replicate m 32 ++ b ++ List.replicate n 32) = b := by
  have d : ∀ (k : Nat) (l : Bytes), (List.replicate k (32 : UInt8) ++ l).dropWhile (· == 32) = l.dropWhile (· == 32) := by
    intro k l
    induction k with
    | zero => rfl
    | succ k ih => rw [List.replicate_succ, List.cons_append, List.dropWhile_cons, if_pos (by decide), ih]
  have hd : (b ++ List.replicate n (32 : UInt8)).dropWhile (· == 32) = b ++ List.replicate n 32 := by
    cases b with
    | nil => exact absurd rfl hb
    | cons c b =>
      rw [List.cons_append, List.dropWhile_cons, if_neg]
      simpa using h1 c (by simp)
  have := strip_plain b h1 h2
  have hr : b.reverse.dropWhile (· == (32 : UInt8)) = b.reverse := by
    cases e : b.reverse with
    | nil => rfl
    | cons c l =>
      rw [List.dropWhile_cons, if_neg]
      have := h2 c (by rw [← List.head?_reverse, e]; simp)
      simpa using this
  rw [stripText, List.append_assoc, d, hd, List.reverse_append, List.reverse_replicate, d, hr, List.reverse_reverse]

theorem value_plain (b : Bytes) (h : PlainText b) : valueOf (.text b) = b := by
  rw [valueOf, strip_plain b h.first h.last, oneLine]
  conv => rhs; rw [← List.map_id b]
  apply List.map_congr_left
  intro c hc
  have := h.lines c hc
  rw [if_neg (by simp [this])]
  rfl

/-- **C147.** Spaces around a text are not told, line ends are told as spaces. -/
theorem C147_text (m n : Nat) (a b : Bytes) (ha : PlainText a) (hb : PlainText b) (ha0 : a ≠ []) (hb0 : b ≠ []) :
    valueOf (.text (List.replicate m 32 ++ (a ++ 13 :: b) ++ List.replicate n 32)) = a ++ 32 :: b := by
  have l : ∀ x : Bytes, PlainText x → oneLine x = x := by
    intro x h
    rw [oneLine]
    conv => rhs; rw [← List.map_id x]
    apply List.map_congr_left
    intro c hc
    have := h.lines c hc
    rw [if_neg (by simp [this])]
    rfl
  rw [valueOf, strip_spaces m n (a ++ 13 :: b)]
  · have := l a ha
    have := l b hb
    simp_all [oneLine]
  · intro c hc
    cases a with
    | nil => exact absurd rfl ha0
    | cons x a => exact ha.first c (by simpa using hc)
  · intro c hc
    refine hb.last c ?_
    rw [List.getLast?_append] at hc
    cases b with
    | nil => exact absurd rfl hb0
    | cons x b => simpa using hc
  · simp

/-- What the records tell, one after the other. -/
def iimTold (rs : List IptcRecord) : List (Key × Bytes) :=
  rs.filterMap fun r => (iimMeaning.lookup r.tag).map fun k => (k, r.data)

theorem key_meaning (tag : Nat) (h : tag < 256) : keyOf tag = iimMeaning.lookup tag := by
  have : ∀ t : Fin 256, keyOf t.val = iimMeaning.lookup t.val := by decide +kernel
  exact this ⟨tag, h⟩

theorem meaning_mem (tag : Nat) (k : Key) (h : iimMeaning.lookup tag = some k) : tag ∈ [55, 60, 80, 90, 101, 116, 120, 231] ∧ tag ≠ 55 ∧ tag ≠ 60 := by
  have e : keyOf tag = some k ∨ ¬ tag < 256 := by
    by_cases c : tag < 256
    · exact .inl ((key_meaning tag c).trans h)
    · exact .inr c
  rcases e with e | e
  · unfold keyOf at e
    split_ifs at e <;> subst_vars <;> decide
  · exfalso
    have : ∀ p ∈ iimMeaning, p.1 < 256 := by decide
    have hm : ∀ l : List (Nat × Key), l.lookup tag = some k → ∃ p ∈ l, p.1 = tag := by
      intro l
      induction l with
      | nil => intro h; exact nomatch h
      | cons p l ih =>
        intro h
        rw [List.lookup_cons] at h
        by_cases c : tag == p.1
        · exact ⟨p, by simp, by simpa using (beq_iff_eq.1 c).symm⟩
        · rw [Bool.not_eq_true] at c
          rw [c] at h
          obtain ⟨q, hq, e⟩ := ih h
          exact ⟨q, by simp [hq], e⟩
    obtain ⟨p, hp, he⟩ := hm _ h
    have := this p hp
    omega

theorem tell_values (t : Iptc.Told) (r : IptcRecord) (c : Chunk) (h : IptcIs r c) (hg : IptcGood r) (h2 : r.dataset = 2) (h0 : r.data ≠ [])
    (hp : r.tag ∈ [55, 60, 80, 90, 101, 116, 120, 231] → PlainText r.data) :
    tell t c = ⟨if r.tag = 55 then r.data else t.date, if r.tag = 60 then r.data else t.time, t.values ++ iimTold [r]⟩ := by
  cases hc : c.content with
  | none => exact absurd (h.empty.1 hc) h0
  | some x =>
    rw [tell, hc]
    simp only
    rw [h.tag]
    have hx := h.text x hc h2
    by_cases c55 : r.tag = 55
    · rw [if_pos c55, if_pos c55, if_neg (by omega), hx (by simp [c55]), value_plain _ (hp (by simp [c55]))]
      simp [iimTold, c55, iimMeaning, List.lookup]
    · rw [if_neg c55, if_neg c55]
      by_cases c60 : r.tag = 60
      · rw [if_pos c60, if_pos c60, hx (by simp [c60]), value_plain _ (hp (by simp [c60]))]
        simp [iimTold, c60, iimMeaning, List.lookup]
      · rw [if_neg c60, if_neg c60, key_meaning _ hg.tag]
        cases hk : iimMeaning.lookup r.tag with
        | none => simp [iimTold, hk]
        | some k =>
          have hm := (meaning_mem _ _ hk).1
          simp only
          rw [hx hm, value_plain _ (hp hm)]
          simp [iimTold, hk]

theorem tell_all : ∀ (rs : List IptcRecord) (cs : List Chunk) (t : Iptc.Told), List.Forall₂ IptcIs rs cs → (∀ r ∈ rs, IptcGood r ∧ r.dataset = 2 ∧ r.data ≠ [] ∧
    (r.tag ∈ [55, 60, 80, 90, 101, 116, 120, 231] → PlainText r.data)) →
    (cs.foldl tell t).values = t.values ++ iimTold rs ∧
    (∀ d, (∀ r ∈ rs, r.tag = 55 → r.data = d) → (t.date = d ∨ ∃ r ∈ rs, r.tag = 55) → (cs.foldl tell t).date = d) ∧
    (∀ d, (∀ r ∈ rs, r.tag = 60 → r.data = d) → (t.time = d ∨ ∃ r ∈ rs, r.tag = 60) → (cs.foldl tell t).time = d)
  | [], _, t, .nil, _ => by
    refine ⟨by simp [iimTold], ?_, ?_⟩ <;>
    · intro d _ h
      rcases h with h | ⟨r, hr, _⟩
      · exact h
      · simp at hr
  | r :: rs, _, t, .cons h hs, hg => by
    obtain ⟨g1, g2, g3, g4⟩ := hg r (by simp)
    have e := tell_values t r _ h g1 g2 g3 g4
    obtain ⟨i1, i2, i3⟩ := tell_all rs _ (tell t _) hs fun x hx => hg x (by simp [hx])
    rw [List.foldl_cons]
    refine ⟨?_, ?_, ?_⟩
    · rw [i1, e]
      simp only
      rw [List.append_assoc]
      congr 1
      simp only [iimTold, List.filterMap_cons, List.filterMap_nil]
      split <;> simp
    · intro d hd hh
      refine i2 d (fun x hx => hd x (by simp [hx])) ?_
      rw [e]
      simp only
      by_cases c : r.tag = 55
      · exact .inl (by rw [if_pos c]; exact hd r (by simp) c)
      · rw [if_neg c]
        rcases hh with hh | ⟨x, hx, he⟩
        · exact .inl hh
        · rcases List.mem_cons.1 hx with rfl | hx
          · exact absurd he c
          · exact .inr ⟨x, hx, he⟩
    · intro d hd hh
      refine i3 d (fun x hx => hd x (by simp [hx])) ?_
      rw [e]
      simp only
      by_cases c : r.tag = 60
      · exact .inl (by rw [if_pos c]; exact hd r (by simp) c)
      · rw [if_neg c]
        rcases hh with hh | ⟨x, hx, he⟩
        · exact .inl hh
        · rcases List.mem_cons.1 hx with rfl | hx
          · exact absurd he c
          · exact .inr ⟨x, hx, he⟩

/-- A date of dataset 2, `YYYYMMDD`. -/
def iimDate (y m d : Nat) : Bytes := twoDigits (y / 100) ++ (twoDigits (y % 100) ++ (twoDigits m ++ twoDigits d))

/-- A time of dataset 2, `HHMMSS`. -/
def iimTime (h mi s : Nat) : Bytes := twoDigits h ++ (twoDigits mi ++ twoDigits s)

theorem two_digits (n : Nat) (h : n < 100) : AllDigits (twoDigits n) ∧ ∀ a, valueFrom a (twoDigits n) = 100 * a + n := by
  have e1 : (UInt8.ofNat (48 + n / 10)).toNat = 48 + n / 10 := by rw [UInt8.toNat_ofNat']; omega
  have e2 : (UInt8.ofNat (48 + n % 10)).toNat = 48 + n % 10 := by rw [UInt8.toNat_ofNat']; omega
  constructor
  · intro c hc
    simp only [twoDigits, List.mem_cons, List.not_mem_nil, or_false] at hc
    rcases hc with rfl | rfl
    · rw [e1]; omega
    · rw [e2]; omega
  · intro a
    simp only [valueFrom, twoDigits, List.foldl_cons, List.foldl_nil]
    rw [e1, e2]
    omega

theorem pyInt_year (y : Nat) (h : y < 10000) : pyInt (twoDigits (y / 100) ++ twoDigits (y % 100)) = some (y : Int) := by
  obtain ⟨a1, v1⟩ := two_digits (y / 100) (by omega)
  obtain ⟨a2, v2⟩ := two_digits (y % 100) (by omega)
  rw [pyInt_digits _ (by simp [twoDigits])]
  · rw [valueFrom, List.foldl_append]
    have e1 := v1 0
    unfold valueFrom at e1
    rw [e1]
    have e2 := v2 (100 * 0 + y / 100)
    unfold valueFrom at e2
    rw [e2]
    congr 2
    omega
  · intro c hc
    rcases List.mem_append.1 hc with hc | hc
    · exact a1 c hc
    · exact a2 c hc

/-- **C147.** Date and time are told, whatever follows the time (the code drops the time zone). -/
theorem C147_date (y m d h mi s : Nat) (g : GoodDay y m d) (hh : h < 24) (hm : mi < 60) (hs : s < 60) (zone : Bytes) :
    Iptc.dateOf (iimDate y m d) (iimTime h mi s ++ zone) = some ⟨y, m, d, h, mi, s, 0⟩ := by
  obtain ⟨s1, s2, s3⟩ := good_day_small _ _ _ g
  have l : ∀ n, (twoDigits n).length = 2 := fun _ => rfl
  have u1 : utcNumber (iimDate y m d) 0 4 = .ok y := by
    have : ((iimDate y m d).take 4).drop 0 = twoDigits (y / 100) ++ twoDigits (y % 100) := by simp [iimDate, twoDigits]
    unfold utcNumber
    rw [this, pyInt_year y (by omega)]
    simp
  have u2 : utcNumber (iimDate y m d) 4 6 = .ok m := utcNumber_two _ 4 m (by omega) (by simp [iimDate, twoDigits])
  have u3 : utcNumber (iimDate y m d) 6 8 = .ok d := utcNumber_two _ 6 d (by omega) (by simp [iimDate, twoDigits])
  have u4 : utcNumber (iimTime h mi s ++ zone) 0 2 = .ok h := utcNumber_two _ 0 h (by omega) (by simp [iimTime, twoDigits])
  have u5 : utcNumber (iimTime h mi s ++ zone) 2 4 = .ok mi := utcNumber_two _ 2 mi (by omega) (by simp [iimTime, twoDigits])
  have u6 : utcNumber (iimTime h mi s ++ zone) 4 6 = .ok s := utcNumber_two _ 4 s (by omega) (by simp [iimTime, twoDigits])
  have e := (datetime_iff y m d h mi s _).2 ⟨g, hh, hm, hs, rfl⟩
  rw [Iptc.dateOf, if_neg (by simp [iimDate, iimTime, twoDigits]), u1, u2, u3, u4, u5, u6]
  simp only
  rw [e]

/-- **C147.** All a block of dataset 2 tells: author, city, country, copyright, title and comments, in the order written, and the date. -/
theorem C147_told (rs : List IptcRecord) (pad : Bytes) (hg : ∀ r ∈ rs, IptcGood r ∧ r.dataset = 2 ∧ r.data ≠ [] ∧
      (r.tag ∈ [55, 60, 80, 90, 101, 116, 120, 231] → PlainText r.data)) (hp : pad.length < 5) (n : Nat) (hn : rs.length + 1 < n) :
    ∃ cs, ReadsAll (chunks n) (cs, pad) (rs.flatMap iptcBytes ++ pad) ∧ (tellAll cs).values = iimTold rs ∧
      ∀ date time, (∃ r ∈ rs, r.tag = 55) → (∀ r ∈ rs, r.tag = 55 → r.data = date) → (∃ r ∈ rs, r.tag = 60) → (∀ r ∈ rs, r.tag = 60 → r.data = time) →
        (tellAll cs).date = date ∧ (tellAll cs).time = time := by
  obtain ⟨cs, h1, h2⟩ := C147_records rs n pad (fun r hr => (hg r hr).1) hn hp
  obtain ⟨t1, t2, t3⟩ := tell_all rs cs {} h2 hg
  refine ⟨cs, h1, by simpa [tellAll] using t1, fun date time e1 a1 e2 a2 => ⟨t2 date a1 (.inr e1), t3 time a2 (.inr e2)⟩⟩

/-- **C147, violated.** A date without time is not told. -/
theorem C147_date_alone (date : Bytes) : Iptc.dateOf date [] = none := by
  rw [Iptc.dateOf, if_pos (.inr rfl)]

/-- **C147, violated.** The dataset is not looked at: the character set of a block (dataset 1, tag 90), here the usual `ESC % G` for UTF-8,
is told as city, and the same for any other data. -/
theorem C147_dataset_wrong (t : Iptc.Told) (b : Bytes) :
    tell t ⟨1, 90, b.length, some (.raw b)⟩ = { t with values := t.values ++ [(.city, b)] } := rfl

/-! ### Resources -/

def evenPad (n : Nat) : Bytes := List.replicate (n % 2) 0

structure ResourceGood (r : Resource) : Prop where
  tag : r.tag < 65536
  name : r.name.length < 256
  data : r.data.length < 65536

/-- A resource: the name has an even size with its length, the data are filled up to an even size. -/
def resourceBytes (r : Resource) : Bytes :=
  [0x38, 0x42, 0x49, 0x4D] ++ (beBytes 2 r.tag ++ ((UInt8.ofNat r.name.length :: r.name ++ evenPad (r.name.length + 1)) ++
    (beBytes 4 r.data.length ++ (r.data ++ evenPad r.data.length))))

/-- What is read: the data with their filling. -/
def resourceRead (r : Resource) : Resource := { r with data := r.data ++ evenPad r.data.length }

theorem beBytes_four (v : Nat) (h : v < 65536) : beBytes 4 v = [0, 0] ++ beBytes 2 v := by
  rw [beBytes_halves v (by omega), Nat.div_eq_of_lt h, Nat.mod_eq_of_lt h]
  rfl

theorem reads_resource3 (tag : Nat) (name data : Bytes) (h : data.length < 65536) :
    Reads (resource3 tag name) ⟨tag, name, data ++ evenPad data.length⟩ (beBytes 2 data.length ++ (data ++ evenPad data.length)) := by
  refine Reads.bind (reads_int_be 2 _ (by decide) (by omega)) ?_
  exact Reads.map (f := fun d => Resource.mk tag name d) (reads_raw_or _ _ (by simp [evenPad]))

/-- Behind the tag: name, upper half of the size (any two bytes `x`), lower half and data. -/
theorem reads_resource_named (tag : Nat) (name x data : Bytes) (hx : x.length = 2) (hz : name = [] → x = [0, 0]) (hn : name.length < 256)
    (h : data.length < 65536) :
    Reads (Macho.first4 >>= fun four => nameOf four >>= resource3 tag) ⟨tag, name, data ++ evenPad data.length⟩
      ((UInt8.ofNat name.length :: name ++ evenPad (name.length + 1)) ++ (x ++ (beBytes 2 data.length ++ (data ++ evenPad data.length)))) := by
  have r3 := reads_resource3 tag name data h
  by_cases h0 : name = []
  · subst h0
    rw [hz rfl]
    refine Reads.first4 (m := [0, 0, 0, 0]) rfl ?_
    have r : Reads (nameOf [0, 0, 0, 0]) [] [0, 0, 0, 0] := by
      rw [nameOf, if_neg (by simp)]
      exact Reads.map (f := fun _ => []) (reads_raw [0, 0, 0, 0] (by simp))
    exact Reads.bind r r3
  · have hl := List.length_pos_of_ne_nil h0
    have hb : UInt8.ofNat name.length ≠ 0 := by
      intro e
      have := congrArg UInt8.toNat e
      rw [UInt8.toNat_ofNat'] at this
      have z : (0 : UInt8).toNat = 0 := rfl
      rw [z] at this
      omega
    generalize hF : (UInt8.ofNat name.length :: name ++ evenPad (name.length + 1)) ++ (x ++ (beBytes 2 data.length ++ (data ++ evenPad data.length))) = F
    have hne : F.take 4 ≠ [0, 0, 0, 0] := by
      rw [← hF]
      intro e
      simp only [List.cons_append, List.take_succ_cons, List.cons.injEq] at e
      exact hb e.1
    have h4 : (F.take 4).length = 4 := by
      rw [List.length_take, ← hF]
      simp only [List.length_append, List.length_cons, beBytes_length, hx]
      omega
    rw [← List.take_append_drop 4 F]
    refine Reads.first4 h4 ?_
    rw [List.take_append_drop]
    have e : (UInt8.ofNat name.length :: name ++ evenPad (name.length + 1)) ++ (x ++ (beBytes 2 data.length ++ (data ++ evenPad data.length))) =
        ((UInt8.ofNat name.length :: name) ++ (evenPad (name.length + 1) ++ x)) ++ (beBytes 2 data.length ++ (data ++ evenPad data.length)) := by simp
    have r : Reads (nameOf (F.take 4)) name ((UInt8.ofNat name.length :: name) ++ (evenPad (name.length + 1) ++ x)) := by
      rw [nameOf, if_pos hne]
      refine Reads.bind (reads_pascal8 .big (by decide) .eightBit (by decide) name hn) ?_
      refine Reads.map (f := fun _ => name) (reads_raw_n _ _ ?_ (by omega))
      rw [List.length_append, hx, evenPad, List.length_replicate]
      omega
    exact Reads.of_eq (Reads.bind r r3) rfl (e.symm.trans hF)

theorem reads_resource (r : Resource) (h : ResourceGood r) : Reads resource (resourceRead r) (resourceBytes r) := by
  refine Reads.bind (reads_fixed .big .eightBit (by decide) 4 _ rfl (by decide)) ?_
  rw [if_neg (by simp)]
  refine Reads.bind (reads_int_be 2 _ (by decide) h.tag) ?_
  rw [beBytes_four _ h.data, List.append_assoc [0, 0]]
  exact reads_resource_named r.tag r.name [0, 0] r.data rfl (fun _ => rfl) h.name h.data

theorem reads_resources : ∀ (rs : List Resource) (n : Nat), rs.length < n → (∀ r ∈ rs, ResourceGood r) →
    ReadsAll (Rd.whileNotEof resource n) (rs.map resourceRead) (rs.flatMap resourceBytes)
  | [], n + 1, _, _ => ReadsAll.at_eof (Reads.all (reads_rpure _))
  | r :: rs, n + 1, hn, h => by
    have ih := reads_resources rs n (by simpa using hn) fun x hx => h x (by simp [hx])
    rw [List.flatMap_cons]
    refine ReadsAll.not_eof (by simp [resourceBytes]) ?_
    exact Reads.bind_all (reads_resource r (h r (by simp))) (ReadsAll.map ih _)

/-- **C147.** All resources of a Photoshop block are read as written, whatever their names, data and number; data of an odd size with the byte
that fills them up. -/
theorem C147_resources (rs : List Resource) (n : Nat) (hn : rs.length < n) (h : ∀ r ∈ rs, ResourceGood r) :
    ReadsAll (photoshop n) (rs.map resourceRead) (version3 ++ [0] ++ rs.flatMap resourceBytes) := by
  refine Reads.bind_all (reads_cstring .big (by decide) .eightBit (.inl rfl) version3 (by decide)) ?_
  rw [if_neg (by simp)]
  exact reads_resources rs n hn h

/-- **C147, violated.** Of a resource of 65536 bytes or more only the lower half of the size is read: the item ends behind `size % 65536` bytes, and
what follows is taken for the next one. -/
theorem C147_large_wrong (tag : Nat) (ht : tag < 65536) (name : Bytes) (hn : name.length < 256) (h0 : name ≠ []) (size : Nat) (hs : size < 2 ^ 32)
    (data : Bytes) (hd : data.length = size % 65536) :
    Reads resource ⟨tag, name, data ++ evenPad data.length⟩ ([0x38, 0x42, 0x49, 0x4D] ++ (beBytes 2 tag ++
      ((UInt8.ofNat name.length :: name ++ evenPad (name.length + 1)) ++ (beBytes 4 size ++ (data ++ evenPad data.length))))) := by
  refine Reads.bind (reads_fixed .big .eightBit (by decide) 4 _ rfl (by decide)) ?_
  rw [if_neg (by simp)]
  refine Reads.bind (reads_int_be 2 _ (by decide) ht) ?_
  rw [beBytes_halves _ hs, List.append_assoc (beBytes 2 _), ← hd]
  exact reads_resource_named tag name _ data (beBytes_length 2 _) (fun e => absurd e h0) hn (by omega)

/-! ### Examples -/

/-- A caption, a city and a date with its time, in a block of one resource. -/
def iptcSample : List IptcRecord :=
  [⟨2, 0, [0, 2]⟩, ⟨2, 120, "Lac".toUTF8.toList⟩, ⟨2, 90, "Annecy".toUTF8.toList⟩, ⟨2, 55, iimDate 2009 5 17⟩, ⟨2, 60, iimTime 7 30 5 ++ "+0200".toUTF8.toList⟩]

example : iimTold iptcSample = [(.title, [0x4C, 0x61, 0x63]), (.city, [0x41, 0x6E, 0x6E, 0x65, 0x63, 0x79])] ∧
    Iptc.dateOf (iimDate 2009 5 17) (iimTime 7 30 5 ++ "+0200".toUTF8.toList) = some ⟨2009, 5, 17, 7, 30, 5, 0⟩ :=
  ⟨by decide +kernel, C147_date 2009 5 17 7 30 5 (by unfold GoodDay; decide) (by decide) (by decide) (by decide) _⟩

example : ∃ cs, ReadsAll (chunks 9) (cs, [0]) (iptcSample.flatMap iptcBytes ++ [0]) ∧ (tellAll cs).values = iimTold iptcSample := by
  obtain ⟨cs, h1, h2, -⟩ := C147_told iptcSample [0] (by
    have e1 : "Lac".toUTF8.toList = [0x4C, 0x61, 0x63] := by decide +kernel
    have e2 : "Annecy".toUTF8.toList = [0x41, 0x6E, 0x6E, 0x65, 0x63, 0x79] := by decide +kernel
    have e3 : "+0200".toUTF8.toList = [0x2B, 0x30, 0x32, 0x30, 0x30] := by decide +kernel
    intro r hr
    simp only [iptcSample, e1, e2, e3, List.mem_cons, List.not_mem_nil, or_false] at hr
    rcases hr with rfl | rfl | rfl | rfl | rfl <;>
      exact ⟨⟨by decide, by decide, by decide, by decide, by decide⟩, rfl, by decide, fun _ => ⟨by decide, by decide, by decide⟩⟩) (by decide) 9 (by decide)
  exact ⟨cs, h1, h2⟩

end Hachoir.Props
