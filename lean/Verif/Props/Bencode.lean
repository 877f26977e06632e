import Verif.Formats.Bencode
import Verif.Spec.Decimal
import Verif.Props.InputStream

/-!
# C58: bencoded data are read as the values they denote
-/

set_option linter.unusedVariables false

namespace Hachoir.Props
open Hachoir Hachoir.Stream Hachoir.Formats Spec

/-! ### Specification: the encoding -/

mutual
def benEncode : Ben Int Bytes → Bytes
  | .int n => 105 :: (decimalInt n ++ [101])
  | .str b => decimal b.length ++ 58 :: b
  | .list l => 108 :: (bensEncode l ++ [101])
  | .dict l => 100 :: (pairsEncode l ++ [101])
def bensEncode : Bens Int Bytes → Bytes
  | .nil => []
  | .cons v l => benEncode v ++ bensEncode l
def pairsEncode : BenPairs Int Bytes → Bytes
  | .nil => []
  | .cons k v l => benEncode k ++ benEncode v ++ pairsEncode l
end

mutual
/-- The limits of the parser: strings below a million bytes, integers of at most 21 characters. -/
def BenOk : Ben Int Bytes → Prop
  | .int n => (decimalInt n).length ≤ 21
  | .str b => b.length < 1000000
  | .list l => BensOk l
  | .dict l => PairsOk l
def BensOk : Bens Int Bytes → Prop
  | .nil => True
  | .cons v l => BenOk v ∧ BensOk l
def PairsOk : BenPairs Int Bytes → Prop
  | .nil => True
  | .cons k v l => BenOk k ∧ BenOk v ∧ PairsOk l
end

/-- What is shown of a string: nothing when it is empty or has 512 bytes or more. -/
def shownStr (b : Bytes) : Option Bytes := if b.length = 0 ∨ 512 ≤ b.length then none else some b

mutual
def benShown : Ben Int Bytes → Shown
  | .int n => .int (some n)
  | .str b => .str (shownStr b)
  | .list l => .list (bensShown l)
  | .dict l => .dict (pairsShown l)
def bensShown : Bens Int Bytes → Bens (Option Int) (Option Bytes)
  | .nil => .nil
  | .cons v l => .cons (benShown v) (bensShown l)
def pairsShown : BenPairs Int Bytes → BenPairs (Option Int) (Option Bytes)
  | .nil => .nil
  | .cons k v l => .cons (benShown k) (benShown v) (pairsShown l)
end

/-! ### Decimal text -/

theorem pyDigits_append (xs : Bytes) (hxs : ∀ c ∈ xs, 48 ≤ c.toNat ∧ c.toNat ≤ 57) (acc : Nat) (b : Bool)
    (ys : Bytes) (hne : xs ≠ []) :
    pyDigits acc b (xs ++ ys) = pyDigits (xs.foldl (fun a c => a * 10 + (c.toNat - 48)) acc) true ys := by
  induction xs generalizing acc b with
  | nil => exact absurd rfl hne
  | cons x xs ih =>
    rw [List.cons_append, pyDigits, if_pos (hxs x (by simp)), List.foldl_cons]
    cases xs with
    | nil => rfl
    | cons y xs => exact ih (fun c hc => hxs c (by simp [hc])) _ _ (by simp)

theorem decimal_foldl (n : Nat) : (decimal n).foldl (fun a c => a * 10 + (c.toNat - 48)) 0 = n := by
  induction n using Nat.strongRecOn with
  | _ n ih =>
    have key : ∀ d, d < 10 → (UInt8.ofNat (48 + d)).toNat - 48 = d := by
      intro d hd
      rw [UInt8.toNat_ofNat']
      omega
    rw [decimal]
    by_cases h : n < 10
    · rw [dif_pos h]
      simp only [List.foldl_cons, List.foldl_nil, key n h]
      omega
    · rw [dif_neg h, List.foldl_append, ih (n / 10) (by omega)]
      simp only [List.foldl_cons, List.foldl_nil, key (n % 10) (by omega)]
      omega

theorem pyDigits_decimal (n : Nat) (b : Bool) : pyDigits 0 b (decimal n) = some n := by
  have := pyDigits_append (decimal n) (decimal_digits n) 0 b [] (decimal_ne_nil n)
  rw [List.append_nil] at this
  rw [this, decimal_foldl]
  rfl

theorem dropWhile_space (l : Bytes) (h : ∀ c ∈ l, isPySpace c = false) : l.dropWhile isPySpace = l := by
  cases l with
  | nil => rfl
  | cons c l => rw [List.dropWhile_cons_of_neg (by simp [h c (by simp)])]

theorem strip_space (l : Bytes) (h : ∀ c ∈ l, isPySpace c = false) :
    ((l.dropWhile isPySpace).reverse.dropWhile isPySpace).reverse = l := by
  rw [dropWhile_space l h, dropWhile_space _ (by intro c hc; exact h c (List.mem_reverse.1 hc)), List.reverse_reverse]

theorem digit_not_space (c : UInt8) (h : 48 ≤ c.toNat ∧ c.toNat ≤ 57) : isPySpace c = false := by
  unfold isPySpace
  simp only [Bool.or_eq_false_iff, Bool.and_eq_false_iff, decide_eq_false_iff_not, beq_eq_false_iff_ne]
  omega

theorem pyInt_decimal (n : Nat) : pyInt (decimal n) = some (n : Int) := by
  unfold pyInt
  rw [strip_space _ (fun c hc => digit_not_space c (decimal_digits n c hc))]
  cases hd : decimal n with
  | nil => exact absurd hd (decimal_ne_nil n)
  | cons c cs =>
    have hc := decimal_digits n c (by rw [hd]; simp)
    simp only
    rw [if_neg (by omega), if_neg (by omega), ← hd, pyDigits_decimal]
    rfl

theorem pyInt_decimalInt (n : Int) : pyInt (decimalInt n) = some n := by
  unfold decimalInt
  by_cases h : n < 0
  · rw [if_pos h]
    unfold pyInt
    rw [strip_space]
    · show (if (45 : UInt8).toNat = 45 then _ else _) = _
      rw [if_pos (by rfl), pyDigits_decimal]
      simp only [Option.map_some, Option.some.injEq]
      omega
    · intro c hc
      rcases List.mem_cons.1 hc with rfl | hc
      · rfl
      · exact digit_not_space c (decimal_digits _ c hc)
  · rw [if_neg h, pyInt_decimal]
    simp only [Option.some.injEq]
    omega

/-! ### Searching the delimiter -/

theorem getElem_prefix {xs data : Bytes} {k i : Nat} (h : xs <+: data.drop k) (hi : i < xs.length) :
    (data.drop (k + i)).head? = some xs[i] := by
  obtain ⟨t, ht⟩ := h
  rw [← List.drop_drop, ← ht, List.head?_drop, List.getElem?_append_left hi, List.getElem?_eq_getElem hi]

/-- The delimiter `c` behind a text without it is found. -/
theorem search_delim (data : Bytes) (s : InputStream) (hs : stringInputStream data = .ok s)
    (k m : Nat) (c : UInt8) (text : Bytes) (ht : c ∉ text) (hm : text.length < m)
    (hp : (text ++ [c]) <+: data.drop k) (e : Int) (he : e = ((8 * k + 8 * m : Nat) : Int)) :
    searchBytesLength s [c] false (8 * k : Nat) (some e) = .ok (some (text.length : Int)) := by
  subst he
  have hl := hp.length_le
  simp only [List.length_append, List.length_cons, List.length_nil, List.length_drop] at hl
  obtain ⟨r, hr, hspec⟩ := _root_.Props.C05_searchBytes data [c] s hs (by simp) k (some (8 * k + 8 * m)) _ rfl (by omega)
  have hone : ∀ j, ([c] <+: data.drop j ↔ (data.drop j).head? = some c) := by
    intro j
    cases data.drop j with
    | nil => simp
    | cons x xs => simp [List.cons_prefix_cons, eq_comm]
  have hat : (data.drop (k + text.length)).head? = some c := by
    have := getElem_prefix hp (i := text.length) (by simp)
    simpa using this
  have hnot : ∀ i, i < text.length → (data.drop (k + i)).head? ≠ some c := by
    intro i hi h
    have := getElem_prefix hp (i := i) (by simp; omega)
    rw [h] at this
    simp only [Option.some.injEq] at this
    rw [List.getElem_append_left hi] at this
    exact ht (this ▸ List.getElem_mem hi)
  have hres : r = some (((8 * k : Nat) : Int) + 8 * (text.length : Int)) := by
    cases r with
    | none =>
      exfalso
      refine hspec (k + text.length) (by omega) ?_ ((hone _).2 hat)
      simp only [List.length_cons, List.length_nil]
      omega
    | some a =>
      obtain ⟨j, h1, h2, h3, h4, h5⟩ := hspec
      have hge : k + text.length ≤ j := by
        by_contra hlt
        exact hnot (j - k) (by omega) (by rw [show k + (j - k) = j by omega]; exact (hone j).1 h4)
      have hle : j ≤ k + text.length := by
        by_contra hlt
        exact h5 (k + text.length) (by omega) (by omega) ((hone _).2 hat)
      rw [h1]
      simp only [Option.some.injEq]
      omega
  rw [hres] at hr
  exact (_root_.Props.C05_searchBytesLength s [c] (8 * k : Nat) _ (text.length : Int) hr).1

theorem readBytes_prefix (data : Bytes) (s : InputStream) (hs : stringInputStream data = .ok s)
    (k : Nat) (xs : Bytes) (hp : xs <+: data.drop k) : readBytes s (8 * k : Nat) xs.length = .ok xs := by
  rw [_root_.Props.C04_readBytes data s hs k]
  have hl := hp.length_le
  rw [List.length_drop] at hl
  rw [if_pos (by omega)]
  obtain ⟨t, ht⟩ := hp
  rw [← ht, List.take_left]

theorem drop_prefix {xs ys data : Bytes} {k : Nat} (h : (xs ++ ys) <+: data.drop k) :
    ys <+: data.drop (k + xs.length) := by
  obtain ⟨t, ht⟩ := h
  exact ⟨t, by rw [← List.drop_drop, ← ht, List.append_assoc, List.drop_left]⟩

theorem prefix_left {xs ys zs : Bytes} (h : (xs ++ ys) <+: zs) : xs <+: zs :=
  (List.prefix_append _ _).trans h

theorem benInteger_eq (data : Bytes) (s : InputStream) (hs : stringInputStream data = .ok s)
    (k : Nat) (n : Int) (hn : (decimalInt n).length ≤ 21) (hp : (105 :: (decimalInt n ++ [101])) <+: data.drop k) :
    benInteger s (8 * k : Nat) = .ok (.int (some n), 8 * ((decimalInt n).length + 2)) := by
  have hp1 : (decimalInt n ++ [101]) <+: data.drop (k + 1) := drop_prefix (xs := [105]) hp
  have hmem : (101 : UInt8) ∉ decimalInt n := by
    intro h
    unfold decimalInt at h
    have hd : ∀ m, (101 : UInt8) ∉ decimal m := by
      intro m hm
      have := decimal_digits m 101 hm
      simp at this
    split at h
    · rcases List.mem_cons.1 h with h | h
      · simp at h
      · exact hd _ h
    · exact hd _ h
  have hlen : 0 < (decimalInt n).length := by
    unfold decimalInt
    have := List.length_pos_iff.2 (decimal_ne_nil n.natAbs)
    split <;> simp <;> omega
  unfold benInteger
  rw [show ((8 * k : Nat) : Int) + 8 = ((8 * (k + 1) : Nat) : Int) by omega,
    search_delim data s hs (k + 1) 22 101 (decimalInt n) hmem (by omega) hp1 _ (by omega)]
  simp only
  rw [if_neg (by omega), Int.toNat_natCast, readBytes_prefix data s hs (k + 1) _ (prefix_left hp1)]
  simp only [pyInt_decimalInt, Except.ok.injEq, Prod.mk.injEq, true_and]
  omega

theorem benString_eq (data : Bytes) (s : InputStream) (hs : stringInputStream data = .ok s)
    (k : Nat) (b : Bytes) (hb : b.length < 1000000) (hp : (decimal b.length ++ 58 :: b) <+: data.drop k) :
    benString s (8 * k : Nat) = .ok (.str (shownStr b), 8 * ((decimal b.length).length + 1 + b.length)) := by
  have hmem : (58 : UInt8) ∉ decimal b.length := by
    intro h
    have := decimal_digits _ 58 h
    simp at this
  have hlen : 0 < (decimal b.length).length := List.length_pos_iff.2 (decimal_ne_nil _)
  have hlen6 : (decimal b.length).length ≤ 6 := decimal_length_le 5 _ (by norm_num; omega)
  have hp1 : (decimal b.length ++ [58]) <+: data.drop k := by
    apply prefix_left (ys := b)
    simpa using hp
  have hp2 : b <+: data.drop (k + ((decimal b.length).length + 1)) := by
    have := drop_prefix (xs := decimal b.length ++ [58]) (ys := b) (data := data) (k := k) (by simpa using hp)
    simpa using this
  unfold benString
  rw [search_delim data s hs k 7 58 _ hmem (by omega) hp1 _ (by omega)]
  simp only
  rw [if_neg (by omega), Int.toNat_natCast, readBytes_prefix data s hs k _ (prefix_left hp1)]
  simp only [pyInt_decimal, Option.getD_some]
  rw [if_neg (by omega)]
  unfold shownStr
  by_cases h0 : b.length = 0
  · rw [if_pos (by omega), if_pos (.inl h0)]
    simp only [Except.ok.injEq, Prod.mk.injEq, true_and]
    omega
  · rw [if_neg (by omega), Int.toNat_natCast,
      show ((8 * k : Nat) : Int) + 8 * ((decimal b.length).length : Int) + 8 =
        ((8 * (k + ((decimal b.length).length + 1)) : Nat) : Int) by push_cast; ring,
      readBytes_prefix data s hs _ b hp2]
    simp only [Except.ok.injEq, Prod.mk.injEq]
    constructor
    · by_cases h5 : 512 ≤ b.length
      · rw [if_neg (by omega), if_pos (.inr h5)]
      · rw [if_pos (by omega), if_neg (by omega)]
    · omega

theorem head_prefix (data : Bytes) (s : InputStream) (hs : stringInputStream data = .ok s)
    (k : Nat) (c : UInt8) (xs : Bytes) (hp : (c :: xs) <+: data.drop k) : readBytes s (8 * k : Nat) 1 = .ok [c] :=
  readBytes_prefix data s hs k [c] (prefix_left (ys := xs) hp)

/-- The first byte of an encoding is a tag, never the end marker. -/
theorem benEncode_head (v : Ben Int Bytes) : ∃ c xs, benEncode v = c :: xs ∧ c ≠ 101 := by
  cases v with
  | int n => exact ⟨_, _, by rw [benEncode], by decide⟩
  | str b =>
    rw [benEncode]
    cases h : decimal b.length with
    | nil => exact absurd h (decimal_ne_nil _)
    | cons c cs =>
      refine ⟨c, _, rfl, ?_⟩
      rintro rfl
      have := decimal_digits b.length 101 (by rw [h]; simp)
      simp at this
  | list l => exact ⟨_, _, by rw [benEncode], by decide⟩
  | dict l => exact ⟨_, _, by rw [benEncode], by decide⟩

mutual
theorem benEntry_eq (data : Bytes) (s : InputStream) (hs : stringInputStream data = .ok s)
    (v : Ben Int Bytes) (hv : BenOk v) (n k : Nat) (hn : (benEncode v).length < n)
    (hp : benEncode v <+: data.drop k) :
    benEntry s n (8 * k : Nat) = .ok (benShown v, 8 * (benEncode v).length) := by
  cases n with
  | zero => omega
  | succ n =>
    match v with
    | .int i =>
      rw [BenOk] at hv
      rw [benEncode] at hp hn ⊢
      rw [benEntry, head_prefix data s hs k _ _ hp]
      simp only
      rw [if_neg (by decide), if_pos trivial, benInteger_eq data s hs k i hv hp, benShown]
      simp
    | .str b =>
      rw [BenOk] at hv
      rw [benEncode] at hp hn ⊢
      obtain ⟨c, cs, hc⟩ : ∃ c cs, decimal b.length = c :: cs := by
        cases h : decimal b.length with
        | nil => exact absurd h (decimal_ne_nil _)
        | cons c cs => exact ⟨c, cs, rfl⟩
      have hcd := decimal_digits b.length c (by rw [hc]; simp)
      have hne : ∀ d : UInt8, 57 < d.toNat → [c] ≠ [d] := by
        intro d hd h
        simp only [List.cons.injEq, and_true] at h
        subst h
        omega
      rw [benEntry, head_prefix data s hs k c (cs ++ 58 :: b) (by rw [hc, List.cons_append] at hp; exact hp)]
      simp only
      rw [if_neg (hne 100 (by decide)), if_neg (hne 105 (by decide)), if_neg (hne 108 (by decide)),
        if_pos (by simpa using hcd), benString_eq data s hs k b hv hp, benShown]
      simp
      omega
    | .list l =>
      rw [BenOk] at hv
      rw [benEncode] at hp hn ⊢
      simp only [List.length_cons, List.length_append, List.length_nil] at hn
      rw [benEntry, head_prefix data s hs k _ _ hp]
      simp only
      rw [if_neg (by decide), if_neg (by decide), if_pos trivial,
        show ((8 * k : Nat) : Int) + 8 = ((8 * (k + 1) : Nat) : Int) by omega,
        benItems_eq data s hs l hv n (k + 1) (by omega) (drop_prefix (xs := [108]) hp), benShown]
      simp
      omega
    | .dict l =>
      rw [BenOk] at hv
      rw [benEncode] at hp hn ⊢
      simp only [List.length_cons, List.length_append, List.length_nil] at hn
      rw [benEntry, head_prefix data s hs k _ _ hp]
      simp only
      rw [if_pos trivial,
        show ((8 * k : Nat) : Int) + 8 = ((8 * (k + 1) : Nat) : Int) by omega,
        benPairs_eq data s hs l hv n (k + 1) (by omega) (drop_prefix (xs := [100]) hp), benShown]
      simp
      omega
theorem benItems_eq (data : Bytes) (s : InputStream) (hs : stringInputStream data = .ok s)
    (l : Bens Int Bytes) (hl : BensOk l) (n k : Nat) (hn : (bensEncode l).length + 1 < n)
    (hp : (bensEncode l ++ [101]) <+: data.drop k) :
    benItems s n (8 * k : Nat) = .ok (bensShown l, 8 * (bensEncode l).length) := by
  cases n with
  | zero => omega
  | succ n =>
    match l with
    | .nil =>
      rw [bensEncode] at hp ⊢
      rw [benItems, head_prefix data s hs k 101 [] hp]
      simp only
      rw [if_pos trivial, bensShown]
      rfl
    | .cons v l =>
      rw [BensOk] at hl
      rw [bensEncode] at hp hn ⊢
      rw [List.append_assoc] at hp
      simp only [List.length_append] at hn
      obtain ⟨c, xs, hc, hne⟩ := benEncode_head v
      rw [benItems, head_prefix data s hs k c (xs ++ (bensEncode l ++ [101])) (by rw [hc] at hp; exact hp)]
      simp only
      have h1 := benEntry_eq data s hs v hl.1 n k (by omega) (prefix_left hp)
      have hpos : 0 < (benEncode v).length := by rw [hc]; simp
      have h2 := benItems_eq data s hs l hl.2 n (k + (benEncode v).length) (by omega) (drop_prefix hp)
      rw [if_neg (by simpa using hne), h1]
      simp only
      rw [show ((8 * k : Nat) : Int) + ((8 * (benEncode v).length : Nat) : Int) =
        ((8 * (k + (benEncode v).length) : Nat) : Int) by push_cast; ring, h2, bensShown]
      simp only [List.length_append, Except.ok.injEq, Prod.mk.injEq, true_and]
      omega
theorem benPairs_eq (data : Bytes) (s : InputStream) (hs : stringInputStream data = .ok s)
    (l : BenPairs Int Bytes) (hl : PairsOk l) (n k : Nat) (hn : (pairsEncode l).length + 1 < n)
    (hp : (pairsEncode l ++ [101]) <+: data.drop k) :
    benPairs s n (8 * k : Nat) = .ok (pairsShown l, 8 * (pairsEncode l).length) := by
  cases n with
  | zero => omega
  | succ n =>
    match l with
    | .nil =>
      rw [pairsEncode] at hp ⊢
      rw [benPairs, head_prefix data s hs k 101 [] hp]
      simp only
      rw [if_pos trivial, pairsShown]
      rfl
    | .cons key v l =>
      rw [PairsOk] at hl
      rw [pairsEncode] at hp hn ⊢
      rw [List.append_assoc, List.append_assoc] at hp
      simp only [List.length_append] at hn
      obtain ⟨c, xs, hc, hne⟩ := benEncode_head key
      rw [benPairs, head_prefix data s hs k c (xs ++ (benEncode v ++ (pairsEncode l ++ [101])))
        (by rw [hc] at hp; exact hp)]
      simp only
      have hp2 := drop_prefix hp
      have hpos : 0 < (benEncode key).length := by rw [hc]; simp
      have h1 := benEntry_eq data s hs key hl.1 n k (by omega) (prefix_left hp)
      have h2 := benEntry_eq data s hs v hl.2.1 n (k + (benEncode key).length) (by omega) (prefix_left hp2)
      have h3 := benPairs_eq data s hs l hl.2.2 n (k + (benEncode key).length + (benEncode v).length) (by omega)
        (drop_prefix hp2)
      rw [if_neg (by simpa using hne), h1]
      simp only
      rw [show ((8 * k : Nat) : Int) + ((8 * (benEncode key).length : Nat) : Int) =
        ((8 * (k + (benEncode key).length) : Nat) : Int) by push_cast; ring, h2]
      simp only
      rw [show ((8 * (k + (benEncode key).length) : Nat) : Int) + ((8 * (benEncode v).length : Nat) : Int) =
        ((8 * (k + (benEncode key).length + (benEncode v).length) : Nat) : Int) by push_cast; ring, h3, pairsShown]
      simp only [List.length_append, Except.ok.injEq, Prod.mk.injEq, true_and]
      omega
end

/-- C58: every bencoded value within the limits, anywhere in the data, is read as itself, with
every nested value, and covers exactly its bytes. -/
theorem C58_value (data : Bytes) (s : InputStream) (hs : stringInputStream data = .ok s)
    (v : Ben Int Bytes) (hv : BenOk v) (n k : Nat) (hn : (benEncode v).length < n)
    (hp : benEncode v <+: data.drop k) :
    benEntry s n (8 * k : Nat) = .ok (benShown v, 8 * (benEncode v).length) :=
  benEntry_eq data s hs v hv n k hn hp

/-- C58: the same for a whole file. -/
theorem C58_file (v : Ben Int Bytes) (hv : BenOk v) (s : InputStream)
    (hs : stringInputStream (benEncode v) = .ok s) :
    benEntry s ((benEncode v).length + 1) 0 = .ok (benShown v, 8 * (benEncode v).length) := by
  have := C58_value (benEncode v) s hs v hv _ 0 (Nat.lt_succ_self _) (by simp)
  simpa using this

/-- C58: all 64 bit integers are within the limits (21 characters). -/
theorem C58_int64 (n : Int) (h1 : -(2 ^ 63) ≤ n) (h2 : n < 2 ^ 64) : BenOk (.int n) := by
  rw [BenOk, decimalInt]
  have := decimal_length_le 19 n.natAbs (by norm_num at h1 h2 ⊢; omega)
  split <;> simp <;> omega

/-- C58 (disagreement): an empty string and a string of 512 bytes or more are read with the
right extent but have no value (so two different long strings look the same). -/
theorem C58_long_string_no_value (data : Bytes) (s : InputStream) (hs : stringInputStream data = .ok s)
    (b : Bytes) (hb : b.length < 1000000) (h : b.length = 0 ∨ 512 ≤ b.length) (n k : Nat)
    (hn : (benEncode (.str b)).length < n) (hp : benEncode (.str b) <+: data.drop k) :
    benEntry s n (8 * k : Nat) = .ok (.str none, 8 * (benEncode (.str b)).length) := by
  rw [C58_value data s hs (.str b) (by rw [BenOk]; exact hb) n k hn hp, benShown, shownStr, if_pos h]

/-- C58 (disagreement): lengths and integers go through Python's `int`, so text that is not
bencoding is accepted: `1_0` is ten, a length may be followed by spaces. -/
theorem C58_lenient :
    ∃ s, stringInputStream [49, 32, 58, 120] = .ok s ∧ benEntry s 5 0 = .ok (.str (some [120]), 32) ∧
    ∃ t, stringInputStream [105, 32, 49, 95, 48, 101] = .ok t ∧ benEntry t 5 0 = .ok (.int (some 10), 48) := by
  refine ⟨_, rfl, by decide +kernel, _, rfl, by decide +kernel⟩

/-! ### The texts `int` accepts -/

/-- Groups of digits with an underscore between them. -/
def underscored : List Bytes → Bytes
  | [] => []
  | [g] => g
  | g :: gs => g ++ 95 :: underscored gs

/-- Digits only. -/
def AllDigits (g : Bytes) : Prop := ∀ c ∈ g, 48 ≤ c.toNat ∧ c.toNat ≤ 57

/-- Decimal value, most significant digit first. -/
def valueFrom (acc : Nat) (g : Bytes) : Nat := g.foldl (fun a c => a * 10 + (c.toNat - 48)) acc

/-- The rest of a number: behind a digit it may be empty or start with an underscore. -/
theorem pyDigits_iff (cs : Bytes) : ∀ (acc : Nat) (b : Bool) (v : Nat),
    pyDigits acc b cs = some v ↔
      ∃ g gs, (g ≠ [] ∨ b = true) ∧ AllDigits g ∧ (∀ h ∈ gs, h ≠ [] ∧ AllDigits h) ∧
        cs = underscored (g :: gs) ∧ v = valueFrom acc (g ++ gs.flatten) := by
  induction cs with
  | nil =>
    intro acc b v
    rw [pyDigits]
    constructor
    · intro h
      cases b with
      | false => simp at h
      | true =>
        simp only [if_true, Option.some.injEq] at h
        exact ⟨[], [], Or.inr rfl, (by intro c hc; cases hc), by simp, rfl, by rw [← h]; rfl⟩
    · rintro ⟨g, gs, h1, h2, h3, h4, h5⟩
      cases gs with
      | nil =>
        have hg : g = [] := h4.symm
        subst hg
        rcases h1 with h1 | h1
        · exact absurd rfl h1
        · rw [if_pos h1, h5]; rfl
      | cons h gs => simp [underscored] at h4
  | cons c cs ih =>
    intro acc b v
    rw [pyDigits]
    by_cases hd : 48 ≤ c.toNat ∧ c.toNat ≤ 57
    · rw [if_pos hd, ih]
      constructor
      · rintro ⟨g, gs, h1, h2, h3, h4, h5⟩
        refine ⟨c :: g, gs, Or.inl (by simp), ?_, h3, ?_, h5⟩
        · intro x hx
          rcases List.mem_cons.1 hx with rfl | hx
          · exact hd
          · exact h2 x hx
        · rw [h4]
          cases gs <;> rfl
      · rintro ⟨g, gs, h1, h2, h3, h4, h5⟩
        cases g with
        | nil =>
          cases gs with
          | nil => cases h4
          | cons h gs =>
            have : c = 95 := by
              have := congrArg List.head? h4
              simpa [underscored] using this
            subst this
            exact absurd hd.2 (by decide)
        | cons x g =>
          have hx : c = x ∧ cs = underscored (g :: gs) := by
            cases gs <;> simpa [underscored] using h4
          obtain ⟨rfl, hx⟩ := hx
          exact ⟨g, gs, Or.inr rfl, fun y hy => h2 y (by simp [hy]), h3, hx, h5⟩
    · rw [if_neg hd]
      by_cases hu : c.toNat = 95 ∧ b = true
      · rw [if_pos hu, ih]
        have hc : c = 95 := UInt8.toNat_inj.mp hu.1
        constructor
        · rintro ⟨g, gs, h1, h2, h3, h4, h5⟩
          refine ⟨[], g :: gs, Or.inr hu.2, (by intro c hc; cases hc), ?_, ?_, ?_⟩
          · intro h hh
            rcases List.mem_cons.1 hh with rfl | hh
            · exact ⟨h1.resolve_right (by simp), h2⟩
            · exact h3 h hh
          · rw [hc, h4]; rfl
          · rw [h5]; rfl
        · rintro ⟨g, gs, h1, h2, h3, h4, h5⟩
          cases g with
          | nil =>
            cases gs with
            | nil => cases h4
            | cons h gs =>
              have hcs : cs = underscored (h :: gs) := by
                have := congrArg List.tail h4
                simpa [underscored] using this
              have hh := h3 h (by simp)
              exact ⟨h, gs, Or.inl hh.1, hh.2, fun x hx => h3 x (by simp [hx]), hcs, h5⟩
          | cons x g =>
            have hx : c = x := by
              cases gs <;> simp [underscored] at h4 <;> exact h4.1
            subst hx
            exact absurd (h2 c (by simp)) hd
      · rw [if_neg hu]
        constructor
        · intro h; cases h
        · rintro ⟨g, gs, h1, h2, h3, h4, h5⟩
          exfalso
          cases g with
          | nil =>
            cases gs with
            | nil => cases h4
            | cons h gs =>
              have : c = 95 := by
                have := congrArg List.head? h4
                simpa [underscored] using this
              subst this
              exact hu ⟨rfl, h1.resolve_left (by simp)⟩
          | cons x g =>
            have hx : c = x := by
              cases gs <;> simp [underscored] at h4 <;> exact h4.1
            subst hx
            exact hd (h2 c (by simp))

theorem mem_underscored : ∀ (gs : List Bytes), (∀ h ∈ gs, AllDigits h) → ∀ c ∈ underscored gs,
    (48 ≤ c.toNat ∧ c.toNat ≤ 57) ∨ c.toNat = 95
  | [], _, c, hc => by cases hc
  | [g], h, c, hc => Or.inl (h g (by simp) c hc)
  | g :: h' :: gs, h, c, hc => by
    rw [underscored] at hc
    rcases List.mem_append.1 hc with hc | hc
    · exact Or.inl (h g (by simp) c hc)
    · rcases List.mem_cons.1 hc with rfl | hc
      · exact Or.inr rfl
      · exact mem_underscored (h' :: gs) (fun x hx => h x (by simp [hx])) c hc
    all_goals simp

theorem dropWhile_all {α : Type} {p : α → Bool} : ∀ (a b : List α), (∀ c ∈ a, p c = true) →
    (a ++ b).dropWhile p = b.dropWhile p
  | [], b, _ => rfl
  | c :: a, b, h => by
    rw [List.cons_append, List.dropWhile_cons, if_pos (h c (by simp))]
    exact dropWhile_all a b fun x hx => h x (by simp [hx])

theorem dropWhile_head {α : Type} {p : α → Bool} (a : List α) (h : ∀ c ∈ a.head?, p c = false) :
    a.dropWhile p = a := by
  cases a with
  | nil => rfl
  | cons c a =>
    rw [List.dropWhile_cons, if_neg]
    rw [h c rfl]
    decide

theorem strip_core (before core after : Bytes) (hb : ∀ c ∈ before, isPySpace c = true)
    (ha : ∀ c ∈ after, isPySpace c = true) (hc : core ≠ []) (hn : ∀ c ∈ core, isPySpace c = false) :
    (((before ++ core ++ after).dropWhile isPySpace).reverse.dropWhile isPySpace).reverse = core := by
  rw [List.append_assoc, dropWhile_all _ _ hb]
  have h1 : (core ++ after).dropWhile isPySpace = core ++ after := by
    apply dropWhile_head
    intro c hcc
    cases core with
    | nil => exact absurd rfl hc
    | cons x core =>
      simp only [List.cons_append, List.head?_cons, Option.mem_some_iff] at hcc
      subst hcc
      exact hn _ (by simp)
  rw [h1, List.reverse_append, dropWhile_all _ _ (fun c hcc => ha c (List.mem_reverse.1 hcc)),
    dropWhile_head, List.reverse_reverse]
  intro c hcc
  exact hn c (List.mem_reverse.1 (List.mem_of_mem_head? hcc))

theorem strip_split (t : Bytes) : ∃ before after,
    t = before ++ ((t.dropWhile isPySpace).reverse.dropWhile isPySpace).reverse ++ after ∧
    (∀ c ∈ before, isPySpace c = true) ∧ (∀ c ∈ after, isPySpace c = true) := by
  refine ⟨t.takeWhile isPySpace, ((t.dropWhile isPySpace).reverse.takeWhile isPySpace).reverse, ?_, ?_, ?_⟩
  · rw [List.append_assoc, ← List.reverse_append, List.takeWhile_append_dropWhile, List.reverse_reverse,
      List.takeWhile_append_dropWhile]
  · intro c hc
    exact List.all_eq_true.mp (List.all_takeWhile ..) c hc
  · intro c hc
    exact List.all_eq_true.mp (List.all_takeWhile ..) c (List.mem_reverse.1 hc)

theorem int_text (t : Bytes) (v : Int) :
    pyInt t = some v ↔
      ∃ (before sign after : Bytes) (g : Bytes) (gs : List Bytes),
        t = before ++ sign ++ underscored (g :: gs) ++ after ∧
        (∀ c ∈ before, isPySpace c = true) ∧ (∀ c ∈ after, isPySpace c = true) ∧
        (∀ h ∈ g :: gs, h ≠ [] ∧ AllDigits h) ∧
        ((sign = [] ∨ sign = [43]) ∧ v = valueFrom 0 (g :: gs).flatten ∨
         sign = [45] ∧ v = -(valueFrom 0 (g :: gs).flatten : Int)) := by
  constructor
  · intro h
    obtain ⟨before, after, h1, h2, h3⟩ := strip_split t
    unfold pyInt at h
    obtain ⟨m, hm⟩ : ∃ m, ((t.dropWhile isPySpace).reverse.dropWhile isPySpace).reverse = m := ⟨_, rfl⟩
    rw [hm] at h h1
    have digits : ∀ cs n, pyDigits 0 false cs = some n → ∃ g gs, cs = underscored (g :: gs) ∧
        (∀ h ∈ g :: gs, h ≠ [] ∧ AllDigits h) ∧ n = valueFrom 0 (g :: gs).flatten := by
      intro cs n hn
      obtain ⟨g, gs, g1, g2, g3, g4, g5⟩ := (pyDigits_iff cs 0 false n).mp hn
      refine ⟨g, gs, g4, ?_, g5⟩
      intro x hx
      rcases List.mem_cons.1 hx with rfl | hx
      · exact ⟨g1.resolve_right (by simp), g2⟩
      · exact g3 x hx
    cases m with
    | nil => cases h
    | cons c cs =>
      simp only at h
      by_cases c1 : c.toNat = 45
      · rw [if_pos c1] at h
        obtain ⟨n, n1, n2⟩ := Option.map_eq_some_iff.mp h
        obtain ⟨g, gs, g1, g2, g3⟩ := digits cs n n1
        have hc : c = 45 := UInt8.toNat_inj.mp c1
        exact ⟨before, [45], after, g, gs, by rw [h1, hc, g1]; simp, h2, h3, g2, Or.inr ⟨rfl, by rw [← n2, g3]⟩⟩
      rw [if_neg c1] at h
      by_cases c2 : c.toNat = 43
      · rw [if_pos c2] at h
        obtain ⟨n, n1, n2⟩ := Option.map_eq_some_iff.mp h
        obtain ⟨g, gs, g1, g2, g3⟩ := digits cs n n1
        have hc : c = 43 := UInt8.toNat_inj.mp c2
        exact ⟨before, [43], after, g, gs, by rw [h1, hc, g1]; simp, h2, h3, g2,
          Or.inl ⟨Or.inr rfl, by rw [← n2, g3]; rfl⟩⟩
      rw [if_neg c2] at h
      obtain ⟨n, n1, n2⟩ := Option.map_eq_some_iff.mp h
      obtain ⟨g, gs, g1, g2, g3⟩ := digits (c :: cs) n n1
      exact ⟨before, [], after, g, gs, by rw [h1, g1]; simp, h2, h3, g2,
        Or.inl ⟨Or.inl rfl, by rw [← n2, g3]; rfl⟩⟩
  · rintro ⟨before, sign, after, g, gs, h1, h2, h3, h4, h5⟩
    have hdig : pyDigits 0 false (underscored (g :: gs)) = some (valueFrom 0 (g :: gs).flatten) := by
      rw [pyDigits_iff]
      exact ⟨g, gs, Or.inl (h4 g (by simp)).1, (h4 g (by simp)).2, fun x hx => h4 x (by simp [hx]), rfl, rfl⟩
    have hmem := mem_underscored (g :: gs) (fun x hx => (h4 x hx).2)
    obtain ⟨c, cs, hcs, hc⟩ : ∃ c cs, underscored (g :: gs) = c :: cs ∧ 48 ≤ c.toNat ∧ c.toNat ≤ 57 := by
      have hg := h4 g (by simp)
      cases g with
      | nil => exact absurd rfl hg.1
      | cons c g =>
        have hc := hg.2 c (by simp)
        cases gs with
        | nil => exact ⟨c, g, rfl, hc⟩
        | cons h gs => exact ⟨c, g ++ 95 :: underscored (h :: gs), rfl, hc⟩
    have hspace : ∀ x : UInt8, ((48 ≤ x.toNat ∧ x.toNat ≤ 57) ∨ x.toNat = 95 ∨ x.toNat = 43 ∨ x.toNat = 45) →
        isPySpace x = false := by
      intro x hx
      unfold isPySpace
      simp only [Bool.or_eq_false_iff, Bool.and_eq_false_iff, decide_eq_false_iff_not, beq_eq_false_iff_ne]
      omega
    have hstrip := strip_core before (sign ++ underscored (g :: gs)) after h2 h3 (by rw [hcs]; simp) (by
      intro x hx
      apply hspace
      rcases List.mem_append.1 hx with hx | hx
      · rcases h5 with ⟨h5 | h5, _⟩ | ⟨h5, _⟩ <;> subst h5
        · cases hx
        · cases List.mem_singleton.1 hx; exact Or.inr (Or.inr (Or.inl rfl))
        · cases List.mem_singleton.1 hx; exact Or.inr (Or.inr (Or.inr rfl))
      · rcases hmem x hx with h | h
        · exact Or.inl h
        · exact Or.inr (Or.inl h))
    rw [← List.append_assoc, ← h1] at hstrip
    unfold pyInt
    rw [hstrip]
    rcases h5 with ⟨h5 | h5, h6⟩ | ⟨h5, h6⟩ <;> subst h5
    · rw [List.nil_append, hcs]
      simp only
      rw [if_neg (by omega), if_neg (by omega), ← hcs, hdig, h6]
      rfl
    · show (pyDigits 0 false (underscored (g :: gs))).map Int.ofNat = _
      rw [hdig, h6]; rfl
    · show (pyDigits 0 false (underscored (g :: gs))).map _ = _
      rw [hdig, h6]; rfl

/-- The white space around numbers. -/
def aroundNumbers : Bytes := [9, 10, 11, 12, 13, 32, 133, 160]

theorem space_iff (c : UInt8) : isPySpace c = true ↔ c ∈ aroundNumbers := by
  have h : ∀ i : Fin 256, isPySpace (UInt8.ofNat i) = true ↔ UInt8.ofNat i ∈ aroundNumbers := by decide +kernel
  have := h ⟨c.toNat, c.toNat_lt⟩
  simpa only [UInt8.ofNat_toNat] using this

/-- C58: the numbers accepted are those of Python: white space around, a sign, and groups of
digits with single underscores between them; the value is that of the digits. -/
theorem C58_int_text (t : Bytes) (v : Int) :
    pyInt t = some v ↔
      ∃ (before sign after : Bytes) (g : Bytes) (gs : List Bytes),
        t = before ++ sign ++ underscored (g :: gs) ++ after ∧
        (∀ c ∈ before, c ∈ aroundNumbers) ∧ (∀ c ∈ after, c ∈ aroundNumbers) ∧
        (∀ h ∈ g :: gs, h ≠ [] ∧ AllDigits h) ∧
        ((sign = [] ∨ sign = [43]) ∧ v = valueFrom 0 (g :: gs).flatten ∨
         sign = [45] ∧ v = -(valueFrom 0 (g :: gs).flatten : Int)) := by
  simp only [← space_iff]
  exact int_text t v

/-- `d3:fool1:ai-42eee`: a dictionary with a list. -/
example : benEncode (.dict (.cons (.str [102, 111, 111]) (.list (.cons (.str [97]) (.cons (.int (-42)) .nil))) .nil)) =
      [100, 51, 58, 102, 111, 111, 108, 49, 58, 97, 105, 45, 52, 50, 101, 101, 101] ∧
    BenOk (.dict (.cons (.str [102, 111, 111]) (.list (.cons (.str [97]) (.cons (.int (-42)) .nil))) .nil)) := by
  constructor
  · decide +kernel
  · simp only [BenOk, BensOk, PairsOk, and_true]
    refine ⟨by decide, by decide, by decide +kernel⟩

end Hachoir.Props
