import Verif.Formats.Bplist
import Verif.Props.Reader

/-!
# Binary property lists
-/

namespace Hachoir.Props
open Hachoir Hachoir.Stream Hachoir.Field Hachoir.Formats Hachoir.Formats.Bplist Spec

theorem reads_signed_be (n : Nat) (v : Int) (hn : 0 < n) (h1 : -(2 ^ (8 * n - 1) : Nat) ≤ v) (h2 : v < (2 ^ (8 * n - 1) : Nat)) :
    Reads (Rd.signed n .big) v (beBytes n (v % (256 ^ n : Nat)).toNat) := by
  intro data s hs k stop hp hst
  have h256 : (256 : Nat) ^ n = 2 * 2 ^ (8 * n - 1) := by
    rw [show (256 : Nat) = 2 ^ 8 from rfl, ← Nat.pow_mul, ← Nat.pow_succ']
    congr 1
    omega
  have h2n : (2 : Nat) ^ (8 * n) = 2 * 2 ^ (8 * n - 1) := by
    rw [← Nat.pow_succ']
    congr 1
    omega
  have hb : (v % (256 ^ n : Nat)).toNat < 256 ^ n := by
    rw [h256]
    have : 0 < 2 ^ (8 * n - 1) := Nat.two_pow_pos _
    generalize (2 : Nat) ^ (8 * n - 1) = m at *
    have := Int.emod_lt_of_pos v (show (0 : Int) < ((2 * m : Nat) : Int) by omega)
    omega
  rw [Rd.signed, readInteger, read_be data s hs n k _ hn hb hp _ rfl _ rfl]
  simp only [if_true]
  rw [if_neg (by omega), Nat.one_shiftLeft, Nat.one_shiftLeft, beBytes_length]
  have hm : 0 < 2 ^ (8 * n - 1) := Nat.two_pow_pos _
  rw [h256, h2n]
  generalize (2 : Nat) ^ (8 * n - 1) = m at *
  by_cases hv : 0 ≤ v
  · have e : v % ((2 * m : Nat) : Int) = v := Int.emod_eq_of_lt hv (by omega)
    rw [e, if_neg (by omega)]
    simp only [Except.ok.injEq, Prod.mk.injEq]
    omega
  · have e : v % ((2 * m : Nat) : Int) = v + (2 * m : Nat) := by
      rw [← Int.add_emod_right]
      exact Int.emod_eq_of_lt (by omega) (by omega)
    rw [e, if_pos (by omega)]
    simp only [Except.ok.injEq, Prod.mk.injEq]
    omega

/-! ## What objects are written as -/

/-- A marker and 4 bits. -/
def markerByte (m low : Nat) : UInt8 := UInt8.ofNat (16 * m + low)

/-- An integer: up to 4 bytes it has no sign, 8 and 16 bytes are of two's complement. -/
inductive IntForm : Int → Bytes → Prop
  | plain (k v : Nat) (hk : k < 3) (hv : v < 256 ^ 2 ^ k) : IntForm v (markerByte 1 k :: beBytes (2 ^ k) v)
  | signed (k : Nat) (v : Int) (hk : k = 3 ∨ k = 4) (h1 : -(2 ^ (8 * 2 ^ k - 1) : Nat) ≤ v) (h2 : v < (2 ^ (8 * 2 ^ k - 1) : Nat)) :
      IntForm v (markerByte 1 k :: beBytes (2 ^ k) (v % (256 ^ 2 ^ k : Nat)).toNat)

/-- A marker and a number of elements: below 15 in the 4 bits, or 15 and an integer. -/
inductive SizeForm (m n : Nat) : Bytes → Prop
  | short (h : n < 15) : SizeForm m n [markerByte m n]
  | long (b : Bytes) (h : IntForm n b) : SizeForm m n (markerByte m 15 :: b)

/-- The ways to write an object, references have `rs` bytes.  Texts have at most 65535 bytes, and there is no way for a dictionary without entries. -/
inductive BpWritten (rs : Nat) : Obj → Bytes → Prop
  | simple (v : Nat) (h : v < 16) : BpWritten rs (.simple v) [markerByte 0 v]
  | int (v : Int) (b : Bytes) (h : IntForm v b) : BpWritten rs (.int v) b
  | real (k v : Nat) (hk : k < 16) (hv : v < 256 ^ 2 ^ k) : BpWritten rs (.real k v) (markerByte 2 k :: beBytes (2 ^ k) v)
  | date (v : Nat) (hv : v < 256 ^ 8) : BpWritten rs (.date 3 v) (markerByte 3 3 :: beBytes 8 v)
  | data (b p : Bytes) (h : SizeForm 4 b.length p) : BpWritten rs (.data b) (p ++ b)
  | ascii (b p : Bytes) (h : SizeForm 5 b.length p) (hb : b.length ≤ 65535) : BpWritten rs (.ascii b) (p ++ b)
  | utf16 (n : Nat) (b p : Bytes) (h : SizeForm 6 n p) (hn : b.length = n * 2) (hb : b.length ≤ 65535) : BpWritten rs (.utf16 b) (p ++ b)
  | uid (k v : Nat) (hk : k < 16) (hv : v < 256 ^ (k + 1)) : BpWritten rs (.uid k v) (markerByte 8 k :: beBytes (k + 1) v)
  | array (refs : List Nat) (p : Bytes) (h : SizeForm 10 refs.length p) (hr : ∀ r ∈ refs, r < 256 ^ rs) : BpWritten rs (.array refs) (p ++ refs.flatMap (beBytes rs))
  | dict (keys vals : List Nat) (p : Bytes) (h : SizeForm 13 keys.length p) (hl : vals.length = keys.length) (h0 : keys ≠ []) (hk : ∀ r ∈ keys, r < 256 ^ rs)
      (hv : ∀ r ∈ vals, r < 256 ^ rs) : BpWritten rs (.dict keys vals) (p ++ (keys.flatMap (beBytes rs) ++ vals.flatMap (beBytes rs)))

theorem markerByte_val (m low : Nat) (hm : m < 16) (hl : low < 16) : (markerByte m low).toNat = 16 * m + low := by
  rw [markerByte, UInt8.toNat_ofNat']
  omega

theorem reads_marker (m low : Nat) (hm : m < 16) (hl : low < 16) : Reads marker (m, low) [markerByte m low] := by
  have h := reads_bits_be [4, 4] [markerByte m low] (by simp) (by simp)
  have e : splitBE [4, 4] (ofBytesBE [markerByte m low]) = [m, low] := by
    have := markerByte_val m low hm hl
    simp only [splitBE, ofBytesBE, List.sum_cons, List.sum_nil, this, List.cons.injEq, and_true]
    norm_num
    omega
  rw [e] at h
  exact Reads.map (f := fun bs : List Nat => (bs.getD 0 0, bs.getD 1 0)) h

theorem reads_number_form (v : Int) (b : Bytes) (h : IntForm v b) : ∃ k c, b = markerByte 1 k :: c ∧ k < 16 ∧ Reads (number k) v c := by
  cases h with
  | plain k v hk hv =>
    refine ⟨k, _, rfl, by omega, ?_⟩
    rw [number, if_neg (by omega), if_neg (by omega)]
    exact Reads.map (f := fun v : Nat => (v : Int)) (reads_int_be _ v (Nat.two_pow_pos k) hv)
  | signed k v hk h1 h2 =>
    refine ⟨k, _, rfl, by omega, ?_⟩
    rw [number, if_neg (by omega), if_pos (by omega)]
    exact reads_signed_be _ v (Nat.two_pow_pos k) h1 h2

theorem reads_size_form (m n : Nat) (p : Bytes) (h : SizeForm m n p) :
    ∃ low c, p = markerByte m low :: c ∧ low < 16 ∧ Reads (size low) n c := by
  cases h with
  | short h =>
    refine ⟨n, [], rfl, by omega, ?_⟩
    rw [size, if_pos (by omega)]
    exact reads_pure n
  | long b h =>
    obtain ⟨k, c, rfl, hk, hr⟩ := reads_number_form _ _ h
    refine ⟨15, _, rfl, by omega, ?_⟩
    rw [size, if_neg (by omega)]
    refine Reads.bind (xs := [markerByte 1 k]) (reads_marker 1 k (by omega) hk) ?_
    rw [if_neg (by simp)]
    refine (Reads.bind (ys := []) hr ?_).of_eq rfl (List.append_nil c)
    rw [if_neg (by omega)]
    exact reads_pure n

/-- **C134**: every object is read as it was written, whatever way its size is written. -/
theorem C134_object (rs : Nat) (hrs : 0 < rs) (o : Obj) (b : Bytes) (h : BpWritten rs o b) : Reads (object rs) o b := by
  have sized : ∀ (m n : Nat) (p c : Bytes), m < 16 → SizeForm m n p → (∀ low d, low < 16 → Reads (size low) n d → Reads (body rs m low) o (d ++ c)) →
      Reads (object rs) o (p ++ c) := by
    intro m n p c hm hp hb
    obtain ⟨low, d, rfl, hl, hr⟩ := reads_size_form m n p hp
    exact Reads.bind (xs := [markerByte m low]) (reads_marker m low hm hl) (hb low d hl hr)
  have plain : ∀ (m low : Nat) (c : Bytes), m < 16 → low < 16 → Reads (body rs m low) o c → Reads (object rs) o (markerByte m low :: c) :=
    fun m low c hm hl hb => Reads.bind (xs := [markerByte m low]) (reads_marker m low hm hl) hb
  cases h with
  | simple v h => exact plain 0 v [] (by omega) h (reads_pure _)
  | int v b h =>
    obtain ⟨k, c, rfl, hk, hr⟩ := reads_number_form _ _ h
    exact plain 1 k c (by omega) hk (Reads.map (f := fun v => Obj.int v) hr)
  | real k v hk hv => exact plain 2 k _ (by omega) hk (Reads.map (f := fun v => Obj.real k v) (reads_int_be _ v (Nat.two_pow_pos k) hv))
  | date v hv => exact plain 3 3 _ (by omega) (by omega) (Reads.map (f := fun v => Obj.date 3 v) (reads_int_be 8 v (by omega) hv))
  | data b p h =>
    refine sized 4 _ p b (by omega) h fun low d hl hr => Reads.bind hr ?_
    by_cases hb : b = []
    · subst hb
      exact reads_pure _
    · have := List.length_pos_of_ne_nil hb
      rw [if_neg (by omega)]
      exact Reads.map (f := fun b => Obj.data b) (reads_raw b hb)
  | ascii b p h hn =>
    refine sized 5 _ p b (by omega) h fun low d hl hr => Reads.bind hr ?_
    by_cases hb : b = []
    · subst hb
      exact reads_pure _
    · have := List.length_pos_of_ne_nil hb
      rw [if_neg (by omega)]
      exact Reads.map (f := fun b => Obj.ascii b) (reads_fixed .big .eightBit (by decide) _ b rfl ⟨by omega, hn⟩)
  | utf16 n b p h e hn =>
    refine sized 6 _ p b (by omega) h fun low d hl hr => Reads.bind hr ?_
    by_cases hb : b = []
    · subst hb
      obtain rfl : n = 0 := by simp at e; omega
      exact reads_pure _
    · have := List.length_pos_of_ne_nil hb
      rw [if_neg (by omega)]
      exact Reads.map (f := fun b => Obj.utf16 b) (reads_fixed .big .utf16be (by decide) _ b e ⟨by omega, by omega⟩)
  | uid k v hk hv => exact plain 8 k _ (by omega) hk (Reads.map (f := fun v => Obj.uid k v) (reads_int_be _ v (by omega) hv))
  | array refs p h hr =>
    refine sized 10 _ p _ (by omega) h fun low d hl hs => Reads.bind hs ?_
    exact Reads.map (f := fun r => Obj.array r) (reads_times_n _ (beBytes rs) refs _ rfl fun r hm => reads_int_be rs r hrs (hr r hm))
  | dict keys vals p h hl h0 hk hv =>
    refine sized 13 _ p _ (by omega) h fun low d _ hs => Reads.bind hs ?_
    have := List.length_pos_of_ne_nil h0
    rw [if_neg (by omega)]
    refine Reads.bind (reads_times_n _ (beBytes rs) keys _ rfl fun r hm => reads_int_be rs r hrs (hk r hm)) ?_
    exact Reads.map (f := fun v => Obj.dict keys v) (reads_times_n _ (beBytes rs) vals _ hl.symm fun r hm => reads_int_be rs r hrs (hv r hm))

/-! ## Files -/

def bpTrailer (t : Trailer) : Bytes :=
  t.unused ++ (beBytes 1 t.offsetSize ++ (beBytes 1 t.refSize ++ (beBytes 8 t.count ++ (beBytes 8 t.top ++ beBytes 8 t.table))))

def TrailerGood (t : Trailer) : Prop :=
  t.unused.length = 6 ∧ 0 < t.offsetSize ∧ t.offsetSize < 256 ∧ 0 < t.refSize ∧ t.refSize < 256 ∧ t.count < 256 ^ 8 ∧ t.top < 256 ^ 8 ∧ t.table < 256 ^ 8

theorem reads_bp_trailer (t : Trailer) (g : TrailerGood t) : Reads trailer t (bpTrailer t) := by
  obtain ⟨h1, h2, h3, h4, h5, h6, h7, h8⟩ := g
  refine Reads.bind (reads_raw_n 6 _ h1 (by omega)) ?_
  refine Reads.bind (reads_int_be 1 _ (by omega) (by omega)) ?_
  refine Reads.bind (reads_int_be 1 _ (by omega) (by omega)) ?_
  refine Reads.bind (reads_int_be 8 _ (by omega) h6) ?_
  refine Reads.bind (reads_int_be 8 _ (by omega) h7) ?_
  exact Reads.map (reads_int_be 8 _ (by omega) h8)

theorem at_each {γ α : Type} (data : Bytes) (f : γ → Rd α) (val : γ → α) : ∀ (l : List γ) (a : Nat), (∀ x ∈ l, ∀ a, ∃ b, AtPlace data (f x) (val x) a b) →
    ∃ b, AtPlace data (Rd.each f l) (l.map val) a b
  | [], a, _ => ⟨a, at_pure data _ a⟩
  | x :: l, a, h => by
    obtain ⟨b, hb⟩ := h x (by simp) a
    obtain ⟨c, hc⟩ := at_each data f val l b fun y hy => h y (by simp [hy])
    exact ⟨c, AtPlace.bind hb (AtPlace.map (f := fun vs => val x :: vs) hc)⟩

/-- A property list: the magic, the trailer as the last 32 bytes, the table of offsets where the trailer says, and every object at its offset, in any order. -/
structure ListAt (data : Bytes) (t : Trailer) (objs : List (Nat × Obj)) : Prop where
  magic : ([98, 112, 108, 105, 115, 116, 48, 48] : Bytes) <+: data
  good : TrailerGood t
  last : bpTrailer t = data.drop (data.length - 32)
  count : t.count = objs.length
  small : ∀ p ∈ objs, p.1 < 256 ^ t.offsetSize
  table : (objs.flatMap fun p => beBytes t.offsetSize p.1) <+: data.drop t.table
  place : t.table ≤ data.length
  objects : ∀ p ∈ objs, ∃ b, BpWritten t.refSize p.2 b ∧ b <+: data.drop p.1 ∧ p.1 ≤ data.length

/-- **C134** (partial): all objects of all property lists are found, wherever they are and in whatever order; dictionaries have at least one entry. -/
theorem C134_file_partial (data : Bytes) (s : InputStream) (hs : stringInputStream data = .ok s) (t : Trailer) (objs : List (Nat × Obj)) (g : ListAt data t objs) :
    ∃ stop, bplist s (8 * data.length) 0 = .ok ((t, objs.map (·.1), objs.map (·.2)), stop) := by
  obtain ⟨hm, hg, hl, hc, hsm, htab, hpl, hob⟩ := g
  have len32 : (bpTrailer t).length = 32 := by simp only [bpTrailer, List.length_append, beBytes_length, hg.1]
  have h32 : 32 ≤ data.length := by
    have := congrArg List.length hl
    rw [len32, List.length_drop] at this
    omega
  obtain ⟨c, hc'⟩ := at_each data (fun p : Nat × Obj => (do Rd.jump p.1; object t.refSize : Rd Obj)) (·.2) objs
    (t.table + (objs.flatMap fun p => beBytes t.offsetSize p.1).length) fun p hp a => by
      obtain ⟨b, h1, h2, h3⟩ := hob p hp
      exact ⟨_, AtPlace.bind (at_jump data a p.1) ((C134_object t.refSize hg.2.2.2.1 p.2 b h1).at h2 h3)⟩
  have hmap : Rd.each (fun p : Nat × Obj => (do Rd.jump p.1; object t.refSize : Rd Obj)) objs = objects t.refSize (objs.map (·.1)) := by
    clear hc' hob hsm htab hc
    unfold Bplist.objects
    induction objs with
    | nil => rfl
    | cons p l ih => rw [List.map_cons, Rd.each, Rd.each, ih]
  rw [hmap] at hc'
  have r : AtPlace data bplist (t, objs.map (·.1), objs.map (·.2)) 0 c := by
    refine AtPlace.bind ((reads_raw_n 8 [98, 112, 108, 105, 115, 116, 48, 48] rfl (by omega)).at (data := data) (a := 0) (by simpa using hm) (by omega)) ?_
    refine AtPlace.bind (at_limit data _) ?_
    rw [show 8 * data.length / 8 = data.length by omega]
    refine AtPlace.bind (at_jump data _ (data.length - 32)) ?_
    refine AtPlace.bind ((reads_bp_trailer t hg).at (hl ▸ List.prefix_refl _) (by omega)) ?_
    refine AtPlace.bind (at_jump data _ t.table) ?_
    have rt : Reads (Rd.times (Rd.int t.offsetSize .big) t.count) (objs.map (·.1)) (objs.flatMap fun p => beBytes t.offsetSize p.1) := by
      rw [hc]
      exact reads_times_map _ (fun p : Nat × Obj => p.1) (fun p => beBytes t.offsetSize p.1) objs fun p hp => reads_int_be _ _ hg.2.1 (hsm p hp)
    refine AtPlace.bind (rt.at htab hpl) ?_
    exact AtPlace.map (f := fun os => (t, objs.map (·.1), os)) hc'
  exact ⟨_, r s hs⟩

/-- **C134**: a reference is the object of that number. -/
theorem C134_ref (objs : List (Nat × Obj)) (i : Nat) (p : Nat × Obj) (h : objs[i]? = some p) : getRef (objs.map (·.2)) i = .ok p.2 := by
  rw [getRef, List.getElem?_map, h]
  rfl

/-- Violation: the object of an empty dictionary lasts to the end of the file, and has no value. -/
theorem C134_empty_dict (rs : Nat) (data : Bytes) (s : InputStream) (hs : stringInputStream data = .ok s) (a : Nat) (hp : [markerByte 13 0] <+: data.drop a)
    (ha : a ≤ data.length) : object rs s (8 * data.length) (8 * a) = .ok (.dict [] [], 8 * data.length) ∧ hasValue (.dict [] []) = false := by
  refine ⟨?_, rfl⟩
  have := (reads_marker 13 0 (by omega) (by omega)).at hp ha s hs
  show Rd.bind marker _ s _ _ = _
  rw [Rd.bind, this]
  rfl

/-- Violation: a text of more than 65535 bytes is not read. -/
theorem C134_long_text (rs n : Nat) (p : Bytes) (h : SizeForm 5 n p) (hn : 65535 < n) (c : Bytes) : Fails (object rs) .field (p ++ c) := by
  obtain ⟨low, d, rfl, hl, hr⟩ := reads_size_form 5 n p h
  refine Reads.fails (xs := [markerByte 5 low]) (ys := d ++ c) (reads_marker 5 low (by omega) hl) ?_
  refine Reads.fails (xs := d) (ys := c) hr ?_
  rw [if_neg (by omega)]
  intro data s hs k stop hp hst
  have := fails_fixed .big .eightBit n hn c data s hs k stop hp hst
  show Rd.bind _ _ s stop _ = _
  rw [Rd.bind, this]

/-- Violation: of a set only its number of elements is read, none of the elements. -/
theorem C134_set (rs n : Nat) (hn : n < 16) : Reads (object rs) (.other 12 n) [markerByte 12 n] :=
  Reads.bind (xs := [markerByte 12 n]) (ys := []) (reads_marker 12 n (by omega) hn) (reads_pure _)

/-- Objects of many kinds. -/
example : BpWritten 1 (.int (-2)) (markerByte 1 3 :: beBytes 8 18446744073709551614) ∧ BpWritten 1 (.ascii [97, 98]) ([markerByte 5 2] ++ [97, 98]) ∧
    BpWritten 2 (.dict [1, 2] [3, 4]) ((markerByte 13 15 :: (markerByte 1 0 :: beBytes 1 2)) ++ ([1, 2].flatMap (beBytes 2) ++ [3, 4].flatMap (beBytes 2))) :=
  ⟨.int _ _ (.signed 3 (-2) (.inl rfl) (by norm_num) (by norm_num)), .ascii [97, 98] _ (.short (by decide)) (by decide),
    .dict [1, 2] [3, 4] _ (.long _ (.plain 0 2 (by omega) (by norm_num))) rfl (by simp) (by simp) (by simp)⟩

/-- A list of one object. -/
example : ListAt (([98, 112, 108, 105, 115, 116, 48, 48] ++ [markerByte 0 9] ++ [8]) ++ bpTrailer ⟨[0, 0, 0, 0, 0, 0], 1, 1, 1, 0, 9⟩)
    ⟨[0, 0, 0, 0, 0, 0], 1, 1, 1, 0, 9⟩ [(8, .simple 9)] where
  magic := by decide
  good := by unfold TrailerGood; norm_num
  last := by decide +kernel
  count := rfl
  small := by intro p hp; simp only [List.mem_singleton] at hp; subst hp; norm_num
  table := by decide +kernel
  place := by decide +kernel
  objects := by
    intro p hp
    simp only [List.mem_singleton] at hp
    subst hp
    exact ⟨_, .simple 9 (by omega), by decide +kernel, by decide +kernel⟩

end Hachoir.Props
