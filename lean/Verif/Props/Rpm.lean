import Verif.Formats.Rpm
import Verif.Props.Cab

/-!
# RPM packages
-/

namespace Hachoir.Props
open Hachoir Hachoir.Stream Hachoir.Field Hachoir.Formats Hachoir.Formats.Rpm Spec

/-! ## Sets of properties -/

/-- The bytes of one integer of a type: characters and bytes, then 2, 4 and 8 bytes. -/
def rpmWidth : Nat → Nat
  | 3 => 2
  | 4 => 4
  | 5 => 8
  | _ => 1

/-- What the store has for a value. -/
def rpmBytes (type : Nat) : Value → Bytes
  | .ints vs => vs.flatMap (beBytes (rpmWidth type))
  | .texts vs => vs.flatMap (fun b => b ++ [0])
  | .raw b => b

/-- A value of this type and count. -/
def ValueGood (type count : Nat) : Value → Prop
  | .ints vs => type ≤ 5 ∧ vs.length = count ∧ vs ≠ [] ∧ ∀ v ∈ vs, v < 256 ^ rpmWidth type
  | .texts vs => (type = 6 ∨ type = 8 ∨ type = 9) ∧ vs.length = count ∧ vs ≠ [] ∧ ∀ b ∈ vs, ∀ x ∈ b, x ≠ 0
  | .raw b => type = 7 ∧ b.length = count ∧ b ≠ []

theorem rpmWidth_pos (t : Nat) : 0 < rpmWidth t := by unfold rpmWidth; split <;> omega

theorem rpmBytes_pos (type count : Nat) (v : Value) (g : ValueGood type count v) : 0 < (rpmBytes type v).length := by
  cases v with
  | ints vs =>
    obtain ⟨-, -, hne, -⟩ := g
    obtain ⟨v, vs, rfl⟩ := List.exists_cons_of_ne_nil hne
    rw [rpmBytes, List.flatMap_cons, List.length_append, beBytes_length]
    have := rpmWidth_pos type
    omega
  | texts vs =>
    obtain ⟨-, -, hne, -⟩ := g
    obtain ⟨v, vs, rfl⟩ := List.exists_cons_of_ne_nil hne
    rw [rpmBytes, List.flatMap_cons, List.length_append, List.length_append, List.length_singleton]
    omega
  | raw b => exact List.length_pos_of_ne_nil g.2.2

theorem reads_content (type count : Nat) (v : Value) (g : ValueGood type count v) : Reads (content type count) v (rpmBytes type v) := by
  cases v with
  | ints vs =>
    obtain ⟨h1, h2, h3, h4⟩ := g
    have := List.length_pos_of_ne_nil h3
    rw [content, if_neg (by omega), if_neg (by omega), if_neg (by omega), if_neg (by omega)]
    have e : (if type ≤ 2 then 1 else if type = 3 then 2 else if type = 4 then 4 else 8) = rpmWidth type := by
      have : type = 0 ∨ type = 1 ∨ type = 2 ∨ type = 3 ∨ type = 4 ∨ type = 5 := by omega
      rcases this with rfl | rfl | rfl | rfl | rfl | rfl <;> rfl
    rw [e]
    exact Reads.map (f := fun vs => Value.ints vs) (reads_times_n _ (beBytes (rpmWidth type)) vs _ h2.symm fun v hv => reads_int_be _ v (rpmWidth_pos type) (h4 v hv))
  | texts vs =>
    obtain ⟨h1, h2, h3, h4⟩ := g
    have := List.length_pos_of_ne_nil h3
    rw [content, if_neg (by omega), if_neg (by omega), if_neg (by omega), if_pos h1]
    exact Reads.map (f := fun vs => Value.texts vs) (reads_times_n _ (fun b => b ++ [0]) vs _ h2.symm fun v hv => reads_cstring .big (by decide) .eightBit (.inl rfl) v (h4 v hv))
  | raw b =>
    obtain ⟨h1, h2, h3⟩ := g
    have := List.length_pos_of_ne_nil h3
    rw [content, if_pos h1]
    exact Reads.map (f := fun b => Value.raw b) (reads_raw_n count b h2 (by omega))

def rpmItem (i : Item) : Bytes := beBytes 4 i.tag ++ (beBytes 4 i.type ++ (beBytes 4 i.offset ++ beBytes 4 i.count))

def RpmItemGood (i : Item) : Prop := i.tag < 2 ^ 32 ∧ i.type < 2 ^ 32 ∧ i.offset < 2 ^ 32 ∧ i.count < 2 ^ 32

theorem reads_item (i : Item) (g : RpmItemGood i) : Reads item i (rpmItem i) := by
  obtain ⟨h1, h2, h3, h4⟩ := g
  refine Reads.bind (reads_int_be 4 _ (by omega) (by omega)) ?_
  refine Reads.bind (reads_int_be 4 _ (by omega) (by omega)) ?_
  refine Reads.bind (reads_int_be 4 _ (by omega) (by omega)) ?_
  exact Reads.map (f := fun c => Item.mk i.tag i.type i.offset c) (reads_int_be 4 _ (by omega) (by omega))

theorem rpmItem_length (i : Item) : (rpmItem i).length = 16 := by
  simp only [rpmItem, List.length_append, beBytes_length]

theorem at_contents (data : Bytes) (base : Nat) (vals : Nat → Value) : ∀ (l : List (Nat × Item)) (a : Nat),
    l.Pairwise (fun p q => p.2.offset ≤ q.2.offset) →
    l.Pairwise (fun p q => p.2.offset + (rpmBytes p.2.type (vals p.1)).length ≤ q.2.offset ∨ q.2.offset + (rpmBytes q.2.type (vals q.1)).length ≤ p.2.offset) →
    (∀ p ∈ l, a ≤ base + p.2.offset ∧ ValueGood p.2.type p.2.count (vals p.1) ∧ rpmBytes p.2.type (vals p.1) <+: data.drop (base + p.2.offset)) →
    ∃ b, AtPlace data (contents (8 * base) l) (l.map fun p => (p.1, 8 * (base + p.2.offset), vals p.1)) a b
  | [], a, _, _, _ => ⟨a, at_pure data _ a⟩
  | (i, it) :: rest, a, hs, hd, h => by
    rw [List.pairwise_cons] at hs hd
    obtain ⟨h1, h2, h3⟩ := h (i, it) (by simp)
    have hl := h3.length_le
    have pos := rpmBytes_pos _ _ _ h2
    rw [List.length_drop] at hl
    simp only at h1 h2 h3 hl pos hs hd
    obtain ⟨b, hb⟩ := at_contents data base vals rest (base + it.offset + (rpmBytes it.type (vals i)).length) hs.2 hd.2 fun q hq => by
      obtain ⟨-, q2, q3⟩ := h q (by simp [hq])
      have := hs.1 q hq
      have := hd.1 q hq
      have := rpmBytes_pos _ _ _ q2
      exact ⟨by omega, q2, q3⟩
    refine ⟨b, ?_⟩
    refine AtPlace.bind (b := base + it.offset) (v := ()) ?_ ?_
    · intro s hs
      rw [pad, show max (8 * a) (8 * base + 8 * it.offset) = 8 * (base + it.offset) by omega]
    refine AtPlace.bind (b := base + it.offset) (v := 8 * (base + it.offset)) (fun _ _ => rfl) ?_
    refine AtPlace.bind ((reads_content _ _ _ h2).at h3 (by omega)) ?_
    exact AtPlace.map (f := fun more => (i, 8 * (base + it.offset), vals i) :: more) hb

/-- The start of a set: its signature, version, number of items and size of the store, then the items. -/
def rpmStart (version size : Nat) (items : List Item) : Bytes :=
  [0x8E, 0xAD, 0xE8] ++ (beBytes 1 version ++ ([0, 0, 0, 0] ++ (beBytes 4 items.length ++ (beBytes 4 size ++ items.flatMap rpmItem))))

theorem rpmStart_length (version size : Nat) (items : List Item) : (rpmStart version size items).length = 16 + 16 * items.length := by
  have : (items.flatMap rpmItem).length = 16 * items.length := by
    induction items with
    | nil => rfl
    | cons i items ih => rw [List.flatMap_cons, List.length_append, rpmItem_length, ih, List.length_cons]; omega
  simp only [rpmStart, List.length_append, beBytes_length, this, List.length_cons, List.length_nil]
  omega

/-- A set of properties at byte `a` of `data`: its start, and behind it the store, where every item has its value; values do not overlap. -/
structure SetAt (data : Bytes) (a version size : Nat) (items : List Item) (vals : Nat → Value) : Prop where
  small : version < 256 ∧ size < 2 ^ 32 ∧ items.length < 2 ^ 32
  good : ∀ i ∈ items, RpmItemGood i
  start : rpmStart version size items <+: data.drop a
  store : a + 16 + 16 * items.length + size ≤ data.length
  values : ∀ i it, items[i]? = some it → ValueGood it.type it.count (vals i) ∧ it.offset + (rpmBytes it.type (vals i)).length ≤ size ∧
    rpmBytes it.type (vals i) <+: data.drop (a + 16 + 16 * items.length + it.offset)
  apart : ∀ (i j : Nat) (f g : Item), i < j → items[i]? = some f → items[j]? = some g →
      f.offset + (rpmBytes f.type (vals i)).length ≤ g.offset ∨ g.offset + (rpmBytes g.type (vals j)).length ≤ f.offset

/-- The contents of a set, in the order of their places. -/
def setContents (a : Nat) (items : List Item) (vals : Nat → Value) : List (Nat × Nat × Value) :=
  ((Cab.numbered items).mergeSort (fun p q => p.2.offset ≤ q.2.offset)).map fun p => (p.1, 8 * (a + 16 + 16 * items.length + p.2.offset), vals p.1)

theorem mem_setContents (a : Nat) (items : List Item) (vals : Nat → Value) (c : Nat × Nat × Value) :
    c ∈ setContents a items vals ↔ ∃ it, items[c.1]? = some it ∧ c.2 = (8 * (a + 16 + 16 * items.length + it.offset), vals c.1) := by
  rw [setContents, List.mem_map]
  constructor
  · rintro ⟨p, hp, rfl⟩
    exact ⟨p.2, (mem_numbered _ p ((List.mergeSort_perm _ _).mem_iff.1 hp)).2, rfl⟩
  · rintro ⟨it, h1, h2⟩
    refine ⟨(c.1, it), (List.mergeSort_perm _ _).mem_iff.2 ?_, ?_⟩
    · rw [Cab.numbered, List.mem_mapIdx]
      obtain ⟨hi, rfl⟩ := List.getElem?_eq_some_iff.1 h1
      exact ⟨c.1, hi, rfl⟩
    · rw [← h2]

theorem at_properties (data : Bytes) (a version size : Nat) (items : List Item) (vals : Nat → Value) (g : SetAt data a version size items vals)
    (s : InputStream) (hs : stringInputStream data = .ok s) :
    ∃ b, properties s (8 * data.length) (8 * a) = (finish size (setContents a items vals) >>= fun _ =>
      (pure ⟨version, [0, 0, 0, 0], size, items, setContents a items vals⟩ : Rd Rpm.Props)) s (8 * data.length) (8 * b) := by
  obtain ⟨⟨h1, h2, h3⟩, hg, hst, hstore, hv, ha⟩ := g
  have hlen := hst.length_le
  rw [rpmStart_length, List.length_drop] at hlen
  set l := (Cab.numbered items).mergeSort (fun p q => p.2.offset ≤ q.2.offset) with hl
  have hperm : l.Perm (Cab.numbered items) := List.mergeSort_perm _ _
  have hsort : l.Pairwise fun p q => p.2.offset ≤ q.2.offset := by
    have := List.pairwise_mergeSort (le := fun p q : Nat × Item => decide (p.2.offset ≤ q.2.offset)) (by intro a b c h1 h2; simp at *; omega)
      (by intro a b; simp; omega) (Cab.numbered items)
    simpa using this
  have hdis : l.Pairwise (fun p q => p.2.offset + (rpmBytes p.2.type (vals p.1)).length ≤ q.2.offset ∨ q.2.offset + (rpmBytes q.2.type (vals q.1)).length ≤ p.2.offset) := by
    refine (List.Perm.pairwise_iff (R := fun p q : Nat × Item => p.2.offset + (rpmBytes p.2.type (vals p.1)).length ≤ q.2.offset ∨
      q.2.offset + (rpmBytes q.2.type (vals q.1)).length ≤ p.2.offset) (fun {a b} h => h.symm) hperm).2 ?_
    exact pairwise_numbered _ _ fun i j hi hj hij => ha i j _ _ hij (List.getElem?_eq_getElem hi) (List.getElem?_eq_getElem hj)
  obtain ⟨b, hb⟩ := at_contents data (a + 16 + 16 * items.length) vals l (a + 16 + 16 * items.length) hsort hdis fun p hp => by
    obtain ⟨v1, -, v3⟩ := hv p.1 p.2 (mem_numbered _ p (hperm.mem_iff.1 hp)).2
    exact ⟨by omega, v1, v3⟩
  refine ⟨b, ?_⟩
  have r1 : Reads (Rd.raw 3) ([0x8E, 0xAD, 0xE8] : Bytes) [0x8E, 0xAD, 0xE8] := reads_raw_n 3 _ rfl (by omega)
  have key : Reads start (version, [0, 0, 0, 0], size, items) (rpmStart version size items) := by
    refine Reads.bind r1 ?_
    rw [if_neg (by simp)]
    refine Reads.bind (reads_int_be 1 _ (by omega) (by omega)) ?_
    refine Reads.bind (reads_raw_n 4 [0, 0, 0, 0] rfl (by omega)) ?_
    refine Reads.bind (reads_int_be 4 _ (by omega) (by omega)) ?_
    refine Reads.bind (reads_int_be 4 _ (by omega) (by omega)) ?_
    exact Reads.map (f := fun is => (version, ([0, 0, 0, 0] : Bytes), size, is)) (reads_times_n item rpmItem items _ rfl fun i hi => reads_item i (hg i hi))
  have at1 := key.at hst (by omega) s hs
  rw [rpmStart_length] at at1
  rw [show a + (16 + 16 * items.length) = a + 16 + 16 * items.length by omega] at at1
  show Rd.bind start _ s _ _ = _
  rw [Rd.bind, at1]
  show Rd.bind (contents (8 * (a + 16 + 16 * items.length)) l) _ s _ _ = _
  rw [Rd.bind, hb s hs]
  rfl

theorem find_one (a : Nat) (items : List Item) (vals : Nat → Value) :
    (setContents a items vals).find? (fun c => c.1 == 1) = (items[1]?).map fun it => (1, 8 * (a + 16 + 16 * items.length + it.offset), vals 1) := by
  cases h : (setContents a items vals).find? (fun c => c.1 == 1) with
  | none =>
    cases h1 : items[1]? with
    | none => rfl
    | some it =>
      rw [List.find?_eq_none] at h
      have := h (1, 8 * (a + 16 + 16 * items.length + it.offset), vals 1) ((mem_setContents ..).2 ⟨it, h1, rfl⟩)
      simp at this
  | some c =>
    have e : c.1 = 1 := by simpa using List.find?_some h
    obtain ⟨it, h1, h2⟩ := (mem_setContents ..).1 (List.mem_of_find?_eq_some h)
    rw [e] at h1 h2
    rw [h1, Option.map_some, ← h2, ← e]

/-- **C133** (partial): all values of all sets of properties with at least two items are read, wherever in the store they are and in whatever order; the set ends
where the store ends if the second item is the first in the store. -/
theorem C133_set_partial (data : Bytes) (a version size : Nat) (items : List Item) (vals : Nat → Value) (g : SetAt data a version size items vals)
    (it : Item) (h1 : items[1]? = some it) :
    ∃ cs : List (Nat × Nat × Value), (∀ i v, (∃ p, (i, p, v) ∈ cs) ↔ i < items.length ∧ v = vals i) ∧ cs.length = items.length ∧
      AtPlace data properties ⟨version, [0, 0, 0, 0], size, items, cs⟩ a (a + 16 + 16 * items.length + size + it.offset) := by
  refine ⟨setContents a items vals, fun i v => ?_, ?_, ?_⟩
  · constructor
    · rintro ⟨p, hp⟩
      obtain ⟨it, h1, h2⟩ := (mem_setContents ..).1 hp
      exact ⟨(List.getElem?_eq_some_iff.1 h1).1, congrArg Prod.snd h2⟩
    · rintro ⟨h, rfl⟩
      exact ⟨_, (mem_setContents ..).2 ⟨items[i], List.getElem?_eq_getElem h, rfl⟩⟩
  · rw [setContents, List.length_map, List.length_mergeSort, Cab.numbered, List.length_mapIdx]
  · intro s hs
    obtain ⟨b, hb⟩ := at_properties data a version size items vals g s hs
    rw [hb, finish, find_one, h1]
    show Rd.bind (goTo _) _ s _ _ = _
    rw [Rd.bind, goTo]
    exact congrArg (fun n => Except.ok (_, n)) (by show 8 * (a + 16 + 16 * items.length + it.offset) + 8 * size = _; omega)

/-- Violation: sets of one item or none are not read. -/
theorem C133_few (data : Bytes) (a version size : Nat) (items : List Item) (vals : Nat → Value) (g : SetAt data a version size items vals) (h : items.length < 2)
    (s : InputStream) (hs : stringInputStream data = .ok s) : properties s (8 * data.length) (8 * a) = .error .missingField := by
  obtain ⟨b, hb⟩ := at_properties data a version size items vals g s hs
  rw [hb, finish, find_one, List.getElem?_eq_none (by omega)]
  rfl

/-! ## Packages -/

def rpmLead (l : Lead) : Bytes :=
  [0xED, 0xAB, 0xEE, 0xDB] ++ (beBytes 1 l.major ++ (beBytes 1 l.minor ++ (beBytes 2 l.type ++ (beBytes 2 l.architecture ++ (l.name ++
  (beBytes 2 l.os ++ (beBytes 2 l.signatureType ++ l.reserved)))))))

def LeadGood (l : Lead) : Prop :=
  l.signature = [0xED, 0xAB, 0xEE, 0xDB] ∧ l.major < 256 ∧ l.minor < 256 ∧ l.type < 65536 ∧ l.architecture < 65536 ∧ l.name.length = 66 ∧ l.os < 65536 ∧
  l.signatureType < 65536 ∧ l.reserved.length = 16

theorem reads_lead (l : Lead) (g : LeadGood l) : Reads lead l (rpmLead l) := by
  obtain ⟨h0, h1, h2, h3, h4, h5, h6, h7, h8⟩ := g
  refine Reads.bind (reads_raw_n 4 [0xED, 0xAB, 0xEE, 0xDB] rfl (by omega)) ?_
  refine Reads.bind (reads_int_be 1 _ (by omega) (by omega)) ?_
  refine Reads.bind (reads_int_be 1 _ (by omega) (by omega)) ?_
  refine Reads.bind (reads_int_be 2 _ (by omega) (by omega)) ?_
  refine Reads.bind (reads_int_be 2 _ (by omega) (by omega)) ?_
  refine Reads.bind (reads_fixed .big .eightBit (by decide) 66 _ h5 (by omega)) ?_
  refine Reads.bind (reads_int_be 2 _ (by omega) (by omega)) ?_
  refine Reads.bind (reads_int_be 2 _ (by omega) (by omega)) ?_
  refine (Reads.map (reads_raw_n 16 _ h8 (by omega))).of_eq ?_ rfl
  rw [← h0]

theorem rpmLead_length (l : Lead) (g : LeadGood l) : (rpmLead l).length = 96 := by
  obtain ⟨h0, h1, h2, h3, h4, h5, h6, h7, h8⟩ := g
  simp only [rpmLead, List.length_append, beBytes_length, h5, h8, List.length_cons, List.length_nil]

theorem at_rest (data : Bytes) (a : Nat) (ha : a ≤ data.length) : AtPlace data Rpm.rest (data.drop a) a data.length := by
  have := (reads_raw_or (data.drop a) ((8 * data.length - 8 * a) / 8) (by rw [List.length_drop]; omega)).at (data := data) (a := a) (List.prefix_refl _) ha
  rw [List.length_drop, show a + (data.length - a) = data.length by omega] at this
  exact this

/-- The two sets of a package: what is signed, and the header right behind. -/
structure PackageAt (data : Bytes) (l : Lead) (v1 n1 : Nat) (is1 : List Item) (vals1 : Nat → Value) : Prop where
  lead : LeadGood l
  start : rpmLead l <+: data
  set1 : SetAt data 96 v1 n1 is1 vals1

/-- **C133** (partial): packages are read: the first 96 bytes, both sets, and the content, which is all the rest.  In both sets the second item has to be the first
in the store, and the size of the first set has to be a multiple of 8: the bytes that fill it up otherwise are not known to the parser (`C133_filled`). -/
theorem C133_package_partial (data : Bytes) (s : InputStream) (hs : stringInputStream data = .ok s) (l : Lead) (v1 n1 : Nat) (is1 : List Item) (vals1 : Nat → Value)
    (g : PackageAt data l v1 n1 is1 vals1) (v2 n2 : Nat) (is2 : List Item) (vals2 : Nat → Value)
    (h2 : SetAt data (112 + 16 * is1.length + n1 + (8 - n1 % 8) % 8) v2 n2 is2 vals2) (hm : n1 % 8 = 0)
    (it1 it2 : Item) (e1 : is1[1]? = some it1) (e2 : is2[1]? = some it2) (f1 : it1.offset = 0) (f2 : it2.offset = 0) :
    ∃ p stop, package s (8 * data.length) 0 = .ok (p, stop) ∧ p.lead = l ∧ p.checksum.items = is1 ∧ p.header.items = is2 ∧
      (∀ i v, (∃ q, (i, q, v) ∈ p.checksum.contents) ↔ i < is1.length ∧ v = vals1 i) ∧ (∀ i v, (∃ q, (i, q, v) ∈ p.header.contents) ↔ i < is2.length ∧ v = vals2 i) ∧
      p.content = data.drop (128 + 16 * is1.length + n1 + 16 * is2.length + n2) := by
  obtain ⟨gl, p0, set1⟩ := g
  rw [hm, show (8 - 0) % 8 = 0 from rfl, Nat.add_zero] at h2
  obtain ⟨cs1, c1, -, r1⟩ := C133_set_partial _ _ _ _ _ _ set1 it1 e1
  obtain ⟨cs2, c2, -, r2⟩ := C133_set_partial _ _ _ _ _ _ h2 it2 e2
  rw [f1, show 96 + 16 + 16 * is1.length + n1 + 0 = 112 + 16 * is1.length + n1 by omega] at r1
  rw [f2, show 112 + 16 * is1.length + n1 + 16 + 16 * is2.length + n2 + 0 = 128 + 16 * is1.length + n1 + 16 * is2.length + n2 by omega] at r2
  have hst := h2.store
  have r0 := (reads_lead l gl).at (data := data) (a := 0) (by simpa using p0) (by omega)
  rw [rpmLead_length l gl] at r0
  have r : AtPlace data package ⟨l, ⟨v1, [0, 0, 0, 0], n1, is1, cs1⟩, ⟨v2, [0, 0, 0, 0], n2, is2, cs2⟩,
      data.drop (128 + 16 * is1.length + n1 + 16 * is2.length + n2)⟩ 0 data.length := by
    refine AtPlace.bind r0 ?_
    refine AtPlace.bind r1 ?_
    refine AtPlace.bind r2 ?_
    exact AtPlace.map (f := fun c => Package.mk l _ _ c) (at_rest data _ (by omega))
  exact ⟨_, _, r s hs, rfl, rfl, rfl, c1, c2, rfl⟩

/-- Violation: if the size of the first set is no multiple of 8, zeros follow, and the header is not found. -/
theorem C133_filled (data : Bytes) (s : InputStream) (hs : stringInputStream data = .ok s) (l : Lead) (v1 n1 : Nat) (is1 : List Item) (vals1 : Nat → Value)
    (g : PackageAt data l v1 n1 is1 vals1) (it1 : Item) (e1 : is1[1]? = some it1) (f1 : it1.offset = 0) (x y : UInt8)
    (hz : [0, x, y] <+: data.drop (112 + 16 * is1.length + n1)) : package s (8 * data.length) 0 = .error .parser := by
  obtain ⟨gl, p0, set1⟩ := g
  obtain ⟨cs1, c1, -, r1⟩ := C133_set_partial _ _ _ _ _ _ set1 it1 e1
  rw [f1, show 96 + 16 + 16 * is1.length + n1 + 0 = 112 + 16 * is1.length + n1 by omega] at r1
  have hst := set1.store
  have r0 := (reads_lead l gl).at (data := data) (a := 0) (by simpa using p0) (by omega)
  rw [rpmLead_length l gl] at r0
  have r2 := (reads_raw_n 3 [0, x, y] rfl (by omega)).at hz (by omega) s hs
  show Rd.bind lead _ s _ (8 * 0) = _
  rw [Rd.bind, r0 s hs]
  show Rd.bind properties _ s _ (8 * 96) = _
  rw [Rd.bind, r1 s hs]
  show Rd.bind (Rd.bind (Rd.bind (Rd.raw 3) _) _) _ s _ (8 * _) = _
  simp only [Rd.bind, r2]
  rfl

/-- **C133**: which files are accepted, and which parser the content is for. -/
theorem C133_valid (l : Lead) (g : LeadGood l) (content : Bytes) : (valid l = true ↔ l.major = 3 ∧ l.type < 2) ∧
    (isBzip2 content = true ↔ ([0x42, 0x5A, 0x68] : Bytes) <+: content) := by
  constructor
  · rw [valid, g.1]
    simp
    omega
  · rw [isBzip2]
    constructor
    · intro h
      simp only [Bool.and_eq_true, beq_iff_eq] at h
      rw [← h.2]
      exact List.take_prefix _ _
    · rintro ⟨t, rfl⟩
      simp

/-- A set of two items: a text at 4 and an integer at 0. -/
example : SetAt (rpmStart 1 7 [⟨1000, 6, 4, 1⟩, ⟨1009, 4, 0, 1⟩] ++ [0, 0, 1, 2, 97, 98, 0]) 0 1 7 [⟨1000, 6, 4, 1⟩, ⟨1009, 4, 0, 1⟩]
    (fun i => if i = 0 then .texts [[97, 98]] else .ints [258]) where
  small := by norm_num
  good := by intro i hi; simp only [List.mem_cons, List.not_mem_nil, or_false] at hi; rcases hi with rfl | rfl <;> (unfold RpmItemGood; norm_num)
  start := by simp
  store := by decide
  values := by
    intro i it h
    match i with
    | 0 => cases h; refine ⟨by simp [ValueGood], by decide, by decide⟩
    | 1 => cases h; refine ⟨by simp [ValueGood, rpmWidth], by decide, by decide⟩
    | i + 2 => simp at h
  apart := by
    intro i j f g hij hi hj
    match i, j with
    | 0, 1 => cases hi; cases hj; decide
    | i, j + 2 => simp at hj
    | i + 1, 1 => omega

end Hachoir.Props
