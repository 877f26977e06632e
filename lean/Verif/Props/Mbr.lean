import Verif.Formats.Mbr
import Verif.Props.Addresses
import Verif.Props.Exif
import Verif.Props.Seek

/-!
# C91: partitions are found where the partition table puts them
-/

set_option linter.unusedVariables false

namespace Hachoir.Props
open Hachoir Hachoir.Stream Hachoir.Formats Hachoir.Formats.Mbr Spec

/-! ### Specification -/

/-- A place on a disk as the BIOS wants it: head, sector with the two high bits of the cylinder,
cylinder. -/
def chsBytes (head sector cylinder : Nat) : Bytes :=
  [UInt8.ofNat head, UInt8.ofNat (sector + 64 * (cylinder / 256)), UInt8.ofNat (cylinder % 256)]

/-- The sixteen bytes of an entry of a partition table. -/
def entryBytes (h : Entry) : Bytes :=
  [UInt8.ofNat h.bootable] ++ (chsBytes h.startHead h.startSector h.startCylinder ++ ([UInt8.ofNat h.system] ++
    (chsBytes h.endHead h.endSector h.endCylinder ++ (leBytes 4 h.lba ++ leBytes 4 h.size))))

/-- Numbers that can be stored. -/
structure Storable (h : Entry) : Prop where
  boot : h.bootable < 256
  head : h.startHead < 256 ∧ h.endHead < 256
  sector : h.startSector < 64 ∧ h.endSector < 64
  cylinder : h.startCylinder < 1024 ∧ h.endCylinder < 1024
  system : h.system < 256
  lba : h.lba < 2 ^ 32
  size : h.size < 2 ^ 32

/-- A boot sector with the four entries. -/
def BootSector (hs : List Entry) (bs : Bytes) : Prop :=
  ∃ prog : Bytes, prog.length = 446 ∧ hs.length = 4 ∧ (∀ h ∈ hs, Storable h) ∧
    bs = prog ++ (hs.flatMap entryBytes ++ [0x55, 0xAA])

/-- Fields without holes and overlaps. -/
def Tiled : Nat → Nat → List Fld → Prop
  | a, b, [] => a = b
  | a, b, f :: fs => f.addr = a ∧ 0 < f.size ∧ Tiled (a + f.size) b fs

/-- All partitions lie behind the boot sector on a disk of `n` sectors, and none overlaps another. -/
def Sane (hs : List Entry) (n : Nat) : Prop :=
  (∀ h ∈ hs, h.system ≠ 0 → 1 ≤ h.lba ∧ 1 ≤ h.size ∧ h.lba + h.size ≤ n) ∧
    hs.Pairwise fun h h' => h.system ≠ 0 → h'.system ≠ 0 → h.lba + h.size ≤ h'.lba ∨ h'.lba + h'.size ≤ h.lba

/-- The kind of field for a partition. -/
def kindOf (i : Nat) (h : Entry) : Kind := if h.system = 5 then .partition i else .raw i

/-! ### Reading entries -/

theorem readBits_in (data : Bytes) (s : InputStream) (hs : stringInputStream data = .ok s)
    (k a b : Nat) (bs : Bytes) (hp : bs <+: data.drop k) (hab : a + b ≤ 8 * bs.length) (h0 : 0 < bs.length)
    (ad : Int) (had : ad = ((8 * k + a : Nat) : Int)) :
    readBits s ad b .little = .ok (ofBytesLE bs / 2 ^ a % 2 ^ b) := by
  obtain ⟨ht, hm⟩ := take_of_prefix hp
  rw [readBits_low data s hs k bs.length a b h0 hab hm ad had, ht]

theorem byte_in (data : Bytes) (s : InputStream) (hs : stringInputStream data = .ok s) (k v : Nat) (hv : v < 256)
    (hp : [UInt8.ofNat v] <+: data.drop k) (ad : Int) (had : ad = ((8 * k : Nat) : Int)) :
    readBits s ad 8 .little = .ok v := by
  rw [readBits_in data s hs k 0 8 _ hp (by simp) (by simp) ad (by rw [had]; rfl)]
  simp only [ofBytesLE, UInt8.toNat_ofNat', Nat.pow_zero, Nat.div_one]
  congr 1; omega

theorem four_in (data : Bytes) (s : InputStream) (hs : stringInputStream data = .ok s) (k v : Nat) (hv : v < 2 ^ 32)
    (hp : leBytes 4 v <+: data.drop k) (ad : Int) (had : ad = ((8 * k : Nat) : Int)) :
    readBits s ad 32 .little = .ok v := by
  obtain ⟨hl, hn⟩ := leBytes_spec 4 v
  rw [readBits_in data s hs k 0 32 _ hp (by rw [hl]) (by rw [hl]; omega) ad (by rw [had]; rfl), hn (by omega)]
  simp only [Nat.pow_zero, Nat.div_one]
  congr 1; omega

theorem chs_in (data : Bytes) (s : InputStream) (hs : stringInputStream data = .ok s) (k h c y : Nat)
    (hh : h < 256) (hc : c < 64) (hy : y < 1024)
    (hp : chsBytes h c y <+: data.drop k) (ad : Int) (had : ad = ((8 * k : Nat) : Int)) :
    readChs s ad = .ok (h, c, y) := by
  have e : ofBytesLE (chsBytes h c y) = h + 256 * (c + 64 * (y / 256)) + 65536 * (y % 256) := by
    simp only [chsBytes, ofBytesLE, UInt8.toNat_ofNat']
    omega
  have r1 := readBits_in data s hs k 0 8 _ hp (by simp [chsBytes]) (by simp [chsBytes]) ad (by rw [had]; rfl)
  have r2 := readBits_in data s hs k 8 6 _ hp (by simp [chsBytes]) (by simp [chsBytes]) (ad + 8) (by rw [had]; push_cast; ring)
  have r3 := readBits_in data s hs k 14 10 _ hp (by simp [chsBytes]) (by simp [chsBytes]) (ad + 14) (by rw [had]; push_cast; ring)
  rw [e] at r1 r2 r3
  rw [show (h + 256 * (c + 64 * (y / 256)) + 65536 * (y % 256)) / 2 ^ 0 % 2 ^ 8 = h by omega] at r1
  rw [show (h + 256 * (c + 64 * (y / 256)) + 65536 * (y % 256)) / 2 ^ 8 % 2 ^ 6 = c by omega] at r2
  rw [show (h + 256 * (c + 64 * (y / 256)) + 65536 * (y % 256)) / 2 ^ 14 % 2 ^ 10 = 4 * (y % 256) + y / 256 by omega] at r3
  have e3 : (((4 * (y % 256) + y / 256) >>> 2) ||| (((4 * (y % 256) + y / 256) % 4) <<< 8)) = y := by
    rw [show (4 * (y % 256) + y / 256) % 4 = y / 256 by omega, Nat.shiftRight_eq_div_pow,
      show (4 * (y % 256) + y / 256) / 2 ^ 2 = y % 256 by omega, Nat.or_comm,
      ← Nat.shiftLeft_add_eq_or_of_lt (by omega), Nat.shiftLeft_eq]
    omega
  simp only [readChs, r1, r2, readCylinder, r3, e3]

theorem chsBytes_length (h c y : Nat) : (chsBytes h c y).length = 3 := rfl

theorem entryBytes_length (h : Entry) : (entryBytes h).length = 16 := by
  simp only [entryBytes, List.length_append, chsBytes_length, (leBytes_spec 4 _).1, List.length_cons, List.length_nil]

/-- C91: an entry is shown as the numbers that are stored. -/
theorem C91_entry (data : Bytes) (s : InputStream) (hs : stringInputStream data = .ok s) (k : Nat) (h : Entry)
    (hst : Storable h) (hp : entryBytes h <+: data.drop k) : readEntry s (8 * k : Nat) = .ok h := by
  unfold entryBytes at hp
  have p1 := drop_prefix hp
  have p2 := drop_prefix p1
  have p3 := drop_prefix p2
  have p4 := drop_prefix p3
  have p5 := drop_prefix p4
  simp only [chsBytes_length, (leBytes_spec 4 _).1, List.length_cons, List.length_nil] at p1 p2 p3 p4 p5
  have r0 := byte_in data s hs k _ hst.boot (prefix_left hp) _ rfl
  have r1 := chs_in data s hs _ _ _ _ hst.head.1 hst.sector.1 hst.cylinder.1 (prefix_left p1) ((8 * k : Nat) + 8) (by push_cast; ring)
  have r2 := byte_in data s hs _ _ hst.system (prefix_left p2) ((8 * k : Nat) + 32) (by push_cast; ring)
  have r3 := chs_in data s hs _ _ _ _ hst.head.2 hst.sector.2 hst.cylinder.2 (prefix_left p3) ((8 * k : Nat) + 40) (by push_cast; ring)
  have r4 := four_in data s hs _ _ hst.lba (prefix_left p4) ((8 * k : Nat) + 64) (by push_cast; ring)
  have r5 := four_in data s hs _ _ hst.size p5 ((8 * k : Nat) + 96) (by push_cast; ring)
  simp only [readEntry, r0, r1, r2, r3, r4, r5]

/-- Numbered from `i` on. -/
def fromNumber : Nat → List Entry → List (Nat × Entry)
  | _, [] => []
  | i, h :: hs => (i, h) :: fromNumber (i + 1) hs

theorem readEntries_eq (data : Bytes) (s : InputStream) (hs : stringInputStream data = .ok s) (k : Nat) (es : List Entry)
    (hst : ∀ h ∈ es, Storable h) (tail : Bytes) : ∀ i : Nat,
    es.flatMap entryBytes ++ tail <+: data.drop (k + 446 + 16 * i) →
    readEntries s (8 * k : Nat) i es.length = .ok (fromNumber i es) := by
  induction es with
  | nil => intro i _; rfl
  | cons h es ih =>
    intro i hp
    rw [List.flatMap_cons, List.append_assoc] at hp
    have p1 := drop_prefix hp
    rw [entryBytes_length] at p1
    have r := C91_entry data s hs _ h (hst h (by simp)) (prefix_left hp)
    rw [show (((8 * (k + 446 + 16 * i) : Nat) : Int)) = ((8 * k : Nat) : Int) + 446 * 8 + 128 * (i : Int) by push_cast; ring] at r
    simp only [List.length_cons, readEntries, r]
    rw [ih (fun h hh => hst h (by simp [hh])) (i + 1) (by rw [show k + 446 + 16 * (i + 1) = k + 446 + 16 * i + 16 by ring]; exact p1)]
    rfl

theorem sector_entries (data : Bytes) (s : InputStream) (hs : stringInputStream data = .ok s) (k : Nat) (es : List Entry) (bs : Bytes)
    (hb : BootSector es bs) (hp : bs <+: data.drop k) : readEntries s (8 * k : Nat) 0 4 = .ok (fromNumber 0 es) := by
  obtain ⟨prog, hl, h4, hst, rfl⟩ := hb
  have p1 := drop_prefix hp
  rw [hl] at p1
  have := readEntries_eq data s hs k es hst _ 0 p1
  rwa [h4] at this

/-! ### Sorting -/

theorem insert_perm (p : Nat × Entry) (l : List (Nat × Entry)) : (insertEntry p l).Perm (p :: l) := by
  induction l with
  | nil => exact .refl _
  | cons q l ih =>
    unfold insertEntry
    split
    · exact .refl _
    · exact (ih.cons q).trans (.swap p q l)

theorem sort_perm (l : List (Nat × Entry)) : (sortEntries l).Perm l := by
  induction l with
  | nil => exact .refl _
  | cons p l ih => exact (insert_perm p _).trans (ih.cons p)

theorem insert_sorted (p : Nat × Entry) (l : List (Nat × Entry)) (h : l.Pairwise fun a b => a.2.lba ≤ b.2.lba) :
    (insertEntry p l).Pairwise fun a b => a.2.lba ≤ b.2.lba := by
  induction l with
  | nil => simp [insertEntry]
  | cons q l ih =>
    unfold insertEntry
    rw [List.pairwise_cons] at h
    split
    · next hb =>
      have hpq : p.2.lba ≤ q.2.lba := by
        unfold before at hb
        simp only [Bool.or_eq_true, decide_eq_true_eq, Bool.and_eq_true, beq_iff_eq] at hb
        omega
      rw [List.pairwise_cons, List.pairwise_cons]
      refine ⟨fun a ha => ?_, h⟩
      rcases List.mem_cons.1 ha with rfl | ha
      · exact hpq
      · exact hpq.trans (h.1 a ha)
    · next hb =>
      have hqp : q.2.lba ≤ p.2.lba := by
        unfold before at hb
        simp only [Bool.or_eq_true, decide_eq_true_eq, Bool.and_eq_true, beq_iff_eq] at hb
        omega
      rw [List.pairwise_cons]
      refine ⟨fun a ha => ?_, ih h.2⟩
      rcases List.mem_cons.1 ((insert_perm p l).mem_iff.1 ha) with rfl | ha
      · exact hqp
      · exact h.1 a ha

theorem sort_sorted (l : List (Nat × Entry)) : (sortEntries l).Pairwise fun a b => a.2.lba ≤ b.2.lba := by
  induction l with
  | nil => simp [sortEntries]
  | cons p l ih => exact insert_sorted p _ ih

/-! ### Fields -/

/-- What is needed to make the fields of the entries `l` in this order. -/
def Rooms (n cur : Nat) (l : List (Nat × Entry)) : Prop :=
  (∀ p ∈ l, cur ≤ 4096 * p.2.lba ∧ 1 ≤ p.2.size ∧ 4096 * (p.2.lba + p.2.size) ≤ n) ∧
    l.Pairwise fun p q => p.2.lba + p.2.size ≤ q.2.lba

theorem rooms_cons (n cur i : Nat) (h : Entry) (l : List (Nat × Entry)) :
    Rooms n cur ((i, h) :: l) ↔ (cur ≤ 4096 * h.lba ∧ 1 ≤ h.size ∧ 4096 * (h.lba + h.size) ≤ n) ∧
      Rooms n (4096 * (h.lba + h.size)) l := by
  unfold Rooms
  rw [List.pairwise_cons]
  constructor
  · rintro ⟨h1, h2, h3⟩
    refine ⟨h1 (i, h) (by simp), fun p hp => ?_, h3⟩
    have := h1 p (by simp [hp])
    have := h2 p hp
    simp only at this
    omega
  · rintro ⟨h1, h2, h3⟩
    refine ⟨fun p hp => ?_, fun p hp => ?_, h3⟩
    · rcases List.mem_cons.1 hp with rfl | hp
      · exact h1
      · have := h2 p hp; omega
    · have := h2 p hp
      simp only
      omega

theorem seek_back (cur a : Nat) (h : a < cur) : Seek.seekBit 0 cur a true false = .error .parser :=
  (C75_seek 0 cur a true false).1 (by show (a : Int) < cur; omega)

theorem seek_here (cur : Nat) : Seek.seekBit 0 cur cur true false = .ok none :=
  (C75_seek 0 cur cur true false).2.1 rfl

theorem seek_on (cur a : Nat) (h : cur < a) (ha : a ≤ 2 ^ 67) :
    ∃ p : Seek.Kind × Int, Seek.seekBit 0 cur a true false = .ok (some p) ∧ (p.1.bits p.2).toNat = a - cur := by
  obtain ⟨kind, n, h1, h2, -⟩ := (C75_seek 0 cur a true false).2.2 (by show (cur : Int) < a; omega) (by show (a : Int) - cur ≤ 2 ^ 67; omega)
  refine ⟨(kind, n), h1, ?_⟩
  have : (cur : Int) + kind.bits n = a := h2
  show (kind.bits n).toNat = a - cur
  omega

theorem makeFields_on (n cur i : Nat) (h : Entry) (l : List (Nat × Entry)) (hlba : h.lba < 2 ^ 32) (hlt : cur < 4096 * h.lba) :
    makeFields n cur ((i, h) :: l) =
      if h.size = 0 ∨ n < 4096 * (h.lba + h.size) then .error .parser
      else
        match makeFields n (4096 * (h.lba + h.size)) l with
        | .error e => .error e
        | .ok fs => .ok (⟨.padding, cur, 4096 * h.lba - cur⟩ :: ⟨kindOf i h, 4096 * h.lba, 4096 * h.size⟩ :: fs) := by
  obtain ⟨p, q1, q2⟩ := seek_on cur (4096 * h.lba) hlt (by omega)
  have hs8 : ((h.lba : Int) * 512) * 8 = ((4096 * h.lba : Nat) : Int) := by push_cast; ring
  rw [makeFields]
  simp only [Seek.seekByte, hs8, q1, q2]
  rw [show cur + (4096 * h.lba - cur) = 4096 * h.lba by omega,
    show 4096 * h.lba + h.size * 512 * 8 = 4096 * (h.lba + h.size) by ring, show h.size * 512 * 8 = 4096 * h.size by ring]
  rfl

theorem makeFields_here (n cur i : Nat) (h : Entry) (l : List (Nat × Entry)) (heq : cur = 4096 * h.lba) :
    makeFields n cur ((i, h) :: l) =
      if h.size = 0 ∨ n < 4096 * (h.lba + h.size) then .error .parser
      else
        match makeFields n (4096 * (h.lba + h.size)) l with
        | .error e => .error e
        | .ok fs => .ok (⟨kindOf i h, 4096 * h.lba, 4096 * h.size⟩ :: fs) := by
  subst heq
  have hs8 : ((h.lba : Int) * 512) * 8 = ((4096 * h.lba : Nat) : Int) := by push_cast; ring
  rw [makeFields]
  simp only [Seek.seekByte, hs8, seek_here]
  rw [show 4096 * h.lba + h.size * 512 * 8 = 4096 * (h.lba + h.size) by ring, show h.size * 512 * 8 = 4096 * h.size by ring]
  rfl

theorem makeFields_back (n cur i : Nat) (h : Entry) (l : List (Nat × Entry)) (hlt : 4096 * h.lba < cur) :
    makeFields n cur ((i, h) :: l) = .error .parser := by
  have hs8 : ((h.lba : Int) * 512) * 8 = ((4096 * h.lba : Nat) : Int) := by push_cast; ring
  rw [makeFields]
  simp only [Seek.seekByte, hs8, seek_back cur _ hlt]

/-- Making the fields: with room they tile the rest of the disk and are the partitions, and
nothing is made without room. -/
theorem makeFields_eq (n : Nat) (hn : n ≤ 2 ^ 67) (l : List (Nat × Entry)) (hl : ∀ p ∈ l, p.2.lba < 2 ^ 32) :
    ∀ cur, cur ≤ n → (Rooms n cur l → ∃ fs, makeFields n cur l = .ok fs ∧ Tiled cur n fs ∧
        ∀ f, (∃ i, f.kind = .raw i ∨ f.kind = .partition i) →
          (f ∈ fs ↔ ∃ p ∈ l, f = ⟨kindOf p.1 p.2, 4096 * p.2.lba, 4096 * p.2.size⟩)) ∧
      (¬ Rooms n cur l → ∃ e, makeFields n cur l = .error e) := by
  induction l with
  | nil =>
    intro cur hc
    refine ⟨fun _ => ?_, fun h => (h ⟨by simp, by simp⟩).elim⟩
    rcases Nat.lt_or_ge cur n with hlt | hge
    · obtain ⟨p, h1, h2⟩ := seek_on cur n hlt hn
      refine ⟨[⟨.last, cur, n - cur⟩], ?_, ⟨rfl, by show 0 < n - cur; omega, by show cur + (n - cur) = n; omega⟩, ?_⟩
      · simp only [makeFields, if_pos hlt, h1, h2]
      · rintro f ⟨i, hf⟩
        simp only [List.mem_singleton, List.not_mem_nil, false_and, exists_false, iff_false]
        rintro rfl
        rcases hf with h | h <;> simp at h
    · refine ⟨[], ?_, by show cur = n; omega, ?_⟩
      · simp only [makeFields, if_neg (show ¬ cur < n by omega)]
      · simp
  | cons p l ih =>
    obtain ⟨i, h⟩ := p
    intro cur hc
    have hlba : h.lba < 2 ^ 32 := hl (i, h) (by simp)
    rcases Nat.lt_or_ge (4096 * h.lba) cur with hlt | hge
    · refine ⟨fun hr => ?_, fun _ => ⟨_, makeFields_back n cur i h l hlt⟩⟩
      have := ((rooms_cons n cur i h l).1 hr).1.1
      omega
    · by_cases hfit : 1 ≤ h.size ∧ 4096 * (h.lba + h.size) ≤ n
      · obtain ⟨g1, g2⟩ := ih (fun p hp => hl p (by simp [hp])) (4096 * (h.lba + h.size)) hfit.2
        have hno : ¬ (h.size = 0 ∨ n < 4096 * (h.lba + h.size)) := by omega
        rcases Nat.lt_or_eq_of_le hge with hgt | heq
        · have q := makeFields_on n cur i h l hlba hgt
          rw [if_neg hno] at q
          refine ⟨fun hr => ?_, fun hr => ?_⟩
          · obtain ⟨fs, e1, e2, e3⟩ := g1 ((rooms_cons n cur i h l).1 hr).2
            refine ⟨⟨.padding, cur, 4096 * h.lba - cur⟩ :: ⟨kindOf i h, 4096 * h.lba, 4096 * h.size⟩ :: fs, by rw [q, e1], ?_, ?_⟩
            · refine ⟨rfl, by show 0 < 4096 * h.lba - cur; omega, by show 4096 * h.lba = cur + (4096 * h.lba - cur); omega, by show 0 < 4096 * h.size; omega, ?_⟩
              show Tiled (cur + (4096 * h.lba - cur) + 4096 * h.size) n fs
              rw [show cur + (4096 * h.lba - cur) + 4096 * h.size = 4096 * (h.lba + h.size) by omega]; exact e2
            · intro f hf
              rw [List.mem_cons, List.mem_cons, e3 f hf, List.exists_mem_cons_iff]
              constructor
              · rintro (rfl | h | h)
                · obtain ⟨_, h | h⟩ := hf <;> simp at h
                · exact Or.inl h
                · exact Or.inr h
              · rintro (h | h)
                · exact Or.inr (Or.inl h)
                · exact Or.inr (Or.inr h)
          · rw [rooms_cons] at hr
            obtain ⟨e, he⟩ := g2 (fun hh => hr ⟨⟨hge, hfit⟩, hh⟩)
            exact ⟨e, by rw [q, he]⟩
        · have q := makeFields_here n cur i h l heq
          rw [if_neg hno] at q
          refine ⟨fun hr => ?_, fun hr => ?_⟩
          · obtain ⟨fs, e1, e2, e3⟩ := g1 ((rooms_cons n cur i h l).1 hr).2
            refine ⟨⟨kindOf i h, 4096 * h.lba, 4096 * h.size⟩ :: fs, by rw [q, e1], ?_, ?_⟩
            · refine ⟨heq.symm, by show 0 < 4096 * h.size; omega, ?_⟩
              show Tiled (cur + 4096 * h.size) n fs
              rw [show cur + 4096 * h.size = 4096 * (h.lba + h.size) by omega]; exact e2
            · intro f hf
              rw [List.mem_cons, e3 f hf, List.exists_mem_cons_iff]
          · rw [rooms_cons] at hr
            obtain ⟨e, he⟩ := g2 (fun hh => hr ⟨⟨hge, hfit⟩, hh⟩)
            exact ⟨e, by rw [q, he]⟩
      · have hno : h.size = 0 ∨ n < 4096 * (h.lba + h.size) := by omega
        refine ⟨fun hr => (hfit ((rooms_cons n cur i h l).1 hr).1.2).elim, fun _ => ⟨.parser, ?_⟩⟩
        rcases Nat.lt_or_eq_of_le hge with hgt | heq
        · rw [makeFields_on n cur i h l hlba hgt, if_pos hno]
        · rw [makeFields_here n cur i h l heq, if_pos hno]

/-! ### The properties -/

theorem fromNumber_mem (es : List Entry) : ∀ (i j : Nat) (h : Entry),
    (j, h) ∈ fromNumber i es ↔ i ≤ j ∧ es[j - i]? = some h := by
  induction es with
  | nil => simp [fromNumber]
  | cons e es ih =>
    intro i j h
    rw [fromNumber, List.mem_cons, ih]
    rcases Nat.lt_trichotomy j i with hj | hj | hj
    · constructor
      · rintro (hh | hh)
        · simp only [Prod.mk.injEq] at hh; omega
        · omega
      · rintro ⟨hh, -⟩; omega
    · subst hj
      simp only [Prod.mk.injEq, true_and, le_refl, Nat.sub_self, List.getElem?_cons_zero, Option.some.injEq]
      constructor
      · rintro (hh | hh)
        · exact hh.symm
        · omega
      · intro hh; exact Or.inl hh.symm
    · obtain ⟨d, rfl⟩ : ∃ d, j = i + 1 + d := ⟨j - (i + 1), by omega⟩
      rw [show i + 1 + d - (i + 1) = d by omega, show i + 1 + d - i = d + 1 by omega, List.getElem?_cons_succ]
      constructor
      · rintro (hh | hh)
        · simp only [Prod.mk.injEq] at hh; omega
        · exact ⟨by omega, hh.2⟩
      · rintro ⟨-, hh⟩; exact Or.inr ⟨by omega, hh⟩

theorem fromNumber_snd (es : List Entry) : ∀ i, (fromNumber i es).map Prod.snd = es := by
  induction es with
  | nil => intro i; rfl
  | cons e es ih => intro i; rw [fromNumber, List.map_cons, ih]

theorem rooms_sane (es : List Entry) (n : Nat) :
    Rooms (4096 * n) 4096 (sortEntries ((fromNumber 0 es).filter fun p => p.2.isUsed)) ↔ Sane es n := by
  have hp := sort_perm ((fromNumber 0 es).filter fun p => p.2.isUsed)
  have hso := sort_sorted ((fromNumber 0 es).filter fun p => p.2.isUsed)
  have used : ∀ h : Entry, h.isUsed = true ↔ h.system ≠ 0 := by intro h; simp [Entry.isUsed]
  have hmem : ∀ p, p ∈ sortEntries ((fromNumber 0 es).filter fun p => p.2.isUsed) ↔ p ∈ fromNumber 0 es ∧ p.2.system ≠ 0 := by
    intro p; rw [hp.mem_iff, List.mem_filter, used]
  have hes : ∀ h, h ∈ es ↔ ∃ i, (i, h) ∈ fromNumber 0 es := by
    intro h
    conv_lhs => rw [← fromNumber_snd es 0]
    simp
  have hpw : es.Pairwise (fun h h' => h.system ≠ 0 → h'.system ≠ 0 → h.lba + h.size ≤ h'.lba ∨ h'.lba + h'.size ≤ h.lba) ↔
      (sortEntries ((fromNumber 0 es).filter fun p => p.2.isUsed)).Pairwise
        (fun p q => p.2.lba + p.2.size ≤ q.2.lba ∨ q.2.lba + q.2.size ≤ p.2.lba) := by
    rw [hp.pairwise_iff (fun h => h.symm), List.pairwise_filter]
    conv_lhs => rw [← fromNumber_snd es 0, List.pairwise_map]
    simp only [used]
  unfold Rooms Sane
  rw [hpw]
  constructor
  · rintro ⟨h1, h2⟩
    refine ⟨fun h hh hu => ?_, h2.imp fun hh => Or.inl hh⟩
    obtain ⟨i, hi⟩ := (hes h).1 hh
    have := h1 (i, h) ((hmem _).2 ⟨hi, hu⟩)
    simp only at this
    omega
  · rintro ⟨h1, h2⟩
    have hall : ∀ p ∈ sortEntries ((fromNumber 0 es).filter fun p => p.2.isUsed), 1 ≤ p.2.lba ∧ 1 ≤ p.2.size ∧ p.2.lba + p.2.size ≤ n := by
      intro p hpm
      obtain ⟨m1, m2⟩ := (hmem p).1 hpm
      exact h1 p.2 ((hes _).2 ⟨p.1, m1⟩) m2
    refine ⟨fun p hpm => ?_, ?_⟩
    · have := hall p hpm; omega
    · have := (hso.and h2)
      refine List.Pairwise.imp_of_mem (fun {a b} ha hb hh => ?_) this
      have h1 := hall a ha
      have h2 := hall b hb
      omega

/-- C91: the fields of a disk are made exactly if the partitions lie apart behind the boot sector;
they cover the disk without holes, and every used entry, and nothing else, is a partition field
at the sector and of the size given by the entry. -/
theorem C91_partitions (data : Bytes) (s : InputStream) (hs : stringInputStream data = .ok s) (k n : Nat) (es : List Entry) (bs : Bytes)
    (hb : BootSector es bs) (hp : bs <+: data.drop k) (h1 : 1 < n) (hn : n ≤ 2 ^ 55) :
    (Sane es n → ∃ fs, partitionFields s (8 * k) (4096 * n) = .ok fs ∧ Tiled 0 (4096 * n) fs ∧
      ∀ f, (∃ i, f.kind = .raw i ∨ f.kind = .partition i) →
        (f ∈ fs ↔ ∃ i h, es[i]? = some h ∧ h.system ≠ 0 ∧ f = ⟨kindOf i h, 4096 * h.lba, 4096 * h.size⟩)) ∧
    (¬ Sane es n → ∃ e, partitionFields s (8 * k) (4096 * n) = .error e) := by
  have r := sector_entries data s hs k es bs hb hp
  obtain ⟨prog, hl, h4, hst, -⟩ := hb
  have hmem : ∀ p, p ∈ sortEntries ((fromNumber 0 es).filter fun p => p.2.isUsed) ↔ es[p.1]? = some p.2 ∧ p.2.system ≠ 0 := by
    intro p
    rw [(sort_perm _).mem_iff, List.mem_filter, fromNumber_mem]
    simp [Entry.isUsed]
  obtain ⟨g1, g2⟩ := makeFields_eq (4096 * n) (by omega) (sortEntries ((fromNumber 0 es).filter fun p => p.2.isUsed))
    (fun p hpm => (hst _ (List.mem_of_getElem? ((hmem p).1 hpm).1)).lba) 4096 (by omega)
  rw [rooms_sane] at g1 g2
  constructor
  · intro hsane
    obtain ⟨fs, e1, e2, e3⟩ := g1 hsane
    refine ⟨⟨.mbr, 0, 4096⟩ :: fs, ?_, ⟨rfl, by show 0 < 4096; omega, by show Tiled (0 + 4096) _ fs; simpa using e2⟩, ?_⟩
    · simp only [partitionFields, if_neg (show ¬ 4096 * n < 4096 by omega), if_neg (show ¬ 4096 * n = 4096 by omega), r, e1]
    · intro f hf
      rw [List.mem_cons, e3 f hf]
      constructor
      · rintro (rfl | ⟨p, hpm, rfl⟩)
        · obtain ⟨_, h | h⟩ := hf <;> simp at h
        · exact ⟨p.1, p.2, ((hmem p).1 hpm).1, ((hmem p).1 hpm).2, rfl⟩
      · rintro ⟨i, h, q1, q2, rfl⟩
        exact Or.inr ⟨(i, h), (hmem (i, h)).2 ⟨q1, q2⟩, rfl⟩
  · intro hsane
    obtain ⟨e, he⟩ := g2 hsane
    exact ⟨e, by simp only [partitionFields, if_neg (show ¬ 4096 * n < 4096 by omega), if_neg (show ¬ 4096 * n = 4096 by omega), r, he]⟩

theorem kindOf_number (i j : Nat) (h : Entry) (hh : kindOf j h = .raw i ∨ kindOf j h = .partition i) : j = i := by
  unfold kindOf at hh
  split at hh <;> rcases hh with hh | hh <;> simp at hh <;> exact hh

/-- What the lookup of a partition does next. -/
def nextPlace (s : InputStream) (k : Nat) (i : Nat) (h : Entry) : List Nat → Except PyErr (Kind × Nat × Nat)
  | [] => .ok (kindOf i h, 8 * (k + 512 * h.lba), 4096 * h.size)
  | j :: path => if h.system = 5 then locate s (8 * (k + 512 * h.lba)) (4096 * h.size) (j :: path) else .error .missingField

theorem locate_step (data : Bytes) (s : InputStream) (hs : stringInputStream data = .ok s) (k n : Nat) (es : List Entry) (bs : Bytes)
    (hb : BootSector es bs) (hp : bs <+: data.drop k) (h1 : 1 < n) (hn : n ≤ 2 ^ 55) (i : Nat) (path : List Nat) :
    (Sane es n → ∀ h, es[i]? = some h → h.system ≠ 0 →
      locate s (8 * k) (4096 * n) (i :: path) = nextPlace s k i h path) ∧
    ((¬ Sane es n ∨ ∀ h, es[i]? = some h → h.system = 0) → ∃ e, locate s (8 * k) (4096 * n) (i :: path) = .error e) := by
  obtain ⟨g1, g2⟩ := C91_partitions data s hs k n es bs hb hp h1 hn
  have sel : ∀ f : Fld, (f.kind == Kind.raw i || f.kind == Kind.partition i) = true ↔ f.kind = .raw i ∨ f.kind = .partition i := by
    intro f; simp
  constructor
  · intro hsane h hi hu
    obtain ⟨fs, e1, -, e3⟩ := g1 hsane
    have hk : (⟨kindOf i h, 4096 * h.lba, 4096 * h.size⟩ : Fld).kind = .raw i ∨
        (⟨kindOf i h, 4096 * h.lba, 4096 * h.size⟩ : Fld).kind = .partition i := by
      show kindOf i h = _ ∨ kindOf i h = _
      unfold kindOf; split
      · exact Or.inr rfl
      · exact Or.inl rfl
    have hm := (e3 ⟨kindOf i h, 4096 * h.lba, 4096 * h.size⟩ ⟨i, hk⟩).2 ⟨i, h, hi, hu, rfl⟩
    have hf : fs.find? (fun f => f.kind == Kind.raw i || f.kind == Kind.partition i) = some ⟨kindOf i h, 4096 * h.lba, 4096 * h.size⟩ := by
      cases hfd : fs.find? (fun f => f.kind == Kind.raw i || f.kind == Kind.partition i) with
      | none =>
        have := List.find?_eq_none.1 hfd _ hm
        exact (this ((sel _).2 hk)).elim
      | some f =>
        have hsel := (sel f).1 (List.find?_some (p := fun f : Fld => f.kind == Kind.raw i || f.kind == Kind.partition i) hfd)
        obtain ⟨j, h', q1, q2, rfl⟩ := (e3 f ⟨i, hsel⟩).1 (List.mem_of_find?_eq_some hfd)
        have := kindOf_number i j h' hsel
        subst this
        rw [hi] at q1
        cases q1
        rfl
    rw [locate, e1]
    simp only [hf]
    cases path with
    | nil => simp only [nextPlace]; rw [show 8 * k + 4096 * h.lba = 8 * (k + 512 * h.lba) by ring]
    | cons j path =>
      simp only [nextPlace, kindOf]
      by_cases h5 : h.system = 5
      · simp only [if_pos h5]; rw [show 8 * k + 4096 * h.lba = 8 * (k + 512 * h.lba) by ring]
      · simp only [if_neg h5]
  · intro hbad
    by_cases hsane : Sane es n
    · have hno : ∀ h, es[i]? = some h → h.system = 0 := by
        rcases hbad with hh | hh
        · exact (hh hsane).elim
        · exact hh
      obtain ⟨fs, e1, -, e3⟩ := g1 hsane
      have hf : fs.find? (fun f => f.kind == Kind.raw i || f.kind == Kind.partition i) = none := by
        rw [List.find?_eq_none]
        intro f hm hsel
        obtain ⟨j, h', q1, q2, rfl⟩ := (e3 f ⟨i, (sel f).1 hsel⟩).1 hm
        have := kindOf_number i j h' ((sel _).1 hsel)
        subst this
        exact q2 (hno h' q1)
      exact ⟨_, by rw [locate, e1]; simp only [hf]; rfl⟩
    · obtain ⟨e, he⟩ := g2 hsane
      exact ⟨e, by rw [locate, he]⟩

/-- The partition with the given path of entry numbers, by following the tables: its kind, first
byte and number of sectors.  The table of a partition of type 5 is in its first sector, and all
its sector numbers count from there. -/
inductive Follows (data : Bytes) : Nat → Nat → List Nat → Kind → Nat → Nat → Prop where
  | here (k n : Nat) (es : List Entry) (bs : Bytes) (i : Nat) (h : Entry) (hb : BootSector es bs) (hp : bs <+: data.drop k)
      (h1 : 1 < n) (hn : n ≤ 2 ^ 55) (hs : Sane es n) (hi : es[i]? = some h) (hu : h.system ≠ 0) :
      Follows data k n [i] (kindOf i h) (k + 512 * h.lba) h.size
  | inside (k n : Nat) (es : List Entry) (bs : Bytes) (i : Nat) (h : Entry) (hb : BootSector es bs) (hp : bs <+: data.drop k)
      (h1 : 1 < n) (hn : n ≤ 2 ^ 55) (hs : Sane es n) (hi : es[i]? = some h) (hu : h.system = 5) (j : Nat) (path : List Nat)
      (kind : Kind) (place size : Nat) (hf : Follows data (k + 512 * h.lba) h.size (j :: path) kind place size) :
      Follows data k n (i :: j :: path) kind place size

/-- C91: the partition of every path is found at its place, with its size. -/
theorem C91_path (data : Bytes) (s : InputStream) (hs : stringInputStream data = .ok s) (k n : Nat) (path : List Nat)
    (kind : Kind) (place size : Nat) (hf : Follows data k n path kind place size) :
    locate s (8 * k) (4096 * n) path = .ok (kind, 8 * place, 4096 * size) := by
  induction hf with
  | here k n es bs i h hb hp h1 hn hsane hi hu =>
    rw [(locate_step data s hs k n es bs hb hp h1 hn i []).1 hsane h hi hu]
    rfl
  | inside k n es bs i h hb hp h1 hn hsane hi hu j path kind place size hf ih =>
    rw [(locate_step data s hs k n es bs hb hp h1 hn i (j :: path)).1 hsane h hi (by omega), nextPlace, if_pos hu]
    exact ih

theorem locate_one (s : InputStream) (base i : Nat) (path : List Nat) (n : Nat) (hn : n ≤ 1) :
    ∃ e, locate s base (4096 * n) (i :: path) = .error e := by
  rcases Nat.lt_or_eq_of_le hn with h | h
  · obtain rfl : n = 0 := by omega
    exact ⟨_, by rw [locate]; simp [partitionFields]; rfl⟩
  · subst h
    exact ⟨_, by rw [locate]; simp [partitionFields]; rfl⟩

theorem locate_cases (data : Bytes) (s : InputStream) (hs : stringInputStream data = .ok s) (k n : Nat) (es : List Entry) (bs : Bytes)
    (hb : BootSector es bs) (hp : bs <+: data.drop k) (hn : n ≤ 2 ^ 55) (i : Nat) (path : List Nat) (h : Entry) (hi : es[i]? = some h)
    (r : Kind × Nat × Nat) (hr : locate s (8 * k) (4096 * n) (i :: path) = .ok r) :
    1 < n ∧ Sane es n ∧ h.system ≠ 0 ∧ nextPlace s k i h path = .ok r := by
  rcases Nat.lt_or_ge 1 n with h1 | h1
  · obtain ⟨g1, g2⟩ := locate_step data s hs k n es bs hb hp h1 hn i path
    by_cases hsane : Sane es n
    · by_cases hu : h.system = 0
      · obtain ⟨e, he⟩ := g2 (Or.inr (by intro h' hh; rw [hi] at hh; cases hh; exact hu))
        rw [he] at hr; cases hr
      · rw [g1 hsane h hi hu] at hr
        exact ⟨h1, hsane, hu, hr⟩
    · obtain ⟨e, he⟩ := g2 (Or.inl hsane)
      rw [he] at hr; cases hr
  · obtain ⟨e, he⟩ := locate_one s (8 * k) i path n h1
    rw [he] at hr; cases hr

/-- C91, wrong: in a chain of logical drives the second entry of each table but the last gives the
place of the next table, counted from the beginning of the extended partition.  The third table
is never found there: the code counts from the second table.  (`x` is the extended partition,
`l1` and `l2` the second entries of the first and the second table.) -/
theorem C91_third_drive (data : Bytes) (s : InputStream) (hs : stringInputStream data = .ok s) (n : Nat) (hn : n ≤ 2 ^ 55)
    (es0 es1 es2 : List Entry) (b0 b1 b2 : Bytes) (p : Nat) (x l1 l2 : Entry)
    (h0 : BootSector es0 b0) (q0 : b0 <+: data.drop 0) (i0 : es0[p]? = some x)
    (h1 : BootSector es1 b1) (q1 : b1 <+: data.drop (512 * x.lba)) (i1 : es1[1]? = some l1)
    (h2 : BootSector es2 b2) (q2 : b2 <+: data.drop (512 * (x.lba + l1.lba))) (i2 : es2[1]? = some l2)
    (kind : Kind) (size : Nat) : locate s 0 (4096 * n) [p, 1, 1] ≠ .ok (kind, 4096 * (x.lba + l2.lba), size) := by
  intro hr
  have hx : x.size < 2 ^ 32 := by
    obtain ⟨_, _, _, hst, _⟩ := h0
    exact (hst x (List.mem_of_getElem? i0)).size
  have hl1 : l1.size < 2 ^ 32 := by
    obtain ⟨_, _, _, hst, _⟩ := h1
    exact (hst l1 (List.mem_of_getElem? i1)).size
  obtain ⟨a1, a2, a3, a4⟩ := locate_cases data s hs 0 n es0 b0 h0 q0 hn p [1, 1] x i0 _ hr
  rw [nextPlace] at a4
  by_cases hx5 : x.system = 5
  · rw [if_pos hx5] at a4
    obtain ⟨c1, c2, c3, c4⟩ := locate_cases data s hs _ x.size es1 b1 h1 (by rwa [Nat.zero_add]) (by omega) 1 [1] l1 i1 _ a4
    rw [nextPlace] at c4
    by_cases hl5 : l1.system = 5
    · rw [if_pos hl5] at c4
      obtain ⟨d1, d2, d3, d4⟩ := locate_cases data s hs _ l1.size es2 b2 h2
        (by rwa [show 0 + 512 * x.lba + 512 * l1.lba = 512 * (x.lba + l1.lba) by ring]) (by omega) 1 [] l2 i2 _ c4
      have hl := (c2.1 l1 (List.mem_of_getElem? i1) c3).1
      simp only [nextPlace, Except.ok.injEq, Prod.mk.injEq] at d4
      omega
    · rw [if_neg hl5] at c4; cases c4
  · rw [if_neg hx5] at a4; cases a4

/-- C91: which files are accepted. -/
theorem C91_accepted (data : Bytes) (s : InputStream) (hs : stringInputStream data = .ok s) (es : List Entry) (prog sig : Bytes)
    (hl : prog.length = 446) (h4 : es.length = 4) (hst : ∀ h ∈ es, Storable h) (h2 : sig.length = 2)
    (hp : prog ++ (es.flatMap entryBytes ++ sig) <+: data) :
    validate s = .ok (decide (sig = [0x55, 0xAA] ∧ (∀ h ∈ es, h.bootable = 0 ∨ h.bootable = 0x80) ∧ ∃ h ∈ es, h.system ≠ 0)) := by
  have hp0 : prog ++ (es.flatMap entryBytes ++ sig) <+: data.drop 0 := hp
  have p1 := drop_prefix hp0
  rw [hl] at p1
  have p2 := drop_prefix p1
  have hfl : (es.flatMap entryBytes).length = 64 := by
    obtain ⟨a, b, c, d, rfl⟩ : ∃ a b c d, es = [a, b, c, d] := by
      match es, h4 with
      | [a, b, c, d], _ => exact ⟨a, b, c, d, rfl⟩
    simp only [List.flatMap_cons, List.flatMap_nil, List.length_append, entryBytes_length, List.length_nil]
  rw [hfl] at p2
  have r1 : readBytes s (510 * 8) 2 = .ok sig := by
    have := readBytes_prefix data s hs 510 sig p2
    rw [h2] at this
    exact this
  have r2 := readEntries_eq data s hs 0 es hst sig 0 p1
  rw [h4] at r2
  have r2' : readEntries s 0 0 4 = .ok (fromNumber 0 es) := r2
  have any_eq : ∀ q : Entry → Bool, (fromNumber 0 es).any (fun p => q p.2) = es.any q := by
    intro q
    conv_rhs => rw [← fromNumber_snd es 0, List.any_map]
    rfl
  simp only [validate, r1, r2']
  rw [any_eq fun h => h.bootable != 0 && h.bootable != 0x80, any_eq fun h => h.isUsed]
  by_cases hsig : sig = [0x55, 0xAA]
  · rw [if_neg (by simpa using hsig)]
    by_cases hbt : ∀ h ∈ es, h.bootable = 0 ∨ h.bootable = 0x80
    · rw [if_neg]
      · congr 1
        rw [Bool.eq_iff_iff]
        simp only [List.any_eq_true, Entry.isUsed, bne_iff_ne, decide_eq_true_eq]
        exact ⟨fun h => ⟨hsig, hbt, h⟩, fun h => h.2.2⟩
      · simp only [List.any_eq_true, Bool.and_eq_true, bne_iff_ne, not_exists, not_and]
        intro h hh h0 h80
        rcases hbt h hh with h | h
        · exact h0 h
        · exact h80 h
    · rw [if_pos]
      · congr 1
        rw [eq_comm, decide_eq_false_iff_not]
        exact fun h => hbt h.2.1
      · simp only [List.any_eq_true, Bool.and_eq_true, bne_iff_ne]
        by_contra hc
        refine hbt fun h hh => ?_
        by_contra hcc
        exact hc ⟨h, hh, fun h0 => hcc (Or.inl h0), fun h0 => hcc (Or.inr h0)⟩
  · rw [if_pos (by simpa using hsig)]
    congr 1
    rw [eq_comm, decide_eq_false_iff_not]
    exact fun h => hsig h.1

/-! ### Examples -/

/-- An unused entry, a partition, an extended partition. -/
def noEntry : Entry := ⟨0, 0, 0, 0, 0, 0, 0, 0, 0, 0⟩
def linuxEntry : Entry := ⟨0x80, 1, 1, 0, 0x83, 254, 63, 1023, 2, 3⟩
def extendedEntry : Entry := ⟨0, 0, 1, 700, 5, 254, 63, 1023, 5, 6⟩

/-- The boot sector with these. -/
def sampleSector : Bytes := List.replicate 446 0x90 ++ ([linuxEntry, noEntry, extendedEntry, noEntry].flatMap entryBytes ++ [0x55, 0xAA])

example : entryBytes extendedEntry = [0, 0, 129, 188, 5, 254, 255, 255, 5, 0, 0, 0, 6, 0, 0, 0] := by decide

theorem sampleSector_boot : BootSector [linuxEntry, noEntry, extendedEntry, noEntry] sampleSector := by
  refine ⟨List.replicate 446 0x90, by decide +kernel, rfl, ?_, rfl⟩
  intro h hh
  simp only [List.mem_cons, List.not_mem_nil, or_false] at hh
  rcases hh with rfl | rfl | rfl | rfl <;> constructor <;> decide

theorem sampleSector_sane : Sane [linuxEntry, noEntry, extendedEntry, noEntry] 20 := by
  unfold Sane
  simp [linuxEntry, noEntry, extendedEntry]

/-- A disk of twenty sectors with it. -/
def sampleDisk : Bytes := sampleSector ++ List.replicate (19 * 512) 0

theorem sampleSector_disk : sampleSector <+: sampleDisk.drop 0 := List.prefix_append _ _

example : Follows sampleDisk 0 20 [2] (.partition 2) 2560 6 :=
  .here 0 20 _ _ 2 extendedEntry sampleSector_boot sampleSector_disk (by decide) (by decide) sampleSector_sane rfl (by decide)

/-- An extended partition with two tables that are linked, the second with a further link. -/
def linkOne : Entry := ⟨0, 0, 0, 0, 5, 0, 0, 0, 1, 4⟩
def linkTwo : Entry := ⟨0, 0, 0, 0, 5, 0, 0, 0, 2, 2⟩
def chainSector (l : Entry) : Bytes := List.replicate 446 0 ++ ([noEntry, l, noEntry, noEntry].flatMap entryBytes ++ [0x55, 0xAA])
def chainDisk : Bytes := chainSector linkOne ++ chainSector linkOne ++ chainSector linkTwo ++ List.replicate 1024 0

theorem chainSector_boot (l : Entry) (h : Storable l) : BootSector [noEntry, l, noEntry, noEntry] (chainSector l) := by
  refine ⟨List.replicate 446 0, by decide +kernel, rfl, ?_, rfl⟩
  have h0 : Storable noEntry := by constructor <;> decide
  intro e he
  simp only [List.mem_cons, List.not_mem_nil, or_false] at he
  rcases he with rfl | rfl | rfl | rfl
  · exact h0
  · exact h
  · exact h0
  · exact h0

example : BootSector [noEntry, linkOne, noEntry, noEntry] (chainSector linkOne) ∧ chainSector linkOne <+: chainDisk.drop 0 ∧
    chainSector linkOne <+: chainDisk.drop (512 * linkOne.lba) ∧
    BootSector [noEntry, linkTwo, noEntry, noEntry] (chainSector linkTwo) ∧
    chainSector linkTwo <+: chainDisk.drop (512 * (linkOne.lba + linkOne.lba)) :=
  ⟨chainSector_boot _ (by constructor <;> decide), by decide +kernel, by decide +kernel,
    chainSector_boot _ (by constructor <;> decide), by decide +kernel⟩

end Hachoir.Props
