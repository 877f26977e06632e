import Verif.Formats.Disks
import Verif.Props.Arj

/-!
# Discs of ISO 9660 and swap files
-/

namespace Hachoir.Props
open Hachoir Hachoir.Stream Hachoir.Field Hachoir.Formats Spec

theorem leBytes_ofBytesLE : ∀ (bs : Bytes), leBytes bs.length (ofBytesLE bs) = bs
  | [] => rfl
  | b :: bs => by
    have hb := b.toNat_lt
    have e : ofBytesLE (b :: bs) = b.toNat + 256 * ofBytesLE bs := rfl
    rw [List.length_cons, leBytes, e, Nat.add_mul_mod_self_left, Nat.mod_eq_of_lt hb, Nat.add_mul_div_left _ _ (by decide), Nat.div_eq_of_lt hb, Nat.zero_add, leBytes_ofBytesLE bs,
      UInt8.ofNat_toNat]

theorem beBytes_ofBytesBE (bs : Bytes) : beBytes bs.length (ofBytesBE bs) = bs := by
  have := leBytes_ofBytesLE bs.reverse
  rw [ofBytesLE_reverse, List.length_reverse] at this
  rw [beBytes, this, List.reverse_reverse]

/-- Any bytes are a number. -/
theorem reads_be_any (n : Nat) (bs : Bytes) (h : bs.length = n) (hn : 0 < n) : Reads (Rd.int n .big) (ofBytesBE bs) bs := by
  subst h
  have := reads_int_be bs.length (ofBytesBE bs) hn (ofBytesBE_lt bs)
  rw [beBytes_ofBytesBE] at this
  exact this

/-! ## ISO 9660 -/

section
open Iso

/-- Numbers are written twice, little endian first. -/
def both (k n : Nat) : Bytes := leBytes k n ++ beBytes k n

/-- What is read of them. -/
def seenBoth (k n : Nat) : Nat := ofBytesBE (both k n)

/-- What is read of a little endian number. -/
def seenLittle (k n : Nat) : Nat := ofBytesBE (leBytes k n)

/-- The primary descriptor as ECMA-119 tells: sizes in both orders of bytes, places of the first path tables little endian, those of the others big endian. -/
def isoPrimary (p : Primary) : Bytes :=
  p.unused ++ (p.systemId ++ (p.volumeId ++ (p.unused2 ++ (both 4 p.spaceSize ++ (p.unused3 ++ (both 2 p.setSize ++ (both 2 p.seqNum ++ (both 2 p.blockSize ++ (both 4 p.pathTableSize ++
  (leBytes 4 p.lpath ++ (leBytes 4 p.optLpath ++ (beBytes 4 p.mpath ++ (beBytes 4 p.optMpath ++ (p.root ++ (p.texts.flatMap id ++ (p.files.flatMap id ++ (p.dates.flatMap id ++
  (beBytes 1 p.structVer ++ (p.unused4 ++ (p.appUse ++ p.unused5))))))))))))))))))))

structure PrimaryGood (p : Primary) : Prop where
  bytes : p.unused.length = 1 ∧ p.unused2.length = 8 ∧ p.unused3.length = 32 ∧ p.root.length = 34 ∧ p.unused4.length = 1 ∧ p.unused5.length = 653
  names : p.systemId.length = 32 ∧ p.volumeId.length = 32 ∧ p.appUse.length = 512
  texts : p.texts.length = 4 ∧ ∀ b ∈ p.texts, b.length = 128
  files : p.files.length = 3 ∧ ∀ b ∈ p.files, b.length = 37
  dates : p.dates.length = 4 ∧ ∀ b ∈ p.dates, b.length = 17
  mpaths : p.mpath < 2 ^ 32 ∧ p.optMpath < 2 ^ 32
  structVer : p.structVer < 256

/-- What is read of it. -/
def misread (p : Primary) : Primary :=
  { p with
    spaceSize := seenBoth 4 p.spaceSize, setSize := seenBoth 2 p.setSize, seqNum := seenBoth 2 p.seqNum, blockSize := seenBoth 2 p.blockSize,
    pathTableSize := seenBoth 4 p.pathTableSize, lpath := seenLittle 4 p.lpath, optLpath := seenLittle 4 p.optLpath }

theorem both_length (k n : Nat) : (both k n).length = 2 * k := by
  rw [both, List.length_append, leBytes_length, beBytes_length]; omega

theorem reads_primary (p : Primary) (g : PrimaryGood p) : Reads primary (misread p) (isoPrimary p) := by
  obtain ⟨⟨b1, b2, b3, b4, b5, b6⟩, ⟨n1, n2, n3⟩, ⟨t1, t2⟩, ⟨f1, f2⟩, ⟨d1, d2⟩, ⟨m1, m2⟩, hv⟩ := g
  refine Reads.bind (reads_raw_n 1 _ b1 (by omega)) ?_
  refine Reads.bind (reads_fixed .big .eightBit (by decide) 32 _ n1 (by omega)) ?_
  refine Reads.bind (reads_fixed .big .eightBit (by decide) 32 _ n2 (by omega)) ?_
  refine Reads.bind (reads_raw_n 8 _ b2 (by omega)) ?_
  refine Reads.bind (reads_be_any 8 _ (both_length 4 _) (by omega)) ?_
  refine Reads.bind (reads_raw_n 32 _ b3 (by omega)) ?_
  refine Reads.bind (reads_be_any 4 _ (both_length 2 _) (by omega)) ?_
  refine Reads.bind (reads_be_any 4 _ (both_length 2 _) (by omega)) ?_
  refine Reads.bind (reads_be_any 4 _ (both_length 2 _) (by omega)) ?_
  refine Reads.bind (reads_be_any 8 _ (both_length 4 _) (by omega)) ?_
  refine Reads.bind (reads_be_any 4 _ (leBytes_length 4 _) (by omega)) ?_
  refine Reads.bind (reads_be_any 4 _ (leBytes_length 4 _) (by omega)) ?_
  refine Reads.bind (reads_int_be 4 _ (by omega) (by omega)) ?_
  refine Reads.bind (reads_int_be 4 _ (by omega) (by omega)) ?_
  refine Reads.bind (reads_raw_n 34 _ b4 (by omega)) ?_
  refine Reads.bind (reads_times_n _ id p.texts _ t1.symm fun b hb => reads_fixed .big .eightBit (by decide) 128 _ (t2 b hb) (by omega)) ?_
  refine Reads.bind (reads_times_n _ id p.files _ f1.symm fun b hb => reads_fixed .big .eightBit (by decide) 37 _ (f2 b hb) (by omega)) ?_
  refine Reads.bind (reads_times_n _ id p.dates _ d1.symm fun b hb => reads_fixed .big .eightBit (by decide) 17 _ (d2 b hb) (by omega)) ?_
  refine Reads.bind (reads_int_be 1 _ (by omega) (by omega)) ?_
  refine Reads.bind (reads_raw_n 1 _ b5 (by omega)) ?_
  refine Reads.bind (reads_fixed .big .eightBit (by decide) 512 _ n3 (by omega)) ?_
  exact Reads.map (reads_raw_n 653 _ b6 (by omega))

def isoContent : Content → Bytes
  | .boot a b c => a ++ (b ++ c)
  | .primary p => isoPrimary p
  | .terminator b => b
  | .other b => b

/-- What a descriptor of this type has. -/
inductive ContentGood : Nat → Content → Prop where
  | boot (a b c : Bytes) : a.length = 31 → b.length = 31 → c.length = 1979 → ContentGood 0 (.boot a b c)
  | primary (p : Primary) : PrimaryGood p → ContentGood 1 (.primary p)
  | terminator (b : Bytes) : b.length = 2041 → ContentGood 255 (.terminator b)
  | other (t : Nat) (b : Bytes) : t < 256 → t ≠ 0 → t ≠ 1 → t ≠ 255 → b.length = 2041 → ContentGood t (.other b)

/-- What is read of it. -/
def seenContent : Content → Content
  | .primary p => .primary (misread p)
  | c => c

def isoVolume (v : Volume) : Bytes := beBytes 1 v.type ++ ([0x43, 0x44, 0x30, 0x30, 0x31] ++ (beBytes 1 v.version ++ isoContent v.content))

structure VolumeGood (v : Volume) : Prop where
  version : v.version < 256
  content : ContentGood v.type v.content

def seenVolume (v : Volume) : Volume := { v with content := seenContent v.content }

theorem reads_iso_content (t : Nat) (c : Content) (g : ContentGood t c) : Reads (content t) (seenContent c) (isoContent c) := by
  unfold content
  cases g with
  | boot a b c ha hb hc =>
    rw [if_pos rfl]
    refine Reads.bind (reads_fixed .big .eightBit (by decide) 31 _ ha (by omega)) ?_
    refine Reads.bind (reads_fixed .big .eightBit (by decide) 31 _ hb (by omega)) ?_
    exact Reads.map (reads_raw_n 1979 c hc (by omega))
  | primary p hp =>
    rw [if_neg (by decide), if_pos rfl]
    exact Reads.map (reads_primary p hp)
  | terminator b hb =>
    rw [if_neg (by decide), if_neg (by decide), if_pos rfl]
    exact Reads.map (reads_raw_n 2041 b hb (by omega))
  | other t b _ h0 h1 h255 hb =>
    rw [if_neg h0, if_neg h1, if_neg h255]
    exact Reads.map (reads_raw_n 2041 b hb (by omega))

theorem ContentGood.lt {t : Nat} {c : Content} (g : ContentGood t c) : t < 256 := by cases g <;> omega

theorem reads_volume (v : Volume) (g : VolumeGood v) : Reads volume (seenVolume v) (isoVolume v) := by
  have ht := g.content.lt
  have hv := g.version
  refine Reads.bind (reads_int_be 1 _ (by omega) (by omega)) ?_
  refine Reads.bind (reads_raw_n 5 [0x43, 0x44, 0x30, 0x30, 0x31] rfl (by omega)) ?_
  rw [if_neg (by simp)]
  refine Reads.bind (reads_int_be 1 _ (by omega) (by omega)) ?_
  exact Reads.map (reads_iso_content _ _ g.content)

theorem reads_volumes (last : Volume) (hl : last.type = 255) (gl : VolumeGood last) : ∀ (vs : List Volume) (fuel : Nat), vs.length < fuel → (∀ v ∈ vs, VolumeGood v ∧ v.type ≠ 255) →
    Reads (volumes fuel) ((vs ++ [last]).map seenVolume) (vs.flatMap isoVolume ++ isoVolume last)
  | _, 0, h, _ => by omega
  | [], fuel + 1, _, _ => by
    have h : Reads (volumes (fuel + 1)) [seenVolume last] (isoVolume last ++ []) := by
      refine Reads.bind (reads_volume last gl) ?_
      rw [if_pos (show (seenVolume last).type = 255 from hl)]
      exact reads_pure _
    rw [List.append_nil] at h
    exact h
  | v :: vs, fuel + 1, hf, h => by
    obtain ⟨g, hv⟩ := h v List.mem_cons_self
    rw [List.flatMap_cons, List.append_assoc]
    refine Reads.bind (reads_volume v g) ?_
    rw [if_neg (show ¬(seenVolume v).type = 255 from hv)]
    exact Reads.map (f := fun x => seenVolume v :: x) (reads_volumes last hl gl vs fuel (by simp at hf; omega) fun x hx => h x (List.mem_cons_of_mem _ hx))

/-- **C140** (partial): all descriptors of a disc up to the one that ends them are read, with all their texts; numbers of the primary descriptor are not what was written
(`C140_size`, `C140_path`). -/
theorem C140_disc_partial (data : Bytes) (s : InputStream) (hs : stringInputStream data = .ok s) (vs : List Volume) (last : Volume) (fuel : Nat) (hf : vs.length < fuel)
    (h : ∀ v ∈ vs, VolumeGood v ∧ v.type ≠ 255) (gl : VolumeGood last) (hl : last.type = 255) (hp : vs.flatMap isoVolume ++ isoVolume last <+: data.drop 0x8000)
    (hd : 0x8000 ≤ data.length) :
    ∃ stop, disc fuel s (8 * data.length) 0 = .ok ((vs ++ [last]).map seenVolume, stop) := by
  have r : AtPlace data (disc fuel) ((vs ++ [last]).map seenVolume) 0 _ :=
    AtPlace.bind (at_seek data 0 0x8000 (by omega)) ((reads_volumes last hl gl vs fuel hf h).at hp hd)
  exact ⟨_, r s hs⟩

/-- Violation: the sizes of a disc are never read right: the lower half of the number is what was written, but only 0 is read as itself. -/
theorem C140_size (k n : Nat) (hn : n < 256 ^ k) : seenBoth k n % 256 ^ k = n ∧ (seenBoth k n = n ↔ n = 0) := by
  have e : seenBoth k n = ofBytesBE (leBytes k n) * 256 ^ k + n := by
    rw [seenBoth, both, ofBytesBE_append, beBytes_length, (beBytes_big k n hn).2]
  refine ⟨by rw [e, Nat.mul_comm, Nat.mul_add_mod, Nat.mod_eq_of_lt hn], ?_⟩
  rw [e]
  constructor
  · intro h
    have h0 : ofBytesBE (leBytes k n) = 0 := by
      rcases Nat.eq_zero_or_pos (ofBytesBE (leBytes k n)) with h0 | h0
      · exact h0
      · have := Nat.mul_pos h0 (Nat.pow_pos (n := k) (show 0 < 256 by decide))
        omega
    have h1 := beBytes_ofBytesBE (leBytes k n)
    rw [h0, leBytes_length] at h1
    have h2 := (leBytes_spec k n).2 hn
    rw [← h1, beBytes, ofBytesLE_reverse] at h2
    have h3 := (leBytes_spec k 0).2 (Nat.pow_pos (by decide))
    have h4 : ∀ k, ofBytesBE (leBytes k 0) = 0 := by
      intro k
      induction k with
      | zero => rfl
      | succ k ih =>
        show (UInt8.ofNat (0 % 256)).toNat * 256 ^ (leBytes k (0 / 256)).length + ofBytesBE (leBytes k (0 / 256)) = 0
        rw [show 0 / 256 = 0 from rfl, ih]
        simp
    rw [h4] at h2
    exact h2.symm
  · intro h
    have h4 : ∀ k, ofBytesBE (leBytes k 0) = 0 := by
      intro k
      induction k with
      | zero => rfl
      | succ k ih =>
        show (UInt8.ofNat (0 % 256)).toNat * 256 ^ (leBytes k (0 / 256)).length + ofBytesBE (leBytes k (0 / 256)) = 0
        rw [show 0 / 256 = 0 from rfl, ih]
        simp
    rw [h, h4]
    omega

/-- Violation: the place of the first path table is read with its bytes in reverse order: block 19 becomes block 318767104. -/
theorem C140_path : seenLittle 4 19 = 318767104 ∧ ∀ n, n < 2 ^ 32 → ofBytesBE (leBytes 4 (seenLittle 4 n)) = n := by
  refine ⟨rfl, fun n hn => ?_⟩
  have h := leBytes_ofBytesLE (leBytes 4 n).reverse
  rw [ofBytesLE_reverse, List.length_reverse, leBytes_length] at h
  rw [seenLittle, h, ofBytesBE_reverse, (leBytes_spec 4 n).2 (by omega)]

/-- A disc with one primary descriptor. -/
example : VolumeGood ⟨1, 1, .primary ⟨[0], List.replicate 32 32, List.replicate 32 65, List.replicate 8 0, 1000, List.replicate 32 0, 1, 1, 2048, 10, 19, 0, 21, 0, List.replicate 34 0,
    List.replicate 4 (List.replicate 128 32), List.replicate 3 (List.replicate 37 32), List.replicate 4 (List.replicate 17 48), 1, [0], List.replicate 512 0, List.replicate 653 0⟩⟩ :=
  ⟨by decide, .primary _ ⟨by simp only [List.length_replicate, List.length_singleton, and_self], by simp only [List.length_replicate, and_self],
    ⟨rfl, fun b hb => by rw [List.eq_of_mem_replicate hb, List.length_replicate]⟩, ⟨rfl, fun b hb => by rw [List.eq_of_mem_replicate hb, List.length_replicate]⟩,
    ⟨rfl, fun b hb => by rw [List.eq_of_mem_replicate hb, List.length_replicate]⟩, by decide, by decide⟩⟩

end

/-! ## Swap files -/

section
open Swap

/-- A swap file: the first page has a header, bad pages and a signature at its end, the other pages follow. -/
structure SwapAt (data : Bytes) (f : Swap.File) : Prop where
  start : f.boot ++ (leBytes 4 f.version ++ (leBytes 4 f.lastPage ++ (leBytes 4 f.nbBad ++ (f.uuid ++ (f.volume ++ (f.reserved ++ f.bad.flatMap (leBytes 4))))))) <+: data.drop 0
  bytes : f.boot.length = 1024 ∧ f.uuid.length = 16 ∧ f.volume.length = 16 ∧ f.reserved.length = 468 ∧ f.magic.length = 10
  words : f.version < 2 ^ 32 ∧ f.lastPage < 2 ^ 32 ∧ f.nbBad < 2 ^ 32
  bad : f.nbBad = f.bad.length ∧ f.bad.length ≤ 637 ∧ ∀ n ∈ f.bad, n < 2 ^ 32
  last : f.lastPage = f.pages.length ∧ f.pages ≠ []
  pages : ∀ p ∈ f.pages, p.length = 4096
  pagesAt : f.magic ++ f.pages.flatMap id <+: data.drop 4086
  size : 4096 ≤ data.length

/-- **C140**: all swap files are read. -/
theorem C140_swap (data : Bytes) (s : InputStream) (hs : stringInputStream data = .ok s) (f : Swap.File) (g : SwapAt data f) :
    ∃ stop, Swap.file s (8 * data.length) 0 = .ok (f, stop) := by
  obtain ⟨h1, ⟨b1, b2, b3, b4, b5⟩, ⟨w1, w2, w3⟩, ⟨d1, d2, d3⟩, ⟨l1, l2⟩, hp, hat, hsz⟩ := g
  have rb : Reads (badPages f.nbBad) f.bad (f.bad.flatMap (leBytes 4)) := by
    unfold badPages
    by_cases hz : f.bad = []
    · rw [d1, hz, if_neg (by simp)]
      exact reads_pure _
    · have := List.length_pos_iff.2 hz
      rw [if_pos (by omega), if_neg (by rw [show maxBad = 637 from rfl]; omega)]
      exact reads_times_n _ (leBytes 4) f.bad _ d1 fun n hn => reads_int_le 4 n (by omega) (d3 n hn)
  have lb : (f.bad.flatMap (leBytes 4)).length = 4 * f.bad.length := by
    rw [List.length_flatMap]
    simp [leBytes_length, Nat.mul_comm]
  have rp : Reads (pagesOf f.lastPage) f.pages (f.pages.flatMap id) := by
    unfold pagesOf
    have := List.length_pos_iff.2 l2
    rw [if_neg (by omega)]
    exact reads_times_n _ id f.pages _ l1 fun p hx => reads_raw_n 4096 p (hp p hx) (by omega)
  have q1 := drop_prefix h1
  have q2 := drop_prefix q1
  have q3 := drop_prefix q2
  have q4 := drop_prefix q3
  have q5 := drop_prefix q4
  have q6 := drop_prefix q5
  have q7 := drop_prefix q6
  have q8 := drop_prefix hat
  simp only [leBytes_length, b1, b2, b3, b4, b5] at q1 q2 q3 q4 q5 q6 q7 q8
  have r : AtPlace data Swap.file f 0 (4086 + 10 + (f.pages.flatMap id).length) := by
    refine AtPlace.bind ((reads_raw_n 1024 _ b1 (by omega)).at (prefix_left h1) (by omega)) ?_
    rw [b1]
    refine AtPlace.bind ((reads_int_le 4 _ (by omega) (by omega)).at (prefix_left q1) (by omega)) ?_
    rw [leBytes_length]
    refine AtPlace.bind ((reads_int_le 4 _ (by omega) (by omega)).at (prefix_left q2) (by omega)) ?_
    rw [leBytes_length]
    refine AtPlace.bind ((reads_int_le 4 _ (by omega) (by omega)).at (prefix_left q3) (by omega)) ?_
    rw [leBytes_length]
    refine AtPlace.bind ((reads_raw_n 16 _ b2 (by omega)).at (prefix_left q4) (by omega)) ?_
    rw [b2]
    refine AtPlace.bind ((reads_raw_n 16 _ b3 (by omega)).at (prefix_left q5) (by omega)) ?_
    rw [b3]
    refine AtPlace.bind ((reads_raw_n 468 _ b4 (by omega)).at (prefix_left q6) (by omega)) ?_
    rw [b4]
    refine AtPlace.bind (rb.at q7 (by omega)) ?_
    rw [lb]
    refine AtPlace.bind (at_seek data _ 4086 (by omega)) ?_
    refine AtPlace.bind ((reads_fixed .little .eightBit (by decide) 10 _ b5 (by omega)).at (prefix_left hat) (by omega)) ?_
    rw [b5]
    exact AtPlace.map (f := fun ps => Swap.File.mk f.boot f.version f.lastPage f.nbBad f.uuid f.volume f.reserved f.bad f.magic ps) (rp.at q8 (by omega))
  exact ⟨_, r s hs⟩

/-- Violation: the number of pages that can be used, those behind the first that are not bad, is told one too small. -/
theorem C140_page_count (f : Swap.File) (h : f.nbBad = f.bad.length) (hn : f.bad.Nodup) (hb : ∀ p ∈ f.bad, 1 ≤ p ∧ p ≤ f.lastPage) :
    pageCount f = (((List.range' 1 f.lastPage).filter fun p => p ∉ f.bad).length : Int) - 1 := by
  have e : ((List.range' 1 f.lastPage).filter fun p => p ∈ f.bad).length = f.bad.length := by
    refine List.Perm.length_eq ((List.perm_ext_iff_of_nodup (List.Nodup.filter _ List.nodup_range') hn).2 fun p => ?_)
    rw [List.mem_filter, List.mem_range'_1, decide_eq_true_iff]
    constructor
    · exact fun h => h.2
    · intro h
      have := hb p h
      exact ⟨by omega, h⟩
  have t : ∀ (l : List Nat), (l.filter fun p => p ∈ f.bad).length + (l.filter fun p => p ∉ f.bad).length = l.length := by
    intro l
    induction l with
    | nil => rfl
    | cons a l ih =>
      by_cases ha : a ∈ f.bad
      · rw [List.filter_cons_of_pos (by simpa using ha), List.filter_cons_of_neg (by simpa using ha), List.length_cons, List.length_cons]
        omega
      · rw [List.filter_cons_of_neg (by simpa using ha), List.filter_cons_of_pos (by simpa using ha), List.length_cons, List.length_cons]
        omega
  have := t (List.range' 1 f.lastPage)
  rw [e, List.length_range'] at this
  rw [pageCount, h]
  omega

/-- **C140**: which swap files are accepted. -/
theorem C140_swap_valid (f : Swap.File) : Swap.valid f = true ↔
    (f.magic = "SWAP-SPACE".toUTF8.toList ∨ f.magic = "SWAPSPACE2".toUTF8.toList ∨ f.magic = "S1SUSPEND\x00".toUTF8.toList) ∧ f.nbBad ≤ 637 := by
  rw [Swap.valid, Bool.and_eq_true, Bool.or_eq_true, Bool.or_eq_true, beq_iff_eq, beq_iff_eq, beq_iff_eq, decide_eq_true_iff, or_assoc]
  rw [show "SWAP-SPACE".toUTF8.toList = [0x53, 0x57, 0x41, 0x50, 0x2D, 0x53, 0x50, 0x41, 0x43, 0x45] by decide +kernel,
    show "SWAPSPACE2".toUTF8.toList = [0x53, 0x57, 0x41, 0x50, 0x53, 0x50, 0x41, 0x43, 0x45, 0x32] by decide +kernel,
    show "S1SUSPEND\x00".toUTF8.toList = [0x53, 0x31, 0x53, 0x55, 0x53, 0x50, 0x45, 0x4E, 0x44, 0] by decide +kernel]
  rfl

/-- A swap file of 3 pages, the second of which is bad. -/
example (boot uuid volume reserved gap p1 p2 : Bytes) (h1 : boot.length = 1024) (h2 : uuid.length = 16) (h3 : volume.length = 16) (h4 : reserved.length = 468) (h5 : gap.length = 2546)
    (h6 : p1.length = 4096) (h7 : p2.length = 4096) :
    SwapAt ((boot ++ (leBytes 4 1 ++ (leBytes 4 2 ++ (leBytes 4 1 ++ (uuid ++ (volume ++ (reserved ++ [1].flatMap (leBytes 4)))))))) ++ (gap ++
      ([0x53, 0x57, 0x41, 0x50, 0x53, 0x50, 0x41, 0x43, 0x45, 0x32] ++ [p1, p2].flatMap id)))
    ⟨boot, 1, 2, 1, uuid, volume, reserved, [1], [0x53, 0x57, 0x41, 0x50, 0x53, 0x50, 0x41, 0x43, 0x45, 0x32], [p1, p2]⟩ where
  start := ⟨_, rfl⟩
  bytes := ⟨h1, h2, h3, h4, rfl⟩
  words := by norm_num
  bad := by simp
  last := by simp
  pages := by simp [h6, h7]
  pagesAt := by
    rw [← List.append_assoc, List.drop_left' (by simp [h1, h2, h3, h4, h5, leBytes_length])]
  size := by simp [h1, h2, h3, h4, h5, h6, h7, leBytes_length]

end
end Hachoir.Props
