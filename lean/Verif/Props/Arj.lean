import Verif.Formats.Arj
import Verif.Props.Reader

/-!
# ARJ archives
-/

namespace Hachoir.Props
open Hachoir Hachoir.Stream Hachoir.Field Hachoir.Formats Hachoir.Formats.Arj Spec

theorem ReadsAll.map {α β : Type} {r : Rd α} {v : α} {bs : Bytes} (h : ReadsAll r v bs) (f : α → β) : ReadsAll (r >>= fun a => Pure.pure (f a)) (f v) bs := by
  intro data s hs k hp
  show Rd.bind r _ s _ _ = _
  rw [Rd.bind, h data s hs k hp]
  rfl

theorem Fails.bind {α β : Type} {r : Rd α} {f : α → Rd β} {e : PyErr} {bs : Bytes} (h : Fails r e bs) : Fails (r >>= f) e bs := by
  intro data s hs k stop hp hst
  show Rd.bind r f s stop _ = _
  rw [Rd.bind, h data s hs k stop hp hst]

def arjStart (s : Start) : Bytes := leBytes 1 s.firstSize ++ (leBytes 1 s.archiver ++ (leBytes 1 s.minArchiver ++ (leBytes 1 s.hostOs ++ leBytes 1 s.flags)))

/-- An extended header: its size, its bytes, its checksum. -/
def arjExtended (x : Bytes × Nat) : Bytes := leBytes 2 x.1.length ++ (x.1 ++ leBytes 4 x.2)

def arjEnd (e : End) : Bytes :=
  leBytes 1 e.lastChapter ++ (e.reserved ++ (e.filename ++ [0] ++ (e.comment ++ [0] ++ (leBytes 4 e.crc ++ (e.extended.flatMap arjExtended ++ leBytes 2 0)))))

structure ArjStartGood (s : Start) : Prop where
  bytes : s.firstSize < 256 ∧ s.archiver < 256 ∧ s.minArchiver < 256 ∧ s.hostOs < 256 ∧ s.flags < 256

structure ArjEndGood (fuel : Nat) (s : Start) (e : End) : Prop where
  first : s.firstSize = 30 + e.reserved.length
  chapter : e.lastChapter < 256
  filename : ∀ b ∈ e.filename, b ≠ 0
  comment : ∀ b ∈ e.comment, b ≠ 0
  crc : e.crc < 2 ^ 32
  extended : ∀ x ∈ e.extended, x.1 ≠ [] ∧ x.1.length < 65536 ∧ x.2 < 2 ^ 32
  fuel : e.extended.length < fuel

theorem reads_arj_start (s : Start) (g : ArjStartGood s) : Reads start s (arjStart s) := by
  obtain ⟨h1, h2, h3, h4, h5⟩ := g
  refine Reads.bind (reads_int_le 1 _ (by omega) (by omega)) ?_
  refine Reads.bind (reads_int_le 1 _ (by omega) (by omega)) ?_
  refine Reads.bind (reads_int_le 1 _ (by omega) (by omega)) ?_
  refine Reads.bind (reads_int_le 1 _ (by omega) (by omega)) ?_
  exact Reads.map (reads_int_le 1 _ (by omega) (by omega))

theorem reads_extendeds : ∀ (xs : List (Bytes × Nat)) (fuel : Nat), xs.length < fuel → (∀ x ∈ xs, x.1 ≠ [] ∧ x.1.length < 65536 ∧ x.2 < 2 ^ 32) →
    Reads (extendeds fuel) xs (xs.flatMap arjExtended ++ leBytes 2 0)
  | _, 0, h, _ => by omega
  | [], fuel + 1, _, _ => by
    refine Reads.not_eof (by simp [leBytes]) ?_
    simp only [Bool.false_eq_true, if_false]
    rw [List.flatMap_nil, List.nil_append, ← List.append_nil (leBytes 2 0)]
    refine Reads.bind (reads_int_le 2 0 (by omega) (by omega)) ?_
    rw [if_pos rfl]
    exact reads_pure _
  | (b, c) :: xs, fuel + 1, hf, h => by
    obtain ⟨h1, h2, h3⟩ := h _ List.mem_cons_self
    simp only at h1 h2 h3
    have hl := List.length_pos_iff.2 h1
    refine Reads.not_eof (by simp [leBytes]) ?_
    simp only [Bool.false_eq_true, if_false]
    rw [List.flatMap_cons, arjExtended, List.append_assoc, List.append_assoc]
    simp only
    refine Reads.bind (reads_int_le 2 _ (by omega) (by omega)) ?_
    rw [if_neg (by omega), ← List.append_assoc]
    rw [show b ++ leBytes 4 c ++ xs.flatMap arjExtended ++ leBytes 2 0 = (b ++ leBytes 4 c) ++ (xs.flatMap arjExtended ++ leBytes 2 0) by simp]
    refine Reads.bind (Reads.bind (reads_raw b h1) (Reads.map (reads_int_le 4 c (by omega) (by omega)))) ?_
    exact Reads.map (reads_extendeds xs fuel (by simp at hf; omega) fun x hx => h x (List.mem_cons_of_mem _ hx))

theorem reads_arj_end (fuel : Nat) (s : Start) (e : End) (g : ArjEndGood fuel s e) : Reads (Arj.«end» fuel s.firstSize) e (arjEnd e) := by
  obtain ⟨h1, h2, h3, h4, h5, h6, h7⟩ := g
  refine Reads.bind (reads_int_le 1 _ (by omega) (by omega)) ?_
  have r : Reads (reservedOf s.firstSize) e.reserved e.reserved := by
    unfold reservedOf
    by_cases hz : e.reserved = []
    · rw [h1, hz, if_neg (by simp)]
      exact reads_pure _
    · have := List.length_pos_iff.2 hz
      rw [if_pos (by omega)]
      exact reads_raw_n _ _ (by omega) (by omega)
  refine Reads.bind r ?_
  refine Reads.bind (reads_cstring .little (by decide) .eightBit (.inl rfl) _ h3) ?_
  refine Reads.bind (reads_cstring .little (by decide) .eightBit (.inl rfl) _ h4) ?_
  refine Reads.bind (reads_int_le 4 _ (by omega) (by omega)) ?_
  exact Reads.map (reads_extendeds _ fuel h7 h6)

/-- The main header. -/
def arjMain (m : Main) : Bytes :=
  [0x60, 0xEA] ++ (leBytes 2 m.headerSize ++ (arjStart m.start ++ (leBytes 1 m.security ++ (leBytes 1 m.fileType ++ (leBytes 1 m.reserved ++ (leBytes 4 m.created ++ (leBytes 4 m.modified ++
  (leBytes 4 m.archiveSize ++ (leBytes 4 m.envelopePosition ++ (leBytes 2 m.filespec ++ (leBytes 2 m.envelopeLength ++ (leBytes 1 m.encryption ++ arjEnd m.«end»))))))))))))

structure ArjMainGood (fuel : Nat) (m : Main) : Prop where
  size : 0 < m.headerSize ∧ m.headerSize < 65536
  start : ArjStartGood m.start
  bytes : m.security < 256 ∧ m.fileType < 256 ∧ m.reserved < 256 ∧ m.encryption < 256
  words : m.filespec < 65536 ∧ m.envelopeLength < 65536
  longs : m.created < 2 ^ 32 ∧ m.modified < 2 ^ 32 ∧ m.archiveSize < 2 ^ 32 ∧ m.envelopePosition < 2 ^ 32
  «end» : ArjEndGood fuel m.start m.«end»

theorem reads_headed {α : Type} (r : Nat → Rd α) (n : Nat) (a : α) (bs : Bytes) (h0 : 0 < n) (hn : n < 65536) (h : Reads (r n) a bs) :
    Reads (headed r) (some a) ([0x60, 0xEA] ++ (leBytes 2 n ++ bs)) := by
  refine Reads.bind (reads_raw_n 2 [0x60, 0xEA] rfl (by omega)) ?_
  rw [if_neg (by simp)]
  refine Reads.bind (reads_int_le 2 _ (by omega) (by omega)) ?_
  rw [if_neg (by omega)]
  exact Reads.map (f := fun a => some a) h

theorem reads_arj_main (fuel : Nat) (m : Main) (g : ArjMainGood fuel m) : Reads (headed (Arj.main fuel)) (some m) (arjMain m) := by
  obtain ⟨⟨h1, h1'⟩, h2, ⟨b1, b2, b3, b4⟩, ⟨w1, w2⟩, ⟨l1, l2, l3, l4⟩, h3⟩ := g
  refine reads_headed _ m.headerSize m _ h1 h1' ?_
  refine Reads.bind (reads_arj_start _ h2) ?_
  refine Reads.bind (reads_int_le 1 _ (by omega) (by omega)) ?_
  refine Reads.bind (reads_int_le 1 _ (by omega) (by omega)) ?_
  refine Reads.bind (reads_int_le 1 _ (by omega) (by omega)) ?_
  refine Reads.bind (reads_int_le 4 _ (by omega) (by omega)) ?_
  refine Reads.bind (reads_int_le 4 _ (by omega) (by omega)) ?_
  refine Reads.bind (reads_int_le 4 _ (by omega) (by omega)) ?_
  refine Reads.bind (reads_int_le 4 _ (by omega) (by omega)) ?_
  refine Reads.bind (reads_int_le 2 _ (by omega) (by omega)) ?_
  refine Reads.bind (reads_int_le 2 _ (by omega) (by omega)) ?_
  refine Reads.bind (reads_int_le 1 _ (by omega) (by omega)) ?_
  exact Reads.map (reads_arj_end fuel _ _ h3)

/-- A file: its header and its compressed bytes. -/
def arjFile (b : Block) : Bytes :=
  [0x60, 0xEA] ++ (leBytes 2 b.headerSize ++ (arjStart b.start ++ (leBytes 1 b.method ++ (leBytes 1 b.fileType ++ (leBytes 1 b.reserved ++ (leBytes 4 b.modified ++ (leBytes 4 b.data.length ++
  (leBytes 4 b.originalSize ++ (leBytes 4 b.crc ++ (leBytes 2 b.filespec ++ (leBytes 2 b.access ++ (leBytes 1 b.firstChapter ++ (arjEnd b.«end» ++ b.data)))))))))))))

structure ArjFileGood (fuel : Nat) (b : Block) : Prop where
  size : 0 < b.headerSize ∧ b.headerSize < 65536
  start : ArjStartGood b.start
  bytes : b.method < 256 ∧ b.fileType < 256 ∧ b.reserved < 256 ∧ b.firstChapter < 256
  words : b.filespec < 65536 ∧ b.access < 65536
  longs : b.modified < 2 ^ 32 ∧ b.data.length < 2 ^ 32 ∧ b.originalSize < 2 ^ 32 ∧ b.crc < 2 ^ 32
  «end» : ArjEndGood fuel b.start b.«end»

theorem reads_arj_file (fuel : Nat) (b : Block) (g : ArjFileGood fuel b) : Reads (headed (block fuel)) (some b) (arjFile b) := by
  obtain ⟨⟨h1, h1'⟩, h2, ⟨b1, b2, b3, b4⟩, ⟨w1, w2⟩, ⟨l1, l2, l3, l4⟩, h3⟩ := g
  refine reads_headed _ b.headerSize b _ h1 h1' ?_
  refine Reads.bind (reads_arj_start _ h2) ?_
  refine Reads.bind (reads_int_le 1 _ (by omega) (by omega)) ?_
  refine Reads.bind (reads_int_le 1 _ (by omega) (by omega)) ?_
  refine Reads.bind (reads_int_le 1 _ (by omega) (by omega)) ?_
  refine Reads.bind (reads_int_le 4 _ (by omega) (by omega)) ?_
  refine Reads.bind (reads_int_le 4 _ (by omega) (by omega)) ?_
  refine Reads.bind (reads_int_le 4 _ (by omega) (by omega)) ?_
  refine Reads.bind (reads_int_le 4 _ (by omega) (by omega)) ?_
  refine Reads.bind (reads_int_le 2 _ (by omega) (by omega)) ?_
  refine Reads.bind (reads_int_le 2 _ (by omega) (by omega)) ?_
  refine Reads.bind (reads_int_le 1 _ (by omega) (by omega)) ?_
  refine Reads.bind (reads_arj_end fuel _ _ h3) ?_
  refine Reads.map ?_
  unfold dataOf
  by_cases hz : b.data = []
  · rw [hz, if_neg (by simp)]
    exact reads_pure _
  · have := List.length_pos_iff.2 hz
    rw [if_pos this]
    exact reads_raw _ hz

theorem reads_empty_block {α : Type} (r : Nat → Rd α) : Reads (headed r) none [0x60, 0xEA, 0, 0] := by
  refine Reads.bind (xs := [0x60, 0xEA]) (ys := [0, 0]) (reads_raw_n 2 [0x60, 0xEA] rfl (by omega)) ?_
  rw [if_neg (by simp)]
  refine Reads.bind (xs := [0, 0]) (ys := []) (reads_int_le 2 0 (by omega) (by omega)) ?_
  rw [if_pos rfl]
  exact reads_pure _

theorem reads_arj_blocks (fuel : Nat) : ∀ (bs : List Block) (n : Nat), bs.length < n → (∀ b ∈ bs, ArjFileGood fuel b) →
    Reads (blocks fuel n) (bs, true) (bs.flatMap arjFile ++ [0x60, 0xEA, 0, 0])
  | _, 0, h, _ => by omega
  | [], n + 1, _, _ => by
    refine Reads.not_eof (by simp) ?_
    simp only [Bool.false_eq_true, if_false]
    rw [List.flatMap_nil, List.nil_append, ← List.append_nil [0x60, 0xEA, 0, 0]]
    refine Reads.bind (reads_empty_block _) ?_
    exact reads_pure _
  | b :: bs, n + 1, hn, h => by
    refine Reads.not_eof (by simp) ?_
    simp only [Bool.false_eq_true, if_false]
    rw [List.flatMap_cons, List.append_assoc]
    refine Reads.bind (reads_arj_file fuel b (h b List.mem_cons_self)) ?_
    exact Reads.map (f := fun x : List Block × Bool => (b :: x.1, x.2)) (reads_arj_blocks fuel bs n (by simp at hn; omega) fun x hx => h x (List.mem_cons_of_mem _ hx))

theorem reads_arj_open (fuel : Nat) : ∀ (bs : List Block) (n : Nat), bs.length < n → (∀ b ∈ bs, ArjFileGood fuel b) → ReadsAll (blocks fuel n) (bs, false) (bs.flatMap arjFile)
  | _, 0, h, _ => by omega
  | [], n + 1, _, _ => by
    refine ReadsAll.at_eof ?_
    simp only [if_true]
    exact (reads_pure _).all
  | b :: bs, n + 1, hn, h => by
    rw [List.flatMap_cons]
    refine ReadsAll.not_eof (by simp [arjFile]) ?_
    simp only [Bool.false_eq_true, if_false]
    refine Reads.bind_all (reads_arj_file fuel b (h b List.mem_cons_self)) ?_
    have r := reads_arj_open fuel bs n (by simp at hn; omega) fun x hx => h x (List.mem_cons_of_mem _ hx)
    exact r.map fun x : List Block × Bool => (b :: x.1, x.2)

/-- **C139**: all archives, whatever is behind their end. -/
theorem C139_archive (fuel : Nat) (m : Main) (bs : List Block) (g : ArjMainGood fuel m) (h : ∀ b ∈ bs, ArjFileGood fuel b) (hf : bs.length < fuel) :
    Reads (archive fuel) ⟨some m, bs, true⟩ (arjMain m ++ (bs.flatMap arjFile ++ [0x60, 0xEA, 0, 0])) := by
  refine Reads.bind (reads_arj_main fuel m g) ?_
  exact Reads.map (f := fun x : List Block × Bool => Archive.mk (some m) x.1 x.2) (reads_arj_blocks fuel bs fuel hf h)

/-- **C139**: archives without the block that ends them. -/
theorem C139_open (fuel : Nat) (m : Main) (bs : List Block) (g : ArjMainGood fuel m) (h : ∀ b ∈ bs, ArjFileGood fuel b) (hf : bs.length < fuel) :
    ReadsAll (archive fuel) ⟨some m, bs, false⟩ (arjMain m ++ bs.flatMap arjFile) := by
  refine Reads.bind_all (reads_arj_main fuel m g) ?_
  exact (reads_arj_open fuel bs fuel hf h).map fun x : List Block × Bool => Archive.mk (some m) x.1 x.2

/-- **C139**: an archive whose first header is empty has no files. -/
theorem C139_empty (fuel : Nat) : Reads (archive fuel) ⟨none, [], false⟩ [0x60, 0xEA, 0, 0] := by
  rw [← List.append_nil [0x60, 0xEA, 0, 0]]
  refine Reads.bind (reads_empty_block _) ?_
  exact reads_pure _

/-- **C139**: any other beginning is refused. -/
theorem C139_magic (fuel : Nat) (m : Bytes) (hm : m.length = 2) (h : m ≠ [0x60, 0xEA]) : Fails (archive fuel) .parser (m ++ []) := by
  refine Fails.bind ?_
  refine Reads.fails (reads_raw_n 2 m hm (by omega)) ?_
  rw [if_pos h]
  exact fails_fail _

/-- A file with a comment and an extended header. -/
example : ArjFileGood 10 ⟨40, ⟨34, 11, 1, 2, 16⟩, 1, 0, 0, 0x3A5B6C7D, 5, 0x11223344, 0, 0x20, 0, ⟨0, [1, 2, 3, 4], [0x61, 0x2E, 0x62], [0x63], 7, [([9, 9], 5)]⟩, [1, 2, 3]⟩ :=
  ⟨by decide, ⟨by decide⟩, by decide, by decide, by simp, rfl, by decide, by simp, by simp, by norm_num, by simp, by decide⟩

end Hachoir.Props
