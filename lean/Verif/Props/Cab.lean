import Verif.Formats.Cab
import Verif.Props.Reader

/-!
# Microsoft cabinets
-/

namespace Hachoir.Props
open Hachoir Hachoir.Stream Hachoir.Field Hachoir.Formats Hachoir.Formats.Cab Spec

/-! ## The parts of a cabinet -/

def cabFlags (h : Head) : List Nat := [if h.previous.isSome then 1 else 0, if h.next.isSome then 1 else 0, if h.reserved.isSome then 1 else 0, 0]

def cabReserved : Option Reserved → Bytes
  | none => []
  | some r => leBytes 2 r.header.length ++ (leBytes 1 r.folder ++ (leBytes 1 r.data ++ r.header))

def cabNames : Option (Bytes × Bytes) → Bytes
  | none => []
  | some p => p.1 ++ [0] ++ (p.2 ++ [0])

/-- The header of a cabinet: 36 bytes, the reserved areas, the names of neighbours. -/
def cabHead (h : Head) : Bytes :=
  [77, 83, 67, 70] ++ (leBytes 4 h.hdrChecksum ++ (leBytes 4 h.filesize ++ (leBytes 4 h.fldChecksum ++ (leBytes 4 h.offFile ++ (leBytes 4 h.filesChecksum ++
  (leBytes 1 h.minor ++ (leBytes 1 h.major ++ (leBytes 2 h.nbFolder ++ (leBytes 2 h.nbFiles ++
  (leBytes 2 ((if h.previous.isSome then 1 else 0) + (if h.next.isSome then 2 else 0) + (if h.reserved.isSome then 4 else 0)) ++
  (leBytes 2 h.setid ++ (leBytes 2 h.serial ++ (cabReserved h.reserved ++ (cabNames h.previous ++ cabNames h.next))))))))))))))

def NamesGood (p : Option (Bytes × Bytes)) : Prop := ∀ q, p = some q → (∀ x ∈ q.1, x ≠ 0) ∧ (∀ x ∈ q.2, x ≠ 0)

structure HeadGood (h : Head) : Prop where
  magic : h.magic = [77, 83, 67, 70]
  n1 : h.hdrChecksum < 2 ^ 32
  n2 : h.filesize < 2 ^ 32
  n3 : h.fldChecksum < 2 ^ 32
  n4 : h.offFile < 2 ^ 32
  n5 : h.filesChecksum < 2 ^ 32
  n6 : h.minor < 256
  n7 : h.major < 256
  n8 : h.nbFolder < 65536
  n9 : h.nbFiles < 65536
  n10 : h.setid < 65536
  n11 : h.serial < 65536
  flags : h.flags = cabFlags h
  reserved : ∀ r, h.reserved = some r → r.header.length < 65536 ∧ r.folder < 256 ∧ r.data < 256
  previous : NamesGood h.previous
  next : NamesGood h.next

theorem reads_raw_or (b : Bytes) (n : Nat) (hn : b.length = n) : Reads (rawOr n) b b := by
  subst hn
  by_cases h : b = []
  · subst h
    exact reads_pure _
  · rw [rawOr, if_neg (by have := List.length_pos_of_ne_nil h; omega)]
    exact reads_raw b h

theorem reads_reserved (r : Option Reserved) (h : ∀ q, r = some q → q.header.length < 65536 ∧ q.folder < 256 ∧ q.data < 256) :
    Reads (reserved (if r.isSome then 1 else 0)) r (cabReserved r) := by
  cases r with
  | none => exact reads_pure _
  | some q =>
    obtain ⟨h1, h2, h3⟩ := h q rfl
    refine Reads.bind (reads_int_le 2 _ (by omega) (by omega)) ?_
    refine Reads.bind (reads_int_le 1 _ (by omega) (by omega)) ?_
    refine Reads.bind (reads_int_le 1 _ (by omega) (by omega)) ?_
    exact Reads.map (f := fun b => some (Reserved.mk b q.folder q.data)) (reads_raw_or q.header _ rfl)

theorem reads_neighbour (p : Option (Bytes × Bytes)) (h : NamesGood p) : Reads (neighbour (if p.isSome then 1 else 0)) p (cabNames p) := by
  cases p with
  | none => exact reads_pure _
  | some q =>
    obtain ⟨h1, h2⟩ := h q rfl
    refine Reads.bind (reads_cstring .little (by decide) .eightBit (.inl rfl) q.1 h1) ?_
    exact Reads.map (f := fun d => some (q.1, d)) (reads_cstring .little (by decide) .eightBit (.inl rfl) q.2 h2)

theorem le_two (v : Nat) (h : v < 65536) : ofBytesLE (leBytes 2 v) = v := by
  exact (leBytes_spec 2 v).2 (by omega)

theorem reads_bits_word (ws : List Nat) (hw : ws.sum = 16) (v : Nat) (hv : v < 65536) : Reads (Rd.bits .little ws) (splitLE ws v) (leBytes 2 v) := by
  have := reads_bits_le ws (leBytes 2 v) (by rw [leBytes_length]; omega) (by rw [leBytes_length]; omega)
  rwa [le_two v hv] at this

theorem reads_cab_head (h : Head) (g : HeadGood h) : Reads head h (cabHead h) := by
  obtain ⟨m, n1, n2, n3, n4, n5, n6, n7, n8, n9, n10, n11, hf, hr, hp, hn⟩ := g
  refine Reads.bind (reads_fixed .little .eightBit (by decide) 4 _ rfl (by omega)) ?_
  refine Reads.bind (reads_int_le 4 _ (by omega) (by omega)) ?_
  refine Reads.bind (reads_int_le 4 _ (by omega) (by omega)) ?_
  refine Reads.bind (reads_int_le 4 _ (by omega) (by omega)) ?_
  refine Reads.bind (reads_int_le 4 _ (by omega) (by omega)) ?_
  refine Reads.bind (reads_int_le 4 _ (by omega) (by omega)) ?_
  refine Reads.bind (reads_int_le 1 _ (by omega) (by omega)) ?_
  refine Reads.bind (reads_int_le 1 _ (by omega) (by omega)) ?_
  refine Reads.bind (reads_int_le 2 _ (by omega) (by omega)) ?_
  refine Reads.bind (reads_int_le 2 _ (by omega) (by omega)) ?_
  refine Reads.bind (v := cabFlags h) ((reads_bits_word [1, 1, 1, 13] rfl _ (by split <;> split <;> split <;> omega)).of_eq ?_ rfl) ?_
  · unfold cabFlags
    cases h.previous <;> cases h.next <;> cases h.reserved <;> simp [splitLE]
  refine Reads.bind (reads_int_le 2 _ (by omega) (by omega)) ?_
  refine Reads.bind (reads_int_le 2 _ (by omega) (by omega)) ?_
  refine Reads.bind (reads_reserved h.reserved hr) ?_
  refine Reads.bind (reads_neighbour h.previous hp) ?_
  refine (Reads.map (reads_neighbour h.next hn)).of_eq ?_ rfl
  rw [← hf, ← m]

/-- A folder: method and level share a word. -/
def cabFolder (f : Folder) : Bytes := leBytes 4 f.offset ++ (leBytes 2 f.blocks ++ (leBytes 2 (f.method + 256 * f.level.getD 0) ++ f.reserved))

def CabFolderGood (res : Option Reserved) (f : Folder) : Prop :=
  f.offset < 2 ^ 32 ∧ f.blocks < 65536 ∧ f.method < 16 ∧ (f.level.isSome ↔ f.method = 2 ∨ f.method = 3) ∧ f.level.getD 0 < 32 ∧
  f.reserved.length = (res.map (·.folder)).getD 0

theorem reads_method (m : Nat) (l : Option Nat) (h1 : m < 16) (h2 : l.isSome ↔ m = 2 ∨ m = 3) (h3 : l.getD 0 < 32) :
    Reads methodLevel (m, l) (leBytes 2 (m + 256 * l.getD 0)) := by
  intro data s hs k stop hp hst
  have hv : m + 256 * l.getD 0 < 65536 := by omega
  by_cases hm : m = 2 ∨ m = 3
  · obtain ⟨x, rfl⟩ := Option.isSome_iff_exists.1 (h2.2 hm)
    have r := reads_bits_word [4, 4, 5, 3] rfl _ hv data s hs k stop hp hst
    simp only [Option.getD_some] at h3 r hv ⊢
    have e : splitLE [4, 4, 5, 3] (m + 256 * x) = [m, 0, x, 0] := by
      simp only [splitLE, List.cons.injEq, and_true]
      norm_num
      omega
    rw [e, Rd.bits] at r
    show Rd.bind (Rd.bit .little 4) _ s stop (8 * k) = _
    unfold Rd.bind at r ⊢
    cases h : Rd.bit .little 4 s stop (8 * k) with
    | error _ => rw [h] at r; simp at r
    | ok v =>
      rw [h] at r
      simp only at r ⊢
      cases h' : Rd.bits .little [4, 5, 3] s stop v.2 with
      | error _ => simp [h'] at r
      | ok w =>
        simp only [h', Rd.pure, Except.ok.injEq, Prod.mk.injEq, List.cons.injEq] at r
        obtain ⟨⟨r1, r2⟩, r3⟩ := r
        rw [r1]
        show Rd.bind (level m) _ s stop v.2 = _
        rw [level, if_pos hm]
        show Rd.bind (Rd.bind (Rd.bits .little [4, 5, 3]) _) _ s stop v.2 = _
        simp only [Rd.bind, h', Pure.pure, Rd.pure, r2, r3]
        rfl
  · obtain rfl : l = none := by
      cases l with
      | none => rfl
      | some x => exact absurd (h2.1 rfl) hm
    have r := reads_bits_word [4, 12] rfl _ hv data s hs k stop hp hst
    simp only [Option.getD_none] at h3 r hv ⊢
    have e : splitLE [4, 12] (m + 256 * 0) = [m, 0] := by
      simp only [splitLE, List.cons.injEq, and_true]
      norm_num
      omega
    rw [e, Rd.bits] at r
    show Rd.bind (Rd.bit .little 4) _ s stop (8 * k) = _
    unfold Rd.bind at r ⊢
    cases h : Rd.bit .little 4 s stop (8 * k) with
    | error _ => rw [h] at r; simp at r
    | ok v =>
      rw [h] at r
      simp only at r ⊢
      cases h' : Rd.bits .little [12] s stop v.2 with
      | error _ => simp [h'] at r
      | ok w =>
        simp only [h', Rd.pure, Except.ok.injEq, Prod.mk.injEq, List.cons.injEq] at r
        obtain ⟨⟨r1, r2⟩, r3⟩ := r
        rw [r1]
        show Rd.bind (level m) _ s stop v.2 = _
        rw [level, if_neg hm]
        show Rd.bind (Rd.bind (Rd.bits .little [12]) _) _ s stop v.2 = _
        simp only [Rd.bind, h', Pure.pure, Rd.pure, r3]

theorem reads_cab_folder (res : Option Reserved) (f : Folder) (g : CabFolderGood res f) : Reads (folder res) f (cabFolder f) := by
  obtain ⟨h1, h2, h3, h4, h5, h6⟩ := g
  refine Reads.bind (reads_int_le 4 _ (by omega) (by omega)) ?_
  refine Reads.bind (reads_int_le 2 _ (by omega) (by omega)) ?_
  refine Reads.bind (reads_method f.method f.level h3 h4 h5) ?_
  exact Reads.map (f := fun r => Folder.mk f.offset f.blocks f.method f.level r) (reads_raw_or f.reserved _ h6)

/-- A file: sizes, place, time, attributes (read only 1, hidden 2, system 4, archive 32, run 64, UTF-8 name 128) and name. -/
def cabFile (f : File) : Bytes :=
  leBytes 4 f.filesize ++ (leBytes 4 f.folderOffset ++ (leBytes 2 f.folderIndex ++ (leBytes 4 f.timestamp ++
  (leBytes 2 (f.attributes.getD 0 0 + 2 * f.attributes.getD 1 0 + 4 * f.attributes.getD 2 0 + 8 * f.attributes.getD 3 0 + 32 * f.attributes.getD 4 0 +
    64 * f.attributes.getD 5 0 + 128 * f.attributes.getD 6 0 + 256 * f.attributes.getD 7 0) ++ (f.name ++ [0])))))

def FileGood (f : File) : Prop :=
  f.filesize < 2 ^ 32 ∧ f.folderOffset < 2 ^ 32 ∧ f.folderIndex < 65536 ∧ f.timestamp < 2 ^ 32 ∧ (∀ x ∈ f.name, x ≠ 0) ∧
  ∃ a0 a1 a2 a3 a4 a5 a6 a7, f.attributes = [a0, a1, a2, a3, a4, a5, a6, a7] ∧ a0 < 2 ∧ a1 < 2 ∧ a2 < 2 ∧ a3 < 4 ∧ a4 < 2 ∧ a5 < 2 ∧ a6 < 2 ∧ a7 < 256

theorem reads_cab_file (f : File) (g : FileGood f) : Reads file f (cabFile f) := by
  obtain ⟨filesize, folderOffset, folderIndex, timestamp, attributes, name⟩ := f
  obtain ⟨h1, h2, h3, h4, h5, a0, a1, a2, a3, a4, a5, a6, a7, ha, b0, b1, b2, b3, b4, b5, b6, b7⟩ := g
  simp only at h1 h2 h3 h4 h5 ha
  subst ha
  refine Reads.bind (reads_int_le 4 _ (by omega) (by omega)) ?_
  refine Reads.bind (reads_int_le 4 _ (by omega) (by omega)) ?_
  refine Reads.bind (reads_int_le 2 _ (by omega) (by omega)) ?_
  refine Reads.bind (reads_int_le 4 _ (by omega) (by omega)) ?_
  refine Reads.bind (v := [a0, a1, a2, a3, a4, a5, a6, a7]) ((reads_bits_word [1, 1, 1, 2, 1, 1, 1, 8] rfl _ ?_).of_eq ?_ rfl) ?_
  · simp only [List.getD_cons_zero, List.getD_cons_succ]
    omega
  · simp only [List.getD_cons_zero, List.getD_cons_succ, splitLE, List.cons.injEq, and_true]
    norm_num
    omega
  · refine Reads.map (f := fun n => File.mk filesize folderOffset folderIndex timestamp [a0, a1, a2, a3, a4, a5, a6, a7] n) ?_
    refine reads_cstring .little (by decide) _ ?_ name h5
    rw [nameCharset]
    split
    · exact .inl rfl
    · exact .inr rfl

/-- A data block. -/
def cabBlock (b : Block) : Bytes := leBytes 4 b.crc ++ (leBytes 2 b.data.length ++ (leBytes 2 b.uncompressed ++ (b.reserved ++ b.data)))

def BlockGood (res : Option Reserved) (b : Block) : Prop :=
  b.crc < 2 ^ 32 ∧ b.data.length < 65536 ∧ b.uncompressed < 65536 ∧ b.reserved.length = (res.map (·.data)).getD 0

theorem reads_cab_block (res : Option Reserved) (b : Block) (g : BlockGood res b) : Reads (block res) b (cabBlock b) := by
  obtain ⟨h1, h2, h3, h4⟩ := g
  refine Reads.bind (reads_int_le 4 _ (by omega) (by omega)) ?_
  refine Reads.bind (reads_int_le 2 _ (by omega) (by omega)) ?_
  refine Reads.bind (reads_int_le 2 _ (by omega) (by omega)) ?_
  refine Reads.bind (reads_raw_or b.reserved _ h4) ?_
  exact Reads.map (f := fun d => Block.mk b.crc b.uncompressed b.reserved d) (reads_raw_or b.data _ rfl)

/-- **C132**: header, folders and files of all cabinets are read as they were written. -/
theorem C132_lists (h : Head) (folders : List Folder) (files : List File) (hh : HeadGood h) (hn : h.nbFolder = folders.length) (hm : h.nbFiles = files.length)
    (hf : ∀ f ∈ folders, CabFolderGood h.reserved f) (hg : ∀ f ∈ files, FileGood f) :
    Reads (do let h ← head; let fs ← Rd.times (folder h.reserved) h.nbFolder; let gs ← Rd.times file h.nbFiles; pure (h, fs, gs) : Rd (Head × List Folder × List File))
      (h, folders, files) (cabHead h ++ (folders.flatMap cabFolder ++ files.flatMap cabFile)) := by
  refine Reads.bind (reads_cab_head h hh) ?_
  refine Reads.bind (reads_times_n (folder h.reserved) cabFolder folders _ hn fun f hm => reads_cab_folder _ f (hf f hm)) ?_
  exact Reads.map (f := fun gs => (h, folders, gs)) (reads_times_n file cabFile files _ hm fun f hm => reads_cab_file f (hg f hm))

/-! ## Data -/

/-- The blocks of a folder are where its offset says. -/
def BlocksAt (data : Bytes) (res : Option Reserved) (f : Folder) (bs : List Block) : Prop :=
  bs.length = f.blocks ∧ (∀ b ∈ bs, BlockGood res b) ∧ bs.flatMap cabBlock <+: data.drop f.offset ∧ f.offset ≤ data.length ∧ bs ≠ []

theorem at_folder_data (data : Bytes) (res : Option Reserved) (bsOf : Nat → List Block) : ∀ (l : List (Nat × Folder)) (a : Nat),
    l.Pairwise (fun p q => p.2.offset ≤ q.2.offset) →
    l.Pairwise (fun p q => p.2.offset + ((bsOf p.1).flatMap cabBlock).length ≤ q.2.offset ∨ q.2.offset + ((bsOf q.1).flatMap cabBlock).length ≤ p.2.offset) →
    (∀ p ∈ l, a ≤ p.2.offset ∧ BlocksAt data res p.2 (bsOf p.1)) →
    ∃ b, AtPlace data (folderData res l) (l.map fun p => (p.1, bsOf p.1)) a b
  | [], a, _, _, _ => ⟨a, at_pure data _ a⟩
  | (i, f) :: rest, a, hs, hd, h => by
    rw [List.pairwise_cons] at hs hd
    obtain ⟨h1, h2, h3, h4, h5, h6⟩ := h (i, f) (by simp)
    have hl := h4.length_le
    rw [List.length_drop] at hl
    have pos : ∀ p ∈ rest, 0 < ((bsOf p.1).flatMap cabBlock).length := fun p hp => by
      obtain ⟨-, -, -, -, -, hne⟩ := h p (by simp [hp])
      obtain ⟨b, bs, e⟩ := List.exists_cons_of_ne_nil hne
      rw [e, List.flatMap_cons, List.length_append, cabBlock, List.length_append, leBytes_length]
      omega
    have key : ∀ p ∈ rest, f.offset + ((bsOf i).flatMap cabBlock).length ≤ p.2.offset := fun p hp => by
      have := hs.1 p hp
      have := hd.1 p hp
      have := pos p hp
      simp only at *
      omega
    set n := (rest.head?.map (fun p => p.2.offset)).getD (8 * data.length / 8) - f.offset with hn
    have hle : ((bsOf i).flatMap cabBlock).length ≤ n ∧ ∀ p ∈ rest, f.offset + n ≤ p.2.offset := by
      cases rest with
      | nil =>
        refine ⟨?_, by simp⟩
        have e : (8 * data.length) / 8 = data.length := by omega
        simp only [List.head?_nil, Option.map_none, Option.getD_none, e] at hn
        simp only at hl h5
        omega
      | cons q rest =>
        have hq := key q (by simp)
        simp only [List.head?_cons, Option.map_some, Option.getD_some] at hn
        refine ⟨by omega, fun p hp => ?_⟩
        rcases List.mem_cons.1 hp with rfl | hp
        · omega
        · have := (List.pairwise_cons.1 hs.2).1 p hp
          omega
    obtain ⟨b, hb⟩ := at_folder_data data res bsOf rest (f.offset + n) hs.2 hd.2 fun p hp => ⟨hle.2 p hp, (h p (by simp [hp])).2⟩
    refine ⟨b, ?_⟩
    refine AtPlace.bind (at_seek data a f.offset h1) ?_
    refine AtPlace.bind (at_limit data _) ?_
    refine AtPlace.bind ((reads_times_n (block res) cabBlock (bsOf i) f.blocks h2.symm fun b hm => reads_cab_block res b (h3 b hm)).within_at h4 hle.1) ?_
    exact AtPlace.map (f := fun more => (i, bsOf i) :: more) hb

theorem mem_numbered {α : Type} (l : List α) (p : Nat × α) (h : p ∈ numbered l) : p.2 ∈ l ∧ l[p.1]? = some p.2 := by
  rw [numbered, List.mem_mapIdx] at h
  obtain ⟨i, hi, rfl⟩ := h
  exact ⟨List.getElem_mem hi, List.getElem?_eq_getElem hi⟩

theorem pairwise_numbered {α : Type} (R : Nat × α → Nat × α → Prop) (l : List α)
    (h : ∀ (i j : Nat) (hi : i < l.length) (hj : j < l.length), i < j → R (i, l[i]) (j, l[j])) : (numbered l).Pairwise R := by
  rw [List.pairwise_iff_getElem]
  intro i j hi hj hij
  simp only [numbered, List.length_mapIdx] at hi hj
  simp only [numbered, List.getElem_mapIdx]
  exact h i j hi hj hij

/-- **C132**: the data blocks of every folder are found, wherever they are and in whatever order; every folder has at least one block. -/
theorem C132_data (data : Bytes) (s : InputStream) (hs : stringInputStream data = .ok s) (h : Head) (folders : List Folder) (files : List File)
    (hh : HeadGood h) (hn : h.nbFolder = folders.length) (hm : h.nbFiles = files.length) (hf : ∀ f ∈ folders, CabFolderGood h.reserved f)
    (hg : ∀ f ∈ files, FileGood f) (hstart : cabHead h ++ (folders.flatMap cabFolder ++ files.flatMap cabFile) <+: data)
    (bsOf : Nat → List Block) (hb : ∀ i f, folders[i]? = some f → (cabHead h ++ (folders.flatMap cabFolder ++ files.flatMap cabFile)).length ≤ f.offset ∧
      BlocksAt data h.reserved f (bsOf i))
    (hd : ∀ (i j : Nat) (f g : Folder), i < j → folders[i]? = some f → folders[j]? = some g →
      f.offset + ((bsOf i).flatMap cabBlock).length ≤ g.offset ∨ g.offset + ((bsOf j).flatMap cabBlock).length ≤ f.offset) :
    ∃ found stop, cab s (8 * data.length) 0 = .ok (⟨h, folders, files, found⟩, stop) ∧ found.Perm ((numbered folders).map fun p => (p.1, bsOf p.1)) := by
  set l := (numbered folders).mergeSort (fun p q => p.2.offset ≤ q.2.offset) with hl
  have hperm : l.Perm (numbered folders) := List.mergeSort_perm _ _
  have hsort : l.Pairwise fun p q => p.2.offset ≤ q.2.offset := by
    have := List.pairwise_mergeSort (le := fun p q : Nat × Folder => decide (p.2.offset ≤ q.2.offset)) (by intro a b c h1 h2; simp at *; omega)
      (by intro a b; simp; omega) (numbered folders)
    simpa using this
  have hdis : l.Pairwise (fun p q => p.2.offset + ((bsOf p.1).flatMap cabBlock).length ≤ q.2.offset ∨ q.2.offset + ((bsOf q.1).flatMap cabBlock).length ≤ p.2.offset) := by
    refine (List.Perm.pairwise_iff (R := fun p q : Nat × Folder => p.2.offset + ((bsOf p.1).flatMap cabBlock).length ≤ q.2.offset ∨
      q.2.offset + ((bsOf q.1).flatMap cabBlock).length ≤ p.2.offset) (fun {a b} h => h.symm) hperm).2 ?_
    exact pairwise_numbered _ _ fun i j hi hj hij => hd i j _ _ hij (List.getElem?_eq_getElem hi) (List.getElem?_eq_getElem hj)
  obtain ⟨b, hb⟩ := at_folder_data data h.reserved bsOf l _ hsort hdis fun p hp => hb p.1 p.2 (mem_numbered _ p (hperm.mem_iff.1 hp)).2
  have p0 : cabHead h ++ (folders.flatMap cabFolder ++ files.flatMap cabFile) <+: data.drop 0 := by simpa using hstart
  have hlen := p0.length_le
  rw [List.length_append, List.length_append, List.length_drop] at hlen
  have p1 := drop_prefix (xs := cabHead h) (ys := folders.flatMap cabFolder ++ files.flatMap cabFile) p0
  have p2 := drop_prefix (xs := folders.flatMap cabFolder) (ys := files.flatMap cabFile) p1
  have r : AtPlace data cab ⟨h, folders, files, l.map fun p => (p.1, bsOf p.1)⟩ 0 b := by
    refine AtPlace.bind ((reads_cab_head h hh).at (prefix_left (xs := cabHead h) p0) (by omega)) ?_
    refine AtPlace.bind ((reads_times_n (folder h.reserved) cabFolder folders _ hn fun f hm => reads_cab_folder _ f (hf f hm)).at
      (prefix_left (xs := folders.flatMap cabFolder) p1) (by omega)) ?_
    refine AtPlace.bind ((reads_times_n file cabFile files _ hm fun f hm => reads_cab_file f (hg f hm)).at p2 (by omega)) ?_
    refine AtPlace.map (f := fun d => Cabinet.mk h folders files d) ?_
    rw [List.length_append, List.length_append] at hb
    rw [show 0 + (cabHead h).length + (folders.flatMap cabFolder).length + (files.flatMap cabFile).length =
      (cabHead h).length + ((folders.flatMap cabFolder).length + (files.flatMap cabFile).length) by omega]
    exact hb
  exact ⟨_, _, r s hs, hperm.map _⟩

/-- **C132**: cabinets of version 1.3 with 1 to 30 folders are accepted, their size is the one in the header. -/
theorem C132_valid (h : Head) (hh : HeadGood h) : (valid h = true ↔ h.major = 1 ∧ h.minor = 3 ∧ 1 ≤ h.nbFolder ∧ h.nbFolder ≤ 30) ∧ contentSize h = 8 * h.filesize := by
  refine ⟨?_, by rw [contentSize, Nat.mul_comm]⟩
  rw [valid, hh.magic]
  simp
  tauto

/-! ## Contents -/

/-- The files a folder has. -/
def filesIn (all : List File) (index : Nat) : List File := all.filter fun f => decide (f.folderIndex = index)

/-- The content of a folder that is not compressed. -/
def storedContent (bs : List Block) : Bytes := bs.flatMap (·.data)

/-- Violation: the parser of a folder's content is told of no file, whatever files there are. -/
theorem C132_files_lost (all : List File) (index : Nat) (f : File) (hf : f ∈ all) (hi : f.folderIndex = index) :
    folderFiles all index = [] ∧ f ∈ filesIn all index := by
  refine ⟨rfl, ?_⟩
  rw [filesIn, List.mem_filter]
  exact ⟨hf, by simpa using hi⟩

/-- Violation: the content of folders that are stored or compressed with MSZIP or Quantum is never there, whatever their blocks. -/
theorem C132_content_lost (inflate : Bytes → Bytes → Except PyErr Bytes) (method : Nat) (bs : List Block) :
    uncompressed inflate method bs = .str "" := by
  unfold uncompressed
  have step : ∀ b, afterBlock inflate method (.str "") b = .str "" := by
    intro b
    unfold afterBlock addBlock
    by_cases h : method = 0 ∧ b.data ≠ [] ∨ method = 1
    · simp only [if_pos h]
    · simp only [if_neg h]
  induction bs with
  | nil => rfl
  | cons b bs ih => rw [List.foldl_cons, step b]; exact ih

example : storedContent [⟨0, 2, [], [1, 2]⟩, ⟨0, 1, [], [3]⟩] = [1, 2, 3] := rfl

/-- A cabinet with reserved areas and a next one. -/
example : HeadGood ⟨[77, 83, 67, 70], 0, 100, 0, 44, 0, 3, 1, 1, 1, [0, 1, 1, 0], 7, 0, some ⟨[9, 9], 1, 2⟩, none, some ([98, 46, 99], [50])⟩ ∧
    CabFolderGood (some ⟨[9, 9], 1, 2⟩) ⟨80, 1, 3, some 21, [5]⟩ ∧ FileGood ⟨3, 0, 0, 0, [1, 0, 0, 0, 1, 0, 1, 0], [97]⟩ ∧
    BlockGood (some ⟨[9, 9], 1, 2⟩) ⟨0, 3, [0, 0], [1, 2, 3]⟩ := by
  refine ⟨⟨rfl, by norm_num, by norm_num, by norm_num, by norm_num, by norm_num, by norm_num, by norm_num, by norm_num, by norm_num, by norm_num, by norm_num, rfl, ?_, ?_, ?_⟩,
    ⟨by norm_num, by norm_num, by norm_num, by decide, by decide, rfl⟩, ⟨by norm_num, by norm_num, by norm_num, by norm_num, by decide, 1, 0, 0, 0, 1, 0, 1, 0, rfl, by decide⟩,
    ⟨by norm_num, by decide, by norm_num, rfl⟩⟩
  · intro r hr; cases hr; decide
  · intro q hq; cases hq
  · intro q hq; cases hq; decide

end Hachoir.Props
