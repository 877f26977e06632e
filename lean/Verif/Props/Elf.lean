import Verif.Formats.Elf
import Verif.Props.Cab
import Verif.Props.Packed
import Verif.Props.Bplist

/-!
# ELF programs
-/

namespace Hachoir.Props
open Hachoir Hachoir.Stream Hachoir.Field Hachoir.Formats Hachoir.Formats.Elf Spec

/-! ## Numbers of both endians -/

/-- A number in `n` bytes. -/
def numBytes (e : Endian) (n v : Nat) : Bytes := if e = .big then beBytes n v else leBytes n v

theorem numBytes_length (e : Endian) (n v : Nat) : (numBytes e n v).length = n := by
  unfold numBytes
  split
  · exact beBytes_length n v
  · exact leBytes_length n v

theorem reads_number (e : Endian) (he : e ≠ .middle) (n v : Nat) (hn : 0 < n) (hv : v < 256 ^ n) : Reads (Rd.int n e) v (numBytes e n v) := by
  cases e with
  | big => exact reads_int_be n v hn hv
  | little => exact reads_int_le n v hn hv
  | middle => exact absurd rfl he

theorem joinBE_append : ∀ (ws vs : List Nat) (w v : Nat), ws.length = vs.length → joinBE (ws ++ [w]) (vs ++ [v]) = joinBE ws vs * 2 ^ w + v % 2 ^ w
  | [], [], w, v, _ => by simp [joinBE]
  | w' :: ws, v' :: vs, w, v, h => by
    rw [List.cons_append, List.cons_append, joinBE, joinBE, joinBE_append ws vs w v (by simpa using h), List.sum_append, List.sum_singleton, Nat.pow_add]
    ring
  | [], _ :: _, _, _, h => by simp at h
  | _ :: _, [], _, _, h => by simp at h

theorem joinBE_reverse : ∀ (ws vs : List Nat), ws.length = vs.length → joinBE ws.reverse vs.reverse = joinLE ws vs
  | [], [], _ => rfl
  | w :: ws, v :: vs, h => by
    rw [List.reverse_cons, List.reverse_cons, joinBE_append _ _ _ _ (by simpa using h), joinBE_reverse ws vs (by simpa using h), joinLE]
    ring
  | [], _ :: _, h => by simp at h
  | _ :: _, [], h => by simp at h

theorem Fit.length : ∀ {ws vs : List Nat}, Fit ws vs → ws.length = vs.length
  | [], [], _ => rfl
  | w :: ws, v :: vs, h => by rw [List.length_cons, List.length_cons, Fit.length h.2]
  | [], _ :: _, h => h.elim
  | _ :: _, [], h => h.elim

theorem Fit.append : ∀ {ws vs ws' vs' : List Nat}, Fit ws vs → Fit ws' vs' → Fit (ws ++ ws') (vs ++ vs')
  | [], [], _, _, _, h => h
  | _ :: _, _ :: _, _, _, h, h' => ⟨h.1, Fit.append h.2 h'⟩
  | [], _ :: _, _, _, h, _ => h.elim
  | _ :: _, [], _, _, h, _ => h.elim

theorem Fit.reverse : ∀ {ws vs : List Nat}, Fit ws vs → Fit ws.reverse vs.reverse
  | [], [], _ => trivial
  | w :: ws, v :: vs, h => by
    rw [List.reverse_cons, List.reverse_cons]
    exact Fit.append (Fit.reverse h.2) ⟨h.1, trivial⟩
  | [], _ :: _, h => h.elim
  | _ :: _, [], h => h.elim

/-- Flags are bits of a number, the first the lowest, in either endian. -/
theorem reads_bit_fields (e : Endian) (he : e ≠ .middle) (n : Nat) (ws vs : List Nat) (hn : 0 < n) (hw : ws.sum = 8 * n) (h : Fit ws vs) :
    Reads (bitFields e ws) vs (numBytes e n (joinLE ws vs)) := by
  cases e with
  | big =>
    have := reads_packed_be n ws.reverse vs.reverse hn (by rw [List.sum_reverse]; exact hw) h.reverse
    rw [joinBE_reverse ws vs h.length] at this
    have := Reads.map (f := fun vs : List Nat => vs.reverse) this
    rw [List.reverse_reverse] at this
    exact this
  | little => exact reads_packed_le n ws vs hn hw h
  | middle => exact absurd rfl he

/-! ## Headers -/

/-- Bytes of an address. -/
def elfWord (is64 : Bool) : Nat := if is64 then 8 else 4

theorem elfWord_pos (is64 : Bool) : 0 < elfWord is64 := by cases is64 <;> decide

def elfHeader (e : Endian) (h : Header) : Bytes :=
  [0x7F, 0x45, 0x4C, 0x46] ++ (numBytes e 1 h.class_ ++ (numBytes e 1 h.endian ++ (numBytes e 1 h.fileVersion ++ (numBytes e 1 h.osabi ++ (numBytes e 1 h.abiVersion ++ (h.pad ++
  (numBytes e 2 h.type ++ (numBytes e 2 h.machine ++ (numBytes e 4 h.version ++ (numBytes e (elfWord (h.class_ == 2)) h.entry ++ (numBytes e (elfWord (h.class_ == 2)) h.phoff ++
  (numBytes e (elfWord (h.class_ == 2)) h.shoff ++ (numBytes e 4 h.flags ++ (numBytes e 2 h.ehsize ++ (numBytes e 2 h.phentsize ++ (numBytes e 2 h.phnum ++
  (numBytes e 2 h.shentsize ++ (numBytes e 2 h.shnum ++ numBytes e 2 h.shstrndx))))))))))))))))))

/-- The endian a header tells. -/
def elfEndian (h : Header) : Endian := if h.endian = 1 then .little else .big

structure ElfHeaderGood (h : Header) : Prop where
  signature : h.signature = [0x7F, 0x45, 0x4C, 0x46]
  class_ : h.class_ = 1 ∨ h.class_ = 2
  endian : h.endian = 1 ∨ h.endian = 2
  bytes : h.fileVersion < 256 ∧ h.osabi < 256 ∧ h.abiVersion < 256 ∧ h.pad.length = 7
  words : h.type < 65536 ∧ h.machine < 65536 ∧ h.ehsize < 65536 ∧ h.phentsize < 65536 ∧ h.phnum < 65536 ∧ h.shentsize < 65536 ∧ h.shnum < 65536 ∧ h.shstrndx < 65536
  longs : h.version < 2 ^ 32 ∧ h.flags < 2 ^ 32
  addresses : h.entry < 256 ^ elfWord (h.class_ == 2) ∧ h.phoff < 256 ^ elfWord (h.class_ == 2) ∧ h.shoff < 256 ^ elfWord (h.class_ == 2)

theorem reads_elf_header (e : Endian) (he : e ≠ .middle) (h : Header) (g : ElfHeaderGood h) : Reads (header e) h (elfHeader e h) := by
  obtain ⟨h0, hc, hd, ⟨b1, b2, b3, b4⟩, ⟨w1, w2, w3, w4, w5, w6, w7, w8⟩, ⟨l1, l2⟩, a1, a2, a3⟩ := g
  have hw : (if h.class_ = 1 then 4 else 8) = elfWord (h.class_ == 2) := by
    rcases hc with e | e <;> rw [e] <;> rfl
  refine Reads.bind (reads_raw_n 4 [0x7F, 0x45, 0x4C, 0x46] rfl (by omega)) ?_
  refine Reads.bind (reads_number e he 1 _ (by omega) (by omega)) ?_
  rw [hw]
  refine Reads.bind (reads_number e he 1 _ (by omega) (by omega)) ?_
  refine Reads.bind (reads_number e he 1 _ (by omega) (by omega)) ?_
  refine Reads.bind (reads_number e he 1 _ (by omega) (by omega)) ?_
  refine Reads.bind (reads_number e he 1 _ (by omega) (by omega)) ?_
  refine Reads.bind (reads_fixed e .eightBit (by decide) 7 _ b4 (by omega)) ?_
  refine Reads.bind (reads_number e he 2 _ (by omega) (by omega)) ?_
  refine Reads.bind (reads_number e he 2 _ (by omega) (by omega)) ?_
  refine Reads.bind (reads_number e he 4 _ (by omega) (by omega)) ?_
  refine Reads.bind (reads_number e he _ _ (elfWord_pos _) a1) ?_
  refine Reads.bind (reads_number e he _ _ (elfWord_pos _) a2) ?_
  refine Reads.bind (reads_number e he _ _ (elfWord_pos _) a3) ?_
  refine Reads.bind (reads_number e he 4 _ (by omega) (by omega)) ?_
  refine Reads.bind (reads_number e he 2 _ (by omega) (by omega)) ?_
  refine Reads.bind (reads_number e he 2 _ (by omega) (by omega)) ?_
  refine Reads.bind (reads_number e he 2 _ (by omega) (by omega)) ?_
  refine Reads.bind (reads_number e he 2 _ (by omega) (by omega)) ?_
  refine Reads.bind (reads_number e he 2 _ (by omega) (by omega)) ?_
  refine (Reads.map (reads_number e he 2 _ (by omega) (by omega))).of_eq ?_ rfl
  rw [← h0]

theorem elfHeader_length (e : Endian) (h : Header) (g : ElfHeaderGood h) : (elfHeader e h).length = 40 + 3 * elfWord (h.class_ == 2) := by
  simp only [elfHeader, List.length_append, numBytes_length, g.bytes.2.2.2, List.length_cons, List.length_nil]
  omega

/-- Headers of segments: the flags are in another place in files of 64 bits. -/
def elfProgram (e : Endian) (is64 : Bool) (p : Program) : Bytes :=
  if is64 then
    numBytes e 4 p.type ++ (numBytes e 4 (joinLE programFlags p.flags) ++ (numBytes e 8 p.offset ++ (numBytes e 8 p.vaddr ++ (numBytes e 8 p.paddr ++ (numBytes e 8 p.fileSize ++
    (numBytes e 8 p.memSize ++ numBytes e 8 p.align))))))
  else
    numBytes e 4 p.type ++ (numBytes e 4 p.offset ++ (numBytes e 4 p.vaddr ++ (numBytes e 4 p.paddr ++ (numBytes e 4 p.fileSize ++ (numBytes e 4 p.memSize ++
    (numBytes e 4 (joinLE programFlags p.flags) ++ numBytes e 4 p.align))))))

structure ProgramGood (is64 : Bool) (p : Program) : Prop where
  type : p.type < 2 ^ 32
  flags : Fit programFlags p.flags
  addresses : p.offset < 256 ^ elfWord is64 ∧ p.vaddr < 256 ^ elfWord is64 ∧ p.paddr < 256 ^ elfWord is64 ∧ p.fileSize < 256 ^ elfWord is64 ∧ p.memSize < 256 ^ elfWord is64 ∧
    p.align < 256 ^ elfWord is64

theorem reads_program (e : Endian) (he : e ≠ .middle) (is64 : Bool) (p : Program) (g : ProgramGood is64 p) :
    Reads (if is64 = true then program64 e else program32 e) p (elfProgram e is64 p) := by
  obtain ⟨h1, h2, a1, a2, a3, a4, a5, a6⟩ := g
  cases is64 with
  | true =>
    simp only [if_true, elfProgram]
    refine Reads.bind (reads_number e he 4 _ (by omega) (by omega)) ?_
    refine Reads.bind (reads_bit_fields e he 4 _ _ (by omega) rfl h2) ?_
    refine Reads.bind (reads_number e he 8 _ (by omega) a1) ?_
    refine Reads.bind (reads_number e he 8 _ (by omega) a2) ?_
    refine Reads.bind (reads_number e he 8 _ (by omega) a3) ?_
    refine Reads.bind (reads_number e he 8 _ (by omega) a4) ?_
    refine Reads.bind (reads_number e he 8 _ (by omega) a5) ?_
    exact Reads.map (reads_number e he 8 _ (by omega) a6)
  | false =>
    simp only [Bool.false_eq_true, if_false, elfProgram]
    refine Reads.bind (reads_number e he 4 _ (by omega) (by omega)) ?_
    refine Reads.bind (reads_number e he 4 _ (by omega) a1) ?_
    refine Reads.bind (reads_number e he 4 _ (by omega) a2) ?_
    refine Reads.bind (reads_number e he 4 _ (by omega) a3) ?_
    refine Reads.bind (reads_number e he 4 _ (by omega) a4) ?_
    refine Reads.bind (reads_number e he 4 _ (by omega) a5) ?_
    refine Reads.bind (reads_bit_fields e he 4 _ _ (by omega) rfl h2) ?_
    exact Reads.map (reads_number e he 4 _ (by omega) a6)

/-- Headers of sections. -/
def elfSection (e : Endian) (is64 : Bool) (h : Section) : Bytes :=
  numBytes e 4 h.name ++ (numBytes e 4 h.type ++ (numBytes e (elfWord is64) (joinLE (sectionFlags is64) h.flags) ++ (numBytes e (elfWord is64) h.vma ++
  (numBytes e (elfWord is64) h.lma ++ (numBytes e (elfWord is64) h.size ++ (numBytes e 4 h.link ++ (numBytes e 4 h.info ++ (numBytes e (elfWord is64) h.align ++
  numBytes e (elfWord is64) h.entrySize))))))))

structure SectionGood (is64 : Bool) (h : Section) : Prop where
  longs : h.name < 2 ^ 32 ∧ h.type < 2 ^ 32 ∧ h.link < 2 ^ 32 ∧ h.info < 2 ^ 32
  flags : Fit (sectionFlags is64) h.flags
  addresses : h.vma < 256 ^ elfWord is64 ∧ h.lma < 256 ^ elfWord is64 ∧ h.size < 256 ^ elfWord is64 ∧ h.align < 256 ^ elfWord is64 ∧ h.entrySize < 256 ^ elfWord is64

theorem reads_section (e : Endian) (he : e ≠ .middle) (is64 : Bool) (h : Section) (g : SectionGood is64 h) : Reads (sectionHeader e is64) h (elfSection e is64 h) := by
  obtain ⟨⟨l1, l2, l3, l4⟩, hf, a1, a2, a3, a4, a5⟩ := g
  refine Reads.bind (reads_number e he 4 _ (by omega) (by omega)) ?_
  refine Reads.bind (reads_number e he 4 _ (by omega) (by omega)) ?_
  refine Reads.bind (reads_bit_fields e he _ _ _ (elfWord_pos is64) (by cases is64 <;> rfl) hf) ?_
  refine Reads.bind (reads_number e he _ _ (elfWord_pos is64) a1) ?_
  refine Reads.bind (reads_number e he _ _ (elfWord_pos is64) a2) ?_
  refine Reads.bind (reads_number e he _ _ (elfWord_pos is64) a3) ?_
  refine Reads.bind (reads_number e he 4 _ (by omega) (by omega)) ?_
  refine Reads.bind (reads_number e he 4 _ (by omega) (by omega)) ?_
  refine Reads.bind (reads_number e he _ _ (elfWord_pos is64) a4) ?_
  exact Reads.map (reads_number e he _ _ (elfWord_pos is64) a5)

/-! ## Files -/

theorem at_peek (data : Bytes) (a : Nat) (b : UInt8) (hp : [b] <+: data.drop a) (ha : a ≤ data.length) : AtPlace data (Rd.peek .big) b.toNat a a := by
  intro s hs
  have := (reads_byte b .big (by decide)).at hp ha s hs
  rw [Rd.int] at this
  rw [Rd.peek]
  cases h : readBits s ((8 * a : Nat) : Int) 8 .big with
  | error _ => rw [show 8 * 1 = 8 from rfl, h] at this; simp at this
  | ok v =>
    rw [show 8 * 1 = 8 from rfl, h] at this
    simp only [Except.ok.injEq, Prod.mk.injEq] at this
    simp only [this.1]

/-- What a section has in the file: nothing if it is empty or without bits. -/
def elfContent (data : Bytes) (h : Section) : Option Bytes := if h.size = 0 ∨ h.type = 8 then none else some ((data.drop h.lma).take h.size)

/-- An ELF file: the header, the headers of segments and sections where the header says, and the sections where their headers say. -/
structure ElfAt (data : Bytes) (h : Header) (ps : List Program) (hs : List Section) : Prop where
  header : ElfHeaderGood h
  start : elfHeader (elfEndian h) h <+: data
  phnum : h.phnum = ps.length
  shnum : h.shnum = hs.length
  programs : ∀ p ∈ ps, ProgramGood (h.class_ == 2) p
  programsAt : (ps.flatMap (elfProgram (elfEndian h) (h.class_ == 2))) <+: data.drop h.phoff
  sections : ∀ s ∈ hs, SectionGood (h.class_ == 2) s
  sectionsAt : (hs.flatMap (elfSection (elfEndian h) (h.class_ == 2))) <+: data.drop h.shoff ∧ h.shoff ≤ data.length
  inside : ∀ s ∈ hs, s.size = 0 ∨ s.type = 8 ∨ s.lma + s.size ≤ data.length

/-- The headers of segments are read right behind the header. -/
theorem reads_elf (data : Bytes) (s : InputStream) (hs : stringInputStream data = .ok s) (h : Header) (ps qs : List Program) (ss : List Section) (g : ElfAt data h ps ss)
    (hq : ∀ p ∈ qs, ProgramGood (h.class_ == 2) p) (hl : h.phnum = qs.length)
    (hat : (qs.flatMap (elfProgram (elfEndian h) (h.class_ == 2))) <+: data.drop (40 + 3 * elfWord (h.class_ == 2))) :
    ∃ stop, file s (8 * data.length) 0 = .ok (⟨h, qs, ss, ss.map (elfContent data)⟩, stop) := by
  obtain ⟨g1, g2, _, g4, _, _, g7, ⟨g8, g8'⟩, g9⟩ := g
  have he : elfEndian h ≠ .middle := by unfold elfEndian; split <;> decide
  have hend : endianOf h.endian = elfEndian h := by
    unfold endianOf elfEndian
    rcases g1.endian with e | e <;> rw [e] <;> rfl
  have hlen := g2.length_le
  rw [elfHeader_length _ h g1] at hlen
  have hb : numBytes (elfEndian h) 1 h.endian = [UInt8.ofNat h.endian] := by
    unfold elfEndian
    rcases g1.endian with e | e <;> rw [e] <;> rfl
  have p5 : [UInt8.ofNat h.endian] <+: data.drop 5 := by
    have p0 : elfHeader (elfEndian h) h <+: data.drop 0 := by simpa using g2
    have p1 := drop_prefix (xs := [0x7F, 0x45, 0x4C, 0x46]) p0
    have p2 := drop_prefix (xs := numBytes (elfEndian h) 1 h.class_) p1
    have p3 := prefix_left (xs := numBytes (elfEndian h) 1 h.endian) p2
    rw [hb, numBytes_length] at p3
    exact p3
  have hv : (UInt8.ofNat h.endian).toNat = h.endian := by
    rcases g1.endian with e | e <;> rw [e] <;> rfl
  have r0 := at_peek data 5 _ p5 (by omega)
  rw [hv] at r0
  obtain ⟨c, hc⟩ := at_each data sectionBytes (elfContent data) ss (h.shoff + (ss.flatMap (elfSection (elfEndian h) (h.class_ == 2))).length) fun x hx a => by
    rw [sectionBytes, elfContent]
    by_cases hz : x.size = 0 ∨ x.type = 8
    · rw [if_pos hz, if_neg (by omega)]
      exact ⟨a, at_pure data _ a⟩
    · rw [if_neg hz, if_pos (by omega)]
      have hin := g9 x hx
      have hl : ((data.drop x.lma).take x.size).length = x.size := by rw [List.length_take, List.length_drop]; omega
      exact ⟨_, AtPlace.bind (at_jump data a x.lma) (AtPlace.map (f := fun b => some b) ((reads_raw_n x.size _ hl (by omega)).at (List.take_prefix _ _) (by omega)))⟩
  have rp : AtPlace data (Rd.times (if h.class_ = 2 then program64 (elfEndian h) else program32 (elfEndian h)) h.phnum) qs (40 + 3 * elfWord (h.class_ == 2))
      (40 + 3 * elfWord (h.class_ == 2) + (qs.flatMap (elfProgram (elfEndian h) (h.class_ == 2))).length) := by
    have r := reads_times_n (if (h.class_ == 2) = true then program64 (elfEndian h) else program32 (elfEndian h)) (elfProgram (elfEndian h) (h.class_ == 2)) qs _ hl
      fun p hp => reads_program _ he _ p (hq p hp)
    simp only [beq_iff_eq] at r
    exact r.at hat (by omega)
  have r : AtPlace data file ⟨h, qs, ss, ss.map (elfContent data)⟩ 0 c := by
    refine AtPlace.bind (at_jump data 0 5) ?_
    refine AtPlace.bind r0 ?_
    refine AtPlace.bind (at_jump data 5 0) ?_
    rw [hend]
    refine AtPlace.bind ((reads_elf_header _ he h g1).at (by simpa using g2) (by omega)) ?_
    rw [elfHeader_length _ h g1, Nat.zero_add]
    refine AtPlace.bind rp ?_
    refine AtPlace.bind (at_jump data _ h.shoff) ?_
    refine AtPlace.bind ((reads_times_n _ (elfSection (elfEndian h) (h.class_ == 2)) ss _ g4 fun x hx => reads_section _ he _ x (g7 x hx)).at g8 g8') ?_
    exact AtPlace.map (f := fun b => File.mk h qs ss b) hc
  exact ⟨_, r s hs⟩

/-- **C136** (partial): all programs of 32 and 64 bits, little and big endian, are read: header, segments, sections wherever they are.  The headers of segments have to be
right behind the header (as linkers write them): where the header says they are is not looked at. -/
theorem C136_file_partial (data : Bytes) (s : InputStream) (hs : stringInputStream data = .ok s) (h : Header) (ps : List Program) (ss : List Section) (g : ElfAt data h ps ss)
    (hph : h.phoff = 40 + 3 * elfWord (h.class_ == 2) ∨ ps = []) :
    ∃ stop, file s (8 * data.length) 0 = .ok (⟨h, ps, ss, ss.map (elfContent data)⟩, stop) := by
  refine reads_elf data s hs h ps ps ss g g.programs g.phnum ?_
  rcases hph with e | e
  · rw [← e]; exact g.programsAt
  · subst e; exact List.nil_prefix

/-- Violation: wherever the header says the headers of segments are, they are read right behind it. -/
theorem C136_phoff (data : Bytes) (s : InputStream) (hs : stringInputStream data = .ok s) (h : Header) (ps qs : List Program) (ss : List Section) (g : ElfAt data h ps ss)
    (hq : ∀ p ∈ qs, ProgramGood (h.class_ == 2) p) (hl : qs.length = h.phnum)
    (hat : (qs.flatMap (elfProgram (elfEndian h) (h.class_ == 2))) <+: data.drop (40 + 3 * elfWord (h.class_ == 2))) :
    ∃ f stop, file s (8 * data.length) 0 = .ok (f, stop) ∧ f.programs = qs := by
  obtain ⟨stop, e⟩ := reads_elf data s hs h ps qs ss g hq hl.symm hat
  exact ⟨_, stop, e, rfl⟩

/-- **C136**: which headers are accepted. -/
theorem C136_valid (h : Header) :
    valid h = true ↔ h.signature = [0x7F, 0x45, 0x4C, 0x46] ∧ (h.class_ = 1 ∨ h.class_ = 2) ∧ (h.endian = 1 ∨ h.endian = 2) := by
  rw [valid]
  simp [and_assoc]

/-- **C136**: the name of a section is the text at its offset in the section of names, up to the first zero. -/
theorem C136_name (f : File) (x : Section) (table before name after : Bytes) (ht : f.sections[f.header.shstrndx]? = some (some table))
    (e : table = before ++ (name ++ [0] ++ after)) (hx : x.name = before.length) (hn : ∀ b ∈ name, b ≠ 0) : sectionName f x = .ok name := by
  rw [sectionName, ht]
  simp only [Except.ok.injEq]
  rw [e, hx, List.drop_left, List.append_assoc, List.takeWhile_append_of_pos (by simpa using hn)]
  simp

/-- A header of 64 bits, big endian. -/
example : ElfHeaderGood ⟨[0x7F, 0x45, 0x4C, 0x46], 2, 2, 1, 0, 0, [0, 0, 0, 0, 0, 0, 0], 2, 21, 1, 0x10000000, 64, 4096, 0, 64, 56, 1, 64, 2, 1⟩ ∧
    ProgramGood true ⟨1, [1, 0, 1, 0], 0, 0, 0, 100, 100, 8⟩ ∧ SectionGood true ⟨1, 3, [0, 0, 0, 0, 0, 1, 0, 0, 0, 0, 0, 0, 0, 0, 0, 0], 0, 120, 10, 0, 0, 1, 0⟩ :=
  ⟨⟨rfl, .inr rfl, .inr rfl, by decide, by decide, by norm_num, by simp [elfWord]⟩, ⟨by norm_num, by simp [Fit, programFlags], by simp [elfWord]⟩,
    ⟨by norm_num, by simp [Fit, sectionFlags], by simp [elfWord]⟩⟩

end Hachoir.Props
