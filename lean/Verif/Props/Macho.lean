import Verif.Formats.Macho
import Verif.Props.Elf

/-!
# Mac OS programs
-/

namespace Hachoir.Props
open Hachoir Hachoir.Stream Hachoir.Field Hachoir.Formats Hachoir.Formats.Macho Spec

/-- A signed number in 4 bytes. -/
def int32Bytes (e : Endian) (v : Int) : Bytes := numBytes e 4 (v % (256 ^ 4 : Nat)).toNat

/-- 4 bytes with a sign. -/
def Int32 (v : Int) : Prop := -(2 ^ 31 : Int) ≤ v ∧ v < 2 ^ 31

theorem reads_int32 (e : Endian) (he : e ≠ .middle) (v : Int) (h : Int32 v) : Reads (Rd.signed 4 e) v (int32Bytes e v) := by
  obtain ⟨h1, h2⟩ := h
  cases e with
  | big => exact reads_signed_be 4 v (by omega) (by omega) (by omega)
  | little => exact reads_signed_le 4 v (by omega) (by omega) (by omega)
  | middle => exact absurd rfl he

/-! ## Headers -/

def reservedBytes (e : Endian) : Option Nat → Bytes
  | none => []
  | some n => numBytes e 4 n

def machoHeader (e : Endian) (h : Header) : Bytes :=
  h.magic ++ (int32Bytes e h.cpuType ++ (int32Bytes e h.cpuSubtype ++ (numBytes e 4 h.fileType ++ (numBytes e 4 h.ncmds ++ (numBytes e 4 h.sizeofcmds ++
  (numBytes e 4 (joinLE headerFlags h.flags) ++ reservedBytes e h.reserved))))))

structure MachoHeaderGood (is64 : Bool) (h : Header) : Prop where
  magic : h.magic.length = 4
  cpu : Int32 h.cpuType ∧ Int32 h.cpuSubtype
  words : h.fileType < 2 ^ 32 ∧ h.ncmds < 2 ^ 32 ∧ h.sizeofcmds < 2 ^ 32
  flags : Fit headerFlags h.flags
  reserved : is64 = true ∧ (∃ n, h.reserved = some n ∧ n < 2 ^ 32) ∨ is64 = false ∧ h.reserved = none

theorem reads_macho_header (e : Endian) (he : e ≠ .middle) (is64 : Bool) (h : Header) (g : MachoHeaderGood is64 h) : Reads (Macho.header e is64) h (machoHeader e h) := by
  obtain ⟨h1, ⟨h2, h3⟩, ⟨w1, w2, w3⟩, hf, hr⟩ := g
  have r : Reads (reservedOf e is64) h.reserved (reservedBytes e h.reserved) := by
    rcases hr with ⟨e1, n, e2, hn⟩ | ⟨e1, e2⟩ <;> rw [e1, e2]
    · exact Reads.map (reads_number e he 4 n (by omega) (by omega))
    · exact reads_pure _
  refine Reads.bind (reads_raw_n 4 _ h1 (by omega)) ?_
  refine Reads.bind (reads_int32 e he _ h2) ?_
  refine Reads.bind (reads_int32 e he _ h3) ?_
  refine Reads.bind (reads_number e he 4 _ (by omega) (by omega)) ?_
  refine Reads.bind (reads_number e he 4 _ (by omega) (by omega)) ?_
  refine Reads.bind (reads_number e he 4 _ (by omega) (by omega)) ?_
  refine Reads.bind (reads_bit_fields e he 4 _ _ (by omega) rfl hf) ?_
  exact Reads.map r

/-! ## Segments -/

def machoSection (e : Endian) (is64 : Bool) (x : Macho.Section) : Bytes :=
  x.name ++ (x.segment ++ (numBytes e (elfWord is64) x.addr ++ (numBytes e (elfWord is64) x.size ++ (x.words.flatMap (numBytes e 4) ++ x.padding))))

structure MachoSectionGood (is64 : Bool) (x : Macho.Section) : Prop where
  names : x.name.length = 16 ∧ x.segment.length = 16
  places : x.addr < 256 ^ elfWord is64 ∧ x.size < 256 ^ elfWord is64
  words : x.words.length = 7 ∧ ∀ w ∈ x.words, w < 2 ^ 32
  padding : x.padding.length = if is64 then 4 else 0

theorem reads_macho_section (e : Endian) (he : e ≠ .middle) (is64 : Bool) (x : Macho.Section) (g : MachoSectionGood is64 x) :
    Reads (Macho.«section» e is64) x (machoSection e is64 x) := by
  obtain ⟨⟨n1, n2⟩, ⟨p1, p2⟩, ⟨w1, w2⟩, hp⟩ := g
  refine Reads.bind (reads_fixed e .eightBit (by decide) 16 _ n1 (by omega)) ?_
  refine Reads.bind (reads_fixed e .eightBit (by decide) 16 _ n2 (by omega)) ?_
  refine Reads.bind (reads_number e he _ _ (elfWord_pos is64) p1) ?_
  refine Reads.bind (reads_number e he _ _ (elfWord_pos is64) p2) ?_
  refine Reads.bind (reads_times_n _ (numBytes e 4) x.words _ w1.symm fun w hw => reads_number e he 4 w (by omega) (w2 w hw)) ?_
  refine Reads.map ?_
  unfold sectionPadding
  cases is64 with
  | true => exact reads_raw_n 4 _ hp (by omega)
  | false => exact (reads_pure []).of_eq (List.length_eq_zero_iff.1 hp).symm (List.length_eq_zero_iff.1 hp).symm

def machoSegment (e : Endian) (is64 : Bool) (x : Segment) : Bytes :=
  x.name ++ (x.places.flatMap (numBytes e (elfWord is64)) ++ (numBytes e 4 x.maxprot ++ (numBytes e 4 x.initprot ++ (numBytes e 4 x.sections.length ++ (numBytes e 4 x.flags ++
  x.sections.flatMap (machoSection e is64))))))

structure SegmentGood (is64 : Bool) (x : Segment) : Prop where
  name : x.name.length = 16
  places : x.places.length = 4 ∧ ∀ p ∈ x.places, p < 256 ^ elfWord is64
  words : x.maxprot < 2 ^ 32 ∧ x.initprot < 2 ^ 32 ∧ x.flags < 2 ^ 32
  sections : x.sections.length < 2 ^ 32 ∧ ∀ y ∈ x.sections, MachoSectionGood is64 y

theorem reads_segment (e : Endian) (he : e ≠ .middle) (is64 : Bool) (x : Segment) (g : SegmentGood is64 x) : Reads (segment e is64) x (machoSegment e is64 x) := by
  obtain ⟨h1, ⟨p1, p2⟩, ⟨w1, w2, w3⟩, s1, s2⟩ := g
  refine Reads.bind (reads_fixed e .eightBit (by decide) 16 _ h1 (by omega)) ?_
  refine Reads.bind (reads_times_n _ (numBytes e (elfWord is64)) x.places _ p1.symm fun p hp => reads_number e he _ p (elfWord_pos is64) (p2 p hp)) ?_
  refine Reads.bind (reads_number e he 4 _ (by omega) (by omega)) ?_
  refine Reads.bind (reads_number e he 4 _ (by omega) (by omega)) ?_
  refine Reads.bind (reads_number e he 4 _ (by omega) (by omega)) ?_
  refine Reads.bind (reads_number e he 4 _ (by omega) (by omega)) ?_
  exact Reads.map (reads_times_n _ (machoSection e is64) x.sections _ rfl fun y hy => reads_macho_section e he is64 y (s2 y hy))

/-! ## Commands -/

/-- The bytes of what is in a command. -/
def machoData (e : Endian) : Data → Bytes
  | .segment is64 x => machoSegment e is64 x
  | .words ws => ws.flatMap (numBytes e 4)
  | .named ws name => ws.flatMap (numBytes e 4) ++ (name ++ [0])
  | .raw b => b

/-- How many numbers each command has. -/
def machoWords (cmd : Nat) : Option Nat :=
  if cmd = 2 then some 4 else if cmd = 3 then some 2 else if cmd = 0xb then some 18 else if cmd = 0x22 then some 10 else if cmd = 0x80000022 then some 10
  else if cmd = 0x24 then some 2 else if cmd = 0x25 then some 2 else none

/-- Numbers that are commands with a known layout. -/
def machoKnown : List Nat := [1, 2, 3, 0xb, 0xc, 0xe, 0x19, 0x1b, 0x22, 0x80000022, 0x24, 0x25]

/-- What a command of this number has. -/
inductive DataGood (cmd : Nat) : Data → Prop where
  | segment32 (x : Segment) : cmd = 1 → SegmentGood false x → DataGood cmd (.segment false x)
  | segment64 (x : Segment) : cmd = 0x19 → SegmentGood true x → DataGood cmd (.segment true x)
  | words (ws : List Nat) : machoWords cmd = some ws.length → (∀ w ∈ ws, w < 2 ^ 32) → DataGood cmd (.words ws)
  | linker (w : Nat) (name : Bytes) : cmd = 0xe → w < 2 ^ 32 → (∀ b ∈ name, b ≠ 0) → DataGood cmd (.named [w] name)
  | library (ws : List Nat) (name : Bytes) : cmd = 0xc → ws.length = 4 → (∀ w ∈ ws, w < 2 ^ 32) → (∀ b ∈ name, b ≠ 0) → DataGood cmd (.named ws name)
  | uuid (b : Bytes) : cmd = 0x1b → b.length = 16 → DataGood cmd (.raw b)

theorem reads_macho_data (e : Endian) (he : e ≠ .middle) (cmd : Nat) (d : Data) (g : DataGood cmd d) : ∃ l, layout cmd = some l ∧ Reads (data e l) d (machoData e d) := by
  cases g with
  | segment32 x hc hx => exact ⟨.segment false, by rw [hc]; rfl, Reads.map (reads_segment e he false x hx)⟩
  | segment64 x hc hx => exact ⟨.segment true, by rw [hc]; rfl, Reads.map (reads_segment e he true x hx)⟩
  | words ws hc hw =>
    refine ⟨.words ws.length, ?_, Reads.map (reads_times_n _ (numBytes e 4) ws _ rfl fun w h => reads_number e he 4 w (by omega) (hw w h))⟩
    unfold machoWords at hc
    split at hc
    · rename_i h; rw [h, ← Option.some.inj hc]; rfl
    · split at hc
      · rename_i h; rw [h, ← Option.some.inj hc]; rfl
      · split at hc
        · rename_i h; rw [h, ← Option.some.inj hc]; rfl
        · split at hc
          · rename_i h; rw [h, ← Option.some.inj hc]; rfl
          · split at hc
            · rename_i h; rw [h, ← Option.some.inj hc]; rfl
            · split at hc
              · rename_i h; rw [h, ← Option.some.inj hc]; rfl
              · split at hc
                · rename_i h; rw [h, ← Option.some.inj hc]; rfl
                · cases hc
  | linker w name hc hw hn =>
    exact ⟨.named 1, by rw [hc]; rfl, Reads.bind (reads_times_n _ (numBytes e 4) [w] _ rfl fun x h => reads_number e he 4 x (by omega) (by rw [List.mem_singleton.1 h]; exact hw))
      (Reads.map (reads_cstring e he .eightBit (.inl rfl) name hn))⟩
  | library ws name hc hl hw hn =>
    exact ⟨.named 4, by rw [hc]; rfl, Reads.bind (reads_times_n _ (numBytes e 4) ws _ hl.symm fun x h => reads_number e he 4 x (by omega) (hw x h))
      (Reads.map (reads_cstring e he .eightBit (.inl rfl) name hn))⟩
  | uuid b hc hl => exact ⟨.uuid, by rw [hc]; rfl, Reads.map (reads_raw_n 16 b hl (by omega))⟩

theorem Reads.measured {α β : Type} {r : Rd α} {f : α → Nat → Rd β} {v : α} {w : β} {xs ys : Bytes} (h1 : Reads r v xs) (h2 : Reads (f v (8 * xs.length)) w ys) :
    Reads (Macho.measured r f) w (xs ++ ys) := by
  intro data s hs k stop hp hst
  have hl := hp.length_le
  rw [List.length_append, List.length_drop] at hl
  rw [List.length_append] at hst
  have r1 := h1 data s hs k stop (prefix_left hp) (by omega)
  have r2 := h2 data s hs (k + xs.length) stop (drop_prefix hp) (by omega)
  unfold Macho.measured
  rw [r1]
  simp only
  rw [show 8 * (k + xs.length) - 8 * k = 8 * xs.length by omega, r2, List.length_append, Nat.add_assoc]

/-- A command: its number, its size, what is in it, zeros or whatever up to its size. -/
def machoCommand (e : Endian) (c : Command) : Bytes :=
  numBytes e 4 c.cmd ++ (numBytes e 4 (8 + (machoData e c.data).length + c.padding.length) ++ (machoData e c.data ++ c.padding))

structure CommandGood (e : Endian) (c : Command) : Prop where
  cmd : c.cmd < 2 ^ 32
  data : DataGood c.cmd c.data ∨ c.cmd ∉ machoKnown ∧ (∃ b, b ≠ [] ∧ c.data = .raw b) ∧ c.padding = []
  size : 8 + (machoData e c.data).length + c.padding.length < 2 ^ 32

theorem layout_none (cmd : Nat) (h : cmd ∉ machoKnown) : layout cmd = none := by
  simp only [machoKnown, List.mem_cons, List.not_mem_nil, or_false, not_or] at h
  simp [layout, h]

theorem reads_command (e : Endian) (he : e ≠ .middle) (c : Command) (g : CommandGood e c) : Reads (command e) c (machoCommand e c) := by
  obtain ⟨h1, h2, h3⟩ := g
  refine Reads.bind (reads_number e he 4 _ (by omega) (by omega)) ?_
  refine Reads.bind (reads_number e he 4 _ (by omega) (by omega)) ?_
  rcases h2 with h | ⟨hk, ⟨b, hb, hd⟩, hp⟩
  · obtain ⟨l, e1, r⟩ := reads_macho_data e he _ _ h
    rw [e1]
    refine Reads.measured r ?_
    unfold padded
    rw [Nat.mul_div_cancel_left _ (by decide), if_neg (by omega)]
    by_cases hz : c.padding = []
    · rw [if_pos (by rw [hz]; rfl)]
      exact (reads_pure _).of_eq (by rw [← hz]) hz.symm
    · have := List.length_pos_iff.2 hz
      rw [if_neg (by omega)]
      exact Reads.map (reads_raw_n _ c.padding (by omega) (by omega))
  · have := List.length_pos_iff.2 hb
    have hn : 8 + (machoData e c.data).length + c.padding.length = 8 + b.length := by rw [hd, hp]; rfl
    rw [layout_none _ hk, hn, commandBody, if_neg (by omega), hd, hp, List.append_nil, machoData]
    refine (Reads.map (f := fun b => Command.mk c.cmd (.raw b) []) (reads_raw_n _ b (by omega) (by omega))).of_eq ?_ rfl
    rw [← hd, ← hp]

/-! ## Files -/

/-- The four kinds of files. -/
inductive MachoMagic : Bytes → Bool → Endian → Prop where
  | big32 : MachoMagic [0xFE, 0xED, 0xFA, 0xCE] false .big
  | little32 : MachoMagic [0xCE, 0xFA, 0xED, 0xFE] false .little
  | big64 : MachoMagic [0xFE, 0xED, 0xFA, 0xCF] true .big
  | little64 : MachoMagic [0xCF, 0xFA, 0xED, 0xFE] true .little

theorem MachoMagic.endian {m : Bytes} {b : Bool} {e : Endian} (h : MachoMagic m b e) : e ≠ .middle := by cases h <;> decide

def machoFile (e : Endian) (f : Macho.File) : Bytes := machoHeader e f.header ++ f.commands.flatMap (machoCommand e)

structure MachoGood (e : Endian) (is64 : Bool) (f : Macho.File) : Prop where
  magic : MachoMagic f.header.magic is64 e
  header : MachoHeaderGood is64 f.header
  count : f.header.ncmds = f.commands.length
  commands : ∀ c ∈ f.commands, CommandGood e c

theorem Reads.first4 {α : Type} {f : Bytes → Rd α} {v : α} {m bs : Bytes} (hm : m.length = 4) (h : Reads (f m) v (m ++ bs)) : Reads (Macho.first4 >>= f) v (m ++ bs) := by
  intro data s hs k stop hp hst
  have hl := hp.length_le
  have r1 := reads_raw_n 4 m hm (by omega) data s hs k stop (prefix_left hp) (by rw [List.length_append] at hst; omega)
  have r2 := h data s hs k stop hp hst
  show Rd.bind Macho.first4 f s stop (8 * k) = _
  rw [Rd.bind, Macho.first4, r1]
  exact r2

/-- **C138**: all Mac OS programs (32 and 64 bits, both endians, any commands) are read as they were written. -/
theorem C138_file (e : Endian) (is64 : Bool) (f : Macho.File) (g : MachoGood e is64 f) : Reads Macho.file f (machoFile e f) := by
  obtain ⟨h1, h2, h3, h4⟩ := g
  have he : e ≠ .middle := h1.endian
  have hm : magics f.header.magic = some (is64, e) := by
    generalize f.header.magic = m at h1
    cases h1 <;> rfl
  rw [machoFile, machoHeader, List.append_assoc]
  refine Reads.first4 h2.magic ?_
  rw [← List.append_assoc, ← machoHeader, hm]
  refine Reads.bind (reads_macho_header e he is64 _ h2) ?_
  exact Reads.map (reads_times_n _ (machoCommand e) f.commands _ h3 fun c hc => reads_command e he c (h4 c hc))

/-! ## Programs for several processors -/

def archBytes (e : Endian) (a : Arch) : Bytes :=
  int32Bytes e a.cpuType ++ (int32Bytes e a.cpuSubtype ++ (numBytes e 4 a.offset ++ (numBytes e 4 a.size ++ numBytes e 4 a.align)))

structure ArchGood (a : Arch) : Prop where
  cpu : Int32 a.cpuType ∧ Int32 a.cpuSubtype
  words : a.offset < 2 ^ 32 ∧ a.size < 2 ^ 32 ∧ a.align < 2 ^ 32

theorem reads_arch (e : Endian) (he : e ≠ .middle) (a : Arch) (g : ArchGood a) : Reads (arch e) a (archBytes e a) := by
  obtain ⟨⟨h1, h2⟩, w1, w2, w3⟩ := g
  refine Reads.bind (reads_int32 e he _ h1) ?_
  refine Reads.bind (reads_int32 e he _ h2) ?_
  refine Reads.bind (reads_number e he 4 _ (by omega) (by omega)) ?_
  refine Reads.bind (reads_number e he 4 _ (by omega) (by omega)) ?_
  exact Reads.map (reads_number e he 4 _ (by omega) (by omega))

/-- Which signature tells which endian. -/
inductive FatMagic : Bytes → Endian → Prop where
  | big : FatMagic [0xCA, 0xFE, 0xBA, 0xBE] .big
  | little : FatMagic [0xBE, 0xBA, 0xFE, 0xCA] .little

theorem FatMagic.endian {m : Bytes} {e : Endian} (h : FatMagic m e) : e ≠ .middle := by cases h <;> decide

/-- A file with programs for several processors, each of any endian and size of addresses, where the header says. -/
structure FatAt (data : Bytes) (e : Endian) (f : Fat) : Prop where
  magic : FatMagic f.magic e
  start : f.magic ++ (numBytes e 4 f.archs.length ++ f.archs.flatMap (archBytes e)) <+: data
  count : f.archs.length < 2 ^ 32
  archs : ∀ a ∈ f.archs, ArchGood a
  files : List.Forall₂ (fun a x => ∃ e' is64, MachoGood e' is64 x ∧ machoFile e' x <+: data.drop a.offset ∧ (machoFile e' x).length ≤ a.size) f.archs f.files

theorem at_fat_parts (data : Bytes) : ∀ (as : List Arch) (fs : List Macho.File) (a : Nat),
    List.Forall₂ (fun a x => ∃ e' is64, MachoGood e' is64 x ∧ machoFile e' x <+: data.drop a.offset ∧ (machoFile e' x).length ≤ a.size) as fs →
    ∃ b, AtPlace data (Rd.each fatPart as) fs a b
  | _, _, a, .nil => ⟨a, at_pure data _ a⟩
  | x :: as, f :: fs, a, .cons h t => by
    obtain ⟨e', is64, g, hp, hl⟩ := h
    obtain ⟨b, hb⟩ := at_fat_parts data as fs (x.offset + x.size) t
    exact ⟨b, AtPlace.bind (AtPlace.bind (at_jump data a x.offset) ((C138_file e' is64 f g).within_at hp hl)) (AtPlace.map (f := fun fs => f :: fs) hb)⟩

/-- **C138**: and so are programs for several processors. -/
theorem C138_fat (data : Bytes) (s : InputStream) (hs : stringInputStream data = .ok s) (e : Endian) (f : Fat) (g : FatAt data e f) :
    ∃ stop, fat s (8 * data.length) 0 = .ok (f, stop) := by
  obtain ⟨h1, h2, h3, h4, h5⟩ := g
  have he : e ≠ .middle := h1.endian
  have hl := h2.length_le
  obtain ⟨m, as, fs⟩ := f
  simp only at h1 h2 h3 h4 h5 hl
  have hm : (if m = [0xBE, 0xBA, 0xFE, 0xCA] then Endian.little else .big) = e ∧ m.length = 4 := by
    cases h1 <;> exact ⟨rfl, rfl⟩
  have p0 : m ++ (numBytes e 4 as.length ++ as.flatMap (archBytes e)) <+: data.drop 0 := by simpa using h2
  have p1 := drop_prefix p0
  have p2 := drop_prefix p1
  rw [List.length_append, List.length_append, numBytes_length] at hl
  obtain ⟨b, hb⟩ := at_fat_parts data as fs (0 + m.length + (numBytes e 4 as.length).length + (as.flatMap (archBytes e)).length) h5
  have q1 : AtPlace data first4 m 0 0 := by
    intro s hs
    have := (reads_raw_n 4 m hm.2 (by omega)).at (prefix_left p0) (by omega) s hs
    rw [first4, this]
  have r : AtPlace data fat ⟨m, as, fs⟩ 0 b := by
    refine AtPlace.bind q1 ?_
    rw [hm.1]
    refine AtPlace.bind ((reads_raw_n 4 m hm.2 (by omega)).at (prefix_left p0) (by omega)) ?_
    refine AtPlace.bind ((reads_number e he 4 as.length (by omega) (by omega)).at (prefix_left p1) (by omega)) ?_
    refine AtPlace.bind ((reads_times_n _ (archBytes e) as _ rfl fun a ha => reads_arch e he a (h4 a ha)).at p2 (by rw [numBytes_length]; omega)) ?_
    exact AtPlace.map (f := fun fs => Fat.mk m as fs) hb
  exact ⟨_, r s hs⟩

/-- **C138**: which of them are accepted (fewer than 16 programs, as Java classes begin the same way). -/
theorem C138_fat_valid (f : Fat) : fatValid f = true ↔ (∃ e, FatMagic f.magic e) ∧ f.archs.length < 16 := by
  rw [fatValid, Bool.and_eq_true, Bool.or_eq_true, beq_iff_eq, beq_iff_eq, decide_eq_true_iff]
  constructor
  · rintro ⟨h | h, hl⟩
    · exact ⟨⟨.little, by rw [h]; exact .little⟩, hl⟩
    · exact ⟨⟨.big, by rw [h]; exact .big⟩, hl⟩
  · rintro ⟨⟨e, h⟩, hl⟩
    generalize f.magic = m at h
    cases h
    · exact ⟨.inr rfl, hl⟩
    · exact ⟨.inl rfl, hl⟩

/-- A command without data is refused. -/
theorem C138_no_data (e : Endian) (he : e ≠ .middle) (cmd : Nat) (hc : cmd < 2 ^ 32) (hk : cmd ∉ machoKnown) : Fails (command e) .field (numBytes e 4 cmd ++ (numBytes e 4 8 ++ [])) := by
  refine Reads.fails (reads_number e he 4 _ (by omega) (by omega)) ?_
  refine Reads.fails (reads_number e he 4 _ (by omega) (by omega)) ?_
  rw [layout_none _ hk]
  intro data s hs k stop hp hst
  rfl

/-- A small library: a command that tells its version and one that names another library, padded to 4 bytes. -/
example : MachoGood .big false ⟨⟨[0xFE, 0xED, 0xFA, 0xCE], 18, 0, 6, 2, 44, [1, 0, 1, 0, 0, 0, 0, 0, 0, 0, 0, 0, 0, 0, 0, 0, 0, 0, 0, 0, 0, 0, 0, 0, 0, 0], none⟩,
    [⟨0x24, .words [0xA0900, 0xA0900], []⟩, ⟨0xc, .named [24, 2, 65536, 65536] [0x61, 0x62], [0]⟩]⟩ where
  magic := .big32
  header := ⟨rfl, by unfold Int32; decide, by norm_num, by simp [Fit, headerFlags], .inr ⟨rfl, rfl⟩⟩
  count := rfl
  commands c hc := by
    rcases List.mem_cons.1 hc with rfl | hc
    · exact ⟨by norm_num, .inl (.words _ rfl (by simp)), by decide⟩
    · rw [List.mem_singleton] at hc
      subst hc
      exact ⟨by norm_num, .inl (.library _ _ rfl rfl (by simp) (by simp)), by decide⟩

end Hachoir.Props
