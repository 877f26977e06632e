import Verif.Formats.Rar
import Verif.Props.Lnk

/-!
# C154: RAR archives

The format: a block is a checksum, a type, flags and the size of its head, behind which are the data of files. The flags of files are, by their numbers,
0x100 for the high halves of the sizes behind the attributes, 0x400 for a salt of eight bytes behind the name, 0x1000 for times behind it.
-/

namespace Hachoir.Props
open Hachoir Hachoir.Human Hachoir.Stream Hachoir.Field Hachoir.Formats Spec

/-- A file as it is written: `tail` is what is behind the name in the head (the times). -/
structure RarEntry where
  type : Nat
  crc : Nat
  flags : List Nat
  unpacked : Nat
  system : Nat
  check : Nat
  time : Nat
  version : Nat
  method : Nat
  attr : Nat
  name : Bytes
  tail : Bytes
  data : Bytes

def RarEntry.size (e : RarEntry) : Nat := 32 + e.name.length + e.tail.length

def RarEntry.numbers (e : RarEntry) : List Nat := [e.data.length, e.unpacked, e.system, e.check, e.time, e.version, e.method, e.name.length, e.attr]

def RarEntry.bytes (e : RarEntry) : Bytes :=
  leBytes 2 e.crc ++ (leBytes 1 e.type ++ (leBytes 2 (joinLE Rar.fileFlags e.flags) ++ (leBytes 2 e.size ++ (numsBytes Rar.fileNumbers e.numbers ++ (e.name ++ (e.tail ++ e.data))))))

structure RarEntryGood (e : RarEntry) : Prop where
  type : e.type = 0x74 ∨ e.type = 0x7A
  crc : e.crc < 65536
  flags : Fit Rar.fileFlags e.flags
  size : e.size < 65536
  numbers : NumsFit Rar.fileNumbers e.numbers
  /-- Neither salt (0x400), nor high halves of sizes (0x100), nor times where the parser looks for them (0x4000). -/
  salted : e.flags.getD 8 0 = 0
  large : e.flags.getD 6 0 = 0
  times : e.type = 0x74 → e.flags.getD 12 0 = 0
  /-- With times (0x1000) there is something behind the name. -/
  tail : e.type = 0x74 → e.flags.getD 10 0 ≠ 0 → e.tail ≠ []

/-- The byte that is told as the salt. -/
def RarEntry.salt (e : RarEntry) : Option Nat := if e.type = 0x74 ∧ e.flags.getD 10 0 ≠ 0 then some (e.tail.headD 0).toNat else none

def RarEntry.rest (e : RarEntry) : Bytes := if e.type = 0x74 ∧ e.flags.getD 10 0 ≠ 0 then e.tail.drop 1 else e.tail

def RarEntry.read (e : RarEntry) : Rar.Block :=
  ⟨e.crc, e.type, e.flags, e.size, .file e.numbers none (decide (e.flags.getD 9 0 ≠ 0)) e.name e.salt none e.rest e.data⟩

theorem reads_rar_name (utf8 : Bool) (b : Bytes) (h : b.length < 65536) : Reads (Rar.name utf8 b.length) b b := by
  rw [Rar.name]
  by_cases h0 : b.length = 0
  · rw [if_pos h0]
    have : b = [] := List.eq_nil_of_length_eq_zero h0
    subst this
    exact reads_pure _
  · rw [if_neg h0]
    cases utf8
    · exact reads_fixed .little .eightBit (by decide) b.length b rfl (by omega)
    · exact reads_fixed .little .utf8 (by decide) b.length b rfl (by omega)

theorem reads_rar_none {α : Type} (r : Rd α) : Reads (Rar.when 0 r) none [] := by
  rw [Rar.when, if_pos rfl]
  exact reads_pure _

theorem reads_rar_some {α : Type} {flag : Nat} (hf : flag ≠ 0) {r : Rd α} {v : α} {bs : Bytes} (h : Reads r v bs) : Reads (Rar.when flag r) (some v) bs := by
  rw [Rar.when, if_neg hf]
  exact Reads.map (f := some) h

theorem rar_salt (e : RarEntry) (g : RarEntryGood e) :
    ∃ s, s ++ e.rest = e.tail ∧ Reads (Rar.when (if e.type = 0x74 then e.flags.getD 10 0 else 0) (Rd.int 1 .little)) e.salt s := by
  rw [RarEntry.rest, RarEntry.salt]
  by_cases h : e.type = 0x74 ∧ e.flags.getD 10 0 ≠ 0
  · rw [if_pos h, if_pos h, if_pos h.1]
    cases ht : e.tail with
    | nil => exact absurd ht (g.tail h.1 h.2)
    | cons x xs => exact ⟨[x], rfl, reads_rar_some h.2 (reads_byte x .little (by decide))⟩
  · rw [if_neg h, if_neg h]
    refine ⟨[], rfl, ?_⟩
    have : (if e.type = 0x74 then e.flags.getD 10 0 else 0) = 0 := by
      by_cases h1 : e.type = 0x74
      · rw [if_pos h1]
        by_contra h2
        exact h ⟨h1, h2⟩
      · rw [if_neg h1]
    rw [this]
    exact reads_rar_none _

theorem from_unknown (base k size : Nat) (b : Bytes) (h : base + size = k + b.length) (hk : base ≤ k) : ReadsFrom k (Rar.unknown base size) b b := by
  refine from_place ?_
  exact Reads.here (reads_raw_or b _ (by omega)) _

/-- **C154**: a file is told as it was written, with its name and its data. -/
theorem C154_entry_partial (e : RarEntry) (g : RarEntryGood e) : Reads Rar.block e.read e.bytes := by
  have g1 := g.crc
  have g2 := g.size
  have g3 := g.type
  have hlen : (numsBytes Rar.fileNumbers e.numbers).length = 25 := nums_length _ _ g.numbers
  refine ReadsFrom.reads fun k => from_place ?_
  refine ReadsFrom.bind (Reads.here (reads_int_le 2 _ (by omega) (by omega)) _) ?_
  refine ReadsFrom.bind (Reads.here (reads_int_le 1 _ (by omega) (by omega)) _) ?_
  have hfl : Rar.flagsOf e.type = Rar.fileFlags := by
    rw [Rar.flagsOf, if_neg (by omega), if_pos g3]
  rw [hfl]
  refine ReadsFrom.bind (Reads.here (reads_packed_le 2 _ _ (by omega) (by rfl) g.flags) _) ?_
  refine ReadsFrom.bind (Reads.here (reads_int_le 2 _ (by omega) (by omega)) _) ?_
  refine ReadsFrom.map (f := fun c => Rar.Block.mk e.crc e.type e.flags e.size c) ?_
  rw [Rar.body, if_pos g3, show 8 * k / 8 = k by omega, Rar.fileBlock]
  refine ReadsFrom.bind (Reads.here (reads_numbers _ _ g.numbers) _) ?_
  rw [g.salted]
  refine ReadsFrom.of_eq (ReadsFrom.bind (Reads.here (reads_rar_none _) _) ?_) rfl (List.nil_append _)
  refine from_place ?_
  obtain ⟨s, hs, hr⟩ := rar_salt e g
  rw [← hs, List.append_assoc]
  refine ReadsFrom.of_eq (ReadsFrom.within (bs := e.name ++ (s ++ (e.rest ++ e.data))) ?_ [] _ ?_) rfl (List.append_nil _)
  · refine ReadsFrom.bind (Reads.here (reads_rar_name _ e.name (by rw [RarEntry.size] at g2; omega)) _) ?_
    refine ReadsFrom.bind (Reads.here hr _) ?_
    have : (if e.type = 0x74 then e.flags.getD 12 0 else 0) = 0 := by
      by_cases h1 : e.type = 0x74
      · rw [if_pos h1, g.times h1]
      · rw [if_neg h1]
    rw [this]
    refine ReadsFrom.of_eq (ReadsFrom.bind (Reads.here (reads_rar_none _) _) ?_) rfl (List.nil_append _)
    refine ReadsFrom.bind (from_unknown k _ _ e.rest ?_ (by omega)) ?_
    · rw [RarEntry.size, ← hs]
      simp only [List.length_append, leBytes_length, hlen, List.length_nil]
      omega
    · exact ReadsFrom.map (f := fun d => Rar.Content.file e.numbers none (decide (e.flags.getD 9 0 ≠ 0)) e.name e.salt none e.rest d)
        (Reads.here (reads_raw_or e.data _ rfl) _)
  · rw [Rar.total, RarEntry.size, ← hs]
    have : e.numbers.getD 0 0 = e.data.length := rfl
    rw [this]
    simp only [List.length_append, leBytes_length, hlen, List.length_nil, Option.getD_none]
    omega

/-! ## Other blocks -/

/-- A block without data, as it is written: numbers of the head and the rest of it. -/
structure RarOther where
  type : Nat
  crc : Nat
  flags : List Nat
  numbers : List Nat
  rest : Bytes

def RarOther.size (b : RarOther) : Nat := 7 + (Rar.numbersOf b.type b.flags).sum + b.rest.length

def RarOther.bytes (b : RarOther) : Bytes :=
  leBytes 2 b.crc ++ (leBytes 1 b.type ++ (leBytes 2 (joinLE (Rar.flagsOf b.type) b.flags) ++ (leBytes 2 b.size ++ (numsBytes (Rar.numbersOf b.type b.flags) b.numbers ++ b.rest))))

structure RarOtherGood (b : RarOther) : Prop where
  type : b.type < 256 ∧ b.type ≠ 0x74 ∧ b.type ≠ 0x7A
  crc : b.crc < 65536
  flags : Fit (Rar.flagsOf b.type) b.flags
  size : b.size < 65536
  numbers : NumsFit (Rar.numbersOf b.type b.flags) b.numbers

def RarOther.read (b : RarOther) : Rar.Block := ⟨b.crc, b.type, b.flags, b.size, .other b.numbers b.rest⟩

theorem rar_flags_sum (t : Nat) : (Rar.flagsOf t).sum = 16 := by
  rw [Rar.flagsOf]
  split
  · rfl
  · split
    · rfl
    · split <;> rfl

/-- **C154**: the other blocks end where their size says, whatever their type. -/
theorem C154_other (b : RarOther) (g : RarOtherGood b) : Reads Rar.block b.read b.bytes := by
  have g1 := g.crc
  have g2 := g.size
  obtain ⟨t1, t2, t3⟩ := g.type
  have hlen := nums_length _ _ g.numbers
  refine ReadsFrom.reads fun k => from_place ?_
  refine ReadsFrom.bind (Reads.here (reads_int_le 2 _ (by omega) (by omega)) _) ?_
  refine ReadsFrom.bind (Reads.here (reads_int_le 1 _ (by omega) (by omega)) _) ?_
  refine ReadsFrom.bind (Reads.here (reads_packed_le 2 _ _ (by omega) (rar_flags_sum _) g.flags) _) ?_
  refine ReadsFrom.bind (Reads.here (reads_int_le 2 _ (by omega) (by omega)) _) ?_
  refine ReadsFrom.map (f := fun c => Rar.Block.mk b.crc b.type b.flags b.size c) ?_
  rw [Rar.body, if_neg (by omega), show 8 * k / 8 = k by omega]
  refine ReadsFrom.of_eq (ReadsFrom.within (bs := numsBytes (Rar.numbersOf b.type b.flags) b.numbers ++ b.rest) ?_ [] _ ?_) rfl (List.append_nil _)
  · refine ReadsFrom.bind (Reads.here (reads_numbers _ _ g.numbers) _) ?_
    refine ReadsFrom.map (f := fun u => Rar.Content.other b.numbers u) (from_unknown k _ _ b.rest ?_ (by omega))
    rw [RarOther.size]
    simp only [leBytes_length, hlen]
    omega
  · rw [RarOther.size]
    simp only [List.length_append, hlen, List.length_nil]
    omega

/-! ## Archives -/

inductive RarBlock where
  | entry (e : RarEntry)
  | other (b : RarOther)

def RarBlock.bytes : RarBlock → Bytes
  | .entry e => e.bytes
  | .other b => b.bytes

def RarBlock.read : RarBlock → Rar.Block
  | .entry e => e.read
  | .other b => b.read

def RarBlock.Good : RarBlock → Prop
  | .entry e => RarEntryGood e
  | .other b => RarOtherGood b

/-- **C154**: all blocks of an archive are found, in their order. -/
theorem C154_archive_partial (bs : List RarBlock) (h : ∀ b ∈ bs, b.Good) (n : Nat) (hn : bs.length < n) : ReadsAll (Rar.file n) (bs.map RarBlock.read) (bs.flatMap RarBlock.bytes) :=
  reads_while_map Rar.block RarBlock.read RarBlock.bytes bs n hn fun b hb => by
    cases b with
    | entry e =>
      refine ⟨C154_entry_partial e (h _ hb), fun h0 => ?_⟩
      have := congrArg List.length h0
      simp [RarBlock.bytes, RarEntry.bytes, leBytes_length] at this
    | other b =>
      refine ⟨C154_other b (h _ hb), fun h0 => ?_⟩
      have := congrArg List.length h0
      simp [RarBlock.bytes, RarOther.bytes, leBytes_length] at this

/-- **C154**: archives are known by the marker, the first block. -/
theorem C154_valid (data : Bytes) : Rar.valid data = true ↔ asc "Rar!" ++ [0x1A, 0x07, 0x00] <+: data := by
  have : asc "Rar!" ++ [0x1A, 0x07, 0x00] = [0x52, 0x61, 0x72, 0x21, 0x1A, 0x07, 0x00] := by decide +kernel
  rw [this, Rar.valid, beq_iff_eq, List.prefix_iff_eq_take]
  exact eq_comm

/-! ## Flags, times and versions -/

/-- **C154**: the bits of the flags of a file that are looked at, where they are in the word. -/
theorem C154_flags (w : Nat) (hw : w < 65536) :
    Reads (Rd.bits .little Rar.fileFlags) ((List.range 5).map (fun i => w / 2 ^ i % 2) ++ [w / 32 % 8] ++ (List.range 8).map fun i => w / 2 ^ (8 + i) % 2) (leBytes 2 w) := by
  have h := reads_bits_le Rar.fileFlags (leBytes 2 w) (by rw [leBytes_length]; omega) (by rw [leBytes_length]; rfl)
  rw [(leBytes_spec 2 w).2 (by omega)] at h
  refine Reads.of_eq h ?_ rfl
  unfold Rar.fileFlags
  simp [splitLE, List.range_succ, Nat.div_div_eq_div_mul]

/-- One of the four times of a file (RAR: modification, creation, access, archive): its four bits in the flags, the time and the bytes of its remainder. -/
structure RarTime where
  bits : Nat
  time : Nat
  rest : Bytes

def RarTime.Good (t : RarTime) : Prop := t.bits < 16 ∧ t.time < 2 ^ 32 ∧ t.rest.length = t.bits % 4

/-- The first time has no number of its own: it is that of the file. -/
def RarTime.bytes (t : RarTime) (first : Bool) : Bytes := if t.bits < 8 then [] else (if first then [] else leBytes 4 t.time) ++ t.rest

def RarTime.read (t : RarTime) (first : Bool) : Option Nat × Bytes := if t.bits < 8 then (none, []) else (if first then none else some t.time, t.rest)

theorem rar_time_part (t : RarTime) (g : t.Good) (flags index : Nat) (h : flags / 2 ^ ((3 - index) * 4) % 16 = t.bits) :
    Reads (Rar.timePart flags index) (t.read (decide (index = 0))) (t.bytes (decide (index = 0))) := by
  obtain ⟨g1, g2, g3⟩ := g
  rw [Rar.timePart, RarTime.read, RarTime.bytes]
  generalize flags / 2 ^ ((3 - index) * 4) = r at h ⊢
  by_cases hb : t.bits < 8
  · rw [if_pos (by omega), if_pos hb, if_pos hb]
    exact reads_pure _
  · rw [if_neg (by omega), if_neg hb, if_neg hb]
    have hr : Reads (Cab.rawOr (r % 4)) t.rest t.rest := reads_raw_or t.rest _ (by omega)
    by_cases h0 : index = 0
    · rw [if_pos h0, decide_eq_true h0]
      exact Reads.bind (reads_pure none) (Reads.map (f := fun x => ((none : Option Nat), x)) hr)
    · rw [if_neg h0, decide_eq_false h0]
      exact Reads.bind (Reads.map (f := some) (reads_int_le 4 _ (by omega) (by omega))) (Reads.map (f := fun x => (some t.time, x)) hr)

/-- **C154**: the four times of a file, each with the bytes that its bits in the flags tell. -/
theorem C154_times (a b c d : RarTime) (ha : a.Good) (hb : b.Good) (hc : c.Good) (hd : d.Good) :
    Reads Rar.extTime (a.bits * 4096 + b.bits * 256 + c.bits * 16 + d.bits, [a.read true, b.read false, c.read false, d.read false])
      (leBytes 2 (a.bits * 4096 + b.bits * 256 + c.bits * 16 + d.bits) ++ (a.bytes true ++ (b.bytes false ++ (c.bytes false ++ d.bytes false)))) := by
  have h1 := ha.1
  have h2 := hb.1
  have h3 := hc.1
  have h4 := hd.1
  unfold Rar.extTime
  refine Reads.bind (reads_int_le 2 _ (by omega) (by omega)) ?_
  generalize hF : a.bits * 4096 + b.bits * 256 + c.bits * 16 + d.bits = F
  refine Reads.map (f := fun ts => (F, ts)) ?_
  have r0 := rar_time_part a ha F 0 (by rw [show 2 ^ ((3 - 0) * 4) = 4096 from rfl]; omega)
  have r1 := rar_time_part b hb F 1 (by rw [show 2 ^ ((3 - 1) * 4) = 256 from rfl]; omega)
  have r2 := rar_time_part c hc F 2 (by rw [show 2 ^ ((3 - 2) * 4) = 16 from rfl]; omega)
  have r3 := rar_time_part d hd F 3 (by rw [show 2 ^ ((3 - 3) * 4) = 1 from rfl]; omega)
  have := reads_each (Rar.timePart F) Prod.fst (fun c : Nat × RarTime => c.2.read (decide (c.1 = 0))) (fun c => c.2.bytes (decide (c.1 = 0)))
    [(0, a), (1, b), (2, c), (3, d)] (by
      intro x hx
      simp only [List.mem_cons, List.not_mem_nil, or_false] at hx
      rcases hx with rfl | rfl | rfl | rfl
      · exact r0
      · exact r1
      · exact r2
      · exact r3)
  refine Reads.of_eq this rfl ?_
  simp

example : RarTime.Good ⟨0b1011, 0x4A5B6C7D, [1, 2, 3]⟩ := ⟨by decide, by decide, rfl⟩

/-- **C154**: a comment is read with these numbers, and ends where its size says. -/
theorem C154_comment (crc total size version method check : Nat) (h1 : crc < 65536) (h2 : total < 65536) (h3 : size < 65536) (h4 : version < 256)
    (h5 : method < 256) (h6 : check < 65536) (rest : Bytes) (hr : 15 + rest.length < 65536) :
    Reads Rar.block ⟨crc, 0x75, [0, 0, 0, 0], 15 + rest.length, .other [total, size, version, method, check] rest⟩
      (leBytes 2 crc ++ (leBytes 1 0x75 ++ (leBytes 2 0 ++ (leBytes 2 (15 + rest.length) ++
        (leBytes 2 total ++ (leBytes 2 size ++ (leBytes 1 version ++ (leBytes 1 method ++ leBytes 2 check))) ++ rest))))) := by
  have hs : (RarOther.mk 0x75 crc [0, 0, 0, 0] [total, size, version, method, check] rest).size = 15 + rest.length := rfl
  have := C154_other ⟨0x75, crc, [0, 0, 0, 0], [total, size, version, method, check], rest⟩
    ⟨by simp, h1, by simp [Fit, Rar.flagsOf, Rar.blockFlags], by rw [hs]; exact hr, by simp [NumsFit, Rar.numbersOf]; omega⟩
  rw [RarOther.read, RarOther.bytes, hs] at this
  refine Reads.of_eq this rfl ?_
  simp [Rar.numbersOf, numsBytes, Rar.flagsOf, Rar.blockFlags, joinLE]

/-- **C154**: versions are told with one digit behind the point. -/
theorem C154_version (a b : Nat) (hb : b < 10) : Rar.version (10 * a + b) = toString a ++ "." ++ toString b := by
  rw [Rar.version, show (10 * a + b) / 10 = a by omega, show (10 * a + b) % 10 = b by omega]

example : Rar.version 29 = "2.9" := by decide +kernel

/-! ## Violations -/

/-- Reading goes on behind a part that was read. -/
theorem ReadsFrom.next {α β : Type} {k : Nat} {r : Rd α} {f : α → Rd β} {v : α} {xs : Bytes} (h1 : ReadsFrom k r v xs) {data : Bytes} {s : InputStream}
    (hs : stringInputStream data = .ok s) {stop : Nat} (hp : xs <+: data.drop k) (hst : 8 * (k + xs.length) ≤ stop) : (r >>= f) s stop (8 * k) = f v s stop (8 * (k + xs.length)) := by
  show Rd.bind r f s stop (8 * k) = _
  rw [Rd.bind, h1 data s hs stop hp hst]

/-- What is read ends where it must. -/
theorem within_end {α : Type} {n : Nat} {r : Rd α} {s : InputStream} {stop addr : Nat} {v : α} {a : Nat} (h : Rd.within n r s stop addr = .ok (v, a)) : a = addr + 8 * n := by
  rw [Rd.within] at h
  split at h
  · cases h
  · injection h with h
    injection h with _ h
    exact h.symm

/-- The first fields of a file with the flag 0x400, up to eight bytes of its name. -/
def saltedHead (crc size : Nat) (flags ns : List Nat) (name8 : Bytes) : Bytes :=
  leBytes 2 crc ++ (leBytes 1 0x74 ++ (leBytes 2 (joinLE Rar.fileFlags flags) ++ (leBytes 2 size ++ (numsBytes Rar.fileNumbers ns ++ name8))))

/-- **C154, refuted**: the flag 0x400, which says that a salt of eight bytes is behind the name, is taken for that of large files: the first eight bytes of the name
are taken for a size, which is added to that of the block. So the block of an encrypted file ends far behind its data. -/
theorem C154_salted (crc : Nat) (hc : crc < 65536) (size : Nat) (hs : size < 65536) (flags : List Nat) (hf : Fit Rar.fileFlags flags) (h400 : flags.getD 8 0 = 1) (ns : List Nat)
    (hn : NumsFit Rar.fileNumbers ns) (v : Nat) (hv : v < 256 ^ 8) (s : InputStream) (data : Bytes) (hd : stringInputStream data = .ok s) (k stop : Nat)
    (hp : saltedHead crc size flags ns (leBytes 8 v) <+: data.drop k) (hst : 8 * (k + 40) ≤ stop) (b : Rar.Block) (a : Nat)
    (h : Rar.block s stop (8 * k) = .ok (b, a)) (h40 : 40 ≤ size) : a = 8 * (k + size + ns.getD 0 0 + v) := by
  have hlen : (numsBytes Rar.fileNumbers ns).length = 25 := nums_length _ _ hn
  have hw : ∃ f : Rar.Content → Rar.Block, Rar.block s stop (8 * k) = ((Rd.within (Rar.total size ns (some v) - 40) (Rar.fileMore k size 0x74 flags ns (some v))) >>= fun c => pure (f c)) s stop (8 * (k + 40)) := by
    refine ⟨fun c => ⟨crc, 0x74, flags, size, c⟩, ?_⟩
    have p1 := prefix_left hp
    have q1 := drop_prefix hp
    have p2 := prefix_left q1
    have q2 := drop_prefix q1
    have p3 := prefix_left q2
    have q3 := drop_prefix q2
    have p4 := prefix_left q3
    have q4 := drop_prefix q3
    have p5 := prefix_left q4
    have q5 := drop_prefix q4
    simp only [leBytes_length, hlen] at p2 p3 p4 p5 q5
    have h2 : Rar.fileBlock k size 0x74 flags s stop (8 * (k + 7)) =
        Rd.within (Rar.total size ns (some v) - 40) (Rar.fileMore k size 0x74 flags ns (some v)) s stop (8 * (k + 40)) := by
      rw [Rar.fileBlock, ReadsFrom.next (k := k + 7) (Reads.here (reads_numbers _ _ hn) _) hd p5 (by rw [hlen]; omega), hlen,
        ReadsFrom.next (k := k + 7 + 25) (v := some v) (xs := leBytes 8 v) (Reads.here (reads_rar_some (flag := flags.getD 8 0) (by omega) (reads_int_le 8 v (by omega) hv)) _) hd q5
          (by rw [leBytes_length]; omega), leBytes_length]
      show Rd.within (Rar.total size ns (some v) - (8 * (k + 7 + 25 + 8) / 8 - k)) (Rar.fileMore k size 0x74 flags ns (some v)) s stop (8 * (k + 7 + 25 + 8)) = _
      rw [show 8 * (k + 7 + 25 + 8) / 8 - k = 40 by omega]
    have h1 : Rar.block s stop (8 * k) = (Rar.fileBlock k size 0x74 flags >>= fun c => pure (⟨crc, 0x74, flags, size, c⟩ : Rar.Block)) s stop (8 * (k + 7)) := by
      show (Rd.int 2 .little >>= fun crc => do
        let t ← Rd.int 1 .little
        let flags ← Rd.bits .little (Rar.flagsOf t)
        let size ← Rd.int 2 .little
        let c ← Rar.body (8 * k / 8) size t flags
        pure (⟨crc, t, flags, size, c⟩ : Rar.Block)) s stop (8 * k) = _
      rw [ReadsFrom.next (Reads.here (reads_int_le 2 crc (by omega) (by omega)) _) hd p1 (by rw [leBytes_length]; omega), leBytes_length,
        ReadsFrom.next (Reads.here (reads_int_le 1 0x74 (by omega) (by omega)) _) hd p2 (by rw [leBytes_length]; omega), leBytes_length, show Rar.flagsOf 0x74 = Rar.fileFlags from rfl,
        ReadsFrom.next (xs := leBytes 2 (joinLE Rar.fileFlags flags)) (v := flags) (Reads.here (reads_packed_le 2 Rar.fileFlags flags (by omega) (by rfl) hf) _) hd p3
          (by rw [leBytes_length]; omega), leBytes_length,
        ReadsFrom.next (Reads.here (reads_int_le 2 size (by omega) (by omega)) _) hd p4 (by rw [leBytes_length]; omega), leBytes_length, Rar.body, if_pos (by omega),
        show 8 * k / 8 = k by omega]
    rw [h1]
    show Rd.bind _ _ _ _ _ = Rd.bind _ _ _ _ _
    rw [Rd.bind, h2, Rd.bind]
  obtain ⟨f, hw⟩ := hw
  rw [hw] at h
  have h' : Rd.bind (Rd.within (Rar.total size ns (some v) - 40) (Rar.fileMore k size 0x74 flags ns (some v))) (fun c => pure (f c)) s stop (8 * (k + 40)) = .ok (b, a) := h
  rw [Rd.bind] at h'
  cases hx : Rd.within (Rar.total size ns (some v) - 40) (Rar.fileMore k size 0x74 flags ns (some v)) s stop (8 * (k + 40)) with
  | error e => rw [hx] at h'; cases h'
  | ok r =>
    rw [hx] at h'
    have he := within_end hx
    have : r.2 = a := by
      have : (Except.ok (f r.1, r.2) : Except PyErr (Rar.Block × Nat)) = .ok (b, a) := h'
      injection this with this
      injection this
    rw [← this, he, Rar.total, Option.getD_some]
    omega

/-- A name of eight letters makes a size of more than 2^53 bytes. -/
example : leBytes 8 0x7478742E656E6F6E = asc "none.txt" := by decide +kernel

/-- **C154, refuted**: with the flag 0x100, the high halves of the sizes are behind the attributes; they are told as the beginning of the name, and do not count. -/
theorem C154_large (e : RarEntry) (g : RarEntryGood e) (high : Bytes) (hh : high.length = 8) (real : Bytes) (hr : e.name = (high ++ real).take real.length)
    (hx : e.tail = (high ++ real).drop real.length) :
    Reads Rar.block e.read (leBytes 2 e.crc ++ (leBytes 1 e.type ++ (leBytes 2 (joinLE Rar.fileFlags e.flags) ++ (leBytes 2 (40 + real.length) ++
      (numsBytes Rar.fileNumbers e.numbers ++ (high ++ (real ++ e.data))))))) := by
  refine Reads.of_eq (C154_entry_partial e g) rfl ?_
  have h1 : e.size = 40 + real.length := by
    rw [RarEntry.size, hr, hx, List.length_take, List.length_drop, List.length_append]
    omega
  have h2 : e.name ++ (e.tail ++ e.data) = high ++ (real ++ e.data) := by
    rw [hr, hx, ← List.append_assoc, List.take_append_drop, List.append_assoc]
  rw [RarEntry.bytes, h1, h2]

/-- **C154, refuted**: the data of other blocks, whose size is in the head behind the flag of added sizes, are taken for the next blocks. -/
theorem C154_added (b : RarOther) (g : RarOtherGood b) (_ht : b.type < 0x72 ∨ 0x7B < b.type) (_hf : b.flags.getD 1 0 = 1) (c : RarBlock) (hc : c.Good)
    (_hadd : b.numbers = [c.bytes.length]) : ReadsAll (Rar.file 3) [b.read, c.read] (b.bytes ++ c.bytes) := by
  have := C154_archive_partial [.other b, c] (by
    intro x hx
    simp only [List.mem_cons, List.not_mem_nil, or_false] at hx
    rcases hx with rfl | rfl
    · exact g
    · exact hc) 3 (by simp)
  simpa [RarBlock.bytes, RarBlock.read] using this

/-! ## Samples -/

/-- A file with times behind its name. -/
def rarSample : RarEntry :=
  ⟨0x74, 1, [0, 0, 0, 0, 0, 1, 0, 0, 0, 0, 1, 0, 0, 1], 5, 2, 7, 9, 29, 0x30, 32, asc "a.txt", [0, 0x80, 1], asc "hello"⟩

theorem rar_sample_good : RarEntryGood rarSample :=
  ⟨.inl rfl, by simp [rarSample], by simp [rarSample, Fit, Rar.fileFlags], by decide +kernel, by
    have : rarSample.numbers = [5, 5, 2, 7, 9, 29, 0x30, 5, 32] := by decide +kernel
    rw [this]
    simp [NumsFit, Rar.fileNumbers], rfl, rfl, fun _ => rfl, fun _ _ => by simp [rarSample]⟩

/-- The flags of the sample are those that archivers write: 0x9020. -/
example : joinLE Rar.fileFlags rarSample.flags = 0x9020 := by decide +kernel

/-- The marker is a block. -/
def rarMarker : RarOther := ⟨0x72, 0x6152, [0x21, 0, 1, 6], [], []⟩

theorem rar_marker_good : RarOtherGood rarMarker :=
  ⟨by simp [rarMarker], by simp [rarMarker], by simp [rarMarker, Fit, Rar.flagsOf, Rar.blockFlags], by decide +kernel, trivial⟩

example : rarMarker.bytes = asc "Rar!" ++ [0x1A, 0x07, 0x00] := by decide +kernel

example : ∃ v, ReadsAll (Rar.file 3) v (rarMarker.bytes ++ rarSample.bytes) := by
  have := C154_archive_partial [.other rarMarker, .entry rarSample] (by
    intro x hx
    simp only [List.mem_cons, List.not_mem_nil, or_false] at hx
    rcases hx with rfl | rfl
    · exact rar_marker_good
    · exact rar_sample_good) 3 (by simp)
  exact ⟨_, by simpa [RarBlock.bytes] using this⟩

end Hachoir.Props
