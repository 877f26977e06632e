import Verif.Formats.Pe
import Verif.Props.Elf

/-!
# Windows and MS-DOS programs
-/

namespace Hachoir.Props
open Hachoir Hachoir.Stream Hachoir.Field Hachoir.Formats Hachoir.Formats.Pe Spec

/-! ## Headers -/

def dosBytes (d : Dos) : Bytes :=
  d.header ++ (leBytes 2 d.sizeMod ++ (leBytes 2 d.sizeDiv ++ (leBytes 2 d.relocEntries ++ (leBytes 2 d.codeOffset ++ (leBytes 2 d.neededMemory ++ (leBytes 2 d.maxMemory ++
  (leBytes 4 d.initSsSp ++ (leBytes 2 d.checksum ++ (leBytes 4 d.initCsIp ++ (leBytes 2 d.relocOffset ++ (leBytes 2 d.overlay ++ (d.reserved ++ (leBytes 2 d.oemId ++
  (leBytes 2 d.oemInfo ++ (d.reserved2 ++ leBytes 4 d.next)))))))))))))))

structure DosGood (d : Dos) : Prop where
  bytes : d.header.length = 2 ∧ d.reserved.length = 8 ∧ d.reserved2.length = 20
  words : d.sizeMod < 65536 ∧ d.sizeDiv < 65536 ∧ d.relocEntries < 65536 ∧ d.codeOffset < 65536 ∧ d.neededMemory < 65536 ∧ d.maxMemory < 65536 ∧ d.checksum < 65536 ∧
    d.relocOffset < 65536 ∧ d.overlay < 65536 ∧ d.oemId < 65536 ∧ d.oemInfo < 65536
  longs : d.initSsSp < 2 ^ 32 ∧ d.initCsIp < 2 ^ 32 ∧ d.next < 2 ^ 32

theorem reads_dos (d : Dos) (g : DosGood d) : Reads dos d (dosBytes d) := by
  obtain ⟨⟨b1, b2, b3⟩, ⟨w1, w2, w3, w4, w5, w6, w7, w8, w9, w10, w11⟩, l1, l2, l3⟩ := g
  refine Reads.bind (reads_fixed .little .eightBit (by decide) 2 _ b1 (by omega)) ?_
  refine Reads.bind (reads_int_le 2 _ (by omega) (by omega)) ?_
  refine Reads.bind (reads_int_le 2 _ (by omega) (by omega)) ?_
  refine Reads.bind (reads_int_le 2 _ (by omega) (by omega)) ?_
  refine Reads.bind (reads_int_le 2 _ (by omega) (by omega)) ?_
  refine Reads.bind (reads_int_le 2 _ (by omega) (by omega)) ?_
  refine Reads.bind (reads_int_le 2 _ (by omega) (by omega)) ?_
  refine Reads.bind (reads_int_le 4 _ (by omega) (by omega)) ?_
  refine Reads.bind (reads_int_le 2 _ (by omega) (by omega)) ?_
  refine Reads.bind (reads_int_le 4 _ (by omega) (by omega)) ?_
  refine Reads.bind (reads_int_le 2 _ (by omega) (by omega)) ?_
  refine Reads.bind (reads_int_le 2 _ (by omega) (by omega)) ?_
  refine Reads.bind (reads_raw_n 8 _ b2 (by omega)) ?_
  refine Reads.bind (reads_int_le 2 _ (by omega) (by omega)) ?_
  refine Reads.bind (reads_int_le 2 _ (by omega) (by omega)) ?_
  refine Reads.bind (reads_raw_n 20 _ b3 (by omega)) ?_
  exact Reads.map (reads_int_le 4 _ (by omega) (by omega))

theorem dosBytes_length (d : Dos) (g : DosGood d) : (dosBytes d).length = 64 := by
  simp only [dosBytes, List.length_append, leBytes_length, g.bytes.1, g.bytes.2.1, g.bytes.2.2]

/-- Sixteen flags. -/
def flags16 : List Nat := [1, 1, 1, 1, 1, 1, 1, 1, 1, 1, 1, 1, 1, 1, 1, 1]

def peBytes (h : Header) : Bytes :=
  [0x50, 0x45, 0, 0] ++ (leBytes 2 h.cpu ++ (leBytes 2 h.nbSection ++ (leBytes 4 h.date ++ (leBytes 4 h.ptrToSym ++ (leBytes 4 h.nbSymbols ++ (leBytes 2 h.optSize ++
  leBytes 2 (joinLE flags16 h.flags)))))))

structure PeGood (h : Header) : Prop where
  words : h.cpu < 65536 ∧ h.nbSection < 65536 ∧ h.optSize < 65536
  longs : h.date < 2 ^ 32 ∧ h.ptrToSym < 2 ^ 32 ∧ h.nbSymbols < 2 ^ 32
  flags : Fit flags16 h.flags

theorem reads_pe (h : Header) (g : PeGood h) : Reads header h (peBytes h) := by
  obtain ⟨⟨w1, w2, w3⟩, ⟨l1, l2, l3⟩, hf⟩ := g
  refine Reads.bind (reads_raw_n 4 [0x50, 0x45, 0, 0] rfl (by omega)) ?_
  rw [if_neg (by simp)]
  refine Reads.bind (reads_int_le 2 _ (by omega) (by omega)) ?_
  refine Reads.bind (reads_int_le 2 _ (by omega) (by omega)) ?_
  refine Reads.bind (reads_int_le 4 _ (by omega) (by omega)) ?_
  refine Reads.bind (reads_int_le 4 _ (by omega) (by omega)) ?_
  refine Reads.bind (reads_int_le 4 _ (by omega) (by omega)) ?_
  refine Reads.bind (reads_int_le 2 _ (by omega) (by omega)) ?_
  exact Reads.map (reads_packed_le 2 flags16 _ (by omega) rfl hf)

theorem peBytes_length (h : Header) : (peBytes h).length = 24 := by
  simp only [peBytes, List.length_append, leBytes_length, List.length_cons, List.length_nil]

/-- Addresses of the optional header: 8 bytes in PE32+ programs, else 4. -/
def peWord (o : Opt) : Nat := if o.signature = 0x20b then 8 else 4

def baseDataBytes : Option Nat → Bytes
  | none => []
  | some n => leBytes 4 n

def peOptBytes (o : Opt) : Bytes :=
  leBytes 2 o.signature ++ (leBytes 1 o.linkerMajor ++ (leBytes 1 o.linkerMinor ++ (leBytes 4 o.sizeCode ++ (leBytes 4 o.sizeInit ++ (leBytes 4 o.sizeUninit ++
  (leBytes 4 o.entryPoint ++ (leBytes 4 o.baseCode ++ (baseDataBytes o.baseData ++ (leBytes (peWord o) o.imageBase ++ (leBytes 4 o.sectAlign ++ (leBytes 4 o.fileAlign ++
  (o.versions.flatMap (leBytes 2) ++ (o.reserved ++ (leBytes 4 o.sizeImage ++ (leBytes 4 o.sizeHeaders ++ (leBytes 4 o.checksum ++ (leBytes 2 o.subsystem ++ (leBytes 2 o.dllFlags ++
  (o.reserves.flatMap (leBytes (peWord o)) ++ (leBytes 4 o.loaderFlags ++ (leBytes 4 o.directories.length ++
  o.directories.flatMap fun d => leBytes 4 d.1 ++ leBytes 4 d.2)))))))))))))))))))))

structure PeOptGood (o : Opt) : Prop where
  signature : o.signature = 0x10b ∧ (∃ n, o.baseData = some n ∧ n < 2 ^ 32) ∨ o.signature = 0x20b ∧ o.baseData = none
  bytes : o.linkerMajor < 256 ∧ o.linkerMinor < 256 ∧ o.reserved.length = 4
  longs : o.sizeCode < 2 ^ 32 ∧ o.sizeInit < 2 ^ 32 ∧ o.sizeUninit < 2 ^ 32 ∧ o.entryPoint < 2 ^ 32 ∧ o.baseCode < 2 ^ 32 ∧ o.sectAlign < 2 ^ 32 ∧ o.fileAlign < 2 ^ 32 ∧
    o.sizeImage < 2 ^ 32 ∧ o.sizeHeaders < 2 ^ 32 ∧ o.checksum < 2 ^ 32 ∧ o.loaderFlags < 2 ^ 32
  words : o.subsystem < 65536 ∧ o.dllFlags < 65536
  base : o.imageBase < 256 ^ peWord o
  versions : o.versions.length = 6 ∧ ∀ v ∈ o.versions, v < 65536
  reserves : o.reserves.length = 4 ∧ ∀ v ∈ o.reserves, v < 256 ^ peWord o
  directories : o.directories.length < 2 ^ 32 ∧ ∀ d ∈ o.directories, d.1 < 2 ^ 32 ∧ d.2 < 2 ^ 32

theorem reads_opt (o : Opt) (g : PeOptGood o) : Reads opt o (peOptBytes o) := by
  obtain ⟨hs, ⟨b1, b2, b3⟩, ⟨l1, l2, l3, l4, l5, l6, l7, l8, l9, l10, l11⟩, ⟨w1, w2⟩, hb, ⟨v1, v2⟩, ⟨r1, r2⟩, d1, d2⟩ := g
  have hw : 0 < peWord o := by unfold peWord; split <;> omega
  have hbase : Reads (baseDataOf (o.signature == 0x20b)) o.baseData (baseDataBytes o.baseData) := by
    rcases hs with ⟨e, n, e2, hn⟩ | ⟨e, e2⟩ <;> rw [e, e2]
    · exact Reads.map (reads_int_le 4 n (by omega) (by omega))
    · exact reads_pure _
  refine Reads.bind (reads_int_le 2 _ (by omega) (by omega)) ?_
  rw [if_neg (by omega)]
  refine Reads.bind (reads_int_le 1 _ (by omega) (by omega)) ?_
  refine Reads.bind (reads_int_le 1 _ (by omega) (by omega)) ?_
  refine Reads.bind (reads_int_le 4 _ (by omega) (by omega)) ?_
  refine Reads.bind (reads_int_le 4 _ (by omega) (by omega)) ?_
  refine Reads.bind (reads_int_le 4 _ (by omega) (by omega)) ?_
  refine Reads.bind (reads_int_le 4 _ (by omega) (by omega)) ?_
  refine Reads.bind (reads_int_le 4 _ (by omega) (by omega)) ?_
  refine Reads.bind hbase ?_
  refine Reads.bind (reads_int_le (peWord o) _ hw hb) ?_
  refine Reads.bind (reads_int_le 4 _ (by omega) (by omega)) ?_
  refine Reads.bind (reads_int_le 4 _ (by omega) (by omega)) ?_
  refine Reads.bind (reads_times_n _ (leBytes 2) o.versions _ v1.symm fun v hv => reads_int_le 2 v (by omega) (v2 v hv)) ?_
  refine Reads.bind (reads_raw_n 4 _ b3 (by omega)) ?_
  refine Reads.bind (reads_int_le 4 _ (by omega) (by omega)) ?_
  refine Reads.bind (reads_int_le 4 _ (by omega) (by omega)) ?_
  refine Reads.bind (reads_int_le 4 _ (by omega) (by omega)) ?_
  refine Reads.bind (reads_int_le 2 _ (by omega) (by omega)) ?_
  refine Reads.bind (reads_int_le 2 _ (by omega) (by omega)) ?_
  refine Reads.bind (reads_times_n _ (leBytes (peWord o)) o.reserves _ r1.symm fun v hv => reads_int_le (peWord o) v hw (r2 v hv)) ?_
  refine Reads.bind (reads_int_le 4 _ (by omega) (by omega)) ?_
  refine Reads.bind (reads_int_le 4 _ (by omega) (by omega)) ?_
  exact Reads.map (reads_times_n directory (fun d => leBytes 4 d.1 ++ leBytes 4 d.2) o.directories _ rfl fun d hd =>
    Reads.bind (reads_int_le 4 _ (by omega) (d2 d hd).1) (Reads.map (reads_int_le 4 _ (by omega) (d2 d hd).2)))

def peSection (h : Section) : Bytes :=
  h.name ++ (leBytes 4 h.memSize ++ (leBytes 4 h.rva ++ (leBytes 4 h.physSize ++ (leBytes 4 h.physOff ++ (h.reserved ++ leBytes 4 (joinLE sectionBits h.flags))))))

structure PeSectionGood (h : Section) : Prop where
  bytes : h.name.length = 8 ∧ h.reserved.length = 12
  longs : h.memSize < 2 ^ 32 ∧ h.rva < 2 ^ 32 ∧ h.physSize < 2 ^ 32 ∧ h.physOff < 2 ^ 32
  flags : Fit sectionBits h.flags

theorem reads_pe_section (h : Section) (g : PeSectionGood h) : Reads sectionHeader h (peSection h) := by
  obtain ⟨⟨b1, b2⟩, ⟨l1, l2, l3, l4⟩, hf⟩ := g
  refine Reads.bind (reads_fixed .little .eightBit (by decide) 8 _ b1 (by omega)) ?_
  refine Reads.bind (reads_int_le 4 _ (by omega) (by omega)) ?_
  refine Reads.bind (reads_int_le 4 _ (by omega) (by omega)) ?_
  refine Reads.bind (reads_int_le 4 _ (by omega) (by omega)) ?_
  refine Reads.bind (reads_int_le 4 _ (by omega) (by omega)) ?_
  refine Reads.bind (reads_raw_n 12 _ b2 (by omega)) ?_
  exact Reads.map (reads_packed_le 4 sectionBits _ (by omega) rfl hf)

def neBytes (n : New) : Bytes :=
  n.signature ++ (leBytes 6 (joinLE newLink n.link) ++ (n.reserved ++ (leBytes 48 (joinLE newValues n.values) ++ (n.reserved2 ++ leBytes 2 n.version))))

structure NeGood (n : New) : Prop where
  bytes : n.signature = [0x4E, 0x45] ∧ n.reserved.length = 4 ∧ n.reserved2.length = 2
  link : Fit newLink n.link
  values : Fit newValues n.values
  number : n.version < 65536

theorem reads_ne (n : New) (g : NeGood n) : Reads new n (neBytes n) := by
  obtain ⟨⟨b1, b2, b3⟩, h1, h2, h3⟩ := g
  refine Reads.bind (reads_raw_n 2 _ (by rw [b1]; rfl) (by omega)) ?_
  refine Reads.bind (reads_packed_le 6 newLink _ (by omega) rfl h1) ?_
  refine Reads.bind (reads_raw_n 4 _ b2 (by omega)) ?_
  refine Reads.bind (reads_packed_le 48 newValues _ (by omega) rfl h2) ?_
  refine Reads.bind (reads_raw_n 2 _ b3 (by omega)) ?_
  exact Reads.map (reads_int_le 2 _ (by omega) (by omega))

theorem neBytes_length (n : New) (g : NeGood n) : (neBytes n).length = 64 := by
  simp only [neBytes, List.length_append, leBytes_length, g.bytes.1, g.bytes.2.1, g.bytes.2.2, List.length_cons, List.length_nil]

/-! ## Files -/

/-- The optional header: none, or one that has room in its size. -/
structure OptAt (data : Bytes) (a size : Nat) (o : Option Opt) : Prop where
  none_ : size = 0 ↔ o = none
  good : ∀ x, o = some x → PeOptGood x ∧ peOptBytes x <+: data.drop a ∧ (peOptBytes x).length ≤ size

/-- A Windows program: its header where the MS-DOS header says, the optional header and the headers of sections behind, the sections where their headers say. -/
structure PeAt (data : Bytes) (d : Dos) (h : Header) (o : Option Opt) (hs : List Section) : Prop where
  dos : DosGood d
  dosAt : dosBytes d <+: data
  header : PeGood h
  next : 2 ≤ d.next
  headerAt : peBytes h <+: data.drop d.next
  opt : OptAt data (d.next + 24) h.optSize o
  room : d.next + 24 + h.optSize ≤ data.length
  count : h.nbSection = hs.length
  sections : ∀ x ∈ hs, PeSectionGood x
  sectionsAt : hs.flatMap peSection <+: data.drop (d.next + 24 + h.optSize)
  inside : ∀ x ∈ hs, x.physSize = 0 ∨ x.physOff + x.physSize ≤ data.length

/-- A header of `size` bytes that begins with this is in the file at `o`. -/
def HasSignature (data : Bytes) (min size : Nat) (magic : Bytes) (o : Nat) : Prop := min ≤ o ∧ o + size ≤ data.length ∧ magic <+: data.drop o

instance (data : Bytes) (min size : Nat) (magic : Bytes) (o : Nat) : Decidable (HasSignature data min size magic o) := by unfold HasSignature; infer_instance

theorem at_signature (data : Bytes) (min size : Nat) (magic : Bytes) (o a : Nat) (hm : magic ≠ []) (hl : magic.length ≤ size) :
    ∃ b, AtPlace data (signatureAt min size magic o) (decide (HasSignature data min size magic o)) a b := by
  have hm' : 0 < magic.length := List.length_pos_iff.2 hm
  by_cases h : min ≤ o ∧ o + size ≤ data.length
  · have hlen : ((data.drop o).take magic.length).length = magic.length := by rw [List.length_take, List.length_drop]; omega
    have e : decide (HasSignature data min size magic o) = ((data.drop o).take magic.length == magic) := by
      rw [Bool.eq_iff_iff, decide_eq_true_iff, beq_iff_eq]
      constructor
      · intro h'
        exact (List.prefix_iff_eq_take.1 h'.2.2).symm
      · intro h'
        exact ⟨h.1, h.2, List.prefix_iff_eq_take.2 h'.symm⟩
    rw [e]
    refine ⟨o + ((data.drop o).take magic.length).length, ?_⟩
    refine AtPlace.bind (at_limit data a) ?_
    rw [if_pos (by omega)]
    refine AtPlace.bind (at_jump data a o) ?_
    exact AtPlace.map (f := fun m => m == magic) ((reads_raw_n _ _ hlen (by omega)).at (List.take_prefix _ _) (by omega))
  · have e : decide (HasSignature data min size magic o) = false := by
      rw [decide_eq_false_iff_not]
      exact fun h' => h ⟨h'.1, h'.2.1⟩
    rw [e]
    refine ⟨a, AtPlace.bind (at_limit data a) ?_⟩
    rw [if_neg (by omega)]
    exact at_pure data _ a

theorem at_optional (data : Bytes) (a size : Nat) (o : Option Opt) (h : OptAt data a size o) : AtPlace data (Pe.optional size) o a (a + size) := by
  unfold Pe.optional
  by_cases hz : size = 0
  · rw [if_pos hz, h.none_.1 hz, hz]
    exact at_pure data _ a
  · rw [if_neg hz]
    cases o with
    | none => exact absurd (h.none_.2 rfl) hz
    | some x =>
      obtain ⟨h1, h2, h3⟩ := h.good x rfl
      exact AtPlace.map (f := fun o => some o) ((reads_opt x h1).within_at h2 h3)

/-- The bytes of a section. -/
def peContent (data : Bytes) (h : Section) : Section × Bytes := (h, (data.drop h.physOff).take h.physSize)

theorem mem_sorted (hs : List Section) (x : Section) : x ∈ sorted hs ↔ x ∈ hs ∧ x.physSize ≠ 0 := by
  unfold sorted
  rw [List.mem_mergeSort, List.mem_filter]
  simp

theorem at_portable (data : Bytes) (d : Dos) (h : Header) (o : Option Opt) (hs : List Section) (g : PeAt data d h o hs) :
    ∃ b, AtPlace data portable ⟨h, o, hs, (sorted hs).map (peContent data)⟩ d.next b := by
  obtain ⟨_, _, g3, _, g5, g6, g7, g8, g9, g10, g11⟩ := g
  obtain ⟨c, hc⟩ := at_each data Pe.sectionBytes (peContent data) (sorted hs) (d.next + 24 + h.optSize + (hs.flatMap peSection).length) fun x hx a => by
    rw [mem_sorted] at hx
    have hin := g11 x hx.1
    have hl : ((data.drop x.physOff).take x.physSize).length = x.physSize := by rw [List.length_take, List.length_drop]; omega
    exact ⟨_, AtPlace.bind (at_jump data a x.physOff) (AtPlace.map (f := fun b => (x, b)) ((reads_raw_n x.physSize _ hl (by omega)).at (List.take_prefix _ _) (by omega)))⟩
  refine ⟨c, ?_⟩
  refine AtPlace.bind ((reads_pe h g3).at g5 (by omega)) ?_
  rw [peBytes_length]
  refine AtPlace.bind (at_optional data _ _ o g6) ?_
  refine AtPlace.bind ((reads_times_n _ peSection hs _ g8 fun x hx => reads_pe_section x (g9 x hx)).at g10 g7) ?_
  exact AtPlace.map (f := fun b => Portable.mk h o hs b) hc

/-- **C137**: all Windows programs (PE32 and PE32+, any number of directories and sections, in any order) are read: headers, and the bytes of all sections that have some, in
the order of their places. -/
theorem C137_portable (data : Bytes) (s : InputStream) (hs : stringInputStream data = .ok s) (d : Dos) (h : Header) (o : Option Opt) (xs : List Section)
    (g : PeAt data d h o xs) :
    ∃ (ys : List Section) (stop : Nat), file s (8 * data.length) 0 = .ok (⟨d, .portable ⟨h, o, xs, ys.map (peContent data)⟩⟩, stop) ∧
      ys.Perm (xs.filter fun x => x.physSize ≠ 0) ∧ ys.Pairwise (fun a b => a.physOff ≤ b.physOff) := by
  have hsig : HasSignature data 2 24 [0x50, 0x45, 0, 0] d.next := by
    have := g.room
    exact ⟨g.next, by omega, prefix_left g.headerAt⟩
  have hlen := g.dosAt.length_le
  rw [dosBytes_length d g.dos] at hlen
  obtain ⟨b1, h1⟩ := at_signature data 2 24 [0x50, 0x45, 0, 0] d.next 64 (by simp) (by simp)
  obtain ⟨b2, h2⟩ := at_signature data 64 64 [0x4E, 0x45] d.next b1 (by simp) (by simp)
  obtain ⟨b3, h3⟩ := at_portable data d h o xs g
  rw [decide_eq_true hsig] at h1
  have r : AtPlace data file ⟨d, .portable ⟨h, o, xs, (sorted xs).map (peContent data)⟩⟩ 0 b3 := by
    refine AtPlace.bind ((reads_dos d g.dos).at (by simpa using g.dosAt) (by omega)) ?_
    rw [dosBytes_length d g.dos, Nat.zero_add]
    refine AtPlace.bind h1 ?_
    refine AtPlace.bind h2 ?_
    exact AtPlace.bind (at_jump data b2 d.next) (AtPlace.map (f := fun p => File.mk d (.portable p)) h3)
  refine ⟨sorted xs, _, r s hs, ?_, ?_⟩
  · refine (List.mergeSort_perm _ _).trans ?_
    rw [show (fun h : Section => h.physSize != 0) = fun x => decide (x.physSize ≠ 0) from funext fun x => by by_cases hx : x.physSize = 0 <;> simp [hx]]
  · have := List.pairwise_mergeSort (le := fun a b : Section => decide (a.physOff ≤ b.physOff)) (fun a b c => by simpa using Nat.le_trans) (fun a b => by simpa using Nat.le_total _ _)
      (xs.filter fun h => h.physSize != 0)
    exact this.imp fun h => by simpa using h

/-- **C137**: 16-bit Windows programs. -/
theorem C137_new (data : Bytes) (s : InputStream) (hs : stringInputStream data = .ok s) (d : Dos) (n : New) (g : DosGood d) (hd : dosBytes d <+: data) (gn : NeGood n)
    (h64 : 64 ≤ d.next) (hn : neBytes n <+: data.drop d.next) : ∃ stop, file s (8 * data.length) 0 = .ok (⟨d, .new n⟩, stop) := by
  have hlen := hd.length_le
  have hl2 := hn.length_le
  rw [dosBytes_length d g] at hlen
  rw [neBytes_length n gn, List.length_drop] at hl2
  have hm : [0x4E, 0x45] <+: data.drop d.next := by
    rw [neBytes, gn.bytes.1] at hn
    exact prefix_left hn
  obtain ⟨b1, h1⟩ := at_signature data 2 24 [0x50, 0x45, 0, 0] d.next 64 (by simp) (by simp)
  obtain ⟨b2, h2⟩ := at_signature data 64 64 [0x4E, 0x45] d.next b1 (by simp) (by simp)
  rw [decide_eq_false fun h => by
    obtain ⟨t, ht⟩ := hm
    obtain ⟨u, hu⟩ := h.2.2
    rw [← ht] at hu
    simp at hu] at h1
  rw [decide_eq_true (show HasSignature data 64 64 [0x4E, 0x45] d.next from ⟨h64, by omega, hm⟩)] at h2
  have r : AtPlace data file ⟨d, .new n⟩ 0 (d.next + (neBytes n).length) := by
    refine AtPlace.bind ((reads_dos d g).at (by simpa using hd) (by omega)) ?_
    rw [dosBytes_length d g, Nat.zero_add]
    refine AtPlace.bind h1 ?_
    refine AtPlace.bind h2 ?_
    exact AtPlace.bind (at_jump data b2 d.next) (AtPlace.map (f := fun p => File.mk d (.new p)) ((reads_ne n gn).at hn (by omega)))
  exact ⟨_, r s hs⟩

/-- **C137**: all other programs are MS-DOS programs. -/
theorem C137_dos (data : Bytes) (s : InputStream) (hs : stringInputStream data = .ok s) (d : Dos) (g : DosGood d) (hd : dosBytes d <+: data)
    (hp : ¬ [0x50, 0x45, 0, 0] <+: data.drop d.next) (hn : ¬ [0x4E, 0x45] <+: data.drop d.next) : ∃ stop, file s (8 * data.length) 0 = .ok (⟨d, .dos⟩, stop) := by
  have hlen := hd.length_le
  rw [dosBytes_length d g] at hlen
  obtain ⟨b1, h1⟩ := at_signature data 2 24 [0x50, 0x45, 0, 0] d.next 64 (by simp) (by simp)
  obtain ⟨b2, h2⟩ := at_signature data 64 64 [0x4E, 0x45] d.next b1 (by simp) (by simp)
  rw [decide_eq_false fun h => hp h.2.2] at h1
  rw [decide_eq_false fun h => hn h.2.2] at h2
  have r : AtPlace data file ⟨d, .dos⟩ 0 b2 := by
    refine AtPlace.bind ((reads_dos d g).at (by simpa using hd) (by omega)) ?_
    rw [dosBytes_length d g, Nat.zero_add]
    exact AtPlace.bind h1 (AtPlace.bind h2 (at_pure data _ b2))
  exact ⟨_, r s hs⟩

/-- **C137**: an address in memory inside a section is turned into the place of its byte in the file. -/
theorem C137_rva (data : Bytes) (h : Section) (i : Nat) (hi : i < h.physSize) : ∃ n : Nat, rva2file h (h.rva + i : Nat) = n ∧ data[n]? = (peContent data h).2[i]? := by
  refine ⟨h.physOff + i, ?_, ?_⟩
  · unfold rva2file; omega
  · rw [peContent]
    simp only
    rw [List.getElem?_take_of_lt hi, List.getElem?_drop]

/-! ## Sizes -/

theorem portableSize_go : ∀ (hs : List Section) (n : Nat),
    let r := hs.foldl (fun size h => if h.physSize = 0 then size else if size ≠ 0 then max size ((h.physSize + h.physOff) * 8) else (h.physSize + h.physOff) * 8) n
    n ≤ r ∧ (∀ h ∈ hs, h.physSize ≠ 0 → 8 * (h.physOff + h.physSize) ≤ r) ∧ (r = n ∨ ∃ h ∈ hs, h.physSize ≠ 0 ∧ r = 8 * (h.physOff + h.physSize))
  | [], n => by simp
  | h :: hs, n => by
    rw [List.foldl_cons]
    generalize hm : (if h.physSize = 0 then n else if n ≠ 0 then max n ((h.physSize + h.physOff) * 8) else (h.physSize + h.physOff) * 8) = m
    obtain ⟨i1, i2, i3⟩ := portableSize_go hs m
    have hm' : n ≤ m ∧ (h.physSize ≠ 0 → 8 * (h.physOff + h.physSize) ≤ m) ∧ (m = n ∨ h.physSize ≠ 0 ∧ m = 8 * (h.physOff + h.physSize)) := by
      rw [← hm]
      by_cases hz : h.physSize = 0
      · rw [if_pos hz]; omega
      · rw [if_neg hz]
        by_cases hn : n ≠ 0
        · rw [if_pos hn]; omega
        · rw [if_neg hn]; omega
    refine ⟨Nat.le_trans hm'.1 i1, ?_, ?_⟩
    · intro x hx hz
      rcases List.mem_cons.1 hx with e | e
      · subst e
        exact Nat.le_trans (hm'.2.1 hz) i1
      · exact i2 x e hz
    · rcases i3 with e | ⟨x, hx, hz, e⟩
      · rcases hm'.2.2 with e2 | ⟨hz, e2⟩
        · exact .inl (e.trans e2)
        · exact .inr ⟨h, List.mem_cons_self, hz, e.trans e2⟩
      · exact .inr ⟨x, List.mem_cons_of_mem _ hx, hz, e⟩

/-- **C137**: the size of a Windows program is the end of its last section, of no use if no section has bytes. -/
theorem C137_size (d : Dos) (p : Portable) :
    (contentSize ⟨d, .portable p⟩ = none ∧ ∀ h ∈ p.headers, h.physSize = 0) ∨
    ∃ h ∈ p.headers, h.physSize ≠ 0 ∧ contentSize ⟨d, .portable p⟩ = some ((8 * (h.physOff + h.physSize) : Nat) : Int) ∧
      ∀ x ∈ p.headers, x.physSize ≠ 0 → x.physOff + x.physSize ≤ h.physOff + h.physSize := by
  obtain ⟨_, h2, h3⟩ := portableSize_go p.headers 0
  have e : contentSize ⟨d, .portable p⟩ = if portableSize p.headers ≠ 0 then some (portableSize p.headers : Int) else none := rfl
  rcases h3 with h | ⟨x, hx, hz, h⟩
  · refine .inl ⟨?_, fun x hx => ?_⟩
    · rw [e, if_neg (by rw [portableSize]; omega)]
    · by_contra hz
      have := h2 x hx hz
      omega
  · refine .inr ⟨x, hx, hz, ?_, fun y hy hz' => ?_⟩
    · rw [e, if_pos (by rw [portableSize]; omega), portableSize, h]
    · have := h2 y hy hz'
      omega

/-- How MS-DOS programs tell their size: blocks of 512 bytes, and how many bytes of the last one are used, 0 for all. -/
def DosSize (d : Dos) (n : Nat) : Prop := d.sizeDiv = (n + 511) / 512 ∧ d.sizeMod = n % 512

/-- **C137** (partial): the size of an MS-DOS program that does not end with a full block. -/
theorem C137_dos_size_partial (d : Dos) (n : Nat) (h : DosSize d n) (hn : n % 512 ≠ 0) : contentSize ⟨d, .dos⟩ = some ((8 * n : Nat) : Int) := by
  obtain ⟨h1, h2⟩ := h
  simp only [contentSize]
  rw [if_neg (by omega)]
  congr 1
  omega

/-- Violation: the size of all others is 512 bytes too small. -/
theorem C137_dos_size_wrong (d : Dos) (n : Nat) (h : DosSize d n) (hn : n % 512 = 0) (h0 : 0 < n) : contentSize ⟨d, .dos⟩ = some ((8 * (n - 512) : Nat) : Int) := by
  obtain ⟨h1, h2⟩ := h
  simp only [contentSize]
  rw [if_neg (by omega)]
  congr 1
  omega

/-- **C137**: which files are accepted. -/
theorem C137_valid (f : File) : valid f = true ↔ f.dos.header = [0x4D, 0x5A] ∧ f.dos.sizeMod < 512 ∧ 4 ≤ f.dos.codeOffset ∧
    (f.dos.sizeDiv < 4 → f.dos.checksum = 0 ∧ 80 ≤ f.dos.next ∧ f.dos.next ≤ 1024) ∧ (∀ p, f.kind = .portable p → p.header.nbSection ≤ 100) := by
  have hd : dosValid f.dos = true ↔ f.dos.sizeMod < 512 ∧ 4 ≤ f.dos.codeOffset ∧ (f.dos.sizeDiv < 4 → f.dos.checksum = 0 ∧ 80 ≤ f.dos.next ∧ f.dos.next ≤ 1024) := by
    unfold dosValid
    split
    · simp; omega
    · split
      · simp; omega
      · split
        · split
          · simp; omega
          · simp; omega
        · simp; omega
  rw [valid, Bool.and_eq_true, Bool.and_eq_true, beq_iff_eq, hd]
  cases hk : f.kind with
  | portable p => simp [and_assoc]
  | new _ => simp
  | dos => simp

/-- A small program. -/
example : DosGood ⟨[0x4D, 0x5A], 0x90, 3, 0, 4, 0, 65535, 184, 0, 0, 64, 0, List.replicate 8 0, 0, 0, List.replicate 20 0, 128⟩ ∧
    PeGood ⟨0x14c, 2, 0, 0, 0, 224, [1, 1, 1, 1, 0, 0, 0, 0, 1, 0, 0, 0, 0, 0, 0, 0]⟩ ∧
    PeOptGood ⟨0x20b, 6, 0, 512, 512, 0, 4096, 4096, none, 0x140000000, 4096, 512, [4, 0, 0, 0, 4, 0], [0, 0, 0, 0], 12288, 1024, 0, 3, 0, [0, 0, 0, 0], 0, [(0, 0), (8192, 40)]⟩ ∧
    PeSectionGood ⟨[0x2E, 0x74, 0x65, 0x78, 0x74, 0, 0, 0], 100, 4096, 512, 1024, List.replicate 12 0,
      [0, 0, 1, 0, 0, 0, 0, 0, 0, 0, 0, 0, 0, 0, 0, 0, 0, 0, 0, 0, 1, 1, 0]⟩ ∧
    DosSize ⟨[0x4D, 0x5A], 0x90, 3, 0, 4, 0, 65535, 184, 0, 0, 64, 0, List.replicate 8 0, 0, 0, List.replicate 20 0, 128⟩ 1168 :=
  ⟨⟨by decide, by decide, by norm_num⟩, ⟨by decide, by norm_num, by simp [Fit, flags16]⟩,
    ⟨.inr ⟨rfl, rfl⟩, by decide, by norm_num, by decide, by norm_num [peWord], by decide, by simp [peWord], by norm_num⟩,
    ⟨by decide, by norm_num, by simp [Fit, sectionBits]⟩, by decide, by decide⟩

end Hachoir.Props
