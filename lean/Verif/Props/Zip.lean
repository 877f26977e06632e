import Verif.Formats.Zip
import Verif.Props.Records

/-!
# C101: ZIP archives
-/

namespace Hachoir.Props
open Hachoir Hachoir.Stream Hachoir.Formats Hachoir.Formats.Zip Spec

/-! ## What the bytes of an archive are -/

/-- The numbers that files and entries of the directory have in common. -/
structure ZipCommon where
  version : UInt8
  host : UInt8
  flags : Nat
  method : Nat
  stamp : Nat
  crc : Nat
  compressed : Nat
  uncompressed : Nat
  deriving DecidableEq

structure ZipCommon.Good (c : ZipCommon) (name extra : Bytes) : Prop where
  flags : c.flags < 2 ^ 16
  method : c.method < 2 ^ 16
  stamp : c.stamp < 2 ^ 32
  crc : c.crc < 2 ^ 32
  compressed : c.compressed < 2 ^ 32
  uncompressed : c.uncompressed < 2 ^ 32
  name : name.length < 2 ^ 16
  extra : extra.length < 2 ^ 16

def ZipCommon.parts (c : ZipCommon) (name extra : Bytes) : List Bytes :=
  [[c.version], [c.host], leBytes 2 c.flags, leBytes 2 c.method, leBytes 4 c.stamp, leBytes 4 c.crc, leBytes 4 c.compressed,
    leBytes 4 c.uncompressed, leBytes 2 name.length, leBytes 2 extra.length]

/-- The bit `i` of the flags. -/
def ZipCommon.bit (c : ZipCommon) (i : Nat) : Bool := c.flags / 2 ^ i % 2 = 1

/-- The fields to be shown. -/
def ZipCommon.shown (c : ZipCommon) (name extra : Bytes) : Zip.Common :=
  ⟨c.version.toNat, c.host.toNat, c.bit 0, c.bit 3, c.bit 11, c.bit 12, c.method, c.stamp, c.crc, c.compressed, c.uncompressed,
    name.length, extra.length⟩

/-- A descriptor. -/
def descriptorBytes (d : Descriptor) : Bytes := [leBytes 4 d.crc, leBytes 4 d.compressed, leBytes 4 d.uncompressed].flatten

def DescriptorGood (d : Descriptor) : Prop := d.crc < 2 ^ 32 ∧ d.compressed < 2 ^ 32 ∧ d.uncompressed < 2 ^ 32

/-- A file: its header with the size of its content, and perhaps a descriptor behind it. -/
structure ZipItem where
  common : ZipCommon
  name : Bytes
  extra : Bytes
  content : Bytes
  desc : Option Descriptor

def ZipItem.bytes (i : ZipItem) : Bytes :=
  (i.common.parts i.name i.extra).flatten ++ i.name ++ i.extra ++ i.content ++ (i.desc.map descriptorBytes).getD []

/-- The header tells the size of the content, and there is a descriptor exactly if the header announces one
and lacks the check sum. -/
structure ZipItem.Good (i : ZipItem) : Prop where
  common : i.common.Good i.name i.extra
  size : i.common.compressed = i.content.length
  complete : i.content = [] → i.common.bit 12 = false
  desc : i.desc.isSome = (i.common.bit 3 && i.common.crc == 0)
  descGood : ∀ d ∈ i.desc, DescriptorGood d

/-- A part of the file from the byte `k` on, if it is not empty. -/
def partAt (k : Nat) (b : Bytes) : Option (Nat × Nat) := if b = [] then none else some (8 * k, 8 * b.length)

/-- The file to be shown at the byte `k` behind the header. -/
def ZipItem.shown (i : ZipItem) (k : Nat) : Zip.File :=
  ⟨i.common.shown i.name i.extra, i.name, partAt (k + 26 + i.name.length) i.extra,
    partAt (k + 26 + i.name.length + i.extra.length) i.content, i.desc, 8 * i.bytes.length⟩

/-- An entry of the directory. -/
structure ZipEntry where
  madeVersion : UInt8
  madeHost : UInt8
  common : ZipCommon
  disk : Nat
  internalAttr : Nat
  externalAttr : Nat
  offset : Nat
  name : Bytes
  extra : Bytes
  comment : Bytes

def ZipEntry.parts (e : ZipEntry) : List Bytes :=
  [[e.madeVersion], [e.madeHost], (e.common.parts e.name e.extra).flatten, leBytes 2 e.comment.length, leBytes 2 e.disk,
    leBytes 2 e.internalAttr, leBytes 4 e.externalAttr, leBytes 4 e.offset, e.name, e.extra, e.comment]

structure ZipEntry.Good (e : ZipEntry) : Prop where
  common : e.common.Good e.name e.extra
  comment : e.comment.length < 2 ^ 16
  disk : e.disk < 2 ^ 16
  internalAttr : e.internalAttr < 2 ^ 16
  externalAttr : e.externalAttr < 2 ^ 32
  offset : e.offset < 2 ^ 32
  named : e.name ≠ []

def ZipEntry.shown (e : ZipEntry) (k : Nat) : Zip.Central :=
  ⟨e.madeVersion.toNat, e.madeHost.toNat, e.common.shown e.name e.extra, e.disk, e.internalAttr, e.externalAttr, e.offset, e.name,
    partAt (k + 42 + e.name.length) e.extra, if e.comment = [] then none else some e.comment, 8 * e.parts.flatten.length⟩

/-- The end of the directory. -/
structure ZipEnd where
  disk : Nat
  disk2 : Nat
  entries : Nat
  entries2 : Nat
  dirSize : Nat
  dirOffset : Nat
  comment : Bytes

def ZipEnd.parts (e : ZipEnd) : List Bytes :=
  [leBytes 2 e.disk, leBytes 2 e.disk2, leBytes 2 e.entries, leBytes 2 e.entries2, leBytes 4 e.dirSize, leBytes 4 e.dirOffset,
    leBytes 2 e.comment.length, e.comment]

structure ZipEnd.Good (e : ZipEnd) : Prop where
  disk : e.disk < 2 ^ 16
  disk2 : e.disk2 < 2 ^ 16
  entries : e.entries < 2 ^ 16
  entries2 : e.entries2 < 2 ^ 16
  dirSize : e.dirSize < 2 ^ 32
  dirOffset : e.dirOffset < 2 ^ 32
  comment : e.comment.length < 2 ^ 16

def ZipEnd.shown (e : ZipEnd) : Zip.EndDir :=
  ⟨e.disk, e.disk2, e.entries, e.entries2, e.dirSize, e.dirOffset, e.comment, 8 * e.parts.flatten.length⟩

/-- The records of an archive. -/
inductive ZipPart
  | file (i : ZipItem)
  | descriptor (d : Descriptor)
  | entry (e : ZipEntry)
  | ending (e : ZipEnd)
  | signature (t : Bytes)
  | locator (disk offset disks : Nat)

def ZipPart.mark : ZipPart → Bytes
  | .file _ => [0x50, 0x4b, 3, 4]
  | .descriptor _ => [0x50, 0x4b, 7, 8]
  | .entry _ => [0x50, 0x4b, 1, 2]
  | .ending _ => [0x50, 0x4b, 5, 6]
  | .signature _ => [0x50, 0x4b, 5, 5]
  | .locator .. => [0x50, 0x4b, 6, 7]

def ZipPart.body : ZipPart → Bytes
  | .file i => i.bytes
  | .descriptor d => descriptorBytes d
  | .entry e => e.parts.flatten
  | .ending e => e.parts.flatten
  | .signature t => leBytes 2 t.length ++ t
  | .locator a b c => [leBytes 4 a, leBytes 8 b, leBytes 4 c].flatten

def ZipPart.Good : ZipPart → Prop
  | .file i => i.Good
  | .descriptor d => DescriptorGood d
  | .entry e => e.Good
  | .ending e => e.Good
  | .signature t => t.length < 2 ^ 16
  | .locator a b c => a < 2 ^ 32 ∧ b < 2 ^ 64 ∧ c < 2 ^ 32

/-- The record to be shown with its content at the byte `k`. -/
def ZipPart.shown (k : Nat) : ZipPart → Zip.Record
  | .file i => .file (i.shown k)
  | .descriptor d => .descriptor d
  | .entry e => .central (e.shown k)
  | .ending e => .endDir e.shown
  | .signature t => .signature t (8 * (2 + t.length))
  | .locator a b c => .locator a b c

/-- The marks of records. -/
def zipMarks : List Bytes :=
  [[0x50, 0x4b, 3, 4], [0x50, 0x4b, 7, 8], [0x50, 0x4b, 0x30, 0x30], [0x50, 0x4b, 1, 2], [0x50, 0x4b, 5, 6], [0x50, 0x4b, 6, 6],
    [0x50, 0x4b, 5, 5], [0x50, 0x4b, 6, 7]]

/-- There is a mark at a byte. -/
def MarkAt (data : Bytes) (k : Nat) : Prop := ∃ m ∈ zipMarks, m <+: data.drop k

/-- Parts with something between them. -/
def zipBytes : List (Bytes × ZipPart) → Bytes
  | [] => []
  | (gap, p) :: ps => gap ++ p.mark ++ p.body ++ zipBytes ps

/-- No byte of a gap begins a mark. -/
def GapsGood (data : Bytes) : Nat → List (Bytes × ZipPart) → Prop
  | _, [] => True
  | k, (gap, p) :: ps =>
    (∀ j, k ≤ j → j < k + gap.length → ¬ MarkAt data j) ∧ GapsGood data (k + gap.length + 4 + p.body.length) ps

def zipPlaces : Nat → List (Bytes × ZipPart) → List (Nat × Zip.Record)
  | _, [] => []
  | k, (gap, p) :: ps => (8 * (k + gap.length), p.shown (k + gap.length + 4)) :: zipPlaces (k + gap.length + 4 + p.body.length) ps

/-! ## Numbers -/

theorem read_num (data : Bytes) (s : InputStream) (hs : stringInputStream data = .ok s) (k off n v : Nat) (hn : 0 < n)
    (hv : v < 256 ^ n) (hp : leBytes n v <+: data.drop (k + off)) : number s (8 * k) off n = .ok v := by
  unfold number
  exact read_le data s hs n (k + off) v hn hv hp _ rfl _ (by push_cast; ring)

theorem read_num1 (data : Bytes) (s : InputStream) (hs : stringInputStream data = .ok s) (k off : Nat) (b : UInt8)
    (hp : [b] <+: data.drop (k + off)) : number s (8 * k) off 1 = .ok b.toNat := by
  unfold number
  exact read_byte data s hs (k + off) b .little (by simp) hp _ (by push_cast; ring)

theorem read_flag (data : Bytes) (s : InputStream) (hs : stringInputStream data = .ok s) (k i : Nat) (hi : i < 16)
    (c : ZipCommon) (hc : c.flags < 2 ^ 16) (hp : leBytes 2 c.flags <+: data.drop (k + 2)) :
    flag s (8 * k) (16 + i) = .ok (c.bit i) := by
  obtain ⟨hl, hle⟩ := leBytes_spec 2 c.flags
  unfold flag
  rw [readBits_in data s hs (k + 2) i 1 _ hp (by rw [hl]; omega) (by rw [hl]; omega) _ (by push_cast; ring), hle (by omega)]
  simp only
  unfold ZipCommon.bit
  rw [Nat.pow_one]
  congr 1
  rcases Nat.mod_two_eq_zero_or_one (c.flags / 2 ^ i) with h | h <;> rw [h] <;> rfl

theorem common_length (c : ZipCommon) (name extra : Bytes) : (c.parts name extra).flatten.length = 26 := by
  unfold ZipCommon.parts
  simp [leBytes_length]

theorem read_common (data : Bytes) (s : InputStream) (hs : stringInputStream data = .ok s) (c : ZipCommon) (name extra : Bytes)
    (h : c.Good name extra) (k : Nat) (hp : (c.parts name extra).flatten <+: data.drop k) :
    readCommon s (8 * k) = .ok (c.shown name extra) := by
  unfold ZipCommon.parts at hp
  have r0 := read_num1 data s hs k 0 c.version (record_part _ 0 _ rfl _ (by simp) hp)
  have r1 := read_num1 data s hs k 1 c.host (record_part _ 1 _ rfl _ (by simp) hp)
  have pf := record_part _ 2 _ rfl (k + 2) (by simp) hp
  have f0 := read_flag data s hs k 0 (by omega) c h.flags pf
  have f3 := read_flag data s hs k 3 (by omega) c h.flags pf
  have f11 := read_flag data s hs k 11 (by omega) c h.flags pf
  have f12 := read_flag data s hs k 12 (by omega) c h.flags pf
  have r3 := read_num data s hs k 4 2 c.method (by omega) h.method (record_part _ 3 _ rfl _ (by simp [leBytes_length]) hp)
  have r4 := read_num data s hs k 6 4 c.stamp (by omega) h.stamp (record_part _ 4 _ rfl _ (by simp [leBytes_length]) hp)
  have r5 := read_num data s hs k 10 4 c.crc (by omega) h.crc (record_part _ 5 _ rfl _ (by simp [leBytes_length]) hp)
  have r6 := read_num data s hs k 14 4 c.compressed (by omega) h.compressed (record_part _ 6 _ rfl _ (by simp [leBytes_length]) hp)
  have r7 := read_num data s hs k 18 4 c.uncompressed (by omega) h.uncompressed (record_part _ 7 _ rfl _ (by simp [leBytes_length]) hp)
  have r8 := read_num data s hs k 22 2 name.length (by omega) h.name (record_part _ 8 _ rfl _ (by simp [leBytes_length]) hp)
  have r9 := read_num data s hs k 24 2 extra.length (by omega) h.extra (record_part _ 9 _ rfl _ (by simp [leBytes_length]) hp)
  unfold readCommon
  rw [r0, r1, f0, f3, f11, f12, r3, r4, r5, r6, r7, r8, r9]
  rfl

theorem read_descriptor (data : Bytes) (s : InputStream) (hs : stringInputStream data = .ok s) (d : Descriptor) (h : DescriptorGood d)
    (k : Nat) (hp : descriptorBytes d <+: data.drop k) : readDescriptor s (8 * k) = .ok d := by
  unfold descriptorBytes at hp
  have r0 := read_num data s hs k 0 4 d.crc (by omega) h.1 (record_part _ 0 _ rfl _ (by simp) hp)
  have r1 := read_num data s hs k 4 4 d.compressed (by omega) h.2.1 (record_part _ 1 _ rfl _ (by simp [leBytes_length]) hp)
  have r2 := read_num data s hs k 8 4 d.uncompressed (by omega) h.2.2 (record_part _ 2 _ rfl _ (by simp [leBytes_length]) hp)
  unfold readDescriptor
  rw [r0, r1, r2]
  rfl

theorem descriptor_length (d : Descriptor) : (descriptorBytes d).length = 12 := by
  unfold descriptorBytes
  simp [leBytes_length]

/-! ## Records -/

theorem C101_file (data : Bytes) (s : InputStream) (hs : stringInputStream data = .ok s) (i : ZipItem) (h : i.Good)
    (k : Nat) (hp : i.bytes <+: data.drop k) : readFile s (8 * k) = .ok (i.shown k) := by
  have hl : i.bytes.length = 26 + i.name.length + i.extra.length + i.content.length + ((i.desc.map descriptorBytes).getD []).length := by
    unfold ZipItem.bytes
    simp only [List.length_append, common_length]
  have hp' := hp
  unfold ZipItem.bytes at hp'
  have pd := drop_prefix hp'
  have p1 := prefix_left hp'
  have p2 := prefix_left p1
  have pn := prefix_left p2
  have rc := read_common data s hs i.common i.name i.extra h.common k (prefix_left pn)
  have rn : readBytes s _ _ = _ := readBytes_prefix data s hs _ _ (drop_prefix pn)
  rw [common_length] at rn
  simp only [List.length_append, common_length] at pd
  unfold readFile commonSize
  rw [rc]
  simp only
  rw [show (i.common.shown i.name i.extra).nameLength = i.name.length from rfl,
    show (i.common.shown i.name i.extra).extraLength = i.extra.length from rfl,
    show 8 * k + 26 * 8 = 8 * (k + 26) by omega, rn]
  simp only
  have tail : fileTail s (i.common.shown i.name i.extra) (8 * (k + 26) + 8 * i.name.length + 8 * i.extra.length) =
      .ok (partAt (k + 26 + i.name.length + i.extra.length) i.content, i.desc, 8 * k + 8 * i.bytes.length) := by
    rw [show 8 * (k + 26) + 8 * i.name.length + 8 * i.extra.length = 8 * (k + 26 + i.name.length + i.extra.length) by omega]
    unfold fileTail partAt
    rw [show (i.common.shown i.name i.extra).compressed = i.content.length from h.size,
      show (i.common.shown i.name i.extra).hasDescriptor = i.common.bit 3 from rfl,
      show (i.common.shown i.name i.extra).incomplete = i.common.bit 12 from rfl,
      show (i.common.shown i.name i.extra).crc = i.common.crc from rfl, ← h.desc]
    by_cases hc : i.content = []
    · rw [hc, h.complete hc]
      rw [hc] at hl pd
      simp only [List.length_nil, Nat.lt_irrefl, if_false, Bool.false_eq_true, if_true]
      cases hd : i.desc with
      | none =>
        rw [hd] at hl
        simp only [Option.isSome_none, Bool.false_eq_true, if_false, Option.map_none, Option.getD_none, List.length_nil] at hl ⊢
        rw [hl]
        exact congrArg (fun n => Except.ok (none, none, n)) (by omega)
      | some d =>
        rw [hd] at hl pd
        simp only [Option.isSome_some, if_true, Option.map_some, Option.getD_some, List.length_nil, descriptor_length] at hl pd ⊢
        rw [read_descriptor data s hs d (h.descGood d hd) (k + 26 + i.name.length + i.extra.length) (by
          rw [show k + 26 + i.name.length + i.extra.length = k + (26 + i.name.length + i.extra.length + 0) by omega]; exact pd)]
        simp only
        rw [hl]
        exact congrArg (fun n => Except.ok (none, some d, n)) (by omega)
    · have hpos : 0 < i.content.length := List.length_pos_of_ne_nil hc
      rw [if_pos hpos, if_neg hc]
      simp only
      cases hd : i.desc with
      | none =>
        rw [hd] at hl
        simp only [Option.isSome_none, Bool.false_eq_true, if_false, Option.map_none, Option.getD_none, List.length_nil] at hl ⊢
        rw [hl]
        exact congrArg (fun n => Except.ok (some (8 * (k + 26 + i.name.length + i.extra.length), 8 * i.content.length), none, n)) (by omega)
      | some d =>
        rw [hd] at hl pd
        simp only [Option.isSome_some, if_true, Option.map_some, Option.getD_some, descriptor_length] at hl pd ⊢
        rw [show 8 * (k + 26 + i.name.length + i.extra.length) + 8 * i.content.length =
            8 * (k + (26 + i.name.length + i.extra.length + i.content.length)) by omega,
          read_descriptor data s hs d (h.descGood d hd) _ pd]
        simp only
        rw [hl]
        exact congrArg (fun n => Except.ok (some (8 * (k + 26 + i.name.length + i.extra.length), 8 * i.content.length), some d, n)) (by omega)
  rw [tail]
  simp only
  unfold ZipItem.shown partAt
  rw [show 8 * k + 8 * i.bytes.length - 8 * k = 8 * i.bytes.length by omega,
    show 8 * (k + 26) + 8 * i.name.length = 8 * (k + 26 + i.name.length) by omega]
  simp only [List.length_eq_zero_iff]

theorem C101_entry (data : Bytes) (s : InputStream) (hs : stringInputStream data = .ok s) (e : ZipEntry) (h : e.Good)
    (k : Nat) (hp : e.parts.flatten <+: data.drop k) : readCentral s (8 * k) = .ok (e.shown k) := by
  have hl : e.parts.flatten.length = 42 + e.name.length + e.extra.length + e.comment.length := by
    unfold ZipEntry.parts
    simp only [List.flatten_cons, List.flatten_nil, List.append_nil, List.length_append, common_length, leBytes_length, List.length_cons,
      List.length_nil]
    omega
  have hp' := hp
  unfold ZipEntry.parts at hp'
  have r0 := read_num1 data s hs k 0 e.madeVersion (record_part _ 0 _ rfl _ (by simp) hp')
  have r1 := read_num1 data s hs k 1 e.madeHost (record_part _ 1 _ rfl _ (by simp) hp')
  have rc := read_common data s hs e.common e.name e.extra h.common (k + 2) (record_part _ 2 _ rfl _ (by simp) hp')
  have r3 := read_num data s hs k 28 2 e.comment.length (by omega) h.comment
    (record_part _ 3 _ rfl _ (by simp [-List.length_flatten, common_length]) hp')
  have r4 := read_num data s hs k 30 2 e.disk (by omega) h.disk
    (record_part _ 4 _ rfl _ (by simp [leBytes_length, -List.length_flatten, common_length]) hp')
  have r5 := read_num data s hs k 32 2 e.internalAttr (by omega) h.internalAttr
    (record_part _ 5 _ rfl _ (by simp [leBytes_length, -List.length_flatten, common_length]) hp')
  have r6 := read_num data s hs k 34 4 e.externalAttr (by omega) h.externalAttr
    (record_part _ 6 _ rfl _ (by simp [leBytes_length, -List.length_flatten, common_length]) hp')
  have r7 := read_num data s hs k 38 4 e.offset (by omega) h.offset
    (record_part _ 7 _ rfl _ (by simp [leBytes_length, -List.length_flatten, common_length]) hp')
  have pn := record_part _ 8 _ rfl (k + 42) (by simp [leBytes_length, -List.length_flatten, common_length]) hp'
  have pc := record_part _ 10 _ rfl (k + 42 + e.name.length + e.extra.length)
    (by simp [leBytes_length, -List.length_flatten, common_length]; omega) hp'
  have rn : readBytes s _ _ = _ := readBytes_prefix data s hs _ _ pn
  have rcm : readBytes s _ _ = _ := readBytes_prefix data s hs _ _ pc
  have tn : text s (8 * k + 8 * 42) e.name.length = .ok e.name := by
    unfold text
    rw [if_neg (fun h0 => h.named (List.length_eq_zero_iff.1 h0)), show 8 * k + 8 * 42 = 8 * (k + 42) by omega, rn]
  have tc : readComment s (8 * k + 8 * 42 + 8 * e.name.length + 8 * e.extra.length) e.comment.length =
      .ok (if e.comment = [] then none else some e.comment) := by
    unfold readComment
    by_cases h0 : e.comment = []
    · rw [if_pos h0, if_pos (by rw [h0]; rfl)]
    · have h1 : ¬ e.comment.length = 0 := fun h1 => h0 (List.length_eq_zero_iff.1 h1)
      rw [if_neg h1, if_neg h0]
      unfold text
      rw [if_neg h1, show 8 * k + 8 * 42 + 8 * e.name.length + 8 * e.extra.length = 8 * (k + 42 + e.name.length + e.extra.length) by omega,
        rcm]
  unfold readCentral
  rw [r0, r1, show 8 * k + 16 = 8 * (k + 2) by omega, rc, r3, r4, r5, r6, r7]
  simp only [bind, Except.bind]
  rw [show (e.common.shown e.name e.extra).extraLength = e.extra.length from rfl,
    show (e.common.shown e.name e.extra).nameLength = e.name.length from rfl, tn]
  simp only
  rw [tc]
  simp only [pure, Except.pure]
  unfold ZipEntry.shown partAt
  rw [hl]
  simp only [List.length_eq_zero_iff]
  rw [show 8 * k + 8 * 42 + 8 * e.name.length = 8 * (k + 42 + e.name.length) by omega]

theorem read_pascal16 (data : Bytes) (s : InputStream) (hs : stringInputStream data = .ok s) (t : Bytes) (h : t.length < 2 ^ 16)
    (k : Nat) (hp : leBytes 2 t.length ++ t <+: data.drop k) : pascal16 s (8 * k) = .ok (t, 8 * (2 + t.length)) := by
  have r0 := read_le data s hs 2 k t.length (by omega) h (prefix_left hp) 16 rfl ((8 * k : Nat) : Int) rfl
  have p := drop_prefix hp
  rw [leBytes_length] at p
  have r1 : readBytes s _ _ = _ := readBytes_prefix data s hs _ _ p
  unfold pascal16
  rw [r0]
  simp only
  rw [show 8 * k + 16 = 8 * (k + 2) by omega, r1]
  simp only
  exact congrArg (fun n => Except.ok (t, n)) (by omega)

theorem C101_end (data : Bytes) (s : InputStream) (hs : stringInputStream data = .ok s) (e : ZipEnd) (h : e.Good)
    (k : Nat) (hp : e.parts.flatten <+: data.drop k) : readEnd s (8 * k) = .ok e.shown := by
  have hl : e.parts.flatten.length = 18 + e.comment.length := by
    unfold ZipEnd.parts
    simp only [List.flatten_cons, List.flatten_nil, List.append_nil, List.length_append, leBytes_length]
    omega
  have hp' := hp
  unfold ZipEnd.parts at hp'
  have r0 := read_num data s hs k 0 2 e.disk (by omega) h.disk (record_part _ 0 _ rfl _ (by simp) hp')
  have r1 := read_num data s hs k 2 2 e.disk2 (by omega) h.disk2 (record_part _ 1 _ rfl _ (by simp [leBytes_length]) hp')
  have r2 := read_num data s hs k 4 2 e.entries (by omega) h.entries (record_part _ 2 _ rfl _ (by simp [leBytes_length]) hp')
  have r3 := read_num data s hs k 6 2 e.entries2 (by omega) h.entries2 (record_part _ 3 _ rfl _ (by simp [leBytes_length]) hp')
  have r4 := read_num data s hs k 8 4 e.dirSize (by omega) h.dirSize (record_part _ 4 _ rfl _ (by simp [leBytes_length]) hp')
  have r5 := read_num data s hs k 12 4 e.dirOffset (by omega) h.dirOffset (record_part _ 5 _ rfl _ (by simp [leBytes_length]) hp')
  have hq : [leBytes 2 e.disk, leBytes 2 e.disk2, leBytes 2 e.entries, leBytes 2 e.entries2, leBytes 4 e.dirSize, leBytes 4 e.dirOffset,
      leBytes 2 e.comment.length ++ e.comment].flatten <+: data.drop k := by
    refine List.IsPrefix.trans ?_ hp'
    simp
  have r6 := read_pascal16 data s hs e.comment h.comment (k + 16) (record_part _ 6 _ rfl _ (by simp [leBytes_length]) hq)
  unfold readEnd
  rw [r0, r1, r2, r3, r4, r5, show 8 * k + 8 * 16 = 8 * (k + 16) by omega, r6]
  show Except.ok _ = _
  unfold ZipEnd.shown
  rw [hl, show 8 * 16 + 8 * (2 + e.comment.length) = 8 * (18 + e.comment.length) by omega]

/-- The record behind a mark is read. -/
theorem C101_record (data : Bytes) (s : InputStream) (hs : stringInputStream data = .ok s) (p : ZipPart) (h : p.Good)
    (k : Nat) (hp : p.body <+: data.drop k) :
    readRecord s (ofBytesLE p.mark) (8 * k) = .ok (p.shown k) ∧ (p.shown k).size = 8 * p.body.length := by
  cases p with
  | file i =>
    refine ⟨?_, rfl⟩
    unfold readRecord
    rw [if_pos (by rfl), C101_file data s hs i h k hp]
    rfl
  | descriptor d =>
    refine ⟨?_, by show 96 = 8 * (descriptorBytes d).length; rw [descriptor_length]⟩
    unfold readRecord
    rw [if_neg (by dsimp only [ZipPart.mark]; decide), if_pos (by dsimp only [ZipPart.mark]; decide), read_descriptor data s hs d h k hp]
    rfl
  | entry e =>
    refine ⟨?_, rfl⟩
    unfold readRecord
    rw [if_neg (by dsimp only [ZipPart.mark]; decide), if_neg (by dsimp only [ZipPart.mark]; decide), if_pos (by dsimp only [ZipPart.mark]; decide), C101_entry data s hs e h k hp]
    rfl
  | ending e =>
    refine ⟨?_, rfl⟩
    unfold readRecord
    rw [if_neg (by dsimp only [ZipPart.mark]; decide), if_neg (by dsimp only [ZipPart.mark]; decide), if_neg (by dsimp only [ZipPart.mark]; decide), if_pos (by dsimp only [ZipPart.mark]; decide), C101_end data s hs e h k hp]
    rfl
  | signature t =>
    refine ⟨?_, by show 8 * (2 + t.length) = 8 * (leBytes 2 t.length ++ t).length; rw [List.length_append, leBytes_length]⟩
    unfold readRecord
    rw [if_neg (by dsimp only [ZipPart.mark]; decide), if_neg (by dsimp only [ZipPart.mark]; decide), if_neg (by dsimp only [ZipPart.mark]; decide), if_neg (by dsimp only [ZipPart.mark]; decide), if_neg (by dsimp only [ZipPart.mark]; decide), if_pos (by dsimp only [ZipPart.mark]; decide),
      read_pascal16 data s hs t h k hp]
    rfl
  | locator a b c =>
    refine ⟨?_, ?_⟩
    · have hp' : [leBytes 4 a, leBytes 8 b, leBytes 4 c].flatten <+: data.drop k := hp
      have r0 := read_num data s hs k 0 4 a (by omega) h.1 (record_part _ 0 _ rfl _ (by simp) hp')
      have r1 := read_num data s hs k 4 8 b (by omega) h.2.1 (record_part _ 1 _ rfl _ (by simp [leBytes_length]) hp')
      have r2 := read_num data s hs k 12 4 c (by omega) h.2.2 (record_part _ 2 _ rfl _ (by simp [leBytes_length]) hp')
      unfold readRecord
      rw [if_neg (by dsimp only [ZipPart.mark]; decide), if_neg (by dsimp only [ZipPart.mark]; decide), if_neg (by dsimp only [ZipPart.mark]; decide), if_neg (by dsimp only [ZipPart.mark]; decide), if_neg (by dsimp only [ZipPart.mark]; decide), if_neg (by dsimp only [ZipPart.mark]; decide)]
      unfold readLocator
      rw [r0, r1, r2]
      rfl
    · show 128 = 8 * [leBytes 4 a, leBytes 8 b, leBytes 4 c].flatten.length
      simp [leBytes_length]

/-! ## The search of marks -/

theorem le_inj : ∀ (a b : Bytes), a.length = b.length → ofBytesLE a = ofBytesLE b → a = b
  | [], [], _, _ => rfl
  | [], _ :: _, h, _ => by cases h
  | _ :: _, [], h, _ => by cases h
  | x :: a, y :: b, h, e => by
    simp only [ofBytesLE] at e
    have hx := x.toNat_lt
    have hy := y.toNat_lt
    have e1 : x = y := UInt8.toNat_inj.1 (by omega)
    rw [e1, le_inj a b (by simpa using h) (by omega)]

theorem header_iff (b : Bytes) (h : b.length = 4) : ofBytesLE b ∈ headers ↔ b ∈ zipMarks := by
  have e : headers = zipMarks.map ofBytesLE := by decide
  rw [e, List.mem_map]
  constructor
  · rintro ⟨m, hm, he⟩
    have : m.length = 4 := (by clear * -; decide : ∀ m ∈ zipMarks, m.length = 4) m hm
    rw [← le_inj m b (by rw [this, h]) he]
    exact hm
  · intro hb
    exact ⟨b, hb, rfl⟩

theorem mark_length (m : Bytes) (h : m ∈ zipMarks) : m.length = 4 ∧ ∃ r, m = [0x50, 0x4b] ++ r := by
  simp only [zipMarks, List.mem_cons, List.not_mem_nil, or_false] at h
  rcases h with rfl | rfl | rfl | rfl | rfl | rfl | rfl | rfl <;> exact ⟨rfl, _, rfl⟩

theorem mark_here (data : Bytes) (s : InputStream) (hs : stringInputStream data = .ok s) (k : Nat) (hk : k + 4 ≤ data.length) :
    ∃ v, readBits s ((8 * k : Nat) : Int) 32 .little = .ok v ∧ (v ∈ headers ↔ MarkAt data k) ∧
      ∀ m ∈ zipMarks, m <+: data.drop k → v = ofBytesLE m := by
  have hlen : ((data.drop k).take 4).length = 4 := by
    rw [List.length_take, List.length_drop]
    omega
  refine ⟨ofBytesLE ((data.drop k).take 4), ?_, ?_, ?_⟩
  · rw [readBits_in data s hs k 0 32 ((data.drop k).take 4) (List.take_prefix ..) (by rw [hlen]) (by rw [hlen]; omega) _ (by push_cast; ring)]
    rw [Nat.pow_zero, Nat.div_one, Nat.mod_eq_of_lt]
    have := ofBytesLE_lt ((data.drop k).take 4)
    rw [hlen] at this
    exact this
  · rw [header_iff _ hlen]
    constructor
    · intro h
      exact ⟨_, h, List.take_prefix ..⟩
    · rintro ⟨m, hm, hp⟩
      have := (take_of_prefix hp).1
      rw [(mark_length m hm).1] at this
      rw [this]
      exact hm
  · intro m hm hp
    have := (take_of_prefix hp).1
    rw [(mark_length m hm).1] at this
    rw [this]

/-- The next mark is found, if there is one. -/
theorem C101_next (data : Bytes) (s : InputStream) (hs : stringInputStream data = .ok s) (k0 : Nat) (m : Bytes) (hm : m ∈ zipMarks)
    (hp : m <+: data.drop k0) (fuel : Nat) : ∀ k, k ≤ k0 → k0 - k < fuel → (∀ j, k ≤ j → j < k0 → ¬ MarkAt data j) →
    nextHeader s fuel (8 * k) = .ok (some (8 * k0, ofBytesLE m)) := by
  have hl := hp.length_le
  rw [List.length_drop, (mark_length m hm).1] at hl
  induction fuel with
  | zero => intro k _ h; omega
  | succ fuel ih =>
    intro k hk hf hfirst
    obtain ⟨v, hv, hiff, hval⟩ := mark_here data s hs k (by omega)
    unfold nextHeader
    rw [hv]
    simp only
    rcases Nat.lt_or_eq_of_le hk with hlt | rfl
    · rw [if_neg (fun h => hfirst k (by omega) hlt (hiff.1 h))]
      obtain ⟨r, hr, hmatch⟩ := _root_.Props.C05_searchBytes data [0x50, 0x4b] s hs (by simp) (k + 1) none data.length (by simp) (by omega)
      have hr' : searchBytes s [0x50, 0x4b] ((8 * k + 8 : Nat) : Int) none = .ok r := hr
      rw [hr']
      obtain ⟨hlen, rest, hrest⟩ := mark_length m hm
      have hpk : [0x50, 0x4b] <+: data.drop k0 := by
        rw [hrest] at hp
        exact prefix_left hp
      cases r with
      | none => exact absurd hpk (hmatch k0 (by omega) (by simp only [List.length_cons, List.length_nil]; omega))
      | some a =>
        obtain ⟨p, rfl, h1, h2, h3, h4⟩ := hmatch
        have hpk0 : p ≤ k0 := by
          rcases Nat.lt_or_ge k0 p with h | h
          · exact absurd hpk (h4 k0 (by omega) h)
          · exact h
        simp only
        rw [show (8 * (p : Int)).toNat = 8 * p by omega]
        exact ih p hpk0 (by omega) fun j hj1 hj2 => hfirst j (by omega) hj2
    · rw [if_pos (hiff.2 ⟨m, hm, hp⟩), hval m hm hp]

theorem C101_no_next (data : Bytes) (s : InputStream) (hs : stringInputStream data = .ok s) (fuel : Nat) :
    ∀ k, k ≤ data.length → data.length - k < fuel → (∀ j, k ≤ j → ¬ MarkAt data j) → nextHeader s fuel (8 * k) = .ok none := by
  induction fuel with
  | zero => intro k _ h; omega
  | succ fuel ih =>
    intro k hk hf hno
    rcases Nat.lt_or_ge data.length (k + 4) with hshort | hlong
    · unfold nextHeader
      rw [_root_.Props.C01_readBits_past_end data s hs (8 * k) 32 (by omega) (by omega) .little (by simp)]
    · obtain ⟨v, hv, hiff, _⟩ := mark_here data s hs k hlong
      unfold nextHeader
      rw [hv]
      simp only
      rw [if_neg (fun h => hno k (by omega) (hiff.1 h))]
      obtain ⟨r, hr, hmatch⟩ := _root_.Props.C05_searchBytes data [0x50, 0x4b] s hs (by simp) (k + 1) none data.length (by simp) (by omega)
      have hr' : searchBytes s [0x50, 0x4b] ((8 * k + 8 : Nat) : Int) none = .ok r := hr
      rw [hr']
      cases r with
      | none => rfl
      | some a =>
        obtain ⟨p, rfl, h1, h2, h3, h4⟩ := hmatch
        simp only [List.length_cons, List.length_nil] at h2
        simp only
        rw [show (8 * (p : Int)).toNat = 8 * p by omega]
        exact ih p (by omega) (by omega) fun j hj => hno j (by omega)

theorem part_mark (p : ZipPart) : p.mark ∈ zipMarks := by
  cases p <;> simp [ZipPart.mark, zipMarks]

/-- All records are found, whatever is between them and behind them, as long as it has no marks. -/
theorem C101_archive (data : Bytes) (s : InputStream) (hs : stringInputStream data = .ok s) (ps : List (Bytes × ZipPart))
    (hg : ∀ p ∈ ps, p.2.Good) (rest : Bytes) (k fuel : Nat) (hf : ps.length < fuel) (hk : ps ≠ [] ∨ 0 < k) (hkl : k ≤ data.length)
    (hd : data.drop k = zipBytes ps ++ rest) (hgaps : GapsGood data k ps)
    (hrest : ∀ j, k + (zipBytes ps).length ≤ j → ¬ MarkAt data j) :
    readRecords s fuel (8 * k) (8 * data.length) = .ok (zipPlaces k ps) := by
  induction ps generalizing k fuel with
  | nil =>
    obtain ⟨fuel, rfl⟩ : ∃ f, fuel = f + 1 := ⟨fuel - 1, by simp at hf; omega⟩
    unfold readRecords
    split
    · rw [C101_no_next data s hs _ k hkl (by omega) (by simpa [zipBytes] using hrest)]
      simp only
      rw [if_neg (by have := hk.resolve_left (by simp); omega)]
      rfl
    · rfl
  | cons gp ps ih =>
    obtain ⟨gap, p⟩ := gp
    obtain ⟨fuel, rfl⟩ : ∃ f, fuel = f + 1 := ⟨fuel - 1, by simp at hf; omega⟩
    have hd' : data.drop k = gap ++ (p.mark ++ (p.body ++ (zipBytes ps ++ rest))) := by
      rw [hd, zipBytes]
      simp only [List.append_assoc]
    have hml := (mark_length _ (part_mark p)).1
    have hlen := congrArg List.length hd'
    simp only [List.length_drop, List.length_append, hml] at hlen
    have d1 : data.drop (k + gap.length) = p.mark ++ (p.body ++ (zipBytes ps ++ rest)) := by
      rw [← List.drop_drop, hd', List.drop_left]
    have d2 : data.drop (k + gap.length + 4) = p.body ++ (zipBytes ps ++ rest) := by
      rw [← List.drop_drop, d1, ← hml, List.drop_left]
    have d3 : data.drop (k + gap.length + 4 + p.body.length) = zipBytes ps ++ rest := by
      rw [← List.drop_drop, d2, List.drop_left]
    obtain ⟨hg1, hg2⟩ := hgaps
    obtain ⟨r1, r2⟩ := C101_record data s hs p (hg (gap, p) (by simp)) (k + gap.length + 4) (by rw [d2]; exact List.prefix_append ..)
    have hn := C101_next data s hs (k + gap.length) p.mark (part_mark p) (by rw [d1]; exact List.prefix_append ..) (8 * data.length + 1) k
      (by omega) (by omega) hg1
    unfold readRecords
    rw [if_pos (by omega), hn]
    simp only
    rw [show 8 * (k + gap.length) + 32 = 8 * (k + gap.length + 4) by omega, r1]
    simp only
    rw [r2, if_neg (by omega), show 8 * (k + gap.length + 4) + 8 * p.body.length = 8 * (k + gap.length + 4 + p.body.length) by omega,
      ih (fun q hq => hg q (by simp [hq])) (k + gap.length + 4 + p.body.length) fuel (by simp at hf; omega) (Or.inr (by omega)) (by omega) d3
        hg2 (by
          intro j hj
          apply hrest j
          rw [zipBytes]
          simp only [List.length_append, hml]
          omega)]
    rfl

/-- A file without any mark is refused. -/
theorem C101_no_records (data : Bytes) (s : InputStream) (hs : stringInputStream data = .ok s) (h0 : data ≠ [])
    (h : ∀ j, ¬ MarkAt data j) (fuel : Nat) : readRecords s (fuel + 1) 0 (8 * data.length) = .error .parser := by
  have hpos := List.length_pos_of_ne_nil h0
  unfold readRecords
  have := C101_no_next data s hs (8 * data.length + 1) 0 (by omega) (by omega) fun j _ => h j
  rw [Nat.mul_zero] at this
  rw [if_pos (by omega), this]
  rfl

/-! ## Extra fields -/

def extraBytes : List (Nat × Bytes) → Bytes
  | [] => []
  | (id, b) :: l => leBytes 2 id ++ leBytes 2 b.length ++ b ++ extraBytes l

def extraPlaces : Nat → List (Nat × Bytes) → List (Nat × Nat × Nat)
  | _, [] => []
  | k, (id, b) :: l => (id, 8 * (k + 4), b.length) :: extraPlaces (k + 4 + b.length) l

theorem C101_extras (data : Bytes) (s : InputStream) (hs : stringInputStream data = .ok s) (l : List (Nat × Bytes))
    (hl : ∀ p ∈ l, p.1 < 2 ^ 16 ∧ p.2.length < 2 ^ 16) (k fuel : Nat) (hf : l.length < fuel) (hp : extraBytes l <+: data.drop k) :
    readExtras s fuel (8 * k) (8 * (k + (extraBytes l).length)) = .ok (extraPlaces k l) := by
  induction l generalizing k fuel with
  | nil =>
    obtain ⟨fuel, rfl⟩ : ∃ f, fuel = f + 1 := ⟨fuel - 1, by simp at hf; omega⟩
    unfold readExtras
    rw [if_neg (by simp [extraBytes])]
    rfl
  | cons p l ih =>
    obtain ⟨id, b⟩ := p
    obtain ⟨fuel, rfl⟩ : ∃ f, fuel = f + 1 := ⟨fuel - 1, by simp at hf; omega⟩
    obtain ⟨h1, h2⟩ := hl (id, b) (by simp)
    have hp' : leBytes 2 id ++ (leBytes 2 b.length ++ (b ++ extraBytes l)) <+: data.drop k := by
      rw [extraBytes, List.append_assoc, List.append_assoc] at hp
      exact hp
    have p1 := drop_prefix hp'
    rw [leBytes_length] at p1
    have p2 := drop_prefix p1
    rw [leBytes_length] at p2
    have p3 := drop_prefix p2
    have r0 := read_num data s hs k 0 2 id (by omega) h1 (prefix_left hp')
    have r1 := read_num data s hs k 2 2 b.length (by omega) h2 (prefix_left p1)
    unfold readExtras
    rw [extraBytes]
    simp only [List.length_append, leBytes_length]
    rw [if_pos (by omega), r0, r1]
    simp only
    rw [show 8 * k + 32 + 8 * b.length = 8 * (k + 2 + 2 + b.length) by omega,
      show 8 * (k + (2 + 2 + b.length + (extraBytes l).length)) = 8 * (k + 2 + 2 + b.length + (extraBytes l).length) by omega,
      ih (fun q hq => hl q (by simp [hq])) (k + 2 + 2 + b.length) fuel (by simp at hf; omega) p3]
    simp only [extraPlaces]
    rw [show 8 * k + 32 = 8 * (k + 4) by omega]

/-! ## Content size -/

/-- The content is taken to end 22 bytes behind the first mark of an end of directory. -/
theorem C101_content_size_partial (data : Bytes) (s : InputStream) (hs : stringInputStream data = .ok s)
    (hmax : data.length ≤ 1000 * 1024 * 1024) (k : Nat) (hp : [0x50, 0x4b, 5, 6] <+: data.drop k)
    (hfirst : ∀ j, j < k → ¬ [0x50, 0x4b, 5, 6] <+: data.drop j) : contentSize s = .ok (some ((8 * (k + 22) : Nat) : Int)) := by
  have hl := hp.length_le
  rw [List.length_drop] at hl
  simp only [List.length_cons, List.length_nil] at hl
  obtain ⟨r, hr, hm⟩ := _root_.Props.C05_searchBytes data [0x50, 0x4b, 5, 6] s hs (by simp) 0 (some maxBits) data.length
    (by unfold maxBits; simp only; omega) (by omega)
  have hr' : searchBytes s [0x50, 0x4b, 5, 6] 0 (some (maxBits : Int)) = .ok r := hr
  unfold contentSize
  rw [hr']
  cases r with
  | none => exact absurd hp (hm k (by omega) (by simp only [List.length_cons, List.length_nil]; omega))
  | some a =>
    obtain ⟨k', rfl, h1, h2, h3, h4⟩ := hm
    have : k' = k := by
      rcases Nat.lt_trichotomy k' k with h | h | h
      · exact absurd h3 (hfirst k' h)
      · exact h
      · exact absurd hp (h4 k (by omega) h)
    subst this
    exact congrArg (fun z => Except.ok (some z)) (by push_cast; ring)

/-- Violation: the comment of the archive does not belong to the content. -/
theorem C101_comment_cut (pre : Bytes) (e : ZipEnd) (hc : e.comment ≠ []) (s : InputStream)
    (hs : stringInputStream (pre ++ ([0x50, 0x4b, 5, 6] ++ e.parts.flatten)) = .ok s)
    (hmax : (pre ++ ([0x50, 0x4b, 5, 6] ++ e.parts.flatten)).length ≤ 1000 * 1024 * 1024)
    (hfirst : ∀ j, j < pre.length → ¬ [0x50, 0x4b, 5, 6] <+: (pre ++ ([0x50, 0x4b, 5, 6] ++ e.parts.flatten)).drop j) :
    ∃ n : Nat, contentSize s = .ok (some (n : Int)) ∧ n < 8 * (pre ++ ([0x50, 0x4b, 5, 6] ++ e.parts.flatten)).length := by
  refine ⟨_, C101_content_size_partial _ s hs hmax pre.length (by rw [List.drop_left]; exact List.prefix_append ..) hfirst, ?_⟩
  have hpos := List.length_pos_of_ne_nil hc
  have hl : e.parts.flatten.length = 18 + e.comment.length := by
    unfold ZipEnd.parts
    simp only [List.flatten_cons, List.flatten_nil, List.append_nil, List.length_append, leBytes_length]
    omega
  rw [List.length_append, List.length_append, hl]
  simp only [List.length_cons, List.length_nil]
  omega

/-! ## Archives that were written to a pipe, and ZIP64 -/

/-- A file whose size is told only behind it: the header says zero, with the flag of a descriptor. -/
structure ZipPiped where
  common : ZipCommon
  name : Bytes
  extra : Bytes
  content : Bytes

structure ZipPiped.Good (i : ZipPiped) : Prop where
  common : i.common.Good i.name i.extra
  size : i.common.compressed = 0
  crc : i.common.crc = 0
  told : i.common.bit 3 = true
  complete : i.common.bit 12 = false

/-- Violation: the content of such a file is not found; its first twelve bytes are taken as the descriptor, and
its sizes are those bytes. -/
theorem C101_piped (data : Bytes) (s : InputStream) (hs : stringInputStream data = .ok s) (i : ZipPiped) (h : i.Good) (d : Descriptor)
    (hd : DescriptorGood d) (rest : Bytes) (hc : i.content = descriptorBytes d ++ rest) (k : Nat)
    (hp : (i.common.parts i.name i.extra).flatten ++ i.name ++ i.extra ++ i.content <+: data.drop k) :
    ∃ f, readFile s (8 * k) = .ok f ∧ f.data = none ∧ f.desc = some d ∧ (shownSizes f).1 = d.uncompressed := by
  rw [hc, ← List.append_assoc] at hp
  have g := C101_file data s hs ⟨i.common, i.name, i.extra, [], some d⟩
    ⟨h.common, by simpa using h.size, fun _ => h.complete, by simp [h.told, h.crc], by simpa using hd⟩ k (by
      refine List.IsPrefix.trans ?_ hp
      unfold ZipItem.bytes
      simp)
  exact ⟨_, g, rfl, rfl, rfl⟩

/-- Violation: a descriptor that begins with its mark is read with the mark as check sum, the check sum as
compressed size and the compressed size as size of the file. -/
theorem C101_marked_descriptor (data : Bytes) (s : InputStream) (hs : stringInputStream data = .ok s) (c : ZipCommon) (name extra content : Bytes)
    (hc : c.Good name extra) (hsize : c.compressed = content.length) (h0 : content ≠ []) (hcrc : c.crc = 0) (hbit : c.bit 3 = true)
    (d : Descriptor) (hd : DescriptorGood d) (k : Nat)
    (hp : (c.parts name extra).flatten ++ name ++ extra ++ content ++ ([0x50, 0x4b, 7, 8] ++ descriptorBytes d) <+: data.drop k) :
    ∃ f, readFile s (8 * k) = .ok f ∧ f.desc = some ⟨0x08074b50, d.crc, d.compressed⟩ ∧ (shownSizes f).1 = d.compressed := by
  have g := C101_file data s hs ⟨c, name, extra, content, some ⟨0x08074b50, d.crc, d.compressed⟩⟩
    ⟨hc, hsize, fun h => absurd h h0, by simp [hcrc, hbit], by
      intro x hx
      rw [Option.mem_some_iff] at hx
      subst hx
      exact ⟨by simp only; omega, hd.1, hd.2.1⟩⟩ k (by
      refine List.IsPrefix.trans ?_ hp
      unfold ZipItem.bytes
      simp only [Option.map_some, Option.getD_some]
      have : ([0x50, 0x4b, 7, 8] : Bytes) = leBytes 4 0x08074b50 := by decide
      rw [this]
      unfold descriptorBytes
      simp)
  exact ⟨_, g, rfl, rfl⟩

/-- The end of the directory in ZIP64: the size of what follows the first twelve bytes of the record, the other
numbers, and further data. -/
structure Zip64Spec where
  made : Nat
  needed : Nat
  disk : Nat
  disk2 : Nat
  entries : Nat
  entries2 : Nat
  dirSize : Nat
  dirOffset : Nat
  more : Bytes

def Zip64Spec.parts (e : Zip64Spec) : List Bytes :=
  [leBytes 8 (44 + e.more.length), leBytes 2 e.made, leBytes 2 e.needed, leBytes 4 e.disk, leBytes 4 e.disk2, leBytes 8 e.entries,
    leBytes 8 e.entries2, leBytes 8 e.dirSize, leBytes 8 e.dirOffset, e.more]

/-- Violation: the record is taken to be 44 bytes longer than it is, so that the locator and the end of the
directory behind it are not seen. -/
theorem C101_zip64 (data : Bytes) (s : InputStream) (hs : stringInputStream data = .ok s) (e : Zip64Spec)
    (h : e.entries2 < 2 ^ 64 ∧ e.dirSize < 2 ^ 64 ∧ e.dirOffset < 2 ^ 64 ∧ 44 + e.more.length < 2 ^ 64) (k : Nat)
    (hp : e.parts.flatten <+: data.drop k) :
    readEnd64 s (8 * k) = .ok ⟨44 + e.more.length, e.entries2, e.dirSize, e.dirOffset, 8 * (e.parts.flatten.length + 44)⟩ := by
  have hl : e.parts.flatten.length = 52 + e.more.length := by
    unfold Zip64Spec.parts
    simp only [List.flatten_cons, List.flatten_nil, List.append_nil, List.length_append, leBytes_length]
    omega
  have hp' := hp
  unfold Zip64Spec.parts at hp'
  have r0 := read_num data s hs k 0 8 (44 + e.more.length) (by omega) h.2.2.2 (record_part _ 0 _ rfl _ (by simp) hp')
  have r1 := read_num data s hs k 28 8 e.entries2 (by omega) h.1 (record_part _ 6 _ rfl _ (by simp [leBytes_length]) hp')
  have r2 := read_num data s hs k 36 8 e.dirSize (by omega) h.2.1 (record_part _ 7 _ rfl _ (by simp [leBytes_length]) hp')
  have r3 := read_num data s hs k 44 8 e.dirOffset (by omega) h.2.2.1 (record_part _ 8 _ rfl _ (by simp [leBytes_length]) hp')
  unfold readEnd64
  rw [r0, r1, r2, r3, hl]
  show Except.ok _ = _
  exact congrArg (fun n => Except.ok (Zip.End64.mk (44 + e.more.length) e.entries2 e.dirSize e.dirOffset n)) (by omega)

/-- A file marked as incomplete reaches to the next descriptor, which must tell its size. -/
theorem C101_resync (data : Bytes) (s : InputStream) (hs : stringInputStream data = .ok s) (c : Zip.Common) (content : Bytes)
    (h0 : content ≠ []) (d : Descriptor) (hd : DescriptorGood d) (hsize : d.compressed = content.length) (k : Nat)
    (hp : content ++ ([0x50, 0x4b, 7, 8] ++ descriptorBytes d) <+: data.drop k)
    (hno : ∀ j, k ≤ j → j < k + content.length → ¬ [0x50, 0x4b, 7, 8] <+: data.drop j) :
    resync s c (8 * k) = .ok ((8 * k, 8 * content.length), d, 8 * (k + content.length + 16)) := by
  have hpos := List.length_pos_of_ne_nil h0
  have hl := hp.length_le
  rw [List.length_drop] at hl
  simp only [List.length_append, List.length_cons, List.length_nil, descriptor_length] at hl
  have p1 := drop_prefix hp
  have p2 := drop_prefix p1
  have hmark := prefix_left p1
  obtain ⟨r, hr, hm⟩ := _root_.Props.C05_searchBytes data [0x50, 0x4b, 7, 8] s hs (by simp) k none data.length (by simp) (by omega)
  cases r with
  | none => exact absurd hmark (hm (k + content.length) (by omega) (by simp only [List.length_cons, List.length_nil]; omega))
  | some a =>
    obtain ⟨p, rfl, h1, h2, h3, h4⟩ := hm
    have hpe : p = k + content.length := by
      rcases Nat.lt_trichotomy p (k + content.length) with h | h | h
      · exact absurd h3 (hno p h1 h)
      · exact h
      · exact absurd hmark (h4 (k + content.length) (by omega) h)
    have hr' : searchBytes s [0x50, 0x4b, 7, 8] ((8 * k : Nat) : Int) none = .ok (some (((8 * k : Nat) : Int) + 8 * (content.length : Int))) := by
      rw [show ((8 * k : Nat) : Int) + 8 * (content.length : Int) = 8 * (p : Int) by rw [hpe]; push_cast; ring]
      exact hr
    unfold resync descriptorMark
    rw [(_root_.Props.C05_searchBytesLength s _ _ none _ hr').1]
    simp only
    rw [if_neg (by omega), Int.toNat_natCast, show 8 * k + 8 * content.length + 32 = 8 * (k + content.length + 4) by omega,
      read_descriptor data s hs d hd (k + content.length + 4) p2]
    simp only
    rw [if_neg (by rw [hsize]; simp)]
    exact congrArg (fun n => Except.ok ((8 * k, 8 * content.length), d, n)) (by omega)

/-- Violation: an empty file of unknown size, whose descriptor follows at once, is refused. -/
theorem C101_resync_empty (data : Bytes) (s : InputStream) (hs : stringInputStream data = .ok s) (c : Zip.Common) (k : Nat)
    (hp : [0x50, 0x4b, 7, 8] <+: data.drop k) : resync s c (8 * k) = .error .parser := by
  have hl := hp.length_le
  rw [List.length_drop] at hl
  simp only [List.length_cons, List.length_nil] at hl
  obtain ⟨r, hr, hm⟩ := _root_.Props.C05_searchBytes data [0x50, 0x4b, 7, 8] s hs (by simp) k none data.length (by simp) (by omega)
  cases r with
  | none => exact absurd hp (hm k (by omega) (by simp only [List.length_cons, List.length_nil]; omega))
  | some a =>
    obtain ⟨p, rfl, h1, h2, h3, h4⟩ := hm
    have hpe : p = k := by
      rcases Nat.lt_or_eq_of_le h1 with h | h
      · exact absurd hp (h4 k (by omega) h)
      · exact h.symm
    have hr' : searchBytes s [0x50, 0x4b, 7, 8] ((8 * k : Nat) : Int) none = .ok (some (((8 * k : Nat) : Int) + 8 * ((0 : Nat) : Int))) := by
      rw [show ((8 * k : Nat) : Int) + 8 * ((0 : Nat) : Int) = 8 * (p : Int) by rw [hpe]; push_cast; ring]
      exact hr
    unfold resync descriptorMark
    rw [(_root_.Props.C05_searchBytesLength s _ _ none _ hr').1]
    rfl

/-- Violation: the twelve bytes behind the mark of a spanned archive are read as a descriptor, though a record follows at once. -/
theorem C101_spanning (data : Bytes) (s : InputStream) (hs : stringInputStream data = .ok s) (d : Descriptor) (h : DescriptorGood d)
    (k : Nat) (hp : descriptorBytes d <+: data.drop k) : readRecord s 0x30304b50 (8 * k) = .ok (.descriptor d) := by
  rw [readRecord, if_neg (by decide), if_pos (.inr rfl), read_descriptor data s hs d h k hp]
  rfl

/-! ## Examples -/

/-- A stored file `a` with the content `hi`. -/
def sampleZipFile : ZipItem := ⟨⟨20, 0, 0, 0, 0x5a21, 0xd8932aac, 2, 2⟩, [97], [], [104, 105], none⟩

def sampleZipEntry : ZipEntry := ⟨20, 3, sampleZipFile.common, 0, 0, 0, 0, [97], [], [99]⟩

def sampleZipEnd : ZipEnd := ⟨0, 0, 1, 1, 48, 35, [99, 99]⟩

def sampleZip : List (Bytes × ZipPart) := [([], .file sampleZipFile), ([0x50, 0x4b], .entry sampleZipEntry), ([], .ending sampleZipEnd)]

theorem sampleZip_good : ∀ p ∈ sampleZip, p.2.Good := by
  intro p hp
  simp only [sampleZip, List.mem_cons, List.not_mem_nil, or_false] at hp
  rcases hp with rfl | rfl | rfl
  · exact ⟨⟨by decide, by decide, by decide, by decide, by decide, by decide, by decide, by decide⟩, by decide, by decide, by decide,
      by intro d h; cases h⟩
  · exact ⟨⟨by decide, by decide, by decide, by decide, by decide, by decide, by decide, by decide⟩, by decide, by decide, by decide,
      by decide, by decide, by decide⟩
  · exact ⟨by decide, by decide, by decide, by decide, by decide, by decide, by decide⟩

instance (data : Bytes) (k : Nat) : Decidable (MarkAt data k) := by
  unfold MarkAt
  infer_instance

theorem sampleZip_gaps : GapsGood (zipBytes sampleZip) 0 sampleZip := by
  refine ⟨fun j _ h => absurd h (by simp), ⟨?_, ⟨fun j h1 h2 => ?_, trivial⟩⟩⟩
  · intro j h1 h2
    have h1' : 33 ≤ j := h1
    have h2' : j < 35 := h2
    rcases (by omega : j = 33 ∨ j = 34) with rfl | rfl <;> decide
  · simp only [List.length_nil] at h2
    omega

example (s : InputStream) (hs : stringInputStream (zipBytes sampleZip) = .ok s) :
    readRecords s 4 0 (8 * (zipBytes sampleZip).length) = .ok (zipPlaces 0 sampleZip) :=
  C101_archive _ s hs sampleZip sampleZip_good [] 0 4 (by decide) (Or.inl (by decide)) (by omega) (by simp) sampleZip_gaps (by
    rintro j hj ⟨m, hm, hp⟩
    have := hp.length_le
    rw [List.length_drop, (mark_length m hm).1] at this
    omega)

example : (zipPlaces 0 sampleZip).map Prod.fst = [0, 280, 664] := by decide

example (s : InputStream) (hs : stringInputStream [1, 0, 1, 0, 9, 0x75, 0x70, 0, 0, 7] = .ok s) :
    readExtras s 3 0 72 = .ok [(1, 32, 1), (0x7075, 72, 0)] :=
  C101_extras _ s hs [(1, [9]), (0x7075, [])] (by decide) 0 3 (by decide) (by decide)

example (s : InputStream) (hs : stringInputStream (zipBytes sampleZip) = .ok s) : contentSize s = .ok (some ((8 * 105 : Nat) : Int)) :=
  C101_content_size_partial _ s hs (by decide) 83 (by decide) (by decide)

example (s : InputStream) (hs : stringInputStream (zipBytes (sampleZip.take 2) ++ ([0x50, 0x4b, 5, 6] ++ sampleZipEnd.parts.flatten)) = .ok s) :
    ∃ n : Nat, contentSize s = .ok (some (n : Int)) ∧ n < 8 * 107 :=
  C101_comment_cut (zipBytes (sampleZip.take 2)) sampleZipEnd (by decide) s hs (by decide) (by decide)

/-- A file written to a pipe, whose compressed content begins with twelve bytes. -/
def samplePiped : ZipPiped := ⟨⟨20, 0, 8, 8, 0, 0, 0, 0⟩, [97], [], [1, 0, 0, 0, 2, 0, 0, 0, 3, 0, 0, 0, 4]⟩

example (s : InputStream)
    (hs : stringInputStream ((samplePiped.common.parts [97] []).flatten ++ [97] ++ [] ++ samplePiped.content) = .ok s) :
    ∃ f, readFile s 0 = .ok f ∧ f.data = none ∧ f.desc = some ⟨1, 2, 3⟩ ∧ (shownSizes f).1 = 3 :=
  C101_piped _ s hs samplePiped
    ⟨⟨by decide, by decide, by decide, by decide, by decide, by decide, by decide, by decide⟩, rfl, rfl, by decide, by decide⟩
    ⟨1, 2, 3⟩ ⟨by decide, by decide, by decide⟩ [4] (by decide) 0 (List.prefix_refl _)

example (s : InputStream) (hs : stringInputStream ((ZipCommon.parts ⟨20, 0, 8, 8, 0, 0, 2, 3⟩ [97] []).flatten ++ [97] ++ [] ++ [7, 8] ++
      ([0x50, 0x4b, 7, 8] ++ descriptorBytes ⟨5, 2, 3⟩)) = .ok s) :
    ∃ f, readFile s 0 = .ok f ∧ f.desc = some ⟨0x08074b50, 5, 2⟩ ∧ (shownSizes f).1 = 2 :=
  C101_marked_descriptor _ s hs ⟨20, 0, 8, 8, 0, 0, 2, 3⟩ [97] [] [7, 8]
    ⟨by decide, by decide, by decide, by decide, by decide, by decide, by decide, by decide⟩ rfl (by decide) rfl (by decide)
    ⟨5, 2, 3⟩ ⟨by decide, by decide, by decide⟩ 0 (List.prefix_refl _)

def sample64 : Zip64Spec := ⟨45, 45, 0, 0, 1, 1, 47, 33, []⟩

example (s : InputStream) (hs : stringInputStream sample64.parts.flatten = .ok s) :
    readEnd64 s 0 = .ok ⟨44, 1, 47, 33, 8 * 96⟩ :=
  C101_zip64 _ s hs sample64 (by decide) 0 (List.prefix_refl _)

example (s : InputStream) (c : Zip.Common) (hs : stringInputStream ([7, 8] ++ ([0x50, 0x4b, 7, 8] ++ descriptorBytes ⟨5, 2, 3⟩)) = .ok s) :
    resync s c 0 = .ok ((0, 16), ⟨5, 2, 3⟩, 144) :=
  C101_resync _ s hs c [7, 8] (by decide) ⟨5, 2, 3⟩ ⟨by decide, by decide, by decide⟩ rfl 0 (List.prefix_refl _) (by
    intro j _ h
    have h' : j < 2 := h
    rcases (by omega : j = 0 ∨ j = 1) with rfl | rfl <;> decide)

end Hachoir.Props
