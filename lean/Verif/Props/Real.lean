import Verif.Formats.Real
import Verif.Props.Disks
import Verif.Props.Packed

/-!
# RealAudio and RealMedia files
-/

namespace Hachoir.Props
open Hachoir Hachoir.Stream Hachoir.Field Hachoir.Formats Spec

theorem reads_pascal16 (charset : Charset) (hc : charset ≠ .unknown ∧ charset ≠ .utf16bom ∧ charset ≠ .utf32bom) (b : Bytes) (hb : b.length < 65536) :
    Reads (Rd.text .big .pascal16 charset none) b (beBytes 2 b.length ++ b) := by
  intro data s hs k stop hp hst
  obtain ⟨t, ht⟩ := hp
  obtain ⟨r1, r2⟩ := C50_pascal_partial hs .big (by decide) k .pascal16 2 rfl (beBytes 2 b.length) b t (beBytes_length 2 _) (by rw [← ht, List.append_assoc])
    ((beBytes_big 2 b.length (by omega)).2) charset hc
  rw [Rd.text, r1]
  simp only []
  rw [r2]
  simp only [List.length_append, beBytes_length, Except.ok.injEq, Prod.mk.injEq, true_and]
  omega

section
open Real

/-- A text behind its length. -/
def short (b : Bytes) : Bytes := UInt8.ofNat b.length :: b
def long (b : Bytes) : Bytes := beBytes 2 b.length ++ b

theorem reads_short (b : Bytes) (hb : b.length < 256) : Reads (Rd.text .big .pascal8 .eightBit none) b (short b) := reads_pascal8 .big (by decide) .eightBit (by decide) b hb

theorem reads_long (b : Bytes) (hb : b.length < 65536) : Reads (Rd.text .big .pascal16 .eightBit none) b (long b) := reads_pascal16 .eightBit (by decide) b hb

def raInfo (i : Info) : Bytes := short i.title ++ (short i.author ++ (short i.copyright ++ short i.comment))

def RmInfoGood (n : Nat) (i : Info) : Prop := i.title.length < n ∧ i.author.length < n ∧ i.copyright.length < n ∧ i.comment.length < n

theorem reads_ra_info (i : Info) (g : RmInfoGood 256 i) : Reads info i (raInfo i) := by
  obtain ⟨h1, h2, h3, h4⟩ := g
  refine Reads.bind (reads_short _ h1) ?_
  refine Reads.bind (reads_short _ h2) ?_
  refine Reads.bind (reads_short _ h3) ?_
  exact Reads.map (f := fun x => Info.mk i.title i.author i.copyright x) (reads_short _ h4)

def ra3 (h : Version3) : Bytes := beBytes 2 h.headerSize ++ (h.unknown1 ++ (beBytes 4 h.dataSize ++ (raInfo h.info ++ (beBytes 1 h.unknown2 ++ short h.fourcc))))

structure Ra3Good (h : Version3) : Prop where
  headerSize : h.headerSize < 65536
  unknown1 : h.unknown1.length = 10
  dataSize : h.dataSize < 2 ^ 32
  info : RmInfoGood 256 h.info
  unknown2 : h.unknown2 < 256
  fourcc : h.fourcc.length < 256

def ra4 (h : Version4) : Bytes :=
  beBytes 2 h.reserved ++ (h.signature ++ (beBytes 4 h.fileSize ++ (beBytes 2 h.version2 ++ (beBytes 4 h.headerSize ++ (beBytes 2 h.flavor ++ (beBytes 4 h.codedFrameSize ++
  (h.unknown1 ++ (beBytes 2 h.subpacketH ++ (beBytes 2 h.frameSize ++ (beBytes 2 h.subpacketSize ++ (beBytes 2 h.unknown2 ++ (beBytes 2 h.sampleRate ++ (beBytes 2 h.unknown3 ++
  (beBytes 2 h.sampleSize ++ (beBytes 2 h.channels ++ (short h.interleaving ++ (short h.fourcc ++ (h.unknown4 ++ raInfo h.info))))))))))))))))))

structure Ra4Good (h : Version4) : Prop where
  words : h.reserved < 65536 ∧ h.version2 < 65536 ∧ h.flavor < 65536 ∧ h.subpacketH < 65536 ∧ h.frameSize < 65536 ∧ h.subpacketSize < 65536 ∧ h.unknown2 < 65536 ∧
    h.sampleRate < 65536 ∧ h.unknown3 < 65536 ∧ h.sampleSize < 65536 ∧ h.channels < 65536
  longs : h.fileSize < 2 ^ 32 ∧ h.headerSize < 2 ^ 32 ∧ h.codedFrameSize < 2 ^ 32
  bytes : h.signature.length = 4 ∧ h.unknown1.length = 12 ∧ h.unknown4.length = 3
  texts : h.interleaving.length < 256 ∧ h.fourcc.length < 256
  info : RmInfoGood 256 h.info

theorem reads_ra3 (h : Version3) (g : Ra3Good h) : Reads version3 h (ra3 h) := by
  obtain ⟨h1, h2, h3, h4, h5, h6⟩ := g
  refine Reads.bind (reads_int_be 2 _ (by omega) (by omega)) ?_
  refine Reads.bind (reads_raw_n 10 _ h2 (by omega)) ?_
  refine Reads.bind (reads_int_be 4 _ (by omega) (by omega)) ?_
  refine Reads.bind (reads_ra_info _ h4) ?_
  refine Reads.bind (reads_int_be 1 _ (by omega) (by omega)) ?_
  exact Reads.map (f := fun x => Version3.mk h.headerSize h.unknown1 h.dataSize h.info h.unknown2 x) (reads_short _ h6)

theorem reads_ra4 (h : Version4) (g : Ra4Good h) : Reads version4 h (ra4 h) := by
  obtain ⟨⟨w1, w2, w3, w4, w5, w6, w7, w8, w9, w10, w11⟩, ⟨l1, l2, l3⟩, ⟨b1, b2, b3⟩, ⟨t1, t2⟩, hi⟩ := g
  refine Reads.bind (reads_int_be 2 _ (by omega) (by omega)) ?_
  refine Reads.bind (reads_fixed .big .eightBit (by decide) 4 _ b1 (by omega)) ?_
  refine Reads.bind (reads_int_be 4 _ (by omega) (by omega)) ?_
  refine Reads.bind (reads_int_be 2 _ (by omega) (by omega)) ?_
  refine Reads.bind (reads_int_be 4 _ (by omega) (by omega)) ?_
  refine Reads.bind (reads_int_be 2 _ (by omega) (by omega)) ?_
  refine Reads.bind (reads_int_be 4 _ (by omega) (by omega)) ?_
  refine Reads.bind (reads_raw_n 12 _ b2 (by omega)) ?_
  refine Reads.bind (reads_int_be 2 _ (by omega) (by omega)) ?_
  refine Reads.bind (reads_int_be 2 _ (by omega) (by omega)) ?_
  refine Reads.bind (reads_int_be 2 _ (by omega) (by omega)) ?_
  refine Reads.bind (reads_int_be 2 _ (by omega) (by omega)) ?_
  refine Reads.bind (reads_int_be 2 _ (by omega) (by omega)) ?_
  refine Reads.bind (reads_int_be 2 _ (by omega) (by omega)) ?_
  refine Reads.bind (reads_int_be 2 _ (by omega) (by omega)) ?_
  refine Reads.bind (reads_int_be 2 _ (by omega) (by omega)) ?_
  refine Reads.bind (reads_short _ t1) ?_
  refine Reads.bind (reads_short _ t2) ?_
  refine Reads.bind (reads_raw_n 3 _ b3 (by omega)) ?_
  exact Reads.map (f := fun x => Version4.mk h.reserved h.signature h.fileSize h.version2 h.headerSize h.flavor h.codedFrameSize h.unknown1 h.subpacketH h.frameSize h.subpacketSize
    h.unknown2 h.sampleRate h.unknown3 h.sampleSize h.channels h.interleaving h.fourcc h.unknown4 x) (reads_ra_info _ hi)

def raHead : Real.Head → Bytes
  | .v3 h => ra3 h
  | .v4 h => ra4 h

/-- A file of version 3, or of version 4: what follows the header is as long as the header tells (version 4: the whole file has 40 bytes more than told, the header 16). -/
inductive RaGood : Real.Audio → Prop where
  | v3 (h : Version3) (data : Bytes) : Ra3Good h → data.length = h.dataSize → RaGood ⟨[0x2E, 0x72, 0x61, 0xFD], 3, .v3 h, data⟩
  | v4 (h : Version4) (data : Bytes) : Ra4Good h → data.length + (h.headerSize + 16) = h.fileSize + 40 → RaGood ⟨[0x2E, 0x72, 0x61, 0xFD], 4, .v4 h, data⟩

def raBytes (a : Real.Audio) : Bytes := a.signature ++ (beBytes 2 a.version ++ (raHead a.head ++ a.data))

theorem reads_ra_data (n : Int) (b : Bytes) (h : (b.length : Int) = n) : Reads (audioData n) b b := by
  subst h
  rw [audioData]
  by_cases hb : b = []
  · subst hb
    exact reads_pure _
  · have := List.length_pos_iff.2 hb
    rw [if_pos (by omega), Int.toNat_natCast]
    exact reads_raw b hb

/-- **C143**: all RealAudio files of version 3 and 4 are read as they were written, and accepted. -/
theorem C143_audio (a : Real.Audio) (g : RaGood a) : Reads audio a (raBytes a) ∧ audioValid a = true := by
  cases g with
  | v3 h data gh hl =>
    refine ⟨?_, rfl⟩
    refine Reads.bind (reads_raw_n 4 [0x2E, 0x72, 0x61, 0xFD] rfl (by omega)) ?_
    refine Reads.bind (reads_int_be 2 3 (by omega) (by omega)) ?_
    refine Reads.bind (v := .v3 h) ?_ ?_
    · rw [Real.head, if_pos rfl]
      exact Reads.map (f := Head.v3) (reads_ra3 h gh)
    · exact Reads.map (f := fun x => Audio.mk [0x2E, 0x72, 0x61, 0xFD] 3 (.v3 h) x) (reads_ra_data _ data (by rw [hl]; rfl))
  | v4 h data gh hl =>
    refine ⟨?_, rfl⟩
    refine Reads.bind (reads_raw_n 4 [0x2E, 0x72, 0x61, 0xFD] rfl (by omega)) ?_
    refine Reads.bind (reads_int_be 2 4 (by omega) (by omega)) ?_
    refine Reads.bind (v := .v4 h) ?_ ?_
    · rw [Real.head, if_neg (by decide)]
      exact Reads.map (f := Head.v4) (reads_ra4 h gh)
    · refine Reads.map (f := fun x => Audio.mk [0x2E, 0x72, 0x61, 0xFD] 4 (.v4 h) x) (reads_ra_data _ data ?_)
      show (data.length : Int) = ((h.fileSize : Int) + 40) - (h.headerSize + 16)
      omega

/-- **C143**: other signatures and versions are refused. -/
theorem C143_audio_valid (a : Real.Audio) : audioValid a = true ↔ a.signature = [0x2E, 0x72, 0x61, 0xFD] ∧ (a.version = 3 ∨ a.version = 4) := by
  rw [audioValid, Bool.and_eq_true, Bool.or_eq_true, beq_iff_eq, beq_iff_eq, beq_iff_eq]

/-- **C143**: the duration told is that of the data at the codec's rate: 8 bits a byte, 15200 or 8000 bits a second. -/
theorem C143_duration (a : Real.Audio) (g : RaGood a) (hd : a.data ≠ []) (r : Nat)
    (hr : fourccOf a.head = "28_8".toUTF8.toList ∧ r = 15200 ∨ (fourccOf a.head = "14_4".toUTF8.toList ∨ fourccOf a.head = "lpcJ".toUTF8.toList) ∧ r = 8000) :
    durationOf a.head = some (((8 * a.data.length : Nat) : Int), r) := by
  have e : audioSize a.head = a.data.length := by
    cases g with
    | v3 h data gh hl => rw [hl]; rfl
    | v4 h data gh hl =>
      show ((h.fileSize : Int) + 40) - (h.headerSize + 16) = (data.length : Int)
      omega
  have := List.length_pos_iff.2 hd
  have hb : bitRate (fourccOf a.head) = some r := by
    rw [show "28_8".toUTF8.toList = [0x32, 0x38, 0x5F, 0x38] by decide +kernel, show "14_4".toUTF8.toList = [0x31, 0x34, 0x5F, 0x34] by decide +kernel,
      show "lpcJ".toUTF8.toList = [0x6C, 0x70, 0x63, 0x4A] by decide +kernel] at hr
    rcases hr with ⟨h, rfl⟩ | ⟨h | h, rfl⟩ <;> rw [h] <;> rfl
  rw [durationOf, if_neg (by omega), hb, e]
  simp only [Option.some.injEq, Prod.mk.injEq, and_true]
  omega

example : RaGood ⟨[0x2E, 0x72, 0x61, 0xFD], 3, .v3 ⟨60, List.replicate 10 0, 5, ⟨[0x61], [], [0x62, 0x63], []⟩, 12, [0x6C, 0x70, 0x63, 0x4A]⟩, [1, 2, 3, 4, 5]⟩ :=
  .v3 _ _ ⟨by decide, rfl, by decide, by unfold RmInfoGood; decide, by decide, by decide⟩ rfl

/-! ## RealMedia -/

def rmFile (p : FileProp) : Bytes := p.numbers.flatMap (beBytes 4) ++ (beBytes 2 p.streams ++ beBytes 2 (joinBE [13, 1, 1, 1] p.flags))

def RmFileGood (p : FileProp) : Prop := p.numbers.length = 9 ∧ (∀ n ∈ p.numbers, n < 2 ^ 32) ∧ p.streams < 65536 ∧ Fit [13, 1, 1, 1] p.flags

theorem reads_rm_file (p : FileProp) (g : RmFileGood p) : Reads fileProp p (rmFile p) := by
  obtain ⟨h1, h2, h3, h4⟩ := g
  refine Reads.bind (reads_times_n _ (beBytes 4) p.numbers _ h1.symm fun n hn => reads_int_be 4 n (by omega) (h2 n hn)) ?_
  refine Reads.bind (reads_int_be 2 _ (by omega) (by omega)) ?_
  exact Reads.map (f := fun x => FileProp.mk p.numbers p.streams x) (reads_packed_be 2 _ _ (by omega) rfl h4)

def rmDesc (i : Info) : Bytes := long i.title ++ (long i.author ++ (long i.copyright ++ long i.comment))

theorem reads_rm_desc (i : Info) (g : RmInfoGood 65536 i) : Reads contentDesc i (rmDesc i) := by
  obtain ⟨h1, h2, h3, h4⟩ := g
  refine Reads.bind (reads_long _ h1) ?_
  refine Reads.bind (reads_long _ h2) ?_
  refine Reads.bind (reads_long _ h3) ?_
  exact Reads.map (f := fun x => Info.mk i.title i.author i.copyright x) (reads_long _ h4)

def rmPropContent (p : Prop_) : Bytes := beBytes 2 p.version ++ (short p.name ++ (beBytes 4 p.type ++ long p.value))

def rmProp (p : Prop_) : Bytes := beBytes 4 p.size ++ rmPropContent p

structure RmPropGood (p : Prop_) : Prop where
  size : p.size = 4 + (rmPropContent p).length
  version : p.version < 65536
  name : p.name.length < 256
  type : p.type < 2 ^ 32
  value : p.value.length < 65536

theorem reads_rm_prop (p : Prop_) (g : RmPropGood p) : Reads prop p (rmProp p) := by
  obtain ⟨h1, h2, h3, h4, h5⟩ := g
  have hl : (rmPropContent p).length = 2 + ((1 + p.name.length) + (4 + (2 + p.value.length))) := by
    simp [rmPropContent, short, long, beBytes_length]; omega
  refine Reads.bind (reads_int_be 4 _ (by omega) (by omega)) ?_
  rw [if_neg (by omega)]
  refine ReadsAll.within (Reads.all ?_) _ (by omega)
  refine Reads.bind (reads_int_be 2 _ (by omega) (by omega)) ?_
  refine Reads.bind (reads_short _ h3) ?_
  refine Reads.bind (reads_int_be 4 _ (by omega) (by omega)) ?_
  exact Reads.map (f := fun x => Prop_.mk p.size p.version p.name p.type x) (reads_long _ h5)

/-- Information about the file as the format wants it: the places of streams are numbers of 4 bytes. -/
def rmLogical (l : Logical) : Bytes :=
  beBytes 4 l.size ++ (beBytes 2 l.version ++ (beBytes 2 l.streams.length ++ (l.streams.flatMap (beBytes 2) ++ (l.offsets.flatMap (beBytes 4) ++ (beBytes 2 l.rules.length ++
  (l.rules.flatMap (beBytes 2) ++ (beBytes 2 l.props.length ++ l.props.flatMap rmProp)))))))

structure RmLogicalGood (l : Logical) : Prop where
  size : l.size < 2 ^ 32
  version : l.version < 65536
  streams : l.streams.length < 65536 ∧ ∀ n ∈ l.streams, n < 65536
  offsets : l.offsets.length = l.streams.length ∧ ∀ n ∈ l.offsets, n < 2 ^ 32
  rules : l.rules.length < 65536 ∧ ∀ n ∈ l.rules, n < 65536
  props : l.props.length < 65536 ∧ ∀ p ∈ l.props, RmPropGood p

theorem reads_rm_logical (l : Logical) (g : RmLogicalGood l) (h0 : l.streams = []) : Reads logical l (rmLogical l) := by
  obtain ⟨h1, h2, h3, ⟨h4, -⟩, ⟨h5, h6⟩, h7, h8⟩ := g
  obtain ⟨size, version, streams, offsets, rules, props⟩ := l
  simp only at h0 h1 h2 h3 h4 h5 h6 h7 h8
  subst h0
  have ho : offsets = [] := List.length_eq_zero_iff.1 h4
  subst ho
  refine Reads.bind (reads_int_be 4 _ (by omega) (by omega)) ?_
  refine Reads.bind (reads_int_be 2 _ (by omega) (by omega)) ?_
  refine Reads.bind (reads_int_be 2 _ (by omega) (by simp)) ?_
  refine Reads.bind (reads_times_n _ (beBytes 2) [] _ rfl (by simp)) ?_
  refine Reads.bind (reads_times_n _ (beBytes 2) [] _ rfl (by simp)) ?_
  refine Reads.bind (reads_int_be 2 _ (by omega) (by simp only; omega)) ?_
  refine Reads.bind (reads_times_n _ (beBytes 2) rules _ rfl fun n hn => reads_int_be 2 n (by omega) (h6 n hn)) ?_
  refine Reads.bind (reads_int_be 2 _ (by omega) (by simp only; omega)) ?_
  exact Reads.map (f := fun x => Logical.mk size version [] [] rules x) (reads_times_n _ rmProp props _ rfl fun p hp => reads_rm_prop p (h8 p hp))

theorem beBytes_halves (n : Nat) (h : n < 2 ^ 32) : beBytes 4 n = beBytes 2 (n / 65536) ++ beBytes 2 (n % 65536) := by
  have h2 : ofBytesBE (beBytes 2 (n / 65536) ++ beBytes 2 (n % 65536)) = n := by
    rw [ofBytesBE_append, beBytes_length, (beBytes_big 2 (n / 65536) (by omega)).2, (beBytes_big 2 (n % 65536) (by omega)).2]
    omega
  have h3 := beBytes_ofBytesBE (beBytes 2 (n / 65536) ++ beBytes 2 (n % 65536))
  rw [h2, List.length_append, beBytes_length, beBytes_length] at h3
  exact h3

/-- Violation: places of streams are read as numbers of 2 bytes, so that what follows is misread: with one stream, at a multiple of 65536, all properties of the file are lost. -/
theorem C143_logical_wrong (size version stream m : Nat) (h1 : size < 2 ^ 32) (h2 : version < 65536) (h3 : stream < 65536) (h4 : m < 65536) (props : List Prop_) :
    ∃ front rest : Bytes, rmLogical ⟨size, version, [stream], [65536 * m], [], props⟩ = front ++ rest ∧ Reads logical ⟨size, version, [stream], [m], [], []⟩ front := by
  have e1 : 65536 * m / 65536 = m := by omega
  have e2 : 65536 * m % 65536 = 0 := by omega
  refine ⟨beBytes 4 size ++ (beBytes 2 version ++ (beBytes 2 1 ++ ([stream].flatMap (beBytes 2) ++ ([m].flatMap (beBytes 2) ++ (beBytes 2 0 ++ (([] : List Nat).flatMap (beBytes 2) ++
    (beBytes 2 0 ++ ([] : List Prop_).flatMap rmProp))))))), beBytes 2 props.length ++ props.flatMap rmProp, ?_, ?_⟩
  · rw [rmLogical]
    simp only [List.flatMap_cons, List.flatMap_nil, List.append_nil, List.nil_append, List.length_nil, List.length_singleton, List.append_assoc]
    rw [beBytes_halves (65536 * m) (by omega), e1, e2]
    simp only [List.append_assoc]
  · refine Reads.bind (reads_int_be 4 _ (by omega) (by omega)) ?_
    refine Reads.bind (reads_int_be 2 _ (by omega) (by omega)) ?_
    refine Reads.bind (reads_int_be 2 1 (by omega) (by omega)) ?_
    refine Reads.bind (reads_times_n _ (beBytes 2) [stream] _ rfl fun n hn => reads_int_be 2 n (by omega) (by simp at hn; omega)) ?_
    refine Reads.bind (reads_times_n _ (beBytes 2) [m] _ rfl fun n hn => reads_int_be 2 n (by omega) (by simp at hn; omega)) ?_
    refine Reads.bind (reads_int_be 2 0 (by omega) (by omega)) ?_
    refine Reads.bind (reads_times_n _ (beBytes 2) [] _ rfl (by simp)) ?_
    refine Reads.bind (reads_int_be 2 0 (by omega) (by omega)) ?_
    exact Reads.map (f := fun x => Logical.mk size version [stream] [m] [] x) (reads_times_n _ rmProp [] _ rfl (by simp))

/-- What follows the properties of a stream. -/
inductive SpecificGood : Bytes → Nat → Specific → Bytes → Prop where
  | none (mime : Bytes) : SpecificGood mime 0 .none []
  | logical (l : Logical) : RmLogicalGood l → l.streams = [] → SpecificGood "logical-fileinfo".toUTF8.toList (rmLogical l).length (.logical l) (rmLogical l)
  | raw (mime b : Bytes) : mime ≠ "logical-fileinfo".toUTF8.toList → b ≠ [] → SpecificGood mime b.length (.raw b) b

theorem reads_specific {mime : Bytes} {n : Nat} {x : Specific} {b : Bytes} (g : SpecificGood mime n x b) : Reads (specificOf mime n) x b := by
  have e : "logical-fileinfo".toUTF8.toList = logicalType := by decide +kernel
  unfold specificOf
  cases g with
  | none => rw [if_pos rfl]; exact reads_pure _
  | logical l hl h0 =>
    have hp : (rmLogical l).length ≠ 0 := by simp [rmLogical, beBytes_length]
    rw [if_neg hp, if_pos e]
    exact Reads.map (f := Specific.logical) (ReadsAll.within (reads_rm_logical l hl h0).all _ rfl)
  | raw _ _ hm hb =>
    have := List.length_pos_iff.2 hb
    rw [e] at hm
    rw [if_neg (by omega), if_neg hm]
    exact Reads.map (f := Specific.raw) (reads_raw b hb)

def rmStream (p : StreamProp) (specific : Bytes) : Bytes :=
  beBytes 2 p.number ++ (p.numbers.flatMap (beBytes 4) ++ (short p.desc ++ (short p.mime ++ (beBytes 4 p.specificSize ++ specific))))

structure RmStreamGood (p : StreamProp) (specific : Bytes) : Prop where
  number : p.number < 65536
  numbers : p.numbers.length = 7 ∧ ∀ n ∈ p.numbers, n < 2 ^ 32
  desc : p.desc.length < 256
  mime : p.mime.length < 256
  size : p.specificSize < 2 ^ 32
  specific : SpecificGood p.mime p.specificSize p.specific specific

theorem reads_rm_stream (p : StreamProp) (b : Bytes) (g : RmStreamGood p b) : Reads streamProp p (rmStream p b) := by
  obtain ⟨h1, ⟨h2, h3⟩, h4, h5, h6, h7⟩ := g
  refine Reads.bind (reads_int_be 2 _ (by omega) (by omega)) ?_
  refine Reads.bind (reads_times_n _ (beBytes 4) p.numbers _ h2.symm fun n hn => reads_int_be 4 n (by omega) (h3 n hn)) ?_
  refine Reads.bind (reads_short _ h4) ?_
  refine Reads.bind (reads_short _ h5) ?_
  refine Reads.bind (reads_int_be 4 _ (by omega) (by omega)) ?_
  exact Reads.map (f := fun x => StreamProp.mk p.number p.numbers p.desc p.mime p.specificSize x) (reads_specific h7)

/-- The content of a chunk with this tag. -/
inductive RmContent : Bytes → Real.Content → Bytes → Prop where
  | header (v n : Nat) : v < 2 ^ 32 → n < 2 ^ 32 → RmContent ".RMF".toUTF8.toList (.header v n) (beBytes 4 v ++ beBytes 4 n)
  | file (p : FileProp) : RmFileGood p → RmContent "PROP".toUTF8.toList (.file p) (rmFile p)
  | desc (i : Info) : RmInfoGood 65536 i → RmContent "CONT".toUTF8.toList (.desc i) (rmDesc i)
  | stream (p : StreamProp) (b : Bytes) : RmStreamGood p b → RmContent "MDPR".toUTF8.toList (.stream p) (rmStream p b)
  | raw (tag b : Bytes) : tag.length = 4 → tag ∉ [".RMF".toUTF8.toList, "PROP".toUTF8.toList, "CONT".toUTF8.toList, "MDPR".toUTF8.toList] → RmContent tag (.raw b) b

theorem rmTags : ".RMF".toUTF8.toList = [0x2E, 0x52, 0x4D, 0x46] ∧ "PROP".toUTF8.toList = [0x50, 0x52, 0x4F, 0x50] ∧ "CONT".toUTF8.toList = [0x43, 0x4F, 0x4E, 0x54] ∧
    "MDPR".toUTF8.toList = [0x4D, 0x44, 0x50, 0x52] := by decide +kernel

theorem reads_rm_content {tag : Bytes} {c : Real.Content} {b : Bytes} (g : RmContent tag c b) : tag.length = 4 ∧ Reads (Real.content tag b.length) c b := by
  obtain ⟨t1, t2, t3, t4⟩ := rmTags
  unfold Real.content
  cases g with
  | header v n hv hn =>
    rw [t1]
    refine ⟨rfl, ?_⟩
    rw [if_pos rfl]
    refine Reads.bind (reads_int_be 4 _ (by omega) (by omega)) ?_
    exact Reads.map (f := fun x => Content.header v x) (reads_int_be 4 _ (by omega) (by omega))
  | file p hp =>
    rw [t2]
    refine ⟨rfl, ?_⟩
    rw [if_neg (by decide), if_pos rfl]
    exact Reads.map (f := Content.file) (reads_rm_file p hp)
  | desc i hi =>
    rw [t3]
    refine ⟨rfl, ?_⟩
    rw [if_neg (by decide), if_neg (by decide), if_pos rfl]
    exact Reads.map (f := Content.desc) (reads_rm_desc i hi)
  | stream p b hp =>
    rw [t4]
    refine ⟨rfl, ?_⟩
    rw [if_neg (by decide), if_neg (by decide), if_neg (by decide), if_pos rfl]
    exact Reads.map (f := Content.stream) (reads_rm_stream p b hp)
  | raw _ _ ht hn =>
    refine ⟨ht, ?_⟩
    rw [t1, t2, t3, t4] at hn
    simp only [List.mem_cons, List.not_mem_nil, or_false, not_or] at hn
    rw [if_neg hn.1, if_neg hn.2.1, if_neg hn.2.2.1, if_neg hn.2.2.2, rawContent]
    by_cases hb : b = []
    · subst hb
      exact reads_pure _
    · rw [if_neg (fun h => hb (List.length_eq_zero_iff.1 h))]
      exact Reads.map (f := Content.raw) (reads_raw b hb)

/-- A chunk and its bytes. -/
def RmChunk (c : Real.Chunk) (bytes : Bytes) : Prop :=
  ∃ b, RmContent c.tag c.content b ∧ c.size = 10 + b.length ∧ c.size < 2 ^ 32 ∧ c.version < 65536 ∧ bytes = c.tag ++ (beBytes 4 c.size ++ (beBytes 2 c.version ++ b))

theorem reads_rm_chunk (c : Real.Chunk) (bytes : Bytes) (g : RmChunk c bytes) : Reads Real.chunk c bytes ∧ bytes ≠ [] := by
  obtain ⟨b, h1, h2, h3, h4, rfl⟩ := g
  obtain ⟨h5, h6⟩ := reads_rm_content h1
  refine ⟨?_, by intro h; simpa [h5] using congrArg List.length h⟩
  refine Reads.bind (reads_fixed .big .eightBit (by decide) 4 _ h5 (by omega)) ?_
  refine Reads.bind (reads_int_be 4 _ (by omega) (by omega)) ?_
  refine Reads.bind (reads_int_be 2 _ (by omega) (by omega)) ?_
  have e : c.size - 10 = b.length := by omega
  rw [if_neg (by omega), e]
  exact Reads.map (f := fun x => Real.Chunk.mk c.tag c.size c.version x) (ReadsAll.within h6.all _ rfl)

/-- **C143** (partial: no places of streams in information about the file, see `C143_logical_wrong`): all chunks of all RealMedia files are read as they were written. -/
theorem C143_media_partial (l : List (Real.Chunk × Bytes)) (h : ∀ x ∈ l, RmChunk x.1 x.2) (fuel : Nat) (hf : l.length < fuel) (s : InputStream)
    (hs : stringInputStream (l.flatMap (·.2)) = .ok s) : media fuel s (8 * (l.flatMap (·.2)).length) 0 = .ok (l.map (·.1), 8 * (l.flatMap (·.2)).length) := by
  have r : ∀ (l : List (Real.Chunk × Bytes)) (n : Nat), l.length < n → (∀ x ∈ l, RmChunk x.1 x.2) → ReadsAll (Rd.whileNotEof Real.chunk n) (l.map (·.1)) (l.flatMap (·.2)) := by
    intro l
    induction l with
    | nil =>
      intro n hn _
      obtain ⟨m, rfl⟩ : ∃ m, n = m + 1 := ⟨n - 1, by simp at hn; omega⟩
      exact ReadsAll.at_eof (Reads.all (reads_rpure _))
    | cons x l ih =>
      intro n hn h
      obtain ⟨m, rfl⟩ : ∃ m, n = m + 1 := ⟨n - 1, by simp at hn; omega⟩
      have i := ih m (by simpa using hn) fun y hy => h y (List.mem_cons_of_mem _ hy)
      obtain ⟨h1, h2⟩ := reads_rm_chunk _ _ (h x List.mem_cons_self)
      rw [List.flatMap_cons, List.map_cons]
      refine ReadsAll.not_eof (by simp [h2]) ?_
      exact Reads.bind_all h1 (i.map fun xs => x.1 :: xs)
  have := r l fuel hf h (l.flatMap (·.2)) s hs 0 (by simp)
  rw [Nat.zero_add] at this
  exact this

/-- **C143**: a file is told to be a video if one of its streams is. -/
theorem C143_video (cs : List Real.Chunk) : isVideo cs = true ↔ ∃ c ∈ cs, ∃ p, c.content = .stream p ∧ p.mime = "video/x-pn-realvideo".toUTF8.toList := by
  rw [isVideo, List.any_eq_true]
  constructor
  · rintro ⟨c, hc, h⟩
    split at h
    next p hp => exact ⟨c, hc, p, hp, by simpa using h⟩
    next => cases h
  · rintro ⟨c, hc, p, hp, h⟩
    exact ⟨c, hc, by simp only [hp]; simpa using h⟩

/-- A file with header, description and a stream. -/
example : ∀ x ∈ [((⟨".RMF".toUTF8.toList, 18, 1, .header 0 2⟩ : Real.Chunk), ".RMF".toUTF8.toList ++ (beBytes 4 18 ++ (beBytes 2 1 ++ (beBytes 4 0 ++ beBytes 4 2)))),
    (⟨"CONT".toUTF8.toList, 20, 0, .desc ⟨[0x61], [0x62], [], []⟩⟩, "CONT".toUTF8.toList ++ (beBytes 4 20 ++ (beBytes 2 0 ++ rmDesc ⟨[0x61], [0x62], [], []⟩)))], RmChunk x.1 x.2 := by
  intro x hx
  rcases List.mem_cons.1 hx with rfl | hx
  · exact ⟨_, .header 0 2 (by decide) (by decide), rfl, by decide, by decide, rfl⟩
  · rcases List.mem_cons.1 hx with rfl | hx
    · exact ⟨_, .desc _ (by unfold RmInfoGood; decide), rfl, by decide, by decide, rfl⟩
    · cases hx

end
end Hachoir.Props
