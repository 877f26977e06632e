import Verif.Formats.Xm
import Verif.Props.Packed
import Verif.Props.Cab
import Verif.Props.Asf
import Verif.Props.Lnk
import Verif.Props.Arj

/-!
# C157: FastTracker modules
-/

namespace Hachoir.Props
open Hachoir Hachoir.Stream Hachoir.Field Hachoir.Formats Spec

/-! ### Specification -/

/-- A note as it is written: packed, with the values that are there, or all five. -/
inductive XmNote where
  | packed (note instrument volume effect parameter : Option UInt8)
  | full (note instrument volume effect parameter : UInt8)

def xmFlag (v : Option UInt8) : Nat := if v.isSome then 1 else 0

def xmValue : Option UInt8 → Bytes
  | none => []
  | some v => [v]

def xmNoteBytes : XmNote → Bytes
  | .packed a b c d e => UInt8.ofNat (128 + 16 * xmFlag e + 8 * xmFlag d + 4 * xmFlag c + 2 * xmFlag b + xmFlag a) :: (xmValue a ++ (xmValue b ++ (xmValue c ++ (xmValue d ++ xmValue e))))
  | .full a b c d e => [a, b, c, d, e]

/-- Notes have seven bits, when they are not packed. -/
def xmNoteGood : XmNote → Prop
  | .packed _ _ _ _ _ => True
  | .full a _ _ _ _ => a.toNat < 128

/-- What is told: of a note that is not packed only half of its number. -/
def xmNote : XmNote → Xm.Note
  | .packed a b c d e => ⟨true, a.map UInt8.toNat, b.map UInt8.toNat, c.map UInt8.toNat, d.map UInt8.toNat, e.map UInt8.toNat⟩
  | .full a b c d e => ⟨false, some (a.toNat / 2), some b.toNat, some c.toNat, some d.toNat, some e.toNat⟩

/-- A pattern: rows of notes, one for every channel; `none` for an empty pattern, which has no data. -/
structure XmPattern where
  rows : Nat
  notes : Option (List (List XmNote))

def xmRowsBytes (rs : List (List XmNote)) : Bytes := rs.flatMap fun r => r.flatMap xmNoteBytes

def xmPatternData (p : XmPattern) : Bytes := (p.notes.getD []).flatMap fun r => r.flatMap xmNoteBytes

def xmPatternBytes (p : XmPattern) : Bytes := numsBytes [4, 1, 2, 2] [9, 0, p.rows, (xmPatternData p).length] ++ xmPatternData p

def xmPatternGood (channels : Nat) (p : XmPattern) : Prop :=
  p.rows < 65536 ∧ (xmPatternData p).length < 65536 ∧ ∀ rs ∈ p.notes, rs.length = p.rows ∧ ∀ r ∈ rs, r.length = channels ∧ ∀ n ∈ r, xmNoteGood n

def xmPattern (p : XmPattern) : Xm.Pattern := ⟨[9, 0, p.rows, (xmPatternData p).length], (p.notes.getD []).map (·.map xmNote)⟩

/-! ### Notes -/

theorem reads_xm_value (v : Option UInt8) : Reads (Lnk.optionally (xmFlag v) (Rd.int 1 .little)) (v.map UInt8.toNat) (xmValue v) := by
  cases v with
  | none => exact reads_pure _
  | some v => exact Reads.map (f := some) (reads_byte v .little (by decide))

theorem xmFlag_lt (v : Option UInt8) : xmFlag v < 2 := by cases v <;> simp [xmFlag]

/-- **C157.** A packed note is read with the values it has. -/
theorem C157_packed (a b c d e : Option UInt8) : Reads Xm.note (xmNote (.packed a b c d e)) (xmNoteBytes (.packed a b c d e)) := by
  have ha := xmFlag_lt a
  have hb := xmFlag_lt b
  have hc := xmFlag_lt c
  have hd := xmFlag_lt d
  have he := xmFlag_lt e
  have hf : Fit [1, 2, 1, 1, 1, 1, 1] [1, 0, xmFlag e, xmFlag d, xmFlag c, xmFlag b, xmFlag a] := by
    simp [Fit]; omega
  have hbits := reads_packed_be 1 _ _ (by omega) (by decide) hf
  have hj : beBytes 1 (joinBE [1, 2, 1, 1, 1, 1, 1] [1, 0, xmFlag e, xmFlag d, xmFlag c, xmFlag b, xmFlag a]) =
      [UInt8.ofNat (128 + 16 * xmFlag e + 8 * xmFlag d + 4 * xmFlag c + 2 * xmFlag b + xmFlag a)] := by
    have : joinBE [1, 2, 1, 1, 1, 1, 1] [1, 0, xmFlag e, xmFlag d, xmFlag c, xmFlag b, xmFlag a] = 128 + 16 * xmFlag e + 8 * xmFlag d + 4 * xmFlag c + 2 * xmFlag b + xmFlag a := by
      simp only [joinBE, List.sum_cons, List.sum_nil]
      norm_num
      omega
    rw [this]
    generalize hN : 128 + 16 * xmFlag e + 8 * xmFlag d + 4 * xmFlag c + 2 * xmFlag b + xmFlag a = N
    simp [beBytes, leBytes, Nat.mod_eq_of_lt (show N < 256 by omega)]
  rw [hj] at hbits
  rw [xmNoteBytes]
  refine Reads.peek .big (by decide) _ ?_
  rw [UInt8.toNat_ofNat', if_pos (by omega), ← List.singleton_append]
  refine Reads.bind hbits ?_
  refine Reads.bind (reads_xm_value a) ?_
  refine Reads.bind (reads_xm_value b) ?_
  refine Reads.bind (reads_xm_value c) ?_
  refine Reads.bind (reads_xm_value d) ?_
  exact Reads.map (f := fun p => (⟨true, a.map UInt8.toNat, b.map UInt8.toNat, c.map UInt8.toNat, d.map UInt8.toNat, p⟩ : Xm.Note)) (reads_xm_value e)

theorem reads_low (a : UInt8) : Reads Xm.lowBits (a.toNat / 2) [a] := by
  intro data s hs k stop hp _
  have ha := a.toNat_lt
  rw [Xm.lowBits, readBits_in data s hs k 1 7 [a] hp (by simp) (by simp) _ (by push_cast; ring)]
  have : ofBytesLE [a] / 2 ^ 1 % 2 ^ 7 = a.toNat / 2 := by
    simp only [ofBytesLE]; omega
  rw [this]
  rfl

/-- **C157**, violated: the number of a note that is not packed is told halved; all else is read. -/
theorem C157_halved (a b c d e : UInt8) (h : a.toNat < 128) : Reads Xm.note (xmNote (.full a b c d e)) (xmNoteBytes (.full a b c d e)) := by
  refine Reads.peek .big (by decide) a ?_
  rw [if_neg (by omega)]
  refine Reads.bind (xs := [a]) (reads_low a) ?_
  have hn := reads_numbers [1, 1, 1, 1] [b.toNat, c.toNat, d.toNat, e.toNat] (by
    have := b.toNat_lt
    have := c.toNat_lt
    have := d.toNat_lt
    have := e.toNat_lt
    simp [NumsFit]; omega)
  have := Reads.map (f := fun vs : List Nat => (⟨false, some (a.toNat / 2), vs[0]?, vs[1]?, vs[2]?, vs[3]?⟩ : Xm.Note)) hn
  refine Reads.of_eq this rfl ?_
  simp [numsBytes, leBytes]

theorem reads_xm_note (n : XmNote) (h : xmNoteGood n) : Reads Xm.note (xmNote n) (xmNoteBytes n) := by
  cases n with
  | packed a b c d e => exact C157_packed a b c d e
  | full a b c d e => exact C157_halved a b c d e h

theorem xm_note_ne (n : XmNote) : xmNoteBytes n ≠ [] := by cases n <;> simp [xmNoteBytes]

/-! ### Patterns -/

theorem reads_xm_rows (channels : Nat) (hc : 0 < channels) : ∀ rs : List (List XmNote), (∀ r ∈ rs, r.length = channels ∧ ∀ n ∈ r, xmNoteGood n) →
    Reads (Xm.rows channels rs.length) (rs.map (·.map xmNote)) (rs.flatMap fun r => r.flatMap xmNoteBytes)
  | [], _ => reads_pure _
  | r :: rs, h => by
    obtain ⟨h1, h2⟩ := h r (by simp)
    have ih := reads_xm_rows channels hc rs fun x hx => h x (by simp [hx])
    rw [List.flatMap_cons]
    have hne : r.flatMap xmNoteBytes ++ (rs.flatMap fun r => r.flatMap xmNoteBytes) ≠ [] := by
      cases r with
      | nil => simp at h1; omega
      | cons n r => simp [xm_note_ne n]
    refine Reads.not_eof hne ?_
    rw [if_neg Bool.false_ne_true, ← h1]
    refine Reads.bind (reads_times_map Xm.note xmNote xmNoteBytes r fun n hn => reads_xm_note n (h2 n hn)) ?_
    rw [h1]
    exact Reads.map (f := fun rs => r.map xmNote :: rs) ih

/-- The rows of an empty pattern are none. -/
theorem reads_xm_empty (channels : Nat) : ∀ n : Nat, ReadsAll (Xm.rows channels n) [] []
  | 0 => Reads.all (reads_pure _)
  | _ + 1 => ReadsAll.at_eof (Reads.all (reads_pure _))

theorem xm_pattern_length (p : XmPattern) : (xmPatternBytes p).length = 9 + (xmPatternData p).length := by
  rw [xmPatternBytes, List.length_append]
  simp [numsBytes, leBytes_length]

theorem xm_pattern_size (channels : Nat) (p : XmPattern) (h : xmPatternGood channels p) (data : Bytes) (s : InputStream) (hs : stringInputStream data = .ok s) (k : Nat)
    (hp : xmPatternBytes p <+: data.drop k) : Xm.patternSize s (8 * k) = .ok (xmPatternBytes p).length := by
  have e : xmPatternBytes p = leBytes 4 9 ++ ((leBytes 1 0 ++ leBytes 2 p.rows) ++ (leBytes 2 (xmPatternData p).length ++ xmPatternData p)) := by
    simp [xmPatternBytes, numsBytes]
  rw [xm_pattern_length]
  rw [e] at hp
  have h1 := prefix_left hp
  have h2 := drop_prefix (drop_prefix hp)
  simp only [leBytes_length, List.length_append] at h2
  have h3 := prefix_left h2
  rw [Xm.patternSize, read_le data s hs 4 k 9 (by omega) (by omega) h1 _ rfl _ rfl]
  simp only
  rw [read_le data s hs 2 (k + 4 + (1 + 2)) _ (by omega) h.2.1 h3 _ rfl _ (by push_cast; ring)]

/-- **C157.** A pattern is read with its rows of notes; an empty one has no rows. -/
theorem C157_pattern (channels : Nat) (hc : 0 < channels) (p : XmPattern) (h : xmPatternGood channels p) : Reads (Xm.pattern channels) (xmPattern p) (xmPatternBytes p) := by
  intro data s hs k stop hp hst
  have hsz := xm_pattern_size channels p h data s hs k hp
  rw [Xm.pattern, hsz]
  obtain ⟨h1, h2, h3⟩ := h
  have hbody : ReadsAll (Xm.patternBody channels) (xmPattern p) (xmPatternBytes p) := by
    refine Reads.bind_all (reads_numbers _ _ (by simp [NumsFit]; omega)) ?_
    refine ReadsAll.map (f := fun rs => (⟨[9, 0, p.rows, (xmPatternData p).length], rs⟩ : Xm.Pattern)) (v := (p.notes.getD []).map (·.map xmNote)) ?_
    show ReadsAll (Xm.rows channels p.rows) _ _
    rw [xmPatternData]
    cases hn : p.notes with
    | none => exact reads_xm_empty channels p.rows
    | some rs =>
      obtain ⟨h4, h5⟩ := h3 rs hn
      rw [← h4]
      exact Reads.all (reads_xm_rows channels hc rs h5)
  exact (hbody.within _ rfl) data s hs k stop hp hst

/-! ### Instruments -/

/-- A sample as it is written: a head, and its data. -/
structure XmSample where
  loopStart : Nat
  loopEnd : Nat
  volume : Nat
  tune : Int
  /-- bits 0 and 1: loop mode, bit 4: 16 bits -/
  kind : Nat
  panning : Nat
  relative : Int
  reserved : Nat
  name : Bytes
  data : Bytes

def xmSampleGood (t : XmSample) : Prop :=
  t.loopStart < 2 ^ 32 ∧ t.loopEnd < 2 ^ 32 ∧ t.volume < 256 ∧ (-128 ≤ t.tune ∧ t.tune < 128) ∧ t.kind < 256 ∧ t.panning < 256 ∧ (-128 ≤ t.relative ∧ t.relative < 128) ∧ t.reserved < 256 ∧
    t.name.length = 22 ∧ t.data.length < 2 ^ 32

def xmSampleBytes (t : XmSample) : Bytes :=
  numsBytes [4, 4, 4, 1] [t.data.length, t.loopStart, t.loopEnd, t.volume] ++ (leBytes 1 (t.tune % (256 ^ 1 : Nat)).toNat ++ (leBytes 1 t.kind ++ (leBytes 1 t.panning ++
    (leBytes 1 (t.relative % (256 ^ 1 : Nat)).toNat ++ (leBytes 1 t.reserved ++ t.name)))))

def xmSample (t : XmSample) : Xm.Sample :=
  ⟨[t.data.length, t.loopStart, t.loopEnd, t.volume], t.tune, [t.kind % 16, t.kind / 16 % 2, t.kind / 32 % 2, t.kind / 64], t.panning, t.relative, t.reserved, t.name⟩

theorem xm_sample_length (t : XmSample) (h : xmSampleGood t) : (xmSampleBytes t).length = 40 := by
  simp only [xmSampleBytes, numsBytes, List.length_append, leBytes_length, List.length_nil]
  have := h.2.2.2.2.2.2.2.2.1
  omega

/-- The bits of a byte from the lowest on. -/
theorem reads_byte_bits (ws vs : List Nat) (v : Nat) (hw : ws.sum = 8) (hv : v < 256) (hs : splitLE ws v = vs) : Reads (Rd.bits .little ws) vs (leBytes 1 v) := by
  have := reads_bits_le ws (leBytes 1 v) (by rw [leBytes_length]; omega) (by rw [leBytes_length, hw])
  rwa [(leBytes_spec 1 v).2 (by omega), hs] at this

/-- **C157.** The head of a sample is read. -/
theorem C157_sample (t : XmSample) (h : xmSampleGood t) : Reads Xm.sample (xmSample t) (xmSampleBytes t) := by
  obtain ⟨h1, h2, h3, h4, h5, h6, h7, h8, h9, h10⟩ := h
  refine Reads.bind (reads_numbers [4, 4, 4, 1] _ (by simp [NumsFit]; omega)) ?_
  refine Reads.bind (reads_signed_le 1 _ (by omega) (by omega) (by omega)) ?_
  refine Reads.bind (reads_byte_bits [4, 1, 1, 2] [t.kind % 16, t.kind / 16 % 2, t.kind / 32 % 2, t.kind / 64] t.kind (by decide) h5 (by simp [splitLE]; omega)) ?_
  refine Reads.bind (reads_int_le 1 _ (by omega) h6) ?_
  refine Reads.bind (reads_signed_le 1 _ (by omega) (by omega) (by omega)) ?_
  refine Reads.bind (reads_int_le 1 _ (by omega) h8) ?_
  exact Reads.map (f := fun n => (⟨[t.data.length, t.loopStart, t.loopEnd, t.volume], t.tune, [t.kind % 16, t.kind / 16 % 2, t.kind / 32 % 2, t.kind / 64], t.panning, t.relative, t.reserved, n⟩ : Xm.Sample))
    (reads_fixed .little .eightBit (by decide) 22 t.name h9 (by omega))

/-- **C157**, violated: the loop mode that is told is 0 for all samples of the format, whose mode is in the lowest two bits. -/
theorem C157_loop (t : XmSample) (mode bits16 : Nat) (hm : mode < 4) (hb : bits16 < 2) (h : t.kind = mode + 16 * bits16) :
    (xmSample t).kind.getD 3 0 = 0 ∧ (xmSample t).kind.getD 1 0 = bits16 := by
  simp only [xmSample, List.getD_cons_succ, List.getD_cons_zero]
  omega

/-- The second header of an instrument; in the types bit 0 is on, bit 1 sustain, bit 2 loop. -/
structure XmSecond where
  size : Nat
  notes : List Nat
  volume : List Nat
  panning : List Nat
  points : List Nat
  volumeType : Nat
  panningType : Nat
  vibrato : List Nat
  fadeout : Nat
  reserved : List Nat

def xmSecondGood (t : XmSecond) : Prop :=
  t.size < 2 ^ 32 ∧ NumsFit (List.replicate 96 1) t.notes ∧ NumsFit (List.replicate 24 2) t.volume ∧ NumsFit (List.replicate 24 2) t.panning ∧ NumsFit (List.replicate 8 1) t.points ∧
    t.volumeType < 256 ∧ t.panningType < 256 ∧ NumsFit (List.replicate 4 1) t.vibrato ∧ t.fadeout < 65536 ∧ NumsFit (List.replicate 11 2) t.reserved

def xmSecondBytes (t : XmSecond) : Bytes :=
  leBytes 4 t.size ++ (numsBytes (List.replicate 96 1) t.notes ++ (numsBytes (List.replicate 24 2) t.volume ++ (numsBytes (List.replicate 24 2) t.panning ++ (numsBytes (List.replicate 8 1) t.points ++
    (leBytes 1 t.volumeType ++ (leBytes 1 t.panningType ++ (numsBytes (List.replicate 4 1) t.vibrato ++ (leBytes 2 t.fadeout ++ numsBytes (List.replicate 11 2) t.reserved))))))))

def xmType (v : Nat) : List Nat := [v % 32, v / 32 % 2, v / 64 % 2, v / 128]

def xmSecond (t : XmSecond) : Xm.Second :=
  ⟨t.size, t.notes, t.volume, t.panning, t.points, xmType t.volumeType, xmType t.panningType, t.vibrato, t.fadeout, t.reserved⟩

theorem xm_second_length (t : XmSecond) (h : xmSecondGood t) : (xmSecondBytes t).length = 234 := by
  obtain ⟨h1, h2, h3, h4, h5, h6, h7, h8, h9, h10⟩ := h
  simp only [xmSecondBytes, List.length_append, leBytes_length]
  rw [nums_length _ _ h2, nums_length _ _ h3, nums_length _ _ h4, nums_length _ _ h5, nums_length _ _ h8, nums_length _ _ h10]
  decide

/-- **C157.** The second header of an instrument is read. -/
theorem C157_second (t : XmSecond) (h : xmSecondGood t) : Reads Xm.second (xmSecond t) (xmSecondBytes t) := by
  obtain ⟨h1, h2, h3, h4, h5, h6, h7, h8, h9, h10⟩ := h
  refine Reads.bind (reads_int_le 4 _ (by omega) h1) ?_
  refine Reads.bind (reads_numbers _ _ h2) ?_
  refine Reads.bind (reads_numbers _ _ h3) ?_
  refine Reads.bind (reads_numbers _ _ h4) ?_
  refine Reads.bind (reads_numbers _ _ h5) ?_
  refine Reads.bind (reads_byte_bits [5, 1, 1, 1] (xmType t.volumeType) _ (by decide) h6 (by simp [splitLE, xmType]; omega)) ?_
  refine Reads.bind (reads_byte_bits [5, 1, 1, 1] (xmType t.panningType) _ (by decide) h7 (by simp [splitLE, xmType]; omega)) ?_
  refine Reads.bind (reads_numbers _ _ h8) ?_
  refine Reads.bind (reads_int_le 2 _ (by omega) h9) ?_
  exact Reads.map (f := fun r => (⟨t.size, t.notes, t.volume, t.panning, t.points, xmType t.volumeType, xmType t.panningType, t.vibrato, t.fadeout, r⟩ : Xm.Second)) (reads_numbers _ _ h10)

/-- **C157**, violated: envelopes are told as off, without sustain and loop, for all types of the format. -/
theorem C157_envelope (on sustain loop : Nat) (h1 : on < 2) (h2 : sustain < 2) (h3 : loop < 2) : (xmType (on + 2 * sustain + 4 * loop)).drop 1 = [0, 0, 0] := by
  simp only [xmType, List.drop_succ_cons, List.drop_zero, List.cons.injEq, and_true]
  omega

/-- An instrument as it is written. -/
structure XmInstrument where
  name : Bytes
  kind : Nat
  /-- bytes behind the fields of the head -/
  unknown : Bytes
  /-- the second header and the samples, at least one -/
  content : Option (XmSecond × List XmSample)

def xmHead (i : XmInstrument) : Nat := (if i.content.isSome then 263 else 29) + i.unknown.length

def xmSamples (i : XmInstrument) : List XmSample := match i.content with | none => [] | some c => c.2

def xmMiddle (i : XmInstrument) : Bytes := match i.content with | none => [] | some c => xmSecondBytes c.1

def xmInstrumentBytes (i : XmInstrument) : Bytes :=
  leBytes 4 (xmHead i) ++ (i.name ++ (leBytes 1 i.kind ++ (leBytes 2 (xmSamples i).length ++ (xmMiddle i ++ (i.unknown ++ ((xmSamples i).flatMap xmSampleBytes ++ (xmSamples i).flatMap (·.data)))))))

def xmInstrumentGood (i : XmInstrument) : Prop :=
  i.name.length = 22 ∧ i.kind < 256 ∧ i.unknown.length < 2 ^ 31 ∧ ∀ c ∈ i.content, xmSecondGood c.1 ∧ c.2 ≠ [] ∧ c.2.length < 65536 ∧ ∀ t ∈ c.2, xmSampleGood t

def xmInstrument (i : XmInstrument) : Xm.Instrument :=
  ⟨xmHead i, i.name, i.kind, i.content.map fun c => xmSecond c.1, i.unknown, (xmSamples i).map xmSample, (xmSamples i).map (·.data)⟩

theorem xm_samples_length : ∀ ts : List XmSample, (∀ t ∈ ts, xmSampleGood t) → (ts.flatMap xmSampleBytes).length = 40 * ts.length
  | [], _ => rfl
  | t :: ts, h => by
    rw [List.flatMap_cons, List.length_append, xm_sample_length t (h t (by simp)), xm_samples_length ts fun x hx => h x (by simp [hx]), List.length_cons]
    ring

theorem xm_samples_good (i : XmInstrument) (h : xmInstrumentGood i) : (∀ t ∈ xmSamples i, xmSampleGood t) ∧ (xmSamples i).length < 65536 := by
  obtain ⟨-, -, -, h4⟩ := h
  unfold xmSamples
  cases hc : i.content with
  | none => simp
  | some c => exact ⟨(h4 c hc).2.2.2, (h4 c hc).2.2.1⟩

theorem xm_middle_length (i : XmInstrument) (h : xmInstrumentGood i) : 29 + (xmMiddle i).length + i.unknown.length = xmHead i := by
  obtain ⟨-, -, -, h4⟩ := h
  unfold xmMiddle xmHead
  cases hc : i.content with
  | none => simp
  | some c => simp [xm_second_length c.1 (h4 c hc).1]

theorem xm_sample_sizes (data : Bytes) (s : InputStream) (hs : stringInputStream data = .ok s) : ∀ (ts : List XmSample) (k : Nat), (∀ t ∈ ts, xmSampleGood t) → ts.flatMap xmSampleBytes <+: data.drop k →
    Xm.sampleSizes s ts.length (8 * k) = .ok (8 * (k + 40 * ts.length), (ts.flatMap (·.data)).length)
  | [], k, _, _ => rfl
  | t :: ts, k, h, hp => by
    have ht := h t (by simp)
    rw [List.flatMap_cons] at hp
    have h1 : leBytes 4 t.data.length <+: data.drop k := by
      have := prefix_left hp
      rw [xmSampleBytes, numsBytes, List.append_assoc] at this
      exact prefix_left this
    have h2 := drop_prefix hp
    rw [xm_sample_length t ht] at h2
    have ih := xm_sample_sizes data s hs ts (k + 40) (fun x hx => h x (by simp [hx])) h2
    rw [List.length_cons, Xm.sampleSizes, read_le data s hs 4 k _ (by omega) ht.2.2.2.2.2.2.2.2.2 h1 _ rfl _ rfl]
    simp only
    rw [show 8 * k + 320 = 8 * (k + 40) by ring, ih]
    simp only [List.flatMap_cons, List.length_append]
    congr 2
    ring

theorem xm_instrument_length (i : XmInstrument) (h : xmInstrumentGood i) :
    (xmInstrumentBytes i).length = xmHead i + 40 * (xmSamples i).length + ((xmSamples i).flatMap (·.data)).length := by
  have h1 := xm_middle_length i h
  have h2 := xm_samples_length _ (xm_samples_good i h).1
  have h3 := h.1
  simp only [xmInstrumentBytes, List.length_append, leBytes_length]
  omega

theorem xm_instrument_size (i : XmInstrument) (h : xmInstrumentGood i) (data : Bytes) (s : InputStream) (hs : stringInputStream data = .ok s) (k : Nat)
    (hp : xmInstrumentBytes i <+: data.drop k) : Xm.instrumentSize s (8 * k) = .ok (xmInstrumentBytes i).length := by
  have hg := xm_samples_good i h
  have hm := xm_middle_length i h
  have hl := xm_instrument_length i h
  have hsz : xmHead i < 256 ^ 4 := by
    have := h.2.2.1
    rw [xmHead]; split <;> omega
  have p1 : leBytes 4 (xmHead i) <+: data.drop k := prefix_left hp
  have hp' := drop_prefix (drop_prefix (drop_prefix hp))
  simp only [leBytes_length, h.1] at hp'
  have p2 : leBytes 2 (xmSamples i).length <+: data.drop (k + 4 + 22 + 1) := prefix_left hp'
  have p3 := prefix_left (drop_prefix (drop_prefix (drop_prefix hp')))
  simp only [leBytes_length] at p3
  rw [show k + 4 + 22 + 1 + 2 + (xmMiddle i).length + i.unknown.length = k + xmHead i by omega] at p3
  rw [Xm.instrumentSize, read_le data s hs 2 (k + 4 + 22 + 1) _ (by omega) hg.2 p2 _ rfl _ (by push_cast; ring)]
  simp only
  rw [read_le data s hs 4 k _ (by omega) hsz p1 _ rfl _ rfl]
  simp only
  rw [show 8 * k + 8 * xmHead i = 8 * (k + xmHead i) by ring, xm_sample_sizes data s hs _ _ hg.1 p3]
  simp only
  rw [hl]
  congr 1
  omega

theorem reads_fix_header (size n : Nat) (b : Bytes) (h : size = n + b.length) : Reads (Xm.fixHeader size n) b b := by
  rw [Xm.fixHeader, if_neg (by omega)]
  exact reads_raw_or b _ (by omega)

theorem reads_xm_sample_data (ts : List XmSample) : Reads (Xm.sampleData (ts.map xmSample)) (ts.map (·.data)) (ts.flatMap (·.data)) :=
  reads_each _ xmSample (·.data) (·.data) ts fun t _ => reads_raw_or t.data _ rfl

/-- **C157.** An instrument is read with its samples and their data. -/
theorem C157_instrument (i : XmInstrument) (h : xmInstrumentGood i) : Reads Xm.instrument (xmInstrument i) (xmInstrumentBytes i) := by
  intro data s hs k stop hp hst
  rw [Xm.instrument, xm_instrument_size i h data s hs k hp]
  have hg := xm_samples_good i h
  have hm := xm_middle_length i h
  have hsz : xmHead i < 256 ^ 4 := by
    have := h.2.2.1
    rw [xmHead]; split <;> omega
  have hbody : Reads Xm.instrumentBody (xmInstrument i) (xmInstrumentBytes i) := by
    refine Reads.bind (reads_int_le 4 _ (by omega) hsz) ?_
    refine Reads.bind (reads_fixed .little .eightBit (by decide) 22 i.name h.1 (by omega)) ?_
    refine Reads.bind (reads_int_le 1 _ (by omega) h.2.1) ?_
    refine Reads.bind (reads_int_le 2 _ (by omega) hg.2) ?_
    cases hc : i.content with
    | none =>
      have e1 : xmSamples i = [] := by rw [xmSamples, hc]
      have e2 : xmMiddle i = [] := by rw [xmMiddle, hc]
      rw [e2] at hm
      rw [e1, e2]
      rw [if_neg (by simp)]
      have := Reads.map (f := fun u => (⟨xmHead i, i.name, i.kind, none, u, [], []⟩ : Xm.Instrument)) (reads_fix_header (xmHead i) 29 i.unknown (by simpa using hm.symm))
      refine Reads.of_eq this ?_ (by simp)
      rw [xmInstrument, e1, hc]
      rfl
    | some c =>
      obtain ⟨g1, g2, g3, g4⟩ := h.2.2.2 c hc
      have e1 : xmSamples i = c.2 := by rw [xmSamples, hc]
      have e2 : xmMiddle i = xmSecondBytes c.1 := by rw [xmMiddle, hc]
      have hl := List.length_pos_of_ne_nil g2
      have h2 := xm_second_length c.1 g1
      rw [e2] at hm
      rw [e1, e2]
      rw [if_pos (by omega)]
      refine Reads.bind (C157_second c.1 g1) ?_
      refine Reads.bind (reads_fix_header (xmHead i) 263 i.unknown (by omega)) ?_
      refine Reads.bind (reads_times_map Xm.sample xmSample xmSampleBytes c.2 fun t ht => C157_sample t (g4 t ht)) ?_
      refine Reads.of_eq (Reads.map (f := fun d => (⟨xmHead i, i.name, i.kind, some (xmSecond c.1), i.unknown, c.2.map xmSample, d⟩ : Xm.Instrument)) (reads_xm_sample_data c.2)) ?_ rfl
      rw [xmInstrument, e1, hc]
      rfl
  exact ((Reads.all hbody).within _ rfl) data s hs k stop hp hst

/-! ### Modules -/

/-- A module as it is written.  Bit 0 of the flags tells that the linear frequency table is used. -/
structure XmModule where
  title : Bytes
  marker : Nat
  tracker : Bytes
  minor : Nat
  major : Nat
  songLength : Nat
  restart : Nat
  channels : Nat
  flags : Nat
  tempo : Nat
  bpm : Nat
  order : List Nat
  patterns : List XmPattern
  instruments : List XmInstrument

def xmMagic : Bytes := [0x45, 0x78, 0x74, 0x65, 0x6e, 0x64, 0x65, 0x64, 0x20, 0x4d, 0x6f, 0x64, 0x75, 0x6c, 0x65, 0x3a, 0x20]

def xmHeaderBytes (m : XmModule) : Bytes :=
  xmMagic ++ (m.title ++ (leBytes 1 m.marker ++ (m.tracker ++ (leBytes 1 m.minor ++ (leBytes 1 m.major ++ (leBytes 4 276 ++ (leBytes 2 m.songLength ++ (leBytes 2 m.restart ++
    (leBytes 2 m.channels ++ (leBytes 2 m.patterns.length ++ (leBytes 2 m.instruments.length ++ (leBytes 2 m.flags ++ (leBytes 2 m.tempo ++ (leBytes 2 m.bpm ++
      numsBytes (List.replicate 256 1) m.order))))))))))))))

def xmBytes (m : XmModule) : Bytes := xmHeaderBytes m ++ (m.patterns.flatMap xmPatternBytes ++ m.instruments.flatMap xmInstrumentBytes)

structure XmGood (m : XmModule) : Prop where
  title : m.title.length = 20
  marker : m.marker < 256
  tracker : m.tracker.length = 20
  minor : m.minor < 256
  major : m.major < 256
  songLength : m.songLength < 65536
  restart : m.restart < 65536
  channels : 0 < m.channels ∧ m.channels < 65536
  flags : m.flags < 65536
  tempo : m.tempo < 65536
  bpm : m.bpm < 65536
  order : NumsFit (List.replicate 256 1) m.order
  patterns : m.patterns.length < 65536 ∧ ∀ p ∈ m.patterns, xmPatternGood m.channels p
  instruments : m.instruments.length < 65536 ∧ ∀ i ∈ m.instruments, xmInstrumentGood i

def xmHeader (m : XmModule) : Xm.Header :=
  ⟨xmMagic, m.title, m.marker, m.tracker, m.minor, m.major, 276, m.songLength, m.restart, m.channels, m.patterns.length, m.instruments.length,
    [m.flags % 2, m.flags / 2 % 2, m.flags / 4], m.tempo, m.bpm, m.order⟩

theorem xm_header_length (m : XmModule) (h : XmGood m) : (xmHeaderBytes m).length = 336 := by
  simp only [xmHeaderBytes, List.length_append, leBytes_length, nums_length _ _ h.order, h.title, h.tracker, List.sum_replicate]
  simp [xmMagic]

/-- **C157.** The header of a module is read. -/
theorem C157_header (m : XmModule) (h : XmGood m) : Reads Xm.header (xmHeader m) (xmHeaderBytes m) := by
  refine Reads.bind (reads_fixed .little .eightBit (by decide) 17 xmMagic rfl (by omega)) ?_
  refine Reads.bind (reads_fixed .little .eightBit (by decide) 20 m.title h.title (by omega)) ?_
  refine Reads.bind (reads_int_le 1 _ (by omega) h.marker) ?_
  refine Reads.bind (reads_fixed .little .eightBit (by decide) 20 m.tracker h.tracker (by omega)) ?_
  refine Reads.bind (reads_int_le 1 _ (by omega) h.minor) ?_
  refine Reads.bind (reads_int_le 1 _ (by omega) h.major) ?_
  refine Reads.bind (reads_int_le 4 276 (by omega) (by omega)) ?_
  refine Reads.bind (reads_int_le 2 _ (by omega) h.songLength) ?_
  refine Reads.bind (reads_int_le 2 _ (by omega) h.restart) ?_
  refine Reads.bind (reads_int_le 2 _ (by omega) h.channels.2) ?_
  refine Reads.bind (reads_int_le 2 _ (by omega) h.patterns.1) ?_
  refine Reads.bind (reads_int_le 2 _ (by omega) h.instruments.1) ?_
  have hf := h.flags
  have hb := reads_bits_le [1, 1, 14] (leBytes 2 m.flags) (by rw [leBytes_length]; omega) (by rw [leBytes_length]; rfl)
  rw [(leBytes_spec 2 m.flags).2 (by omega), show splitLE [1, 1, 14] m.flags = [m.flags % 2, m.flags / 2 % 2, m.flags / 4] by simp [splitLE]; omega] at hb
  refine Reads.bind hb ?_
  refine Reads.bind (reads_int_le 2 _ (by omega) h.tempo) ?_
  refine Reads.bind (reads_int_le 2 _ (by omega) h.bpm) ?_
  exact Reads.map (f := fun o => (⟨xmMagic, m.title, m.marker, m.tracker, m.minor, m.major, 276, m.songLength, m.restart, m.channels, m.patterns.length, m.instruments.length,
    [m.flags % 2, m.flags / 2 % 2, m.flags / 4], m.tempo, m.bpm, o⟩ : Xm.Header)) (reads_numbers _ _ h.order)

/-- **C157.** A whole module is read: its header, all patterns and all instruments. -/
theorem C157_module (m : XmModule) (h : XmGood m) : Reads Xm.xmModule ⟨xmHeader m, m.patterns.map xmPattern, m.instruments.map xmInstrument⟩ (xmBytes m) := by
  refine Reads.bind (C157_header m h) ?_
  refine Reads.bind (reads_times_map (Xm.pattern m.channels) xmPattern xmPatternBytes m.patterns fun p hp => C157_pattern m.channels h.channels.1 p (h.patterns.2 p hp)) ?_
  exact Reads.map (f := fun is => (⟨xmHeader m, m.patterns.map xmPattern, is⟩ : Xm.Module)) (reads_times_map Xm.instrument xmInstrument xmInstrumentBytes m.instruments fun i hi => C157_instrument i (h.instruments.2 i hi))

theorem xm_size_loop {α : Type} (f : Nat → Except PyErr Nat) (enc : α → Bytes) (data : Bytes) : ∀ (xs : List α) (k : Nat),
    (∀ x ∈ xs, ∀ k, enc x <+: data.drop k → f (8 * k) = .ok (enc x).length) → xs.flatMap enc <+: data.drop k →
    Xm.sizeLoop f xs.length k = .ok (k + (xs.flatMap enc).length)
  | [], k, _, _ => rfl
  | x :: xs, k, h, hp => by
    rw [List.flatMap_cons] at hp
    rw [List.length_cons, Xm.sizeLoop, h x (by simp) k (prefix_left hp)]
    simp only
    rw [xm_size_loop f enc data xs _ (fun y hy => h y (by simp [hy])) (drop_prefix hp), List.flatMap_cons, List.length_append, Nat.add_assoc]

/-- **C157.** The size of a module in a stream is found: whatever follows it, the size is that of the module. -/
theorem C157_content_size (m : XmModule) (h : XmGood m) (after : Bytes) (s : InputStream) (hs : stringInputStream (xmBytes m ++ after) = .ok s) :
    Xm.contentSize s (xmHeader m) = .ok (xmBytes m).length := by
  have hl := xm_header_length m h
  have hp : xmBytes m <+: (xmBytes m ++ after).drop 0 := by rw [List.drop_zero]; exact List.prefix_append _ _
  have hp2 := drop_prefix hp
  rw [hl, Nat.zero_add] at hp2
  rw [Xm.contentSize, show (xmHeader m).patterns = m.patterns.length from rfl,
    xm_size_loop _ xmPatternBytes _ m.patterns 336 (fun p hp k hk => xm_pattern_size m.channels p (h.patterns.2 p hp) _ s hs k hk) (prefix_left hp2)]
  simp only
  rw [show (xmHeader m).instruments = m.instruments.length from rfl,
    xm_size_loop _ xmInstrumentBytes _ m.instruments _ (fun i hi k hk => xm_instrument_size i (h.instruments.2 i hi) _ s hs k hk) (drop_prefix hp2)]
  simp only [xmBytes, List.length_append, hl]
  congr 1
  omega

/-- **C157.** A file is accepted when it begins with the signature and the header has the right size. -/
theorem C157_valid (head rest : Bytes) (hh : head.length = 17) (s : InputStream) (hs : stringInputStream (head ++ rest) = .ok s) (t : Xm.Header) :
    Xm.valid s t = true ↔ head = xmMagic ∧ t.size = 276 := by
  have := readBytes_prefix (head ++ rest) s hs 0 head (by simp)
  rw [hh] at this
  rw [Xm.valid]
  have e : readBytes s 0 17 = .ok head := by simpa using this
  rw [e]
  simp [xmMagic]

/-- **C157**, violated: a module with the linear frequency table, bit 0 of the flags, is told to have that of the Amiga, and not to have the linear one. -/
theorem C157_linear (m : XmModule) (h : m.flags = 1) : (xmHeader m).flags.take 2 = [1, 0] := by
  simp [xmHeader, h]

/-! ### Effects -/

/-- The extended effects of the format, by their number. -/
def xmExtended : List (Option String) := List.map (fun n => if n = "" then none else some n)
  ["", "Fine porta up", "Fine porta down", "Set gliss control", "Set vibrato control", "Set finetune", "Set loop begin/loop", "Set tremolo control", "", "Retrig note",
   "Fine volume slide up", "Fine volume slide down", "Note cut", "Note delay", "Pattern delay", ""]

/-- **C157.** The extended effects up to 7 are told by their names, with numbers up to 7. -/
theorem C157_extended (t n : Nat) (h1 : 0 < t) (h2 : t < 8) (hn : n < 8) : ∃ name, xmExtended[t]? = some (some name) ∧ Xm.effectValue 0x0E (16 * t + n) = .ok (some name, some n) := by
  have h : ∀ t : Fin 8, 0 < t.val → ∀ n : Fin 8, ∃ name ∈ ((xmExtended[t.val]?).getD none), Xm.effectValue 0x0E (16 * t.val + n.val) = .ok (some name, some n.val) := by
    decide +kernel
  obtain ⟨name, hn1, hn2⟩ := h ⟨t, h2⟩ h1 ⟨n, hn⟩
  refine ⟨name, ?_, hn2⟩
  revert hn1
  cases hx : xmExtended[t]? with
  | none => simp
  | some v => simp

/-- **C157**, violated: the extended effects from 9 on are told by the name of the next one, the pattern delay is refused,
and numbers from 8 on are told 8 too small. -/
theorem C157_extended_wrong :
    (∀ t : Fin 5, ∀ n : Fin 16, (Xm.effectValue 0x0E (16 * (9 + t.val) + n.val)).toOption = some (xmExtended[10 + t.val]?.getD none, some (n.val % 8)))
    ∧ (∀ n : Fin 16, Xm.effectValue 0x0E (16 * 14 + n.val) = .error .index) := by
  decide +kernel

/-- **C157**, violated: the extra fine portamento up, effect 0x21 with 1, is told as down, and that down, with 2, is refused. -/
theorem C157_extra_fine : (∀ n : Fin 16, Xm.effectValue 0x21 (16 + n.val) = .ok (some "Extra fine porta down", none)) ∧ (∀ n : Fin 16, Xm.effectValue 0x21 (32 + n.val) = .error .index) := by
  decide +kernel

/-- The plain effects of the format, with their numbers: 0-9, A-F, then on with the letters (G is 16, L 21, P 25, R 27, T 29). -/
def xmEffects : List (Nat × String) := [(0, "Arppegio"), (1, "Porta up"), (2, "Porta down"), (3, "Tone porta"), (4, "Vibrato"), (5, "Tone porta+Volume slide"), (6, "Vibrato+Volume slide"), (7, "Tremolo"),
  (8, "Set panning"), (9, "Sample offset"), (10, "Volume slide"), (11, "Position jump"), (12, "Set volume"), (13, "Pattern break"), (15, "Set tempo/BPM"), (16, "Set global volume"), (17, "Global volume slide"),
  (21, "Set envelope position"), (25, "Panning slide"), (27, "Multi retrig note"), (29, "Tremor")]

/-- **C157.** The plain effects up to 21 are told by their names, whatever the parameter. -/
theorem C157_effect (t : Nat) (name : String) (h : (t, name) ∈ xmEffects) (ht : t ≤ 21) (param : Nat) : Xm.effectValue t param = .ok (some name, none) := by
  have table : ∀ e ∈ xmEffects, e.1 ≤ 21 → e.1 ≠ 0x0E ∧ Xm.effectNames[e.1]? = some (some e.2) := by decide +kernel
  have h1 := table _ h ht
  simp only at h1
  rw [Xm.effectValue, if_neg h1.1, if_neg (by omega), h1.2]

/-- **C157**, violated: the later effects P, R and T are told as unused, and the numbers before them by their names. -/
theorem C157_effect_shifted (param : Nat) : ∀ e ∈ xmEffects, 21 < e.1 → Xm.effectValue e.1 param = .ok (some "Unused", none) ∧ Xm.effectValue (e.1 - 1) param = .ok (some e.2, none) := by
  have table : ∀ e ∈ xmEffects, 21 < e.1 → e.1 < 0x21 ∧ Xm.effectNames[e.1]? = some (some "Unused") ∧ Xm.effectNames[e.1 - 1]? = some (some e.2) := by decide +kernel
  intro e he h
  obtain ⟨h1, h2, h3⟩ := table e he h
  rw [Xm.effectValue, if_neg (by omega), if_neg (by omega), h2, Xm.effectValue, if_neg (by omega), if_neg (by omega), h3]
  exact ⟨rfl, rfl⟩

/-- **C157.** Numbers above all effects are refused. -/
theorem C157_no_effect (t param : Nat) (ht : 0x21 < t) : Xm.effectValue t param = .error .index := by
  have hl : Xm.effectNames.length = 33 := by decide
  rw [Xm.effectValue, if_neg (by omega), if_neg (by omega), List.getElem?_eq_none (by omega)]

/-! ### Example -/

/-- A module with a pattern of one row for two channels, an empty pattern, an instrument without samples and one with two of them. -/
def xmExample : XmModule where
  title := List.replicate 20 0x54
  marker := 0x1a
  tracker := List.replicate 20 0x46
  minor := 4
  major := 1
  songLength := 1
  restart := 0
  channels := 2
  flags := 1
  tempo := 6
  bpm := 125
  order := List.replicate 256 0
  patterns := [⟨1, some [[.packed (some 49) (some 1) none none none, .full 50 1 0x40 0 0]]⟩, ⟨64, none⟩]
  instruments := [⟨List.replicate 22 0x49, 0, [], none⟩,
    ⟨List.replicate 22 0x4a, 0, [1, 2], some (⟨40, List.replicate 96 0, List.replicate 24 0, List.replicate 24 0, List.replicate 8 0, 7, 0, List.replicate 4 0, 512, List.replicate 11 0⟩,
      [⟨0, 3, 64, -5, 1, 128, 12, 0, List.replicate 22 0x53, [1, 2, 3]⟩, ⟨0, 0, 64, 0, 16, 128, 0, 0, List.replicate 22 0x53, []⟩])⟩]

theorem fit_zeros (w n : Nat) (hw : 0 < w) : NumsFit (List.replicate n w) (List.replicate n 0) := by
  induction n with
  | zero => simp [NumsFit]
  | succ n ih => simp [List.replicate_succ, NumsFit, ih, hw]

example : XmGood xmExample := by
  constructor <;> simp [-List.reduceReplicate, xmExample, fit_zeros, xmPatternGood, xmPatternData, xmNoteBytes, xmNoteGood, xmValue, xmInstrumentGood, xmSecondGood, xmSampleGood]

example : (xmBytes xmExample).length = 336 + (9 + 8) + 9 + 29 + (265 + 80 + 3) := by decide +kernel

end Hachoir.Props
