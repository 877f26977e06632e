import Verif.Formats.Flac
import Verif.Props.Records
import Verif.Props.StringField
import Verif.Props.Float

/-!
# FLAC files and Vorbis comments (C114, C115)
-/

namespace Hachoir.Props
open Hachoir Hachoir.Stream Hachoir.Field Hachoir.Formats Hachoir.Formats.Flac Spec

/-! ## Blocks -/

/-- The bytes of blocks, given by type and content: only the last one has its first bit set. -/
def flacBlocks : List (Nat × Bytes) → Bytes
  | [] => []
  | [(t, c)] => beBytes 1 (128 + t) ++ (beBytes 3 c.length ++ c)
  | (t, c) :: b :: rest => beBytes 1 t ++ (beBytes 3 c.length ++ (c ++ flacBlocks (b :: rest)))

/-- Where the blocks are, from the byte `k` on. -/
def flacPlaces (k : Nat) : List (Nat × Bytes) → List Flac.Block
  | [] => []
  | [(t, c)] => [⟨8 * k, 1, t, c.length⟩]
  | (t, c) :: b :: rest => ⟨8 * k, 0, t, c.length⟩ :: flacPlaces (k + 4 + c.length) (b :: rest)

theorem read_block {data : Bytes} {s : InputStream} (hs : stringInputStream data = .ok s) (k last t : Nat) (c : Bytes)
    (hl : last < 2) (ht : t < 128) (hc : c.length < 2 ^ 24)
    (hp : beBytes 1 (128 * last + t) ++ (beBytes 3 c.length ++ c) <+: data.drop k) :
    readBlock s (8 * k) = .ok ⟨8 * k, last, t, c.length⟩ := by
  have hb := beBytes_big 1 (128 * last + t) (by omega)
  have p1 : beBytes 1 (128 * last + t) <+: data.drop k := prefix_left hp
  have p2 : beBytes 3 c.length <+: data.drop (k + 1) :=
    prefix_left (xs := beBytes 3 c.length) (ys := c) (by simpa [beBytes_length] using drop_prefix (xs := beBytes 1 (128 * last + t)) hp)
  have r1 := readBits_mid data s hs k 0 1 _ p1 (by simp [beBytes_length]) (by simp [beBytes_length]) ((8 * k : Nat) : Int) (by omega)
  have r2 := readBits_mid data s hs k 1 7 _ p1 (by simp [beBytes_length]) (by simp [beBytes_length]) ((8 * k + 1 : Nat) : Int) (by omega)
  have r3 := read_be data s hs 3 (k + 1) c.length (by omega) (by omega) p2 24 rfl ((8 * k + 8 : Nat) : Int) (by omega)
  rw [beBytes_length, hb.2] at r1 r2
  rw [readBlock, r1]
  simp only [bind, Except.bind]
  rw [r2]
  simp only []
  rw [r3]
  have e1 : (128 * last + t) / 2 ^ (8 * 1 - 0 - 1) % 2 ^ 1 = last := by norm_num; omega
  have e2 : (128 * last + t) / 2 ^ (8 * 1 - 1 - 7) % 2 ^ 7 = t := by norm_num; omega
  rw [e1, e2]

/-- **C114**: blocks of all types and contents are found at their places. -/
theorem C114_blocks {data : Bytes} {s : InputStream} (hs : stringInputStream data = .ok s) :
    ∀ (blocks : List (Nat × Bytes)) (fuel k : Nat), blocks ≠ [] → blocks.length ≤ fuel → (∀ b ∈ blocks, b.1 < 128 ∧ b.2.length < 2 ^ 24) →
      flacBlocks blocks <+: data.drop k →
      readBlocks s fuel (8 * k) (8 * data.length) = .ok (flacPlaces k blocks, 8 * (k + (flacBlocks blocks).length))
  | [], _, _, h, _, _, _ => absurd rfl h
  | [(t, c)], 0, _, _, hf, _, _ => by simp at hf
  | [(t, c)], fuel + 1, k, _, _, hg, hp => by
    have hg' := hg (t, c) (by simp)
    have hlen := hp.length_le
    simp only [flacBlocks, List.length_append, beBytes_length, List.length_drop] at hlen
    have r := read_block hs k 1 t c (by omega) hg'.1 hg'.2 (by simpa [flacBlocks] using hp)
    rw [readBlocks, if_pos (by omega), r]
    simp only []
    rw [if_neg (by omega), if_pos (by decide)]
    simp only [flacPlaces, flacBlocks, List.length_append, beBytes_length]
    exact congrArg (fun x => Except.ok (_, x)) (by omega)
  | (t, c) :: b :: rest, 0, _, _, hf, _, _ => by simp at hf
  | (t, c) :: b :: rest, fuel + 1, k, _, hf, hg, hp => by
    have hg' := hg (t, c) (by simp)
    have hlen := hp.length_le
    simp only [flacBlocks, List.length_append, beBytes_length, List.length_drop] at hlen
    have r := read_block hs k 0 t c (by omega) hg'.1 hg'.2
      (prefix_left (xs := _) (ys := flacBlocks (b :: rest)) (by simpa [flacBlocks] using hp))
    have hp' : flacBlocks (b :: rest) <+: data.drop (k + 4 + c.length) := by
      have := drop_prefix (xs := beBytes 1 t ++ (beBytes 3 c.length ++ c)) (ys := flacBlocks (b :: rest)) (data := data) (k := k)
        (by simpa [flacBlocks] using hp)
      have e : (beBytes 1 t ++ (beBytes 3 c.length ++ c)).length = 4 + c.length := by simp [beBytes_length]; omega
      rwa [e, ← Nat.add_assoc] at this
    have ih := C114_blocks hs (b :: rest) fuel (k + 4 + c.length) (by simp) (by simp only [List.length_cons] at hf ⊢; omega)
      (fun x hx => hg x (by simp [hx])) hp'
    rw [readBlocks, if_pos (by omega), r]
    simp only []
    rw [if_neg (by omega), if_neg (by simp), show 8 * k + 32 + 8 * c.length = 8 * (k + 4 + c.length) by omega, ih]
    simp only [flacPlaces, flacBlocks, List.length_append, beBytes_length]
    exact congrArg (fun x => Except.ok (_, x)) (by omega)

/-! ## Contents -/

/-- What the fields of a stream info may be. -/
structure InfoGood (i : Flac.Info) : Prop where
  minBlock : i.minBlock < 2 ^ 16
  maxBlock : i.maxBlock < 2 ^ 16
  minFrame : i.minFrame < 2 ^ 24
  maxFrame : i.maxFrame < 2 ^ 24
  rate : i.rate < 2 ^ 20
  channels : i.channels < 2 ^ 3
  bits : i.bits < 2 ^ 5
  samples : i.samples < 2 ^ 36
  md5 : i.md5.length = 16

/-- The 34 bytes of a stream info: rate, channels, bits and samples share 64 bits. -/
def infoBytes (i : Flac.Info) : Bytes :=
  beBytes 2 i.minBlock ++ (beBytes 2 i.maxBlock ++ (beBytes 3 i.minFrame ++ (beBytes 3 i.maxFrame ++
    (beBytes 8 (((i.rate * 8 + i.channels) * 32 + i.bits) * 68719476736 + i.samples) ++ i.md5))))

theorem info_length (i : Flac.Info) (h : InfoGood i) : (infoBytes i).length = 34 := by
  simp [infoBytes, beBytes_length, h.md5]

/-- **C114**: every stream info is read back. -/
theorem C114_info {data : Bytes} {s : InputStream} (hs : stringInputStream data = .ok s) (k : Nat) (i : Flac.Info) (hi : InfoGood i)
    (hp : infoBytes i <+: data.drop k) : readInfo s (8 * k) = .ok i := by
  obtain ⟨minBlock, maxBlock, minFrame, maxFrame, rate, channels, bits, samples, md5⟩ := i
  obtain ⟨h1, h2, h3, h4, h5, h6, h7, h8, h9⟩ := hi
  simp only at h1 h2 h3 h4 h5 h6 h7 h8 h9
  have hp' : [beBytes 2 minBlock, beBytes 2 maxBlock, beBytes 3 minFrame, beBytes 3 maxFrame,
      beBytes 8 (((rate * 8 + channels) * 32 + bits) * 68719476736 + samples), md5].flatten <+: data.drop k := by
    simpa [infoBytes] using hp
  have hb := beBytes_big 8 (((rate * 8 + channels) * 32 + bits) * 68719476736 + samples) (by norm_num; omega)
  have r1 := read_be data s hs 2 k minBlock (by omega) (by omega) (record_part _ 0 _ rfl _ (by simp) hp') 16 rfl ((8 * k : Nat) : Int) (by omega)
  have r2 := read_be data s hs 2 (k + 2) maxBlock (by omega) (by omega) (record_part _ 1 _ rfl _ (by simp [beBytes_length]) hp') 16 rfl
    ((8 * k + 16 : Nat) : Int) (by omega)
  have r3 := read_be data s hs 3 (k + 4) minFrame (by omega) (by omega) (record_part _ 2 _ rfl _ (by simp [beBytes_length]) hp') 24 rfl
    ((8 * k + 32 : Nat) : Int) (by omega)
  have r4 := read_be data s hs 3 (k + 7) maxFrame (by omega) (by omega) (record_part _ 3 _ rfl _ (by simp [beBytes_length]) hp') 24 rfl
    ((8 * k + 56 : Nat) : Int) (by omega)
  have p5 := record_part _ 4 _ rfl (k + 10) (by simp [beBytes_length]) hp'
  have r5 := readBits_mid data s hs (k + 10) 0 20 _ p5 (by simp [beBytes_length]) (by simp [beBytes_length]) ((8 * k + 80 : Nat) : Int) (by omega)
  have r6 := readBits_mid data s hs (k + 10) 20 3 _ p5 (by simp [beBytes_length]) (by simp [beBytes_length]) ((8 * k + 100 : Nat) : Int) (by omega)
  have r7 := readBits_mid data s hs (k + 10) 23 5 _ p5 (by simp [beBytes_length]) (by simp [beBytes_length]) ((8 * k + 103 : Nat) : Int) (by omega)
  have r8 := readBits_mid data s hs (k + 10) 28 36 _ p5 (by simp [beBytes_length]) (by simp [beBytes_length]) ((8 * k + 108 : Nat) : Int) (by omega)
  have r9 := readBytes_prefix data s hs (k + 18) md5 (record_part _ 5 _ rfl _ (by simp [beBytes_length]) hp')
  rw [beBytes_length, hb.2] at r5 r6 r7 r8
  rw [h9, show ((8 * (k + 18) : Nat) : Int) = ((8 * k + 144 : Nat) : Int) by omega] at r9
  have e5 : (((rate * 8 + channels) * 32 + bits) * 68719476736 + samples) / 2 ^ (8 * 8 - 0 - 20) % 2 ^ 20 = rate := by
    norm_num; omega
  have e6 : (((rate * 8 + channels) * 32 + bits) * 68719476736 + samples) / 2 ^ (8 * 8 - 20 - 3) % 2 ^ 3 = channels := by
    norm_num; omega
  have e7 : (((rate * 8 + channels) * 32 + bits) * 68719476736 + samples) / 2 ^ (8 * 8 - 23 - 5) % 2 ^ 5 = bits := by
    norm_num; omega
  have e8 : (((rate * 8 + channels) * 32 + bits) * 68719476736 + samples) / 2 ^ (8 * 8 - 28 - 36) % 2 ^ 36 = samples := by
    norm_num; omega
  rw [e5] at r5
  rw [e6] at r6
  rw [e7] at r7
  rw [e8] at r8
  rw [readInfo, r1]
  simp only [bind, Except.bind]
  rw [r2]
  simp only []
  rw [r3]
  simp only []
  rw [r4]
  simp only []
  rw [r5]
  simp only []
  rw [r6]
  simp only []
  rw [r7]
  simp only []
  rw [r8]
  simp only []
  rw [r9]

/-- The bytes of a seek table. -/
def pointsBytes : List (Nat × Nat × Nat) → Bytes
  | [] => []
  | (a, b, c) :: ps => beBytes 8 a ++ (beBytes 8 b ++ (beBytes 2 c ++ pointsBytes ps))

theorem points_length : ∀ ps, (pointsBytes ps).length = 18 * ps.length
  | [] => rfl
  | (a, b, c) :: ps => by
    simp only [pointsBytes, List.length_append, beBytes_length, points_length ps, List.length_cons]
    omega

/-- **C114**: every seek table is read back. -/
theorem C114_points {data : Bytes} {s : InputStream} (hs : stringInputStream data = .ok s) :
    ∀ (ps : List (Nat × Nat × Nat)) (fuel k : Nat), ps.length < fuel → (∀ p ∈ ps, p.1 < 2 ^ 64 ∧ p.2.1 < 2 ^ 64 ∧ p.2.2 < 2 ^ 16) →
      pointsBytes ps <+: data.drop k → readPoints s fuel (8 * k) (8 * k + 8 * (18 * ps.length)) = .ok ps
  | _, 0, _, hf, _, _ => by omega
  | [], fuel + 1, k, _, _, _ => by
    rw [readPoints, if_neg (by simp)]
  | (a, b, c) :: ps, fuel + 1, k, hf, hg, hp => by
    obtain ⟨g1, g2, g3⟩ := hg (a, b, c) (by simp)
    simp only at g1 g2 g3
    have hp' : [beBytes 8 a, beBytes 8 b, beBytes 2 c, pointsBytes ps].flatten <+: data.drop k := by simpa [pointsBytes] using hp
    have r1 := read_be data s hs 8 k a (by omega) (by norm_num; omega) (record_part _ 0 _ rfl _ (by simp) hp') 64 rfl ((8 * k : Nat) : Int) (by omega)
    have r2 := read_be data s hs 8 (k + 8) b (by omega) (by norm_num; omega) (record_part _ 1 _ rfl _ (by simp [beBytes_length]) hp') 64 rfl
      ((8 * k + 64 : Nat) : Int) (by omega)
    have r3 := read_be data s hs 2 (k + 16) c (by omega) (by omega) (record_part _ 2 _ rfl _ (by simp [beBytes_length]) hp') 16 rfl
      ((8 * k + 128 : Nat) : Int) (by omega)
    have ih := C114_points hs ps fuel (k + 18) (by simp only [List.length_cons] at hf; omega) (fun x hx => hg x (by simp [hx]))
      (record_part _ 3 _ rfl _ (by simp [beBytes_length]) hp')
    rw [readPoints, if_pos (by simp only [List.length_cons]; omega), r1]
    simp only [bind, Except.bind]
    rw [r2]
    simp only []
    rw [r3]
    simp only []
    rw [show 8 * k + 144 = 8 * (k + 18) by omega,
      show 8 * k + 8 * (18 * ((a, b, c) :: ps).length) = 8 * (k + 18) + 8 * (18 * ps.length) by simp only [List.length_cons]; omega, ih]

/-! ## Comments -/

/-- The bytes of a string with its size before. -/
def vorbisString (b : Bytes) : Bytes := leBytes 4 b.length ++ b

theorem read_vorbis_string {data : Bytes} {s : InputStream} (hs : stringInputStream data = .ok s) (k : Nat) (t : Bytes)
    (ht : t.length < 2 ^ 32) (hp : vorbisString t <+: data.drop k) :
    Flac.readString s (8 * k) = .ok (t, 8 * (k + 4 + t.length)) := by
  obtain ⟨rest, hr⟩ := hp
  have hb := leBytes_spec 4 t.length
  obtain ⟨h1, h2⟩ := C50_pascal_partial hs .little (by simp) k .pascal32 4 rfl (leBytes 4 t.length) t rest (leBytes_length 4 _)
    (by rw [← hr, vorbisString, List.append_assoc]) (hb.2 (by omega)) .eightBit (by simp)
  rw [Flac.readString, h1]
  simp only []
  rw [h2]
  simp only []
  exact congrArg (fun x => Except.ok (t, x)) (by omega)

/-- The bytes of the items, each with its size. -/
def vorbisItems : List Bytes → Bytes
  | [] => []
  | b :: bs => vorbisString b ++ vorbisItems bs

/-- The bytes of comments. -/
def vorbisBytes (vendor : Bytes) (items : List Bytes) : Bytes :=
  vorbisString vendor ++ (leBytes 4 items.length ++ vorbisItems items)

theorem vorbis_length (b : Bytes) : (vorbisString b).length = 4 + b.length := by simp [vorbisString, leBytes_length]

theorem read_vorbis_items {data : Bytes} {s : InputStream} (hs : stringInputStream data = .ok s) :
    ∀ (items : List Bytes) (k : Nat), (∀ b ∈ items, b.length < 2 ^ 32) → vorbisItems items <+: data.drop k →
      Flac.readItems s items.length (8 * k) = .ok (items, 8 * (k + (vorbisItems items).length))
  | [], k, _, _ => rfl
  | b :: bs, k, hg, hp => by
    have r := read_vorbis_string hs k b (hg b (by simp)) (prefix_left hp)
    have hp' : vorbisItems bs <+: data.drop (k + 4 + b.length) := by
      have := drop_prefix (xs := vorbisString b) (ys := vorbisItems bs) hp
      rwa [vorbis_length, ← Nat.add_assoc] at this
    have ih := read_vorbis_items hs bs (k + 4 + b.length) (fun x hx => hg x (by simp [hx])) hp'
    rw [List.length_cons, Flac.readItems, r]
    simp only []
    rw [ih]
    simp only [vorbisItems, List.length_append, vorbis_length]
    exact congrArg (fun x => Except.ok (_, x)) (by omega)

/-- **C115**: comments that fill their block are read back, all items in order. -/
theorem C115_comment {data : Bytes} {s : InputStream} (hs : stringInputStream data = .ok s) (k : Nat) (vendor : Bytes) (items : List Bytes)
    (hv : vendor.length < 2 ^ 32) (hn : items.length < 2 ^ 32) (hi : ∀ b ∈ items, b.length < 2 ^ 32)
    (hp : vorbisBytes vendor items <+: data.drop k) :
    readComment s (8 * k) (8 * (k + (vorbisBytes vendor items).length)) = .ok ⟨vendor, items, none⟩ := by
  have r1 := read_vorbis_string hs k vendor hv (prefix_left hp)
  have p2 : leBytes 4 items.length ++ vorbisItems items <+: data.drop (k + 4 + vendor.length) := by
    have := drop_prefix (xs := vorbisString vendor) (ys := leBytes 4 items.length ++ vorbisItems items) hp
    rwa [vorbis_length, ← Nat.add_assoc] at this
  have r2 := read_le data s hs 4 (k + 4 + vendor.length) items.length (by omega) (by omega) (prefix_left p2) 32 rfl
    ((8 * (k + 4 + vendor.length) : Nat) : Int) (by omega)
  have p3 : vorbisItems items <+: data.drop (k + 4 + vendor.length + 4) := by
    have := drop_prefix (xs := leBytes 4 items.length) (ys := vorbisItems items) p2
    rwa [leBytes_length] at this
  have r3 := read_vorbis_items hs items (k + 4 + vendor.length + 4) hi p3
  rw [readComment, r1]
  simp only [bind, Except.bind]
  rw [r2]
  simp only []
  rw [show 8 * (k + 4 + vendor.length) + 32 = 8 * (k + 4 + vendor.length + 4) by omega, r3]
  simp only []
  rw [if_neg (by simp only [vorbisBytes, List.length_append, vorbis_length, leBytes_length]; omega)]

/-- **C115**: with the byte behind that Ogg streams have. -/
theorem C115_framing {data : Bytes} {s : InputStream} (hs : stringInputStream data = .ok s) (k : Nat) (vendor : Bytes) (items : List Bytes)
    (flag : UInt8) (hv : vendor.length < 2 ^ 32) (hn : items.length < 2 ^ 32) (hi : ∀ b ∈ items, b.length < 2 ^ 32)
    (hp : vorbisBytes vendor items ++ [flag] <+: data.drop k) (stop : Nat) (hstop : 8 * (k + (vorbisBytes vendor items).length) < stop) :
    readComment s (8 * k) stop = .ok ⟨vendor, items, some flag.toNat⟩ := by
  have p0 := prefix_left hp
  have p4 := drop_prefix (xs := vorbisBytes vendor items) (ys := [flag]) hp
  have r1 := read_vorbis_string hs k vendor hv (prefix_left p0)
  have p2 : leBytes 4 items.length ++ vorbisItems items <+: data.drop (k + 4 + vendor.length) := by
    have := drop_prefix (xs := vorbisString vendor) (ys := leBytes 4 items.length ++ vorbisItems items) p0
    rwa [vorbis_length, ← Nat.add_assoc] at this
  have r2 := read_le data s hs 4 (k + 4 + vendor.length) items.length (by omega) (by omega) (prefix_left p2) 32 rfl
    ((8 * (k + 4 + vendor.length) : Nat) : Int) (by omega)
  have p3 : vorbisItems items <+: data.drop (k + 4 + vendor.length + 4) := by
    have := drop_prefix (xs := leBytes 4 items.length) (ys := vorbisItems items) p2
    rwa [leBytes_length] at this
  have r3 := read_vorbis_items hs items (k + 4 + vendor.length + 4) hi p3
  have e : k + 4 + vendor.length + 4 + (vorbisItems items).length = k + (vorbisBytes vendor items).length := by
    simp only [vorbisBytes, List.length_append, vorbis_length, leBytes_length]; omega
  rw [e] at r3
  have r4 := read_byte data s hs (k + (vorbisBytes vendor items).length) flag .little (by simp) p4
    ((8 * (k + (vorbisBytes vendor items).length) : Nat) : Int) (by omega)
  rw [readComment, r1]
  simp only [bind, Except.bind]
  rw [r2]
  simp only []
  rw [show 8 * (k + 4 + vendor.length) + 32 = 8 * (k + 4 + vendor.length + 4) by omega, r3]
  simp only []
  rw [if_pos (by omega), r4]

/-! ## Files -/

/-- The four bytes of the header of a frame. -/
def frameBytes (f : Flac.Frame) : Bytes :=
  beBytes 4 (f.sync * 262144 + f.strategy * 65536 + f.blockSize * 4096 + f.rate * 256 + f.channels * 16 + f.sampleSize * 2)

structure FrameGood (f : Flac.Frame) : Prop where
  sync : f.sync < 2 ^ 14
  strategy : f.strategy < 2
  blockSize : f.blockSize < 2 ^ 4
  rate : f.rate < 2 ^ 4
  channels : f.channels < 2 ^ 4
  sampleSize : f.sampleSize < 2 ^ 3

theorem read_frame {data : Bytes} {s : InputStream} (hs : stringInputStream data = .ok s) (k : Nat) (f : Flac.Frame) (hf : FrameGood f)
    (hp : frameBytes f <+: data.drop k) : Flac.readFrame s (8 * k) = .ok f := by
  obtain ⟨sync, strategy, blockSize, rate, channels, sampleSize⟩ := f
  obtain ⟨h1, h2, h3, h4, h5, h6⟩ := hf
  simp only at h1 h2 h3 h4 h5 h6
  simp only [frameBytes] at hp
  have hb := beBytes_big 4 (sync * 262144 + strategy * 65536 + blockSize * 4096 + rate * 256 + channels * 16 + sampleSize * 2) (by norm_num; omega)
  have r1 := readBits_mid data s hs k 0 14 _ hp (by simp [beBytes_length]) (by simp [beBytes_length]) ((8 * k : Nat) : Int) (by omega)
  have r2 := readBits_mid data s hs k 15 1 _ hp (by simp [beBytes_length]) (by simp [beBytes_length]) ((8 * k + 15 : Nat) : Int) (by omega)
  have r3 := readBits_mid data s hs k 16 4 _ hp (by simp [beBytes_length]) (by simp [beBytes_length]) ((8 * k + 16 : Nat) : Int) (by omega)
  have r4 := readBits_mid data s hs k 20 4 _ hp (by simp [beBytes_length]) (by simp [beBytes_length]) ((8 * k + 20 : Nat) : Int) (by omega)
  have r5 := readBits_mid data s hs k 24 4 _ hp (by simp [beBytes_length]) (by simp [beBytes_length]) ((8 * k + 24 : Nat) : Int) (by omega)
  have r6 := readBits_mid data s hs k 28 3 _ hp (by simp [beBytes_length]) (by simp [beBytes_length]) ((8 * k + 28 : Nat) : Int) (by omega)
  rw [beBytes_length, hb.2] at r1 r2 r3 r4 r5 r6
  norm_num at r1 r2 r3 r4 r5 r6
  have e1 : (sync * 262144 + strategy * 65536 + blockSize * 4096 + rate * 256 + channels * 16 + sampleSize * 2) / 262144 % 16384 = sync := by omega
  have e2 : (sync * 262144 + strategy * 65536 + blockSize * 4096 + rate * 256 + channels * 16 + sampleSize * 2) / 65536 % 2 = strategy := by omega
  have e3 : (sync * 262144 + strategy * 65536 + blockSize * 4096 + rate * 256 + channels * 16 + sampleSize * 2) / 4096 % 16 = blockSize := by omega
  have e4 : (sync * 262144 + strategy * 65536 + blockSize * 4096 + rate * 256 + channels * 16 + sampleSize * 2) / 256 % 16 = rate := by omega
  have e5 : (sync * 262144 + strategy * 65536 + blockSize * 4096 + rate * 256 + channels * 16 + sampleSize * 2) / 16 % 16 = channels := by omega
  have e6 : (sync * 262144 + strategy * 65536 + blockSize * 4096 + rate * 256 + channels * 16 + sampleSize * 2) / 2 % 8 = sampleSize := by omega
  rw [e1] at r1
  rw [e2] at r2
  rw [e3] at r3
  rw [e4] at r4
  rw [e5] at r5
  rw [e6] at r6
  unfold Flac.readFrame
  push_cast
  rw [r1]
  simp only [bind, Except.bind]
  rw [r2]
  simp only []
  rw [r3]
  simp only []
  rw [r4]
  simp only []
  rw [r5]
  simp only []
  rw [r6]

/-- The bytes of a file: signature, blocks, the header of the first frame and what follows. -/
def flacBytes (blocks : List (Nat × Bytes)) (f : Flac.Frame) (rest : Bytes) : Bytes :=
  [102, 76, 97, 67] ++ (flacBlocks blocks ++ (frameBytes f ++ rest))

/-- **C114**: a file whose first block is a stream info and not the last one is accepted; blocks and
the header of the first frame are found at their places. -/
theorem C114_file_partial (first : Bytes) (blocks : List (Nat × Bytes)) (f : Flac.Frame) (rest : Bytes) (s : InputStream)
    (hs : stringInputStream (flacBytes ((0, first) :: blocks) f rest) = .ok s) (hb : blocks ≠ [])
    (hg : ∀ b ∈ (0, first) :: blocks, b.1 < 128 ∧ b.2.length < 2 ^ 24) (hf : FrameGood f) (fuel : Nat) (hfuel : blocks.length + 1 ≤ fuel) :
    Flac.valid s = .ok true ∧
    Flac.readFile s fuel (8 * (flacBytes ((0, first) :: blocks) f rest).length) = .ok (flacPlaces 4 ((0, first) :: blocks), some f) := by
  obtain ⟨b, bs, rfl⟩ : ∃ b bs, blocks = b :: bs := by
    cases blocks with
    | nil => exact absurd rfl hb
    | cons b bs => exact ⟨b, bs, rfl⟩
  generalize hd : flacBytes ((0, first) :: b :: bs) f rest = data at *
  have hp : flacBlocks ((0, first) :: b :: bs) ++ (frameBytes f ++ rest) <+: data.drop 4 := by
    rw [← hd]; exact ⟨[], by simp [flacBytes]⟩
  have r1 := C114_blocks hs ((0, first) :: b :: bs) fuel 4 (by simp) (by simpa using hfuel) hg (prefix_left hp)
  have p2 := drop_prefix (xs := flacBlocks ((0, first) :: b :: bs)) (ys := frameBytes f ++ rest) hp
  have r2 := read_frame hs _ f hf (prefix_left p2)
  constructor
  · have h5 : [102, 76, 97, 67, 0] <+: data.drop 0 := by
      have e : beBytes 1 0 = [0] := by decide
      refine ⟨beBytes 3 first.length ++ (first ++ (flacBlocks (b :: bs) ++ (frameBytes f ++ rest))), ?_⟩
      rw [← hd]
      simp [flacBytes, flacBlocks, e]
    have r := readBytes_prefix data s hs 0 [102, 76, 97, 67, 0] h5
    have r' : readBytes s 0 5 = .ok [102, 76, 97, 67, 0] := r
    rw [Flac.valid, r']
    rfl
  · have hl := p2.length_le
    simp only [List.length_append, List.length_drop, frameBytes, beBytes_length] at hl
    unfold Flac.readFile
    have r1' : readBlocks s fuel 32 (8 * data.length) = _ := r1
    rw [r1']
    simp only []
    rw [if_pos (by omega), r2]

/-- Violation: a file with a stream info only, which the format allows, is refused. -/
theorem C114_lone (info : Bytes) (rest : Bytes) (s : InputStream)
    (hs : stringInputStream ([102, 76, 97, 67] ++ (flacBlocks [(0, info)] ++ rest)) = .ok s) :
    Flac.valid s = .ok false := by
  have e : beBytes 1 (128 + 0) = [128] := by decide
  have h5 : [102, 76, 97, 67, 128] <+: ([102, 76, 97, 67] ++ (flacBlocks [(0, info)] ++ rest)).drop 0 := by
    refine ⟨beBytes 3 info.length ++ (info ++ rest), ?_⟩
    simp [flacBlocks, e]
  have r := readBytes_prefix _ s hs 0 [102, 76, 97, 67, 128] h5
  have r' : readBytes s 0 5 = .ok [102, 76, 97, 67, 128] := r
  rw [Flac.valid, r']
  rfl

/-! ## Metadata -/

theorem split_pair (value : List Char) : ∀ name : List Char, '=' ∉ name → splitEq (name ++ '=' :: value) = some (name, value)
  | [], _ => by simp [splitEq]
  | c :: cs, h => by
    rw [List.cons_append, splitEq, if_neg (by simp at h; exact fun e => h.1 e.symm), split_pair value cs (by simp at h; exact h.2)]

theorem split_none : ∀ text : List Char, '=' ∉ text → splitEq text = none
  | [], _ => rfl
  | c :: cs, h => by
    rw [splitEq, if_neg (by simp at h; exact fun e => h.1 e.symm), split_none cs (by simp at h; exact h.2)]

/-- What an item may be: a name and a value, or a text without "=". -/
inductive VorbisItem where
  | pair (name value : List Char)
  | plain (text : List Char)

def VorbisItem.text : VorbisItem → List Char
  | .pair name value => name ++ '=' :: value
  | .plain text => text

def VorbisItem.Good : VorbisItem → Prop
  | .pair name _ => '=' ∉ name
  | .plain text => '=' ∉ text

/-- The names of Vorbis comments that are told, with the attribute of the metadata. -/
def toldAs : String → Option String
  | "ARTIST" => some "artist"
  | "ALBUM" => some "album"
  | "TRACKNUMBER" => some "track_number"
  | "TRACKTOTAL" => some "track_total"
  | "ENCODER" => some "producer"
  | "TITLE" => some "title"
  | "LOCATION" => some "location"
  | "DATE" => some "creation_date"
  | "ORGANIZATION" => some "organization"
  | "GENRE" => some "music_genre"
  | "" => some "comment"
  | "COMPOSER" => some "music_composer"
  | "DESCRIPTION" => some "comment"
  | "COMMENT" => some "comment"
  | "WWW" => some "url"
  | "WOAF" => some "url"
  | "LICENSE" => some "copyright"
  | _ => none

theorem attributes_told (name : String) : attributes.lookup name = toldAs name := by
  unfold toldAs
  split
  case h_18 _ h1 h2 h3 h4 h5 h6 h7 h8 h9 h10 h11 h12 h13 h14 h15 h16 h17 =>
    simp only [attributes, List.lookup, beq_eq_false_iff_ne.mpr h1, beq_eq_false_iff_ne.mpr h2, beq_eq_false_iff_ne.mpr h3, beq_eq_false_iff_ne.mpr h4, beq_eq_false_iff_ne.mpr h5, beq_eq_false_iff_ne.mpr h6, beq_eq_false_iff_ne.mpr h7, beq_eq_false_iff_ne.mpr h8, beq_eq_false_iff_ne.mpr h9, beq_eq_false_iff_ne.mpr h10, beq_eq_false_iff_ne.mpr h11, beq_eq_false_iff_ne.mpr h12, beq_eq_false_iff_ne.mpr h13, beq_eq_false_iff_ne.mpr h14, beq_eq_false_iff_ne.mpr h15, beq_eq_false_iff_ne.mpr h16, beq_eq_false_iff_ne.mpr h17]
  all_goals rfl

/-- What is told of an item: the value, under the attribute of the name in any case. -/
def VorbisItem.told : VorbisItem → Option (String × List Char)
  | .pair name value => (toldAs (String.ofList (name.map Char.toUpper))).map fun a => (a, value)
  | .plain _ => none

theorem item_told (i : VorbisItem) (h : i.Good) : itemEntry i.text = i.told := by
  cases i with
  | pair name value =>
    simp only [VorbisItem.text, VorbisItem.told, itemEntry, split_pair value name h, attributes_told]
    cases toldAs (String.ofList (name.map Char.toUpper)) <;> rfl
  | plain text =>
    simp only [VorbisItem.text, VorbisItem.told, itemEntry, split_none text h]

/-- **C115**: of comments, the vendor is told and all items with a known name, in order, with the whole value
(it may contain "=") . -/
theorem C115_told (decode : Bytes → List Char) (c : Flac.Comment) (items : List VorbisItem) (hg : ∀ i ∈ items, i.Good)
    (hd : c.items.map decode = items.map VorbisItem.text) :
    commentEntries decode c = ("producer", decode c.vendor) :: items.filterMap VorbisItem.told := by
  unfold commentEntries
  have h1 : c.items.filterMap (fun b => itemEntry (decode b)) = (c.items.map decode).filterMap itemEntry := by
    rw [List.filterMap_map]; rfl
  rw [h1, hd, List.filterMap_map]
  congr 1
  apply List.filterMap_congr
  intro i hi
  exact item_told i (hg i hi)

/-- The case of the letters of a name does not matter. -/
theorem C115_case (name name' value : List Char) (h : name.map Char.toUpper = name'.map Char.toUpper) (h1 : '=' ∉ name) (h2 : '=' ∉ name') :
    itemEntry (name ++ '=' :: value) = itemEntry (name' ++ '=' :: value) := by
  have a := item_told (.pair name value) h1
  have b := item_told (.pair name' value) h2
  simp only [VorbisItem.text, VorbisItem.told] at a b
  rw [a, b, h]

/-- The first block of a type in a list of blocks. -/
def FirstBlock (t : Nat) (blocks : List (Nat × Bytes)) (k : Nat) (c : Bytes) (p : Nat) : Prop :=
  ∃ before after, blocks = before ++ (t, c) :: after ∧ (∀ b ∈ before, b.1 ≠ t) ∧
    p = k + (before.map fun b => 4 + b.2.length).sum

theorem find_placed (t : Nat) (c : Bytes) : ∀ (before after : List (Nat × Bytes)) (k : Nat), (∀ b ∈ before, b.1 ≠ t) →
    ∃ last, (flacPlaces k (before ++ (t, c) :: after)).find? (fun b => b.type = t) =
      some ⟨8 * (k + (before.map fun b => 4 + b.2.length).sum), last, t, c.length⟩
  | [], [], k, _ => ⟨1, by simp [flacPlaces]⟩
  | [], b :: after, k, _ => ⟨0, by simp [flacPlaces]⟩
  | (t', c') :: before, after, k, h => by
    obtain ⟨last, ih⟩ := find_placed t c before after (k + 4 + c'.length) (fun b hb => h b (by simp [hb]))
    refine ⟨last, ?_⟩
    have h0 : t' ≠ t := h (t', c') (by simp)
    obtain ⟨x, xs, hx⟩ : ∃ x xs, before ++ (t, c) :: after = x :: xs := by
      cases before with
      | nil => exact ⟨_, _, rfl⟩
      | cons x xs => exact ⟨_, _, rfl⟩
    rw [hx] at ih
    rw [List.cons_append, hx, flacPlaces, List.find?_cons_of_neg (by simpa using h0), ih]
    simp only [List.map_cons, List.sum_cons, Nat.add_assoc]

theorem find_content {t k p : Nat} {c : Bytes} {blocks : List (Nat × Bytes)} (h : FirstBlock t blocks k c p) (hc : c ≠ []) :
    ∃ last, findContent t (flacPlaces k blocks) = some ⟨8 * p, last, t, c.length⟩ := by
  obtain ⟨before, after, rfl, hn, rfl⟩ := h
  obtain ⟨last, hl⟩ := find_placed t c before after k hn
  refine ⟨last, ?_⟩
  unfold findContent
  rw [hl]
  simp only []
  rw [if_neg (by simpa using hc)]

theorem content_prefix {t k p : Nat} {c : Bytes} {blocks : List (Nat × Bytes)} (h : FirstBlock t blocks k c p) {data : Bytes}
    (hp : flacBlocks blocks <+: data.drop k) : c <+: data.drop (p + 4) := by
  obtain ⟨before, after, rfl, hn, rfl⟩ := h
  clear hn
  induction before generalizing k with
  | nil =>
    cases after with
    | nil =>
      have h1 : (beBytes 1 (128 + t) ++ beBytes 3 c.length) ++ c <+: data.drop k := by simpa [flacBlocks] using hp
      have := drop_prefix h1
      simpa [beBytes_length] using this
    | cons b after =>
      have h1 : (beBytes 1 t ++ beBytes 3 c.length) ++ (c ++ flacBlocks (b :: after)) <+: data.drop k := by simpa [flacBlocks] using hp
      have := prefix_left (drop_prefix h1)
      simpa [beBytes_length] using this
  | cons b before ih =>
    obtain ⟨t', c'⟩ := b
    obtain ⟨x, xs, hx⟩ : ∃ x xs, before ++ (t, c) :: after = x :: xs := by
      cases before with
      | nil => exact ⟨_, _, rfl⟩
      | cons x xs => exact ⟨_, _, rfl⟩
    rw [List.cons_append, hx, flacBlocks] at hp
    have h1 : (beBytes 1 t' ++ (beBytes 3 c'.length ++ c')) ++ flacBlocks (x :: xs) <+: data.drop k := by simpa using hp
    have h2 := drop_prefix h1
    rw [← hx] at h2
    have e : (beBytes 1 t' ++ (beBytes 3 c'.length ++ c')).length = 4 + c'.length := by simp [beBytes_length]; omega
    rw [e] at h2
    have := ih h2
    simp only [List.map_cons, List.sum_cons]
    rwa [← Nat.add_assoc k]

/-- **C115**: of a file with a stream info and comments, wherever the comments are among the blocks, exactly
these are told: channels, bits per sample, the sample rate if it is from 1000 to 192000, the duration (number of samples by
rate), and the texts. -/
theorem C115_file (data : Bytes) (s : InputStream) (hs : stringInputStream data = .ok s) (decode : Bytes → List Char)
    (blocks : List (Nat × Bytes)) (k : Nat) (hp : flacBlocks blocks <+: data.drop k)
    (i : Flac.Info) (hi : InfoGood i) (p : Nat) (h1 : FirstBlock 0 blocks k (infoBytes i) p)
    (vendor : Bytes) (items : List Bytes) (hv : vendor.length < 2 ^ 32) (hn : items.length < 2 ^ 32) (hit : ∀ b ∈ items, b.length < 2 ^ 32)
    (q : Nat) (h2 : FirstBlock 4 blocks k (vorbisBytes vendor items) q) :
    extract s decode (flacPlaces k blocks) =
      { channels := some (i.channels + 1)
        bits := some (i.bits + 1)
        rate := if 1000 ≤ i.rate ∧ i.rate ≤ 192000 then some i.rate else none
        duration := if i.samples ≠ 0 ∧ i.rate ≠ 0 then some (i.samples, i.rate) else none
        texts := commentEntries decode ⟨vendor, items, none⟩ } := by
  have hne : vorbisBytes vendor items ≠ [] := by
    intro h
    have := congrArg List.length h
    simp [vorbisBytes, vorbis_length] at this
  have hne' : infoBytes i ≠ [] := by
    intro h
    have := congrArg List.length h
    rw [info_length i hi] at this
    simp at this
  obtain ⟨l1, f1⟩ := find_content h1 hne'
  obtain ⟨l2, f2⟩ := find_content h2 hne
  have c1 := C114_info hs (p + 4) i hi (content_prefix h1 hp)
  have c2 := C115_comment hs (q + 4) vendor items hv hn hit (content_prefix h2 hp)
  unfold extract
  rw [f1, f2]
  simp only []
  rw [show 8 * q + 32 + 8 * (vorbisBytes vendor items).length = 8 * (q + 4 + (vorbisBytes vendor items).length) by omega,
    show 8 * q + 32 = 8 * (q + 4) by omega, c2, show 8 * p + 32 = 8 * (p + 4) by omega, c1]
  rfl

/-- Violation: a sample rate above 192000, which the format allows up to 655350, is not told (the
duration is). -/
theorem C115_rate (i : Flac.Info) (texts : List (String × List Char)) (h : 192000 < i.rate) (h0 : i.samples ≠ 0) :
    (useInfo i texts).rate = none ∧ (useInfo i texts).duration = some (i.samples, i.rate) := by
  constructor
  · show (if 1000 ≤ i.rate ∧ i.rate ≤ 192000 then some i.rate else none) = none
    rw [if_neg (by omega)]
  · show (if i.samples ≠ 0 ∧ i.rate ≠ 0 then some (i.samples, i.rate) else none) = _
    rw [if_pos ⟨h0, by omega⟩]

/-! ## Examples -/

/-- Stereo, 16 bits, 44100 Hz, one second. -/
def sampleInfo : Flac.Info := ⟨4096, 4096, 14, 16, 44100, 1, 15, 44100, List.replicate 16 7⟩

example : InfoGood sampleInfo := ⟨by decide, by decide, by decide, by decide, by decide, by decide, by decide, by decide, by decide⟩

/-- `Title=a=b` and `x`. -/
def sampleItems : List Bytes := [[84, 105, 116, 108, 101, 61, 97, 61, 98], [120]]

def sampleBlocks : List (Nat × Bytes) := [(0, infoBytes sampleInfo), (1, [0, 0]), (4, vorbisBytes [114] sampleItems), (3, [])]

example : FirstBlock 0 sampleBlocks 4 (infoBytes sampleInfo) 4 ∧ FirstBlock 4 sampleBlocks 4 (vorbisBytes [114] sampleItems) 48 :=
  ⟨⟨[], _, rfl, by simp, rfl⟩, ⟨[(0, infoBytes sampleInfo), (1, [0, 0])], [(3, [])], rfl, by simp,
    by simp [info_length sampleInfo ⟨by decide, by decide, by decide, by decide, by decide, by decide, by decide, by decide, by decide⟩]⟩⟩

example : ∀ b ∈ sampleBlocks, b.1 < 128 ∧ b.2.length < 2 ^ 24 := by decide +kernel

example : ∀ s, stringInputStream (flacBytes sampleBlocks ⟨16382, 0, 12, 9, 1, 4⟩ [1, 2]) = .ok s →
    extract s (fun b => b.map fun c => Char.ofNat c.toNat) (flacPlaces 4 sampleBlocks) =
      ⟨some 2, some 16, some 44100, some (44100, 44100), [("producer", ['r']), ("title", ['a', '=', 'b'])]⟩ := by
  intro s hs
  have h := C115_file _ s hs (fun b => b.map fun c => Char.ofNat c.toNat) sampleBlocks 4
    ⟨_, rfl⟩ sampleInfo ⟨by decide, by decide, by decide, by decide, by decide, by decide, by decide, by decide, by decide⟩
    4 ⟨[], _, rfl, by simp, rfl⟩ [114] sampleItems (by decide) (by decide) (by decide) 48
    ⟨[(0, infoBytes sampleInfo), (1, [0, 0])], [(3, [])], rfl, by simp,
      by simp [info_length sampleInfo ⟨by decide, by decide, by decide, by decide, by decide, by decide, by decide, by decide, by decide⟩]⟩
  rw [h]
  decide +kernel

example : FrameGood ⟨16382, 0, 12, 9, 1, 4⟩ := ⟨by decide, by decide, by decide, by decide, by decide, by decide⟩

end Hachoir.Props
