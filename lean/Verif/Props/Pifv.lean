import Verif.Formats.Pifv
import Verif.Props.Asf
import Verif.Props.Iptc

/-!
# C190: firmware volumes
-/

namespace Hachoir.Props
open Hachoir Hachoir.Stream Hachoir.Field Hachoir.Formats Hachoir.Formats.Pifv Spec _root_.Props

/-! ### Specification -/

/-- A section: its length including the four bytes before its content, its type, its content. -/
def pifvFrame (t : Nat) (b : Bytes) : Bytes := leBytes 3 (4 + b.length) ++ (leBytes 1 t ++ b)

/-- A text in UTF-16 whose units all have a low byte that is not zero. -/
def PifvName (t : Bytes) : Prop := ∃ n, t.length = 2 * n ∧ ∀ i, i < n → t[2 * i]? ≠ some 0

/-- A file to write: the bytes before it, its identifier, numbers and sections, these with their bytes. -/
structure PifvFile where
  pad : Bytes
  guid : Bytes
  check : Nat
  type : Nat
  attributes : Nat
  state : Nat
  parts : List (Section × Bytes)

def PifvFile.value (f : PifvFile) : FileTold := (⟨guidText f.guid, f.check, f.type, f.attributes, f.state⟩, f.parts.map Prod.fst)

def PifvFile.size (f : PifvFile) : Nat := 24 + (f.parts.flatMap Prod.snd).length

def PifvFile.bytes (f : PifvFile) : Bytes :=
  f.guid ++ (leBytes 2 f.check ++ (leBytes 1 f.type ++ (leBytes 1 f.attributes ++ (leBytes 3 f.size ++ (leBytes 1 f.state ++ f.parts.flatMap Prod.snd)))))

structure PifvFileFits (R : Section → Bytes → Prop) (f : PifvFile) : Prop where
  guid : f.guid.length = 16
  numbers : f.check < 65536 ∧ f.type < 256 ∧ f.attributes < 256 ∧ f.state < 256
  size : f.size < 2 ^ 24
  parts : ∀ p ∈ f.parts, R p.1 p.2

/-- The files start at multiples of eight bytes of the volume; `cur` bytes are before the first one. -/
def PifvAligned : Nat → List PifvFile → Prop
  | _, [] => True
  | cur, f :: fs => f.pad.length < 8 ∧ (cur + f.pad.length) % 8 = 0 ∧ PifvAligned (cur + f.pad.length + f.size) fs

structure PifvVolume where
  guid : Bytes
  signature : Bytes
  numbers : List Nat
  blocks : List (List Nat)
  files : List PifvFile

def PifvVolume.value (v : PifvVolume) : Volume := (⟨guidText v.guid, v.signature, v.numbers, v.blocks⟩, v.files.map PifvFile.value)

def PifvVolume.filesBytes (v : PifvVolume) : Bytes := v.files.flatMap fun f => f.pad ++ f.bytes

/-- The header has 56 bytes, each block map 8, one more ends them. -/
def PifvVolume.size (v : PifvVolume) : Nat := 56 + 8 * (v.blocks.length + 1) + v.filesBytes.length

def PifvVolume.bytes (v : PifvVolume) : Bytes :=
  List.replicate 16 0 ++ (v.guid ++ (leBytes 8 v.size ++ (v.signature ++ (numsBytes [4, 2, 2, 2, 1, 1] v.numbers ++
    (v.blocks.flatMap (numsBytes [4, 4]) ++ numsBytes [4, 4] [0, 0] ++ v.filesBytes)))))

structure PifvVolumeFits (R : Section → Bytes → Prop) (v : PifvVolume) : Prop where
  guid : v.guid.length = 16
  signature : v.signature.length = 4
  numbers : NumsFit [4, 2, 2, 2, 1, 1] v.numbers
  blocks : ∀ b ∈ v.blocks, NumsFit [4, 4] b ∧ b ≠ [0, 0]
  files : ∀ f ∈ v.files, PifvFileFits R f
  aligned : PifvAligned (56 + 8 * (v.blocks.length + 1)) v.files
  size : v.size < 2 ^ 64

/-- The bytes of a section, given those of the sections inside. -/
inductive PifvSection (R : Section → Bytes → Prop) : Section → Bytes → Prop
  | plain (t : Nat) (d : Bytes) (ht : t < 256) (hs : t ∉ [1, 2, 0x13, 0x14, 0x15, 0x17, 0x18, 0x1b]) (hl : 4 + d.length < 2 ^ 24) : PifvSection R (.plain t d) (pifvFrame t d)
  | compressed (len : Nat) (d : Bytes) (hn : len < 2 ^ 32) (hl : 9 + d.length < 2 ^ 24) :
      PifvSection R (.compressed len d) (pifvFrame 1 (leBytes 4 len ++ (leBytes 1 1 ++ d)))
  | unpacked (len m : Nat) (parts : List (Section × Bytes)) (hn : len < 2 ^ 32) (hm : m < 256 ∧ m ≠ 1) (hp : ∀ p ∈ parts, R p.1 p.2)
      (hl : 9 + (parts.flatMap Prod.snd).length < 2 ^ 24) :
      PifvSection R (.unpacked len m (parts.map Prod.fst)) (pifvFrame 1 (leBytes 4 len ++ (leBytes 1 m ++ parts.flatMap Prod.snd)))
  | subtype (g d : Bytes) (hg : g.length = 16) (hl : 20 + d.length < 2 ^ 24) : PifvSection R (.subtype (guidText g) d) (pifvFrame 0x18 (g ++ d))
  | defined (g : Bytes) (o a : Nat) (d : Bytes) (hg : g.length = 16) (ho : o < 65536) (ha : a < 65536) (hl : 24 + d.length < 2 ^ 24) :
      PifvSection R (.defined (guidText g) o a d) (pifvFrame 2 (g ++ (leBytes 2 o ++ (leBytes 2 a ++ d))))
  | interface (t d : Bytes) (ht : PifvName t) (hl : 6 + t.length + d.length < 2 ^ 24) : PifvSection R (.interface t d) (pifvFrame 0x15 ((t ++ [0, 0]) ++ d))
  | version (b : Nat) (t d : Bytes) (hb : b < 65536) (ht : PifvName t) (hl : 8 + t.length + d.length < 2 ^ 24) :
      PifvSection R (.version b t d) (pifvFrame 0x14 (leBytes 2 b ++ ((t ++ [0, 0]) ++ d)))
  | image (v : PifvVolume) (hv : PifvVolumeFits R v) (hl : 4 + v.bytes.length < 2 ^ 24) : PifvSection R (.image v.value.1 v.value.2) (pifvFrame 0x17 v.bytes)

/-- Sections of at most this depth. -/
def PifvDeep : Nat → Section → Bytes → Prop
  | 0 => fun _ _ => False
  | n + 1 => PifvSection (PifvDeep n)

/-! ### Proofs -/

theorem reads_pifv_content (d : Bytes) : ReadsAll Pifv.content d d := by
  show ReadsAll (Iptc.left >>= fun n => if n = 0 then Rd.pure [] else Rd.raw n) d d
  refine ReadsAll.left ?_
  cases d with
  | nil => exact Reads.all (reads_rpure _)
  | cons x d => rw [if_neg (by simp)]; exact Reads.all (reads_raw _ (by simp))

theorem ReadsAll.rmap {α β : Type} {r : Rd α} {v : α} {bs : Bytes} (h : ReadsAll r v bs) (f : α → β) : ReadsAll (Rd.bind r fun a => Rd.pure (f a)) (f v) bs := ReadsAll.map h f

theorem Reads.rbind_all {α β : Type} {r : Rd α} {f : α → Rd β} {v : α} {w : β} {xs ys : Bytes} (h1 : Reads r v xs) (h2 : ReadsAll (f v) w ys) :
    ReadsAll (Rd.bind r f) w (xs ++ ys) := Reads.bind_all h1 h2

theorem reads_pifv_name (t : Bytes) (h : PifvName t) : Reads Pifv.name t (t ++ [0, 0]) := by
  obtain ⟨n, hn, h0⟩ := h
  intro data s hs k stop hp _
  have hl := hp.length_le
  rw [List.length_drop, List.length_append] at hl
  simp only [List.length_cons, List.length_nil] at hl
  obtain ⟨u, hu⟩ := hp
  have r := C42_utf16le_text hs .little (by decide) k (by omega) n (by
    rw [unitAt, ← hu, List.append_assoc, ← hn, List.drop_left]; rfl) (fun i hi => by
    rw [← hu, List.append_assoc, List.getElem?_append_left (by omega)]; exact h0 i hi)
  have e : (data.drop k).take (2 * n) = t := by rw [← hu, List.append_assoc, ← hn, List.take_left]
  rw [e] at r
  rw [Pifv.name, Rd.text, r.1]
  simp only []
  rw [r.2]
  simp only [List.length_append, List.length_cons, List.length_nil, Except.ok.injEq, Prod.mk.injEq, true_and]
  omega

theorem pifv_frame_length (t : Nat) (b : Bytes) : (pifvFrame t b).length = 4 + b.length := by
  simp [pifvFrame, leBytes_length]; omega

theorem pifv_section_ne {R : Section → Bytes → Prop} {s : Section} {b : Bytes} (h : PifvSection R s b) : b ≠ [] := by
  have hf : ∀ t b, pifvFrame t b ≠ [] := fun t b e => by
    have := congrArg List.length e
    rw [pifv_frame_length] at this
    simp at this
  cases h <;> exact hf _ _

/-- Parts of bytes that are not empty are not more than the bytes. -/
theorem parts_length {α : Type} (enc : α → Bytes) : ∀ (l : List α), (∀ p ∈ l, enc p ≠ []) → l.length ≤ (l.flatMap enc).length
  | [], _ => by simp
  | x :: l, h => by
    have h1 := List.length_pos_of_ne_nil (h x (by simp))
    have h2 := parts_length enc l fun p hp => h p (by simp [hp])
    rw [List.flatMap_cons, List.length_append, List.length_cons]
    omega

theorem part_le {α : Type} (enc : α → Bytes) : ∀ (l : List α) (p : α), p ∈ l → (enc p).length ≤ (l.flatMap enc).length
  | x :: l, p, h => by
    rw [List.flatMap_cons, List.length_append]
    rcases List.mem_cons.mp h with rfl | h
    · omega
    · have := part_le enc l p h; omega

/-- What is known of the sections inside. -/
structure PifvInner (fuel : Nat) (R : Section → Bytes → Prop) (r : Rd Section) : Prop where
  reads : ∀ s b, R s b → b.length < fuel → Reads r s b
  ne : ∀ s b, R s b → b ≠ []

theorem reads_pifv_parts {fuel : Nat} {R : Section → Bytes → Prop} {r : Rd Section} (h : PifvInner fuel R r) (parts : List (Section × Bytes)) (hp : ∀ p ∈ parts, R p.1 p.2)
    (hl : (parts.flatMap Prod.snd).length < fuel) : ReadsAll (Rd.whileNotEof r fuel) (parts.map Prod.fst) (parts.flatMap Prod.snd) :=
  reads_while_map r Prod.fst Prod.snd parts fuel (by have := parts_length Prod.snd parts fun p hq => h.ne _ _ (hp p hq); omega)
    fun p hq => ⟨h.reads _ _ (hp p hq) (by have := part_le Prod.snd parts p hq; omega), h.ne _ _ (hp p hq)⟩

theorem reads_pifv_file {fuel : Nat} {R : Section → Bytes → Prop} {r : Rd Section} (h : PifvInner fuel R r) (f : PifvFile) (hf : PifvFileFits R f) (hl : f.size < fuel) :
    Reads (fileOf (Rd.whileNotEof r fuel)) (f.value, f.size) f.bytes := by
  obtain ⟨h1, ⟨h2, h3, h4, h5⟩, h6, h7⟩ := hf
  refine Reads.rbind (reads_guid _ h1) (Reads.rbind (reads_int_le 2 _ (by decide) (by omega)) (Reads.rbind (reads_int_le 1 _ (by decide) (by omega))
    (Reads.rbind (reads_int_le 1 _ (by decide) (by omega)) (Reads.rbind (reads_int_le 3 _ (by decide) (by omega)) (Reads.rbind (reads_int_le 1 _ (by decide) (by omega)) ?_)))))
  rw [if_neg (by unfold PifvFile.size; omega)]
  exact Reads.rmap (f := fun l => (((⟨guidText f.guid, f.check, f.type, f.attributes, f.state⟩, l) : FileTold), f.size))
    (ReadsAll.within (reads_pifv_parts h f.parts h7 (by unfold PifvFile.size at hl; omega)) _ (by unfold PifvFile.size; omega))

theorem pifv_file_length {R : Section → Bytes → Prop} (f : PifvFile) (hf : PifvFileFits R f) : f.bytes.length = f.size := by
  simp only [PifvFile.bytes, PifvFile.size, List.length_append, leBytes_length, hf.guid]
  omega

theorem padding_spec (cur n : Nat) (h1 : n < 8) (h2 : (cur + n) % 8 = 0) : padding cur = n := by
  unfold padding
  split <;> omega

theorem reads_pifv_files {fuel : Nat} {R : Section → Bytes → Prop} {r : Rd Section} (h : PifvInner fuel R r) : ∀ (fs : List PifvFile) (n cur : Nat), fs.length < n →
    (∀ f ∈ fs, PifvFileFits R f ∧ f.size < fuel) → PifvAligned cur fs →
    ReadsAll (Pifv.files (Rd.whileNotEof r fuel) n cur) (fs.map PifvFile.value) (fs.flatMap fun f => f.pad ++ f.bytes)
  | [], n + 1, _, _, _, _ => ReadsAll.at_eof (Reads.all (reads_rpure _))
  | f :: fs, n + 1, cur, hn, hf, ha => by
    obtain ⟨a1, a2, a3⟩ := ha
    obtain ⟨f1, f2⟩ := hf f (by simp)
    have hlen := pifv_file_length f f1
    have e := padding_spec cur _ a1 a2
    rw [List.flatMap_cons]
    refine ReadsAll.not_eof (by
      intro e
      have := congrArg List.length e
      simp only [List.length_append, List.length_nil, hlen, PifvFile.size] at this
      omega) ?_
    show ReadsAll (Rd.bind (skip (padding cur)) fun _ => Rd.bind (fileOf (Rd.whileNotEof r fuel)) fun g =>
      Rd.bind (files (Rd.whileNotEof r fuel) n (cur + padding cur + g.2)) fun gs => Rd.pure (g.1 :: gs)) _ _
    rw [e, List.append_assoc]
    have hskip : Reads (skip f.pad.length) f.pad f.pad := by
      unfold skip
      by_cases hp : f.pad = []
      · rw [hp]; exact reads_rpure []
      · rw [if_neg (by simpa using hp)]; exact reads_raw _ hp
    refine Reads.rbind_all hskip (Reads.rbind_all (reads_pifv_file h f f1 f2) ?_)
    exact ReadsAll.rmap (reads_pifv_files h fs n _ (by simpa using hn) (fun g hg => hf g (by simp [hg])) a3) fun gs => f.value :: gs

theorem reads_pifv_blocks : ∀ (bs : List (List Nat)) (n : Nat), bs.length < n → (∀ b ∈ bs, NumsFit [4, 4] b ∧ b ≠ [0, 0]) →
    Reads (blockMaps n) bs (bs.flatMap (numsBytes [4, 4]) ++ numsBytes [4, 4] [0, 0])
  | [], n + 1, _, _ => by
    rw [blockMaps]
    have := Reads.rbind (f := fun b => if b = [0, 0] then Rd.pure [] else Rd.bind (blockMaps n) fun bs => Rd.pure (b :: bs)) (w := ([] : List (List Nat))) (ys := [])
      (reads_numbers [4, 4] [0, 0] (by simp [NumsFit])) (by rw [if_pos rfl]; exact reads_rpure _)
    simpa using this
  | b :: bs, n + 1, hn, h => by
    obtain ⟨h1, h2⟩ := h b (by simp)
    rw [blockMaps, List.flatMap_cons, List.append_assoc]
    refine Reads.rbind (reads_numbers [4, 4] b h1) ?_
    rw [if_neg h2]
    exact Reads.rmap (f := fun bs => b :: bs) (reads_pifv_blocks bs n (by simpa using hn) fun x hx => h x (by simp [hx]))

theorem pifv_nums_length : ∀ (ws vs : List Nat), NumsFit ws vs → (numsBytes ws vs).length = ws.sum
  | [], [], _ => rfl
  | w :: ws, v :: vs, ⟨_, _, h⟩ => by
    rw [numsBytes, List.length_append, leBytes_length, pifv_nums_length ws vs h, List.sum_cons]

theorem pifv_blocks_length : ∀ (bs : List (List Nat)), (∀ b ∈ bs, NumsFit [4, 4] b ∧ b ≠ [0, 0]) → (bs.flatMap (numsBytes [4, 4])).length = 8 * bs.length
  | [], _ => rfl
  | b :: bs, h => by
    rw [List.flatMap_cons, List.length_append, pifv_nums_length _ _ (h b (by simp)).1, pifv_blocks_length bs fun x hx => h x (by simp [hx]), List.length_cons]
    simp; omega

theorem pifv_volume_length {R : Section → Bytes → Prop} (v : PifvVolume) (h : PifvVolumeFits R v) : v.bytes.length = v.size := by
  have h1 := pifv_blocks_length v.blocks h.blocks
  have h2 := pifv_nums_length _ _ h.numbers
  have h3 := pifv_nums_length [4, 4] [0, 0] (by simp [NumsFit])
  simp only [PifvVolume.bytes, PifvVolume.size, List.length_append, List.length_replicate, leBytes_length, h.guid, h.signature, h1, h2, h3]
  simp; omega

theorem reads_pifv_volume {fuel : Nat} {R : Section → Bytes → Prop} {r : Rd Section} (h : PifvInner fuel R r) (v : PifvVolume) (hv : PifvVolumeFits R v) (hl : v.bytes.length < fuel) :
    Reads (volumeOf (Rd.whileNotEof r fuel) fuel) v.value v.bytes := by
  have hlen := pifv_volume_length v hv
  obtain ⟨h1, h2, h3, h4, h5, h6, h7⟩ := hv
  have hsz : v.size = 64 + 8 * v.blocks.length + v.filesBytes.length := by unfold PifvVolume.size; omega
  refine Reads.rbind (reads_raw_n 16 _ (by simp) (by decide)) (Reads.rbind (reads_guid _ h1) (Reads.rbind (reads_int_le 8 _ (by decide) (by omega))
    (Reads.rbind (reads_raw_n 4 _ h2 (by decide)) (Reads.rbind (reads_numbers _ _ h3) (Reads.rbind (reads_pifv_blocks v.blocks fuel (by omega) h4) ?_)))))
  rw [if_neg (by omega)]
  have hb : ∀ f ∈ v.files, f.pad ++ f.bytes ≠ [] := fun f hf e => by
    have e1 := congrArg List.length e
    rw [List.length_append, pifv_file_length f (h5 f hf)] at e1
    simp [PifvFile.size] at e1
  have hc : v.files.length ≤ v.filesBytes.length := parts_length _ v.files hb
  refine Reads.rmap (f := fun fs => ((⟨guidText v.guid, v.signature, v.numbers, v.blocks⟩, fs) : Volume)) (ReadsAll.within (bs := v.filesBytes) ?_ _ (by omega))
  have e : 64 + 8 * v.blocks.length = 56 + 8 * (v.blocks.length + 1) := by omega
  rw [e]
  refine reads_pifv_files h v.files fuel _ (by omega) (fun f hf => ⟨h5 f hf, ?_⟩) h6
  have h8 : (f.pad ++ f.bytes).length ≤ v.filesBytes.length := part_le (fun f : PifvFile => f.pad ++ f.bytes) v.files f hf
  rw [List.length_append, pifv_file_length f (h5 f hf)] at h8
  omega

theorem reads_extra_none (t n : Nat) (h1 : t ≠ 0x13) (h2 : t ≠ 0x1b) : Reads (extra t n) 0 [] := by
  intro data s hs k stop hp _
  rw [extra, if_neg (by omega)]
  rfl

theorem reads_pifv_frame (secs : Rd (List Section)) (vol : Rd Volume) (t : Nat) (b : Bytes) (s : Section) (ht : t < 256) (h1 : t ≠ 0x13) (h2 : t ≠ 0x1b) (hl : 4 + b.length < 2 ^ 24)
    (h : ReadsAll (sectionBody secs vol t) s b) : Reads (sectionOf secs vol) s (pifvFrame t b) := by
  refine Reads.rbind (reads_int_le 3 _ (by decide) (by omega)) (Reads.rbind (reads_int_le 1 _ (by decide) (by omega)) ?_)
  rw [if_neg (by omega)]
  have := Reads.rbind (reads_extra_none t (4 + b.length - 4) h1 h2) (f := fun x => Rd.within (4 + b.length - 4 + x) (sectionBody secs vol t))
    (ReadsAll.within h _ (by omega))
  simpa using this

theorem reads_pifv_section {fuel : Nat} {R : Section → Bytes → Prop} {r : Rd Section} (h : PifvInner fuel R r) (s : Section) (b : Bytes) (hs : PifvSection R s b) (hl : b.length < fuel) :
    Reads (sectionOf (Rd.whileNotEof r fuel) (volumeOf (Rd.whileNotEof r fuel) fuel)) s b := by
  cases hs with
  | plain t d ht hs hd =>
    simp only [List.mem_cons, List.not_mem_nil, or_false, not_or] at hs
    refine reads_pifv_frame _ _ t d _ ht (by omega) (by omega) hd ?_
    rw [sectionBody, if_neg (by omega), if_neg (by omega), if_neg (by omega), if_neg (by omega), if_neg (by omega), if_neg (by omega)]
    exact ReadsAll.rmap (reads_pifv_content d) (Section.plain t)
  | compressed len d hn hd =>
    refine reads_pifv_frame _ _ 1 _ _ (by decide) (by decide) (by decide) (by simp [leBytes_length]; omega) ?_
    rw [sectionBody, if_pos rfl]
    refine Reads.rbind_all (reads_int_le 4 _ (by decide) (by omega)) (Reads.rbind_all (reads_int_le 1 1 (by decide) (by decide)) ?_)
    rw [if_pos rfl]
    exact ReadsAll.rmap (reads_pifv_content d) (Section.compressed len)
  | unpacked len m parts hn hm hp hd =>
    rw [pifv_frame_length] at hl
    simp only [List.length_append, leBytes_length] at hl
    refine reads_pifv_frame _ _ 1 _ _ (by decide) (by decide) (by decide) (by simp only [List.length_append, leBytes_length]; omega) ?_
    rw [sectionBody, if_pos rfl]
    refine Reads.rbind_all (reads_int_le 4 _ (by decide) (by omega)) (Reads.rbind_all (reads_int_le 1 m (by decide) (by omega)) ?_)
    rw [if_neg hm.2]
    exact ReadsAll.rmap (reads_pifv_parts h parts hp (by omega)) (Section.unpacked len m)
  | subtype g d hg hd =>
    refine reads_pifv_frame _ _ 0x18 _ _ (by decide) (by decide) (by decide) (by simp; omega) ?_
    rw [sectionBody, if_neg (by decide), if_pos rfl]
    exact Reads.rbind_all (reads_guid g hg) (ReadsAll.rmap (reads_pifv_content d) (Section.subtype (guidText g)))
  | defined g o a d hg ho ha hd =>
    refine reads_pifv_frame _ _ 2 _ _ (by decide) (by decide) (by decide) (by simp [leBytes_length]; omega) ?_
    rw [sectionBody, if_neg (by decide), if_neg (by decide), if_pos rfl]
    exact Reads.rbind_all (reads_guid g hg) (Reads.rbind_all (reads_int_le 2 o (by decide) (by omega)) (Reads.rbind_all (reads_int_le 2 a (by decide) (by omega))
      (ReadsAll.rmap (reads_pifv_content d) (Section.defined (guidText g) o a))))
  | interface t d ht hd =>
    refine reads_pifv_frame _ _ 0x15 _ _ (by decide) (by decide) (by decide) (by simp; omega) ?_
    rw [sectionBody, if_neg (by decide), if_neg (by decide), if_neg (by decide), if_pos rfl]
    exact Reads.rbind_all (reads_pifv_name t ht) (ReadsAll.rmap (reads_pifv_content d) (Section.interface t))
  | version n t d hn ht hd =>
    refine reads_pifv_frame _ _ 0x14 _ _ (by decide) (by decide) (by decide) (by simp [leBytes_length]; omega) ?_
    rw [sectionBody, if_neg (by decide), if_neg (by decide), if_neg (by decide), if_neg (by decide), if_pos rfl]
    exact Reads.rbind_all (reads_int_le 2 n (by decide) (by omega)) (Reads.rbind_all (reads_pifv_name t ht) (ReadsAll.rmap (reads_pifv_content d) (Section.version n t)))
  | image v hv hd =>
    rw [pifv_frame_length] at hl
    refine reads_pifv_frame _ _ 0x17 _ _ (by decide) (by decide) (by decide) hd ?_
    rw [sectionBody, if_neg (by decide), if_neg (by decide), if_neg (by decide), if_neg (by decide), if_neg (by decide), if_pos rfl]
    show ReadsAll (Iptc.left >>= _) _ _
    refine ReadsAll.left ?_
    rw [if_neg (by rw [pifv_volume_length v hv]; unfold PifvVolume.size; omega)]
    exact ReadsAll.rmap (Reads.all (reads_pifv_volume h v hv (by omega))) fun v => Section.image v.1 v.2

theorem pifv_inner (fuel : Nat) : ∀ (n : Nat), PifvInner fuel (PifvDeep n) (sect fuel n)
  | 0 => ⟨fun _ _ h => absurd h id, fun _ _ h => absurd h id⟩
  | n + 1 => ⟨fun s b h hl => reads_pifv_section (pifv_inner fuel n) s b h hl, fun _ _ h => pifv_section_ne h⟩

/-- **C190.** Sections, however deep they are nested, are read as they were written. -/
theorem C190_section_partial (n fuel : Nat) (s : Section) (b : Bytes) (h : PifvDeep n s b) (hl : b.length < fuel) : Reads (sect fuel n) s b := (pifv_inner fuel n).reads s b h hl

/-- **C190.** The volumes of a file, with their files and sections, are read as they were written. -/
theorem C190_file_partial (n fuel : Nat) (vs : List PifvVolume) (h : ∀ v ∈ vs, PifvVolumeFits (PifvDeep n) v) (hl : (vs.flatMap PifvVolume.bytes).length < fuel) :
    ReadsAll (Pifv.file fuel n) (vs.map PifvVolume.value) (vs.flatMap PifvVolume.bytes) := by
  have hne : ∀ v ∈ vs, v.bytes ≠ [] := fun v hv e => by
    have e1 := congrArg List.length e
    rw [pifv_volume_length v (h v hv)] at e1
    simp [PifvVolume.size] at e1
  refine reads_while_map _ PifvVolume.value PifvVolume.bytes vs fuel (by have := parts_length _ vs hne; omega) fun v hv => ⟨?_, hne v hv⟩
  exact reads_pifv_volume (pifv_inner fuel n) v (h v hv) (by have := part_le PifvVolume.bytes vs v hv; omega)

/-- **C190, refuted** for dependency sections: if the byte behind is zero, two bytes that follow are taken as part of the section, be they padding or the start of the next section, whose
length is a multiple of 256 then. -/
theorem C190_dependency (n fuel : Nat) (t : Nat) (ht : t = 0x13 ∨ t = 0x1b) (d : Bytes) (hl : 4 + d.length < 2 ^ 24) (x : UInt8) :
    Reads (sect fuel (n + 1)) (.plain t (d ++ [0, x])) (pifvFrame t d ++ [0, x]) := by
  have hx : Reads (extra t d.length >>= fun z => Rd.within (d.length + z) (sectionBody (Rd.whileNotEof (sect fuel n) fuel) (volumeOf (Rd.whileNotEof (sect fuel n) fuel) fuel) t))
      (.plain t (d ++ [0, x])) (d ++ [0, x]) := by
    intro data s hs k stop hp hst
    have hb : readBytes s (8 * (k + d.length) : Nat) 1 = .ok [0] := by
      have h1 : [0, x] <+: data.drop (k + d.length) := drop_prefix hp
      exact readBytes_prefix data s hs (k + d.length) [0] (prefix_left (xs := [0]) (ys := [x]) h1)
    have hw : Reads (Rd.within (d.length + 2) (sectionBody (Rd.whileNotEof (sect fuel n) fuel) (volumeOf (Rd.whileNotEof (sect fuel n) fuel) fuel) t))
        (.plain t (d ++ [0, x])) (d ++ [0, x]) := by
      refine ReadsAll.within ?_ _ (by simp)
      rw [sectionBody, if_neg (by omega), if_neg (by omega), if_neg (by omega), if_neg (by omega), if_neg (by omega), if_neg (by omega)]
      exact ReadsAll.rmap (reads_pifv_content _) (Section.plain t)
    show Rd.bind (extra t d.length) _ s stop (8 * k) = _
    rw [Rd.bind, extra, if_pos ht, show 8 * k + 8 * d.length = 8 * (k + d.length) by omega, hb]
    exact hw data s hs k stop hp hst
  rw [sect, pifvFrame, List.append_assoc, List.append_assoc]
  refine Reads.rbind (reads_int_le 3 _ (by decide) (by omega)) (Reads.rbind (reads_int_le 1 _ (by decide) (by omega)) ?_)
  rw [if_neg (by omega), show 4 + d.length - 4 = d.length by omega]
  exact hx

/-- **C190.** A file is accepted exactly if it starts with 16 zero bytes and its signature is that of a firmware volume. -/
theorem C190_valid (n : Nat) (v : PifvVolume) (h : PifvVolumeFits (PifvDeep n) v) (rest : Bytes) : Pifv.valid (v.bytes ++ rest) = true ↔ v.signature = "_FVH".toUTF8.toList := by
  have h2 : (leBytes 8 v.size).length = 8 := leBytes_length _ _
  obtain ⟨h1, h3⟩ := And.intro h.guid h.signature
  obtain ⟨a, ha⟩ : ∃ a, v.bytes ++ rest = List.replicate 16 0 ++ (v.guid ++ (leBytes 8 v.size ++ (v.signature ++ a))) := by
    refine ⟨numsBytes [4, 2, 2, 2, 1, 1] v.numbers ++ (v.blocks.flatMap (numsBytes [4, 4]) ++ numsBytes [4, 4] [0, 0] ++ v.filesBytes) ++ rest, ?_⟩
    simp only [PifvVolume.bytes, List.append_assoc]
  have e1 : (v.bytes ++ rest).take 16 = List.replicate 16 0 := by
    rw [ha]; exact List.take_left' (by simp)
  have e2 : ((v.bytes ++ rest).drop 40).take 4 = v.signature := by
    rw [ha, ← List.append_assoc, ← List.append_assoc, List.drop_left' (by simp [h1, h2]), List.take_left' h3]
  rw [Pifv.valid, e1, e2]
  simp

/-- A volume with one block map and two files, the second with a section inside of another. -/
def pifvExample : PifvVolume :=
  ⟨List.replicate 16 7, "_FVH".toUTF8.toList, [1, 72, 0, 0, 0, 2], [[1, 4096]],
    [⟨[], List.replicate 16 1, 5, 2, 0, 248, [(.plain 0x19 [1], pifvFrame 0x19 [1])]⟩,
     ⟨[255, 255, 255], List.replicate 16 2, 5, 2, 0, 248,
       [(.unpacked 5 0 [.plain 0x10 []], pifvFrame 1 (leBytes 4 5 ++ (leBytes 1 0 ++ [((.plain 0x10 [] : Section), pifvFrame 0x10 [])].flatMap Prod.snd)))]⟩]⟩

example : PifvVolumeFits (PifvDeep 2) pifvExample := by
  refine ⟨by decide, by decide +kernel, by simp [pifvExample, NumsFit], ?_, ?_, ?_, ?_⟩
  · intro b hb
    simp only [pifvExample, List.mem_cons, List.not_mem_nil, or_false] at hb
    subst hb
    exact ⟨by simp [NumsFit], by decide⟩
  · intro f hf
    simp only [pifvExample, List.mem_cons, List.not_mem_nil, or_false] at hf
    rcases hf with rfl | rfl
    · refine ⟨by decide, by decide, by decide, ?_⟩
      intro p hp
      simp only [List.mem_cons, List.not_mem_nil, or_false] at hp
      subst hp
      exact .plain 0x19 [1] (by decide) (by decide) (by decide)
    · refine ⟨by decide, by decide, by decide, ?_⟩
      intro p hp
      simp only [List.mem_cons, List.not_mem_nil, or_false] at hp
      subst hp
      exact .unpacked 5 0 [(.plain 0x10 [], pifvFrame 0x10 [])] (by decide) (by decide) (fun p hp => by
        simp only [List.mem_cons, List.not_mem_nil, or_false] at hp
        subst hp
        exact .plain 0x10 [] (by decide) (by decide) (by decide)) (by decide)
  · exact ⟨by decide, by decide, by decide, by decide, trivial⟩
  · decide

end Hachoir.Props
