import Mathlib.Data.List.Nodup
import Mathlib.Data.List.Chain
import Mathlib.Data.List.Range
import Mathlib.Data.List.Perm.Subperm
import Verif.Formats.Ole2
import Verif.Props.InputStream

/-!
# C57: streams of OLE2 files are their chains of blocks
-/

set_option linter.unusedVariables false

namespace Hachoir.Props
open Hachoir Hachoir.Stream Hachoir.Formats

/-! ### Chains -/

/-- What stops a chain: the entry behind its last block (its start, when it is empty). -/
def stopsAt (f : Nat → Option Nat) (start : Nat) (bs : List Nat) : Option Nat :=
  match bs.getLast? with
  | none => some start
  | some l => f l

theorem chainLoop_spec (tables : List (List Nat)) (items : Nat) (n block : Nat) (seen : List Nat) :
    let r := chainLoop tables items n block seen
    (r.1 = [] ∨ r.1.head? = some block) ∧
    r.1.IsChain (fun a b => fatEntry tables items a = some b) ∧
    r.1.Nodup ∧ (∀ b ∈ r.1, b ∉ seen ∧ sectSpecial b = false) ∧
    (r.2 = none → stopsAt (fatEntry tables items) block r.1 = none ∨
      stopsAt (fatEntry tables items) block r.1 = some sectEnd) ∧
    (∀ e, r.2 = some e → (e = .parser ∧ ∃ x, stopsAt (fatEntry tables items) block r.1 = some x ∧ x ≠ sectEnd ∧
        (sectSpecial x = true ∨ x ∈ seen ∨ x ∈ r.1)) ∨ (e = .endless ∧ r.1.length = n ∧ ∀ b ∈ r.1, (fatEntry tables items b).isSome)) := by
  induction n generalizing block seen with
  | zero =>
    simp only [chainLoop]
    refine ⟨.inl trivial, .nil, .nil, by simp, by simp, ?_⟩
    intro e he
    simp only [Option.some.injEq] at he
    exact .inr ⟨he.symm, rfl, by simp⟩
  | succ n ih =>
    rw [chainLoop]
    by_cases h1 : block = sectEnd
    · rw [if_pos h1]
      refine ⟨.inl rfl, .nil, .nil, by simp, fun _ => .inr (by simp [stopsAt, h1]), by simp⟩
    rw [if_neg h1]
    by_cases h2 : sectSpecial block = true
    · rw [if_pos h2]
      refine ⟨.inl rfl, .nil, .nil, by simp, by simp, ?_⟩
      intro e he
      simp only [Option.some.injEq] at he
      exact .inl ⟨he.symm, block, rfl, h1, .inl h2⟩
    rw [if_neg h2]
    by_cases h3 : block ∈ seen
    · rw [if_pos h3]
      refine ⟨.inl rfl, .nil, .nil, by simp, by simp, ?_⟩
      intro e he
      simp only [Option.some.injEq] at he
      exact .inl ⟨he.symm, block, rfl, h1, .inr (.inl h3)⟩
    rw [if_neg h3]
    have h2' : sectSpecial block = false := by simpa using h2
    cases hf : fatEntry tables items block with
    | none =>
      simp only
      refine ⟨.inr rfl, .singleton _, by simp, ?_, fun _ => .inl (by simp [stopsAt, hf]), by simp⟩
      intro b hb
      simp only [List.mem_singleton] at hb
      subst hb
      exact ⟨h3, h2'⟩
    | some next =>
      simp only
      obtain ⟨i1, i2, i3, i4, i5, i6⟩ := ih next (block :: seen)
      obtain ⟨r, hr⟩ : ∃ r, chainLoop tables items n next (block :: seen) = r := ⟨_, rfl⟩
      rw [hr] at i1 i2 i3 i4 i5 i6 ⊢
      have hst : stopsAt (fatEntry tables items) block (block :: r.1) = stopsAt (fatEntry tables items) next r.1 := by
        unfold stopsAt
        rcases i1 with h | h
        · rw [h]; simp [hf]
        · cases hr1 : r.1 with
          | nil => rw [hr1] at h; cases h
          | cons a l =>
            rw [List.getLast?_cons_cons]
            cases hl : (a :: l).getLast? with
            | none => simp at hl
            | some x => rfl
      refine ⟨.inr rfl, ?_, ?_, ?_, ?_, ?_⟩
      · rcases i1 with h | h
        · simp only [h]; exact .singleton _
        · cases hr1 : r.1 with
          | nil => rw [hr1] at h; cases h
          | cons a l =>
            rw [hr1] at h i2
            simp only [List.head?_cons, Option.some.injEq] at h
            subst h
            exact .cons_cons hf i2
      · rw [List.nodup_cons]
        exact ⟨fun hm => (i4 _ hm).1 (by simp), i3⟩
      · intro b hb
        rcases List.mem_cons.1 hb with rfl | hb
        · exact ⟨h3, h2'⟩
        · exact ⟨fun hm => (i4 b hb).1 (by simp [hm]), (i4 b hb).2⟩
      · intro h; rw [hst]; exact i5 h
      · intro e he
        rw [hst]
        rcases i6 e he with ⟨j1, x, j2, j3, j4⟩ | ⟨j1, j2, j3⟩
        · refine .inl ⟨j1, x, j2, j3, ?_⟩
          rcases j4 with j4 | j4 | j4
          · exact .inl j4
          · rcases List.mem_cons.1 j4 with rfl | j4
            · exact .inr (.inr (by simp))
            · exact .inr (.inl j4)
          · exact .inr (.inr (by simp [j4]))
        · refine .inr ⟨j1, by simp [j2], ?_⟩
          intro b hb
          rcases List.mem_cons.1 hb with rfl | hb
          · rw [hf]; rfl
          · exact j3 b hb

theorem fatEntry_lt (tables : List (List Nat)) (items b : Nat) (hi : 0 < items)
    (h : (fatEntry tables items b).isSome) : b < tables.length * items := by
  unfold fatEntry at h
  cases ht : tables[b / items]? with
  | none => rw [ht] at h; cases h
  | some t =>
    have hlt : b / items < tables.length := by
      rw [List.getElem?_eq_some_iff] at ht
      exact ht.1
    have h1 := Nat.div_add_mod b items
    have h2 := Nat.mod_lt b hi
    calc b < (b / items + 1) * items := by rw [Nat.add_mul, Nat.mul_comm]; omega
      _ ≤ tables.length * items := Nat.mul_le_mul_right _ hlt

theorem nodup_lt_length (l : List Nat) (N : Nat) (h : l.Nodup) (hb : ∀ b ∈ l, b < N) : l.length ≤ N := by
  have : l ⊆ List.range N := fun b hm => List.mem_range.2 (hb b hm)
  have := (List.Nodup.subperm h this).length_le
  simpa using this

/-- The values that are no block numbers ([MS-CFB] 2.1: DIFSECT, FATSECT, ENDOFCHAIN, FREESECT). -/
def Reserved (b : Nat) : Prop := 0xFFFFFFFC ≤ b ∧ b ≤ 0xFFFFFFFF

theorem sectSpecial_iff (b : Nat) : sectSpecial b = true ↔ Reserved b := by
  unfold sectSpecial sectEnd sectUnused sectBfat sectDifat Reserved
  simp only [Bool.or_eq_true, beq_iff_eq]
  omega

theorem sectSpecial_false (b : Nat) : sectSpecial b = false ↔ ¬ Reserved b := by
  rw [← sectSpecial_iff]
  simp

/-- C57: following a chain always ends, whatever the allocation table holds; the blocks are
the entries one after the other from the start, none of them twice and none of them a special
value; it ends at the end marker or behind the table, and otherwise reports an error for a
special value or for a block that was there before. -/
theorem C57_chain (tables : List (List Nat)) (items n start : Nat) (hi : 0 < items)
    (hn : tables.length * items < n) :
    let f := fatEntry tables items
    let r := getChain tables items n start
    (r.1 = [] ∨ r.1.head? = some start) ∧ r.1.IsChain (fun a b => f a = some b) ∧
    r.1.Nodup ∧ (∀ b ∈ r.1, ¬ Reserved b) ∧ r.1.length ≤ tables.length * items + 1 ∧
    (r.2 = none ∧ (stopsAt f start r.1 = none ∨ stopsAt f start r.1 = some 0xFFFFFFFE) ∨
     r.2 = some .parser ∧ ∃ x, stopsAt f start r.1 = some x ∧ x ≠ 0xFFFFFFFE ∧
        (Reserved x ∨ x ∈ r.1)) := by
  intro f r
  simp only [← sectSpecial_iff]
  obtain ⟨i1, i2, i3, i4, i5, i6⟩ := chainLoop_spec tables items n start []
  refine ⟨i1, i2, i3, fun b hb => by rw [(i4 b hb).2]; decide, ?_, ?_⟩
  · -- all blocks but the last have an entry
    have hd : ∀ (l : List Nat), l.IsChain (fun a b => f a = some b) → ∀ b ∈ l.dropLast, (f b).isSome := by
      intro l hl
      induction l with
      | nil => simp
      | cons a l ih =>
        cases l with
        | nil => simp
        | cons b l =>
          rw [List.isChain_cons_cons] at hl
          intro x hx
          rw [List.dropLast_cons_cons] at hx
          rcases List.mem_cons.1 hx with rfl | hx
          · rw [hl.1]; rfl
          · exact ih hl.2 x hx
    have h1 := nodup_lt_length r.1.dropLast (tables.length * items)
      (i3.sublist (List.dropLast_sublist _))
      (fun b hb => fatEntry_lt tables items b hi (hd _ i2 b hb))
    rw [List.length_dropLast] at h1
    omega
  · cases hr : r.2 with
    | none => exact .inl ⟨rfl, i5 hr⟩
    | some e =>
      right
      rcases i6 e hr with ⟨j1, x, j2, j3, j4⟩ | ⟨j1, j2, j3⟩
      · exact ⟨by rw [j1], x, j2, j3, j4.imp_right (fun h => h.resolve_left (by simp))⟩
      · have h1 := nodup_lt_length r.1 (tables.length * items) i3
          (fun b hb => fatEntry_lt tables items b hi (j3 b hb))
        have h2 : r.1.length = n := j2
        omega

/-- The blocks of a stream as the format defines them: from the start along the table to the
end marker. -/
def GoodChain (f : Nat → Option Nat) (start : Nat) (bs : List Nat) : Prop :=
  bs.head? = some start ∧ bs.IsChain (fun a b => f a = some b) ∧ bs.Nodup ∧
    (∀ b ∈ bs, ¬ Reserved b) ∧ bs.getLast?.bind f = some 0xFFFFFFFE

theorem chainLoop_good (tables : List (List Nat)) (items : Nat) (bs : List Nat) (n block : Nat) (seen : List Nat)
    (hn : bs.length < n) (hg : GoodChain (fatEntry tables items) block bs) (hs : ∀ b ∈ bs, b ∉ seen) :
    chainLoop tables items n block seen = (bs, none) := by
  induction bs generalizing n block seen with
  | nil => cases hg.1
  | cons b bs ih =>
    obtain ⟨h1, h2, h3, h4, h5⟩ := hg
    simp only [List.head?_cons, Option.some.injEq] at h1
    subst h1
    have hsp := (sectSpecial_false b).mpr (h4 b (by simp))
    have hne : b ≠ sectEnd := by
      intro h; subst h; simp [sectSpecial] at hsp
    cases n with
    | zero => simp at hn
    | succ n =>
      rw [chainLoop, if_neg hne, if_neg (by simp [hsp]), if_neg (hs b (by simp))]
      cases bs with
      | nil =>
        simp only [List.getLast?_singleton, Option.bind_some] at h5
        rw [h5]
        simp only
        cases n with
        | zero => simp at hn
        | succ n => rw [chainLoop, if_pos (show 0xFFFFFFFE = sectEnd from rfl)]
      | cons c bs =>
        rw [List.isChain_cons_cons] at h2
        rw [List.nodup_cons] at h3
        rw [h2.1]
        simp only
        rw [ih n c (b :: seen) (by simp at hn ⊢; omega)
          ⟨rfl, h2.2, h3.2, fun x hx => h4 x (by simp [hx]), by rw [List.getLast?_cons_cons] at h5; exact h5⟩ ?_]
        intro x hx hm
        rcases List.mem_cons.1 hm with rfl | hm
        · exact h3.1 hx
        · exact hs x (by simp [hx]) hm

/-! ### Fragments -/

/-- The blocks of a run `(first, count)`. -/
def runBlocks (r : Nat × Nat) : List Nat := List.range' r.1 r.2

theorem fragLoop_spec (bsz : Nat) (e : Option PyErr) (rest : List Nat) (f c : Nat) (hc : 0 < c) :
    ∃ runs : List (Nat × Nat),
      fragLoop bsz e rest (some f) (some (f + c - 1)) (c * bsz) = (runs.map fun r => ⟨r.1, r.2 * bsz⟩, e) ∧
      (e = none → runs.flatMap runBlocks = List.range' f c ++ rest) ∧
      runs.flatMap runBlocks <+: List.range' f c ++ rest ∧
      (∀ r ∈ runs, 0 < r.2) ∧ runs.IsChain (fun a b => a.1 + a.2 ≠ b.1) ∧
      (∀ r ∈ runs.head?, r.1 = f) := by
  induction rest generalizing f c with
  | nil =>
    cases e with
    | some e => exact ⟨[], rfl, by simp, by simp, by simp, .nil, by simp⟩
    | none =>
      exact ⟨[(f, c)], rfl, by simp [runBlocks], by simp [runBlocks], by simpa using hc, .singleton _, by simp⟩
  | cons b rest ih =>
    rw [fragLoop]
    simp only [Option.all_some, Option.isSome_some, Bool.and_true]
    by_cases hb : b = f + c
    · rw [if_pos (by simp; omega)]
      obtain ⟨runs, h1, h2, h3, h4, h5, h6⟩ := ih f (c + 1) (by omega)
      refine ⟨runs, ?_, ?_, ?_, h4, h5, h6⟩
      · rw [← h1, hb, Nat.add_mul, Nat.one_mul]; rfl
      · intro he
        rw [h2 he, List.range'_concat, hb]; simp
      · rw [List.range'_concat] at h3
        simpa [hb] using h3
    · rw [if_neg (by simp; omega)]
      obtain ⟨runs, h1, h2, h3, h4, h5, h6⟩ := ih b 1 (by omega)
      simp only [Nat.add_sub_cancel, Nat.one_mul] at h1
      rw [h1]
      refine ⟨(f, c) :: runs, rfl, ?_, ?_, ?_, ?_, by simp⟩
      · intro he
        rw [List.flatMap_cons, h2 he]; simp [runBlocks]
      · rw [List.flatMap_cons]
        simp only [runBlocks, List.prefix_append_right_inj]
        simpa using h3
      · intro r hr
        rcases List.mem_cons.1 hr with rfl | hr
        · exact hc
        · exact h4 r hr
      · cases runs with
        | nil => exact .singleton _
        | cons r runs =>
          refine .cons_cons ?_ h5
          have := h6 r (by simp)
          rw [this]
          exact fun h => hb h.symm

/-- C57: the fragments are the chain cut into runs of consecutive blocks, none lost, in order,
each as long as possible; when the chain ends with an error the fragments before are kept and
the error is reported. -/
theorem C57_fragments (bsz : Nat) (bs : List Nat) (e : Option PyErr) :
    ∃ runs : List (Nat × Nat),
      fragLoop bsz e bs none none 0 = (runs.map fun r => ⟨r.1, r.2 * bsz⟩, e) ∧
      (e = none → runs.flatMap runBlocks = bs) ∧ runs.flatMap runBlocks <+: bs ∧
      (∀ r ∈ runs, 0 < r.2) ∧ runs.IsChain (fun a b => a.1 + a.2 ≠ b.1) := by
  cases bs with
  | nil => cases e <;> exact ⟨[], rfl, by simp, by simp, by simp, .nil⟩
  | cons b rest =>
    obtain ⟨runs, h1, h2, h3, h4, h5, h6⟩ := fragLoop_spec bsz e rest b 1 (by omega)
    simp only [Nat.add_sub_cancel, Nat.one_mul] at h1
    refine ⟨runs, ?_, fun he => by simpa using h2 he, by simpa using h3, h4, h5⟩
    rw [fragLoop, ← h1, Nat.zero_add]

/-- The content of block `b`: `m` bytes behind `q` bytes of header. -/
def blockBytes (data : Bytes) (q m b : Nat) : Bytes := (data.drop (q + b * m)).take m

theorem run_bytes (data : Bytes) (q m f c : Nat) :
    (data.drop (q + f * m)).take (c * m) = (List.range' f c).flatMap (blockBytes data q m) := by
  induction c generalizing f with
  | zero => simp
  | succ c ih =>
    rw [List.range'_succ, List.flatMap_cons, ← ih (f + 1), show (c + 1) * m = m + c * m by ring,
      List.take_add, List.drop_drop, show q + f * m + m = q + (f + 1) * m by ring]
    rfl

theorem groupData_eq (data : Bytes) (s : InputStream) (hs : stringInputStream data = .ok s)
    (q m : Nat) (runs : List (Nat × Nat)) (hr : ∀ r ∈ runs, 0 < r.2)
    (hin : ∀ b ∈ runs.flatMap runBlocks, q + (b + 1) * m ≤ data.length) :
    groupData s (8 * q) (8 * m) (runs.map fun r => ⟨r.1, r.2 * (8 * m)⟩) =
      .ok ((runs.flatMap runBlocks).flatMap (blockBytes data q m)) := by
  induction runs with
  | nil => rfl
  | cons r runs ih =>
    have hrp := hr r (by simp)
    have hlast : q + (r.1 + (r.2 - 1) + 1) * m ≤ data.length := by
      apply hin
      rw [List.flatMap_cons, List.mem_append]
      left
      simp only [runBlocks, List.mem_range'_1]
      omega
    have he : q + (r.1 + (r.2 - 1) + 1) * m = q + r.1 * m + r.2 * m := by
      rw [show r.1 + (r.2 - 1) + 1 = r.1 + r.2 by omega, Nat.add_mul]; omega
    rw [List.map_cons, groupData]
    simp only
    rw [show 8 * q + r.1 * (8 * m) = 8 * (q + r.1 * m) by ring,
      show r.2 * (8 * m) / 8 = r.2 * m by rw [show r.2 * (8 * m) = 8 * (r.2 * m) by ring]; omega,
      _root_.Props.C04_readBytes data s hs, if_pos (by omega)]
    simp only
    rw [ih (fun r hr' => hr r (by simp [hr'])) (fun b hb => hin b (by rw [List.flatMap_cons]; simp [hb])),
      run_bytes, List.flatMap_cons, List.flatMap_append]
    rfl

/-- C57: the data of a big stream are the contents of the blocks of its chain, in order
(blocks of `m` bytes behind the header of 512 bytes). -/
theorem C57_big_stream (data : Bytes) (s : InputStream) (hs : stringInputStream data = .ok s)
    (tables : List (List Nat)) (items n m threshold size start : Nat) (isRoot : Bool) (bs : List Nat)
    (hsize : 0 < size) (hthr : threshold ≤ size ∨ isRoot = true) (hn : bs.length < n)
    (hchain : GoodChain (fatEntry tables items) start bs)
    (hin : ∀ b ∈ bs, 512 + (b + 1) * m ≤ data.length) :
    ∃ fs, parseBig tables items n (8 * m) threshold isRoot size start = (fs, none) ∧
      groupData s ole2HeaderSize (8 * m) fs = .ok (bs.flatMap (blockBytes data 512 m)) := by
  have hc := chainLoop_good tables items bs n start [] hn hchain (by simp)
  obtain ⟨runs, h1, h2, h3, h4, h5⟩ := C57_fragments (8 * m) bs none
  refine ⟨runs.map fun r => ⟨r.1, r.2 * (8 * m)⟩, ?_, ?_⟩
  · unfold parseBig getChain
    rw [if_neg (by omega), if_neg (by rintro ⟨g1, g2⟩; rcases hthr with h | h <;> [omega; simp [h] at g2]), hc]
    exact h1
  · have := groupData_eq data s hs 512 m runs h4 (by rw [h2 rfl]; exact hin)
    rw [h2 rfl] at this
    exact this

/-- C57: the same for a small stream, whose blocks lie in the data of the root entry. -/
theorem C57_small_stream (rootData : Bytes) (s : InputStream) (hs : stringInputStream rootData = .ok s)
    (bbTables ssTables : List (List Nat)) (items n m threshold size start : Nat) (bs : List Nat)
    (hss : ssTables ≠ []) (hsize : 0 < size) (hthr : size < threshold) (hn : bs.length < n)
    (hchain : GoodChain (fatEntry ssTables items) start bs)
    (hin : ∀ b ∈ bs, (b + 1) * m ≤ rootData.length) :
    ∃ fs, parseSmall bbTables ssTables items n (8 * m) threshold false size start = (fs, none) ∧
      groupData s 0 (8 * m) fs = .ok (bs.flatMap (blockBytes rootData 0 m)) := by
  have hc := chainLoop_good ssTables items bs n start [] hn hchain (by simp)
  obtain ⟨runs, h1, h2, h3, h4, h5⟩ := C57_fragments (8 * m) bs none
  refine ⟨runs.map fun r => ⟨r.1, r.2 * (8 * m)⟩, ?_, ?_⟩
  · unfold parseSmall getChain
    rw [if_neg (by simp), if_neg (by omega), if_neg (by omega), if_neg (by simpa using hss), hc]
    exact h1
  · have := groupData_eq rootData s hs 0 m runs h4 (by rw [h2 rfl]; intro b hb; have := hin b hb; omega)
    rw [h2 rfl] at this
    exact this

/-- C57: a stream is read in exactly one of the two places: if the parser makes fragments of
it as a big stream it makes none as a small one, and the other way round. -/
theorem C57_one_place (bb ss : List (List Nat)) (items n sz ssz threshold size start : Nat) (isRoot : Bool) :
    (parseBig bb items n sz threshold isRoot size start).1 = [] ∨
    (parseSmall bb ss items n ssz threshold isRoot size start).1 = [] := by
  by_cases h0 : size = 0
  · left; unfold parseBig; rw [if_pos h0]
  by_cases hr : isRoot = true
  · right; unfold parseSmall; rw [if_pos hr]
  by_cases ht : threshold ≤ size
  · right; unfold parseSmall; rw [if_neg hr, if_neg h0, if_pos ht]
  · left; unfold parseBig; rw [if_neg h0, if_pos ⟨by omega, by simpa using hr⟩]

/-- The address of a block in the format ([MS-CFB] 2.1): one sector for the header. -/
def cfbOffset (bbShift block : Nat) : Nat := 8 * ((block + 1) * 2 ^ bbShift)

/-- C57 (disagreement): the header is taken for 512 bytes whatever the sector size; so every
block is looked for at the right place exactly when sectors have 512 bytes, and at a wrong one
for the 4096 byte sectors of version 4. -/
theorem C57_sector_place (bbShift block : Nat) :
    seekBlock (sectorSize bbShift) block = cfbOffset bbShift block ↔ bbShift = 9 := by
  unfold seekBlock sectorSize cfbOffset ole2HeaderSize
  rw [Nat.shiftLeft_eq]
  constructor
  · intro h
    have h2 : 2 ^ bbShift = 2 ^ 9 := by
      have : 8 * ((block + 1) * 2 ^ bbShift) = block * (8 * 2 ^ bbShift) + 8 * 2 ^ bbShift := by ring
      rw [this] at h
      norm_num
      omega
    exact Nat.pow_right_injective (Nat.le_refl 2) h2
  · rintro rfl
    norm_num
    ring

/-- C57 (disagreement): without any small table the small streams are looked up in the big one:
the fragments of the stream are then unrelated blocks instead of an error. -/
theorem C57_no_small_table :
    ∃ fs, fs ≠ [] ∧ parseSmall [[sectEnd, 2, sectEnd, sectEnd]] [] 4 6 512 4096 false 100 1 = (fs, none) :=
  ⟨[⟨1, 1024⟩], by simp, by decide +kernel⟩

/-- A chain with a jump: 0, 1, 3; the fragments are 0..1 and 3. -/
example : GoodChain (fatEntry [[1, 3], [sectEnd, sectEnd]] 2) 0 [0, 1, 3] ∧
    getChain [[1, 3], [sectEnd, sectEnd]] 2 5 0 = ([0, 1, 3], none) ∧
    parseBig [[1, 3], [sectEnd, sectEnd]] 2 5 4096 4096 false 5000 0 = ([⟨0, 8192⟩, ⟨3, 4096⟩], none) := by
  refine ⟨⟨rfl, ?_, ?_, by unfold Reserved; decide, ?_⟩, ?_, ?_⟩ <;> decide +kernel

/-- A loop and a chain that leaves the table. -/
example : getChain [[1, 0]] 2 3 0 = ([0, 1], some .parser) ∧ getChain [[1, 7]] 2 3 0 = ([0, 1, 7], none) := by
  decide +kernel

end Hachoir.Props
