import Verif.Props.Ext2
import Verif.Props.Disks

/-!
# C162: groups and files of EXT2 file systems
-/

namespace Hachoir.Props
open Hachoir Hachoir.Stream Hachoir.Field Hachoir.Formats Spec

/-! ## Superblock -/

/-- The numbers of these sizes in these bytes. -/
def extCut : List Nat → Bytes → List Nat
  | [], _ => []
  | w :: ws, bs => ofBytesLE (bs.take w) :: extCut ws (bs.drop w)

theorem ext_cut_fits : ∀ (ws : List Nat) (bs : Bytes), (∀ w ∈ ws, 0 < w) → bs.length = ws.sum → NumsFit ws (extCut ws bs) ∧ numsBytes ws (extCut ws bs) = bs
  | [], bs, _, hl => ⟨trivial, by simpa [numsBytes] using (List.eq_nil_of_length_eq_zero (by simpa using hl)).symm⟩
  | w :: ws, bs, hw, hl => by
    rw [List.sum_cons] at hl
    have ht : (bs.take w).length = w := by rw [List.length_take]; omega
    obtain ⟨h1, h2⟩ := ext_cut_fits ws (bs.drop w) (fun x hx => hw x (by simp [hx])) (by rw [List.length_drop]; omega)
    have hlt := ofBytesLE_lt (bs.take w)
    rw [ht] at hlt
    refine ⟨⟨hw w (by simp), hlt, h1⟩, ?_⟩
    have := leBytes_ofBytesLE (bs.take w)
    rw [ht] at this
    rw [extCut, numsBytes, h2, this, List.take_append_drop]

/-- The number of `n` bytes at the place `k`. -/
def leAt (bs : Bytes) (k n : Nat) : Nat := ofBytesLE ((bs.drop k).take n)

/-- The superblock is read as `struct ext2_super_block` has it: `s_inodes_count` at 0, `s_blocks_count` at 4, `s_free_blocks_count` at 12, `s_first_data_block` at 20,
`s_log_block_size` at 24, `s_blocks_per_group` at 32, `s_inodes_per_group` at 40, `s_magic` at 56, `s_creator_os` at 72, `s_inode_size` at 88, `s_volume_name` at 120
and `s_last_mounted` at 136. -/
theorem C162_superblock (bs : Bytes) (hl : bs.length = 200) :
    Reads Ext2.superblock ⟨leAt bs 0 4, leAt bs 4 4, leAt bs 12 4, leAt bs 20 4, leAt bs 24 4, leAt bs 32 4, leAt bs 40 4, leAt bs 56 2, leAt bs 72 4, leAt bs 88 2,
      (bs.drop 120).take 16, (bs.drop 136).take 64⟩ bs := by
  have e : bs = bs.take 104 ++ ((bs.drop 104).take 16 ++ ((bs.drop 120).take 16 ++ (bs.drop 136).take 64)) := by
    have h3 : (bs.drop 136).take 64 = bs.drop 136 := List.take_of_length_le (by rw [List.length_drop]; omega)
    have h2 : (bs.drop 120).take 16 ++ bs.drop 136 = bs.drop 120 := by
      have := List.take_append_drop 16 (bs.drop 120)
      rwa [List.drop_drop] at this
    have h1 : (bs.drop 104).take 16 ++ bs.drop 120 = bs.drop 104 := by
      have := List.take_append_drop 16 (bs.drop 104)
      rwa [List.drop_drop] at this
    rw [h3, h2, h1, List.take_append_drop]
  obtain ⟨f1, f2⟩ := ext_cut_fits [4, 4, 4, 4, 4, 4, 4, 4, 4, 4, 4, 4, 4, 2, 2, 2, 2, 2, 2, 4, 4, 4, 4, 2, 2, 4, 2, 2, 4, 4, 4] (bs.take 104) (by decide)
    (by rw [List.length_take, hl]; rfl)
  have hr := reads_numbers _ _ f1
  rw [f2] at hr
  have hn := reads_fixed .little .eightBit (by decide) 16 ((bs.drop 120).take 16) (by rw [List.length_take, List.length_drop]; omega) (by omega)
  have hm := reads_fixed .little .eightBit (by decide) 64 ((bs.drop 136).take 64) (by rw [List.length_take, List.length_drop]; omega) (by omega)
  have hu := reads_raw_n 16 ((bs.drop 104).take 16) (by rw [List.length_take, List.length_drop]; omega) (by omega)
  have cut : ∀ k n, k + n ≤ 104 → ((bs.take 104).drop k).take n = (bs.drop k).take n := by
    intro k n h
    rw [List.drop_take, List.take_take]
    congr 1
    omega
  have := Reads.bind (f := fun a => Rd.raw 16 >>= fun _ => Rd.text .little .fixed .eightBit (some 16) >>= fun name =>
    Rd.text .little .fixed .eightBit (some 64) >>= fun dir => (Pure.pure (⟨a.getD 0 0, a.getD 1 0, a.getD 3 0, a.getD 5 0, a.getD 6 0, a.getD 8 0, a.getD 10 0,
      a.getD 15 0, a.getD 21 0, a.getD 26 0, name, dir⟩ : Ext2.Super) : Rd Ext2.Super)) hr
    (Reads.bind hu (Reads.bind hn (Reads.map (f := fun dir => (⟨_, _, _, _, _, _, _, _, _, _, (bs.drop 120).take 16, dir⟩ : Ext2.Super)) hm)))
  rw [← e] at this
  refine Reads.of_eq this ?_ rfl
  simp only [extCut, List.getD_cons_zero, List.getD_cons_succ, List.drop_drop, leAt, Nat.reduceAdd]
  congr 1
  · exact congrArg ofBytesLE (cut 0 4 (by decide))
  all_goals exact congrArg ofBytesLE (cut _ _ (by decide))

/-- A superblock is taken for one if it has the magic number, blocks of 1024, 2048 or 4096 bytes and inodes of a power of two bytes, at least 128, that fit in a block. -/
theorem C162_valid (c : Ext2.Super) : Ext2.valid c = true ↔
    c.magic = 0xEF53 ∧ c.blockSize ≤ 4096 ∧ (c.inodeSize = 0 ∨ ∃ k, c.inodeSize = 128 * 2 ^ k ∧ c.inodeSize ≤ c.blockSize) := by
  have hb : c.logBlockSize ≤ 2 ↔ c.blockSize ≤ 4096 := by
    rw [Ext2.Super.blockSize]
    constructor
    · intro h
      have := Nat.pow_le_pow_right (show 0 < 2 by omega) h
      omega
    · intro h
      by_contra hc
      have := Nat.pow_le_pow_right (show 0 < 2 by omega) (show 3 ≤ c.logBlockSize by omega)
      omega
  rw [Ext2.valid, Bool.and_eq_true, Bool.and_eq_true, decide_eq_true_iff, decide_eq_true_iff, hb, and_assoc]
  refine and_congr Iff.rfl (and_congr_right fun h4 => ?_)
  rw [List.contains_iff_mem, List.mem_filter, decide_eq_true_iff]
  constructor
  · rintro ⟨h1, h2⟩
    simp only [List.mem_cons, List.not_mem_nil, or_false] at h1
    rcases h1 with h | h | h | h | h | h | h
    · exact .inl h
    · exact .inr ⟨0, h, h2⟩
    · exact .inr ⟨1, h, h2⟩
    · exact .inr ⟨2, h, h2⟩
    · exact .inr ⟨3, h, h2⟩
    · exact .inr ⟨4, h, h2⟩
    · exact .inr ⟨5, h, h2⟩
  · rintro (h | ⟨k, h, h2⟩)
    · rw [h]; exact ⟨by simp, by omega⟩
    · refine ⟨?_, h2⟩
      have hk : k < 6 := by
        by_contra hc
        have := Nat.pow_le_pow_right (show 0 < 2 by omega) (show 6 ≤ k by omega)
        omega
      rw [h]
      have : k = 0 ∨ k = 1 ∨ k = 2 ∨ k = 3 ∨ k = 4 ∨ k = 5 := by omega
      rcases this with rfl | rfl | rfl | rfl | rfl | rfl <;> simp

example : Ext2.valid ⟨256, 8192, 8000, 1, 0, 8192, 256, 0xEF53, 0, 128, [], []⟩ = true ∧ Ext2.valid ⟨256, 8192, 8000, 1, 0, 8192, 256, 0xEF53, 0, 2048, [], []⟩ = false := by
  decide +kernel

/-! ## Groups -/

/-- The blocks of the group `g` begin here (ext2: the groups follow the first data block). -/
def extGroupStart (c : Ext2.Super) (g : Nat) : Nat := c.firstDataBlock + g * c.blocksPerGroup

/-- The groups that are read hold every block, and none is empty. -/
theorem C162_groups (c : Ext2.Super) (hp : 0 < c.blocksPerGroup) (hf : c.firstDataBlock ≤ c.blocksCount) :
    (∀ b, c.firstDataBlock ≤ b → b < c.blocksCount →
      ∃ g, g < c.groupCount ∧ extGroupStart c g ≤ b ∧ b < extGroupStart c g + c.blocksPerGroup ∧
        ∀ g', extGroupStart c g' ≤ b → b < extGroupStart c g' + c.blocksPerGroup → g' = g) ∧
    ∀ g, g < c.groupCount → extGroupStart c g < c.blocksCount := by
  unfold extGroupStart Ext2.Super.groupCount
  generalize c.blocksPerGroup = p at *
  generalize c.firstDataBlock = f at *
  generalize c.blocksCount = n at *
  constructor
  · intro b h1 h2
    have hd := Nat.div_add_mod (b - f) p
    have hm := Nat.mod_lt (b - f) hp
    rw [Nat.mul_comm] at hd
    refine ⟨(b - f) / p, ?_, by omega, by omega, fun g' h3 h4 => ?_⟩
    · rw [Nat.lt_div_iff_mul_lt hp]
      omega
    · refine (Nat.div_eq_of_lt_le ?_ ?_).symm
      · omega
      · rw [Nat.add_mul]; omega
  · intro g hg
    rw [Nat.lt_div_iff_mul_lt hp] at hg
    omega

example : ∃ c : Ext2.Super, 0 < c.blocksPerGroup ∧ c.firstDataBlock ≤ c.blocksCount ∧ c.groupCount = 3 :=
  ⟨⟨4096, 20000, 15000, 1, 0, 8192, 2048, 0xEF53, 0, 128, [], []⟩, by decide, by decide, by decide⟩

/-- The numbers told for the blocks of a bitmap are those of the blocks only if the first data block is 1, that is for blocks of 1024 bytes. -/
theorem C162_label (c : Ext2.Super) (g i : Nat) : c.blockLabel g i = extGroupStart c g + i ↔ c.firstDataBlock = 1 := by
  unfold Ext2.Super.blockLabel extGroupStart
  omega

/-- The bitmap shows as many blocks as the group has only if the first data block is 0 or the group is whole: the last group of a file system with
blocks of 1024 bytes shows a block that is not there. -/
theorem C162_count (c : Ext2.Super) (g : Nat) (hg : extGroupStart c g < c.blocksCount) :
    c.blocksOf g = min c.blocksPerGroup (c.blocksCount - extGroupStart c g) ↔
      c.firstDataBlock = 0 ∨ extGroupStart c g + c.blocksPerGroup ≤ c.blocksCount := by
  unfold Ext2.Super.blocksOf extGroupStart at *
  omega

/-- 9000 blocks of 1024 bytes: the second group has 807 blocks, 808 are shown. -/
example : ∃ c : Ext2.Super, c.groupCount = 2 ∧ c.blocksOf 1 = 808 ∧ c.blocksCount - extGroupStart c 1 = 807 :=
  ⟨⟨4096, 9000, 5000, 1, 0, 8192, 2048, 0xEF53, 0, 128, [], []⟩, by decide, by decide, by decide⟩

/-- The blocks told of two groups that follow each other overlap; with the first data block 0 the last one told is not of the group. -/
theorem C162_told (c : Ext2.Super) (g : Nat) : (c.told g).2 = (c.told (g + 1)).1 ∧
    (c.firstDataBlock = 0 → (c.told g).1 = extGroupStart c g ∧ (c.told g).2 = extGroupStart c (g + 1)) := by
  unfold Ext2.Super.told extGroupStart
  simp only []
  rw [Nat.add_mul]
  omega

/-- Every inode has its place in one group, and the number told for it is its own; no other number is told. -/
theorem C162_inodes (c : Ext2.Super) (hp : 0 < c.inodesPerGroup) (n : Nat) :
    (1 ≤ n ∧ n ≤ c.inodesCount ↔ ∃ g i, i < c.inodesOf g ∧ c.inodeLabel g i = n) ∧
    ∀ g i g' i', i < c.inodesOf g → i' < c.inodesOf g' → c.inodeLabel g i = c.inodeLabel g' i' → g = g' ∧ i = i' := by
  unfold Ext2.Super.inodesOf Ext2.Super.inodeLabel
  generalize c.inodesPerGroup = p at *
  generalize c.inodesCount = m at *
  refine ⟨⟨fun ⟨h1, h2⟩ => ?_, fun ⟨g, i, h1, h2⟩ => by omega⟩, fun g i g' i' h1 h2 h3 => ?_⟩
  · have hd := Nat.div_add_mod (n - 1) p
    have hm := Nat.mod_lt (n - 1) hp
    rw [Nat.mul_comm] at hd
    exact ⟨(n - 1) / p, (n - 1) % p, by omega, by omega⟩
  · have h4 : g * p + i = g' * p + i' := by omega
    have e1 : (g * p + i) / p = g := Nat.div_eq_of_lt_le (by omega) (by rw [Nat.add_mul]; omega)
    have e2 : (g' * p + i') / p = g' := Nat.div_eq_of_lt_le (by omega) (by rw [Nat.add_mul]; omega)
    rw [h4, e2] at e1
    subst e1
    exact ⟨rfl, by omega⟩

/-- The size told as used is that of the free blocks: it is right only when half of the blocks are free. -/
theorem C162_used (c : Ext2.Super) (hf : c.freeBlocks ≤ c.blocksCount) :
    c.sizes = (c.blocksCount * c.blockSize, (c.blocksCount - c.freeBlocks) * c.blockSize) ↔ 2 * c.freeBlocks = c.blocksCount := by
  have hb : 0 < c.blockSize := Nat.mul_pos (by omega) (Nat.pow_pos (by omega))
  rw [Ext2.Super.sizes, Prod.mk.injEq]
  constructor
  · rintro ⟨_, h⟩
    have := Nat.eq_of_mul_eq_mul_right hb h
    omega
  · intro h
    exact ⟨rfl, by congr 1; omega⟩

/-- An almost empty file system is told to be almost full. -/
example : Ext2.description ⟨256, 8192, 8000, 1, 0, 8192, 256, 0xEF53, 0, 128, [], []⟩ (some 0) =
    Human.asc "EXT2 file system: total=8.0 MB, used=7.8 MB, block=1024 bytes" := by decide +kernel

/-! ## Files -/

/-- The bytes of the block `b`. -/
def extBlock (img : Bytes) (size b : Nat) : Bytes := (img.drop (b * size)).take size

theorem ext_block_length {img : Bytes} {size b hi : Nat} (hb : b < hi) (hh : hi * size ≤ img.length) : (extBlock img size b).length = size := by
  have : (b + 1) * size ≤ hi * size := Nat.mul_le_mul_right _ hb
  rw [Nat.add_mul] at this
  rw [extBlock, List.length_take, List.length_drop]
  omega

/-- No block, or a block of the group. -/
def inGroup (lo hi b : Nat) : Bool := decide (b = 0 ∨ (lo ≤ b ∧ b < hi))

/-- The blocks of a list that are read: up to the first one outside the group, without the holes. -/
def extSeen (lo hi : Nat) (bs : List Nat) : List Nat := (bs.takeWhile (inGroup lo hi)).filter fun b => b ≠ 0

theorem at_fragments (img : Bytes) (size lo hi : Nat) (hs : 0 < size) (hh : hi * size ≤ img.length) : ∀ (bs : List Nat) (a : Nat),
    ∃ q, AtPlace img (Ext2.fragments size lo hi bs) ((extSeen lo hi bs).map (extBlock img size), bs.all (inGroup lo hi)) a q
  | [], a => ⟨a, fun _ _ => rfl⟩
  | b :: bs, a => by
    rw [Ext2.fragments]
    by_cases h0 : b = 0
    · obtain ⟨q, hq⟩ := at_fragments img size lo hi hs hh bs a
      refine ⟨q, ?_⟩
      rw [if_pos h0]
      have hg : inGroup lo hi b = true := by simp [inGroup, h0]
      rw [extSeen, List.takeWhile_cons, if_pos hg, List.filter_cons, if_neg (by simp [h0]), List.all_cons, hg, Bool.true_and]
      exact hq
    · rw [if_neg h0]
      by_cases h1 : b < lo ∨ hi ≤ b
      · refine ⟨a, ?_⟩
        have hg : inGroup lo hi b = false := by simp [inGroup, h0]; omega
        rw [if_pos h1, extSeen, List.takeWhile_cons, if_neg (by simp [hg]), List.all_cons, hg, Bool.false_and]
        exact fun _ _ => rfl
      · rw [if_neg h1]
        obtain ⟨q, hq⟩ := at_fragments img size lo hi hs hh bs (b * size + size)
        refine ⟨q, ?_⟩
        have hg : inGroup lo hi b = true := by simp [inGroup]; omega
        have hl := ext_block_length (img := img) (size := size) (b := b) (hi := hi) (by omega) hh
        rw [extSeen, List.takeWhile_cons, if_pos hg, List.filter_cons, if_pos (by simp [h0]), List.all_cons, hg, Bool.true_and, List.map_cons]
        have hr : AtPlace img (Rd.raw size) (extBlock img size b) (b * size) (b * size + size) := by
          have hle : b * size ≤ img.length := by
            have : b * size ≤ hi * size := Nat.mul_le_mul_right _ (by omega)
            omega
          have := (reads_raw_n size (extBlock img size b) hl hs).at (data := img) (a := b * size) (List.take_prefix _ _) hle
          rwa [hl] at this
        exact AtPlace.bind (at_jump img a (b * size)) (AtPlace.bind hr (AtPlace.bind hq (at_pure img _ _)))

/-- The numbers in the block `b`. -/
def extTable (img : Bytes) (size b : Nat) : List Nat := (List.range (size / 4)).map fun i => ofBytesLE ((img.drop (b * size + 4 * i)).take 4)

theorem at_ext_int (img : Bytes) (p : Nat) (h : p + 4 ≤ img.length) : AtPlace img (Rd.int 4 .little) (ofBytesLE ((img.drop p).take 4)) p (p + 4) := by
  have hl : ((img.drop p).take 4).length = 4 := by rw [List.length_take, List.length_drop]; omega
  have hr := reads_bits_le [32] ((img.drop p).take 4) (by omega) (by rw [hl]; rfl)
  have hv : splitLE [32] (ofBytesLE ((img.drop p).take 4)) = [ofBytesLE ((img.drop p).take 4)] := by
    have := ofBytesLE_lt ((img.drop p).take 4)
    rw [hl] at this
    simp only [splitLE, List.cons.injEq, and_true]
    exact Nat.mod_eq_of_lt (by omega)
  intro s hs
  have hh := hr.at (data := img) (a := p) (List.take_prefix _ _) (by omega) s hs
  rw [hv, hl] at hh
  rw [Rd.bits, Rd.bits, Rd.bind, Rd.bit] at hh
  rw [Rd.int]
  cases hread : readBits s ((8 * p : Nat) : Int) 32 .little with
  | error e => rw [hread] at hh; cases hh
  | ok v =>
    rw [hread] at hh
    simp only [Rd.bind, Rd.pure, Except.ok.injEq, Prod.mk.injEq, List.cons.injEq, and_true] at hh
    simp only [Except.ok.injEq, Prod.mk.injEq]
    exact ⟨hh.1, by omega⟩

theorem at_ext_table (img : Bytes) : ∀ (n p : Nat), p + 4 * n ≤ img.length →
    AtPlace img (Rd.times (Rd.int 4 .little) n) ((List.range n).map fun i => ofBytesLE ((img.drop (p + 4 * i)).take 4)) p (p + 4 * n)
  | 0, p, _ => fun _ _ => rfl
  | n + 1, p, h => by
    rw [Rd.times, List.range_succ_eq_map, List.map_cons, List.map_map]
    have h1 := at_ext_int img p (by omega)
    have h2 := at_ext_table img n (p + 4) (by omega)
    have e : (fun i => ofBytesLE ((img.drop (p + 4 + 4 * i)).take 4)) = (fun i => ofBytesLE ((img.drop (p + 4 * i)).take 4)) ∘ Nat.succ := by
      funext i
      simp only [Function.comp]
      rw [show p + 4 + 4 * i = p + 4 * (i + 1) by omega]
    rw [e] at h2
    have := AtPlace.bind (f := fun v => Rd.times (Rd.int 4 .little) n >>= fun as => Pure.pure (v :: as)) h1
      (AtPlace.map (f := fun as => ofBytesLE ((img.drop p).take 4) :: as) h2)
    rw [show p + 4 * (n + 1) = p + 4 + 4 * n by omega]
    exact this

/-- What is read of a file: its blocks and whether the group goes on. -/
def extRead (img : Bytes) (size lo hi : Nat) (blocks : List Nat) : List Bytes × Bool :=
  let direct := blocks.take 12
  let b := blocks.getD 12 0
  if direct.all (inGroup lo hi) = false ∨ b = 0 then ((extSeen lo hi direct).map (extBlock img size), direct.all (inGroup lo hi))
  else if inGroup lo hi b = false then ((extSeen lo hi direct).map (extBlock img size), false)
  else ((extSeen lo hi direct ++ extSeen lo hi (extTable img size b)).map (extBlock img size), (extTable img size b).all (inGroup lo hi))

theorem at_ext_data (img : Bytes) (size lo hi : Nat) (hs : 0 < size) (hh : hi * size ≤ img.length) (blocks : List Nat) (a : Nat) :
    ∃ q, AtPlace img (Ext2.data size lo hi blocks) (extRead img size lo hi blocks) a q := by
  obtain ⟨q1, h1⟩ := at_fragments img size lo hi hs hh (blocks.take 12) a
  unfold Ext2.data extRead
  simp only []
  generalize blocks.getD 12 0 = b
  generalize hD : (extSeen lo hi (blocks.take 12)) = D at *
  generalize hA : (blocks.take 12).all (inGroup lo hi) = A at *
  by_cases hc : A = false ∨ b = 0
  · refine ⟨q1, AtPlace.bind h1 ?_⟩
    rw [Ext2.single, if_pos hc, if_pos hc]
    exact at_pure _ _ _
  · have hA' : A = true := by cases A <;> simp at hc ⊢
    have hb : b ≠ 0 := fun h => hc (.inr h)
    by_cases hg : inGroup lo hi b = false
    · refine ⟨q1, AtPlace.bind h1 ?_⟩
      rw [Ext2.single, if_neg hc, if_neg hc, if_pos (by simp [inGroup] at hg; omega), if_pos hg]
      exact at_pure _ _ _
    · have hin : lo ≤ b ∧ b < hi := by simp [inGroup] at hg; omega
      have hle : (b + 1) * size ≤ hi * size := Nat.mul_le_mul_right _ hin.2
      rw [Nat.add_mul] at hle
      have ht := at_ext_table img (size / 4) (b * size) (by omega)
      obtain ⟨q2, h2⟩ := at_fragments img size lo hi hs hh (extTable img size b) (b * size + 4 * (size / 4))
      refine ⟨q2, AtPlace.bind h1 ?_⟩
      rw [Ext2.single, if_neg hc, if_neg hc, if_neg (by omega), if_neg hg, List.map_append]
      unfold Ext2.more Ext2.indirect
      exact AtPlace.map (f := fun r : List Bytes × Bool => (D.map (extBlock img size) ++ r.1, r.2)) 
        (AtPlace.bind (f := fun _ => Rd.times (Rd.int 4 .little) (size / 4) >>= Ext2.fragments size lo hi) (at_jump img q1 (b * size)) (AtPlace.bind ht h2))

/-- The numbers of the blocks of a file that has at most one indirect block (ext2: 12 direct blocks, then those in the indirect block). -/
def extMap (img : Bytes) (size : Nat) (blocks : List Nat) : List Nat :=
  blocks.take 12 ++ (if blocks.getD 12 0 = 0 then [] else extTable img size (blocks.getD 12 0))

/-- The byte `p` of such a file: a block with the number 0 is a hole. -/
def extByte (img : Bytes) (size : Nat) (nums : List Nat) (p : Nat) : Option UInt8 :=
  match nums[p / size]? with
  | none => none
  | some b => if b = 0 then some 0 else (extBlock img size b)[p % size]?

theorem ext_seen_all {lo hi : Nat} {bs : List Nat} (h : bs.all (inGroup lo hi) = true) : extSeen lo hi bs = bs.filter fun b => b ≠ 0 := by
  rw [extSeen, List.takeWhile_eq_self_iff.2 (by simpa using h)]

/-- A file whose blocks lie in the group of its inode: its blocks without the holes. -/
theorem C162_data (img : Bytes) (size lo hi : Nat) (hs : 0 < size) (hh : hi * size ≤ img.length) (blocks : List Nat)
    (h : (extMap img size blocks).all (inGroup lo hi) = true) (hb : inGroup lo hi (blocks.getD 12 0) = true) (a : Nat) :
    ∃ q, AtPlace img (Ext2.data size lo hi blocks) (((extMap img size blocks).filter fun b => b ≠ 0).map (extBlock img size), true) a q := by
  obtain ⟨q, hq⟩ := at_ext_data img size lo hi hs hh blocks a
  refine ⟨q, ?_⟩
  have e : extRead img size lo hi blocks = (((extMap img size blocks).filter fun b => b ≠ 0).map (extBlock img size), true) := by
    rw [extMap, List.all_append, Bool.and_eq_true] at h
    unfold extRead
    simp only []
    rw [h.1, ext_seen_all h.1, extMap]
    by_cases h0 : blocks.getD 12 0 = 0
    · rw [if_pos (.inr h0), if_pos h0, List.append_nil]
    · rw [if_neg (fun h => h.elim (by decide) h0), if_neg (by rw [hb]; decide), if_neg h0]
      rw [if_neg h0] at h
      rw [ext_seen_all h.2, h.2, List.filter_append]
  rwa [e] at hq

theorem flatten_get {size : Nat} (hs : 0 < size) : ∀ (ls : List Bytes), (∀ l ∈ ls, l.length = size) → ∀ p,
    ls.flatten[p]? = match ls[p / size]? with | none => none | some l => l[p % size]?
  | [], _, p => by simp
  | l :: ls, h, p => by
    have hl := h l (by simp)
    rw [List.flatten_cons]
    by_cases hp : p < size
    · rw [List.getElem?_append_left (by omega), Nat.div_eq_of_lt hp, Nat.mod_eq_of_lt hp]
      rfl
    · rw [List.getElem?_append_right (by omega), hl, flatten_get hs ls (fun x hx => h x (by simp [hx])) (p - size)]
      have e1 : p / size = (p - size) / size + 1 := by rw [← Nat.div_eq_sub_div hs (by omega)]
      have e2 : p % size = (p - size) % size := by rw [← Nat.mod_eq_sub_mod (by omega)]
      rw [e1, e2, List.getElem?_cons_succ]

theorem flatten_length {size : Nat} : ∀ (ls : List Bytes), (∀ l ∈ ls, l.length = size) → ls.flatten.length = ls.length * size
  | [], _ => by simp
  | l :: ls, h => by
    rw [List.flatten_cons, List.length_append, h l (by simp), flatten_length ls fun x hx => h x (by simp [hx]), List.length_cons, Nat.add_mul]
    omega

theorem filter_take_all (nums : List Nat) (k : Nat) (h : ∀ i, i ≤ k → ∀ b, nums[i]? = some b → b ≠ 0) (b : Nat) (hb : nums[k]? = some b) :
    (nums.filter fun b => b ≠ 0)[k]? = some b := by
  induction nums generalizing k with
  | nil => simp at hb
  | cons x xs ih =>
    have hx : x ≠ 0 := h 0 (by omega) x rfl
    rw [List.filter_cons, if_pos (by simp [hx])]
    cases k with
    | zero => simpa using hb
    | succ k =>
      rw [List.getElem?_cons_succ] at hb ⊢
      exact ih k (fun i hi b hb => h (i + 1) (by omega) b (by simpa using hb)) hb

theorem group_blocks {img : Bytes} {size lo hi : Nat} (hh : hi * size ≤ img.length) {nums : List Nat} (h : nums.all (inGroup lo hi) = true) :
    ∀ l ∈ (nums.filter fun b => b ≠ 0).map (extBlock img size), l.length = size := by
  intro l hl
  obtain ⟨b, hb, rfl⟩ := List.mem_map.1 hl
  rw [List.mem_filter] at hb
  have := List.all_eq_true.1 h b hb.1
  simp [inGroup] at this
  exact ext_block_length (by have := hb.2; simp at this; omega) hh

/-- A file without holes that has no double indirect block, all of whose blocks lie in the group of its inode, is read whole. -/
theorem C162_whole (img : Bytes) (size lo hi : Nat) (hs : 0 < size) (hh : hi * size ≤ img.length) (blocks : List Nat)
    (h : (extMap img size blocks).all (inGroup lo hi) = true) (hb : inGroup lo hi (blocks.getD 12 0) = true) (content : Bytes)
    (hc : ∀ p, p < content.length → extByte img size (extMap img size blocks) p = content[p]?)
    (hn : ∀ k, k * size < content.length → ∀ b, (extMap img size blocks)[k]? = some b → b ≠ 0) (a : Nat) :
    ∃ q ds, AtPlace img (Ext2.data size lo hi blocks) (ds, true) a q ∧ content <+: Ext2.joined ds := by
  obtain ⟨q, hq⟩ := C162_data img size lo hi hs hh blocks h hb a
  refine ⟨q, _, hq, ?_⟩
  generalize extMap img size blocks = nums at *
  rw [List.prefix_iff_getElem?]
  intro p hp
  have hk := hc p hp
  rw [List.getElem?_eq_getElem hp] at hk
  rw [Ext2.joined, flatten_get hs _ (group_blocks hh h) p, List.getElem?_map]
  rw [extByte] at hk
  cases hnum : nums[p / size]? with
  | none => rw [hnum] at hk; cases hk
  | some b =>
    rw [hnum] at hk
    simp only at hk
    have hz : ∀ i, i ≤ p / size → ∀ b, nums[i]? = some b → b ≠ 0 := by
      intro i hi' b hb
      refine hn i ?_ b hb
      have h1 := Nat.div_mul_le_self p size
      have h2 : i * size ≤ p / size * size := Nat.mul_le_mul_right _ hi'
      omega
    rw [if_neg (hz _ (Nat.le_refl _) b hnum)] at hk
    rw [filter_take_all nums (p / size) hz b hnum]
    exact hk

theorem ext_joined_length {img : Bytes} {size lo hi : Nat} (hh : hi * size ≤ img.length) {nums : List Nat} (h : nums.all (inGroup lo hi) = true) :
    (Ext2.joined ((nums.filter fun b => b ≠ 0).map (extBlock img size))).length = (nums.filter fun b => b ≠ 0).length * size := by
  rw [Ext2.joined, flatten_length _ (group_blocks hh h), List.length_map]

/-- Violation: a file that needs more than 12 direct blocks and those of one indirect block is never read whole. -/
theorem C162_long (img : Bytes) (size lo hi : Nat) (hs : 0 < size) (hh : hi * size ≤ img.length) (blocks : List Nat)
    (h : (extMap img size blocks).all (inGroup lo hi) = true) (hb : inGroup lo hi (blocks.getD 12 0) = true) (content : Bytes)
    (hl : (12 + size / 4) * size < content.length) (a : Nat) :
    ∃ q ds, AtPlace img (Ext2.data size lo hi blocks) (ds, true) a q ∧ ¬ content <+: Ext2.joined ds := by
  obtain ⟨q, hq⟩ := C162_data img size lo hi hs hh blocks h hb a
  refine ⟨q, _, hq, fun hp => ?_⟩
  have h1 := hp.length_le
  rw [ext_joined_length hh h] at h1
  have h2 : (extMap img size blocks).length ≤ 12 + size / 4 := by
    rw [extMap, List.length_append, List.length_take]
    by_cases h0 : blocks.getD 12 0 = 0
    · rw [if_pos h0]; simp only [List.length_nil]; omega
    · rw [if_neg h0, extTable, List.length_map, List.length_range]; omega
  have h3 : ((extMap img size blocks).filter fun b => b ≠ 0).length * size ≤ (12 + size / 4) * size :=
    Nat.mul_le_mul_right _ (Nat.le_trans (List.length_filter_le _ _) h2)
  omega

/-- Violation: a file with a hole is never read whole, what follows the hole is moved (the blocks behind its end have no number). -/
theorem C162_hole (img : Bytes) (size lo hi : Nat) (hs : 0 < size) (hh : hi * size ≤ img.length) (blocks : List Nat)
    (h : (extMap img size blocks).all (inGroup lo hi) = true) (hb : inGroup lo hi (blocks.getD 12 0) = true) (content : Bytes) (used zeros : List Nat)
    (hm : extMap img size blocks = used ++ zeros) (hz : ∀ b ∈ zeros, b = 0) (hu : (used.length - 1) * size < content.length) (h0 : 0 ∈ used) (a : Nat) :
    ∃ q ds, AtPlace img (Ext2.data size lo hi blocks) (ds, true) a q ∧ ¬ content <+: Ext2.joined ds := by
  obtain ⟨q, hq⟩ := C162_data img size lo hi hs hh blocks h hb a
  refine ⟨q, _, hq, fun hp => ?_⟩
  have h1 := hp.length_le
  rw [ext_joined_length hh h, hm, List.filter_append, (List.filter_eq_nil_iff (l := zeros)).2 (by simpa using hz), List.append_nil] at h1
  have h2 : (used.filter fun b => b ≠ 0).length < used.length := by
    rcases Nat.lt_or_ge (used.filter fun b => b ≠ 0).length used.length with h | h
    · exact h
    · have := List.length_filter_eq_length_iff.1 (Nat.le_antisymm (List.length_filter_le _ _) h) 0 h0
      simp at this
  have h3 : (used.filter fun b => b ≠ 0).length * size ≤ (used.length - 1) * size := Nat.mul_le_mul_right _ (by omega)
  omega

/-! ## The files of a group -/

/-- The files with their place in the table of the group. -/
def extFiles (img : Bytes) (size : Nat) : Nat → List (Option (List Nat)) → List (Nat × List Bytes)
  | _, [] => []
  | n, none :: is => extFiles img size (n + 1) is
  | n, some bs :: is => (n, ((extMap img size bs).filter fun b => b ≠ 0).map (extBlock img size)) :: extFiles img size (n + 1) is

/-- All blocks of the file lie in the group. -/
def ExtInside (img : Bytes) (size lo hi : Nat) (bs : List Nat) : Prop :=
  (extMap img size bs).all (inGroup lo hi) = true ∧ inGroup lo hi (bs.getD 12 0) = true

theorem at_ext_files (img : Bytes) (size lo hi : Nat) (hs : 0 < size) (hh : hi * size ≤ img.length) (rest : List (Option (List Nat)))
    (r : List (Nat × List Bytes)) : ∀ (is : List (Option (List Nat))) (n a : Nat), (∀ bs, some bs ∈ is → ExtInside img size lo hi bs) →
    (∀ a, ∃ q, AtPlace img (Ext2.files size lo hi (n + is.length) rest) r a q) →
    ∃ q, AtPlace img (Ext2.files size lo hi n (is ++ rest)) (extFiles img size n is ++ r) a q
  | [], n, a, _, hr => hr a
  | none :: is, n, a, h, hr => at_ext_files img size lo hi hs hh rest r is (n + 1) a (fun bs hb => h bs (by simp [hb])) fun a => by
      have := hr a
      rwa [List.length_cons, show n + (is.length + 1) = n + 1 + is.length by omega] at this
  | some bs :: is, n, a, h, hr => by
    obtain ⟨h1, h2⟩ := h bs (by simp)
    obtain ⟨q1, d1⟩ := C162_data img size lo hi hs hh bs h1 h2 a
    obtain ⟨q2, d2⟩ := at_ext_files img size lo hi hs hh rest r is (n + 1) q1 (fun bs hb => h bs (by simp [hb])) fun a => by
      have := hr a
      rwa [List.length_cons, show n + (is.length + 1) = n + 1 + is.length by omega] at this
    refine ⟨q2, ?_⟩
    rw [List.cons_append, Ext2.files, extFiles, List.cons_append]
    refine AtPlace.bind d1 ?_
    simp only [if_true]
    exact AtPlace.bind d2 (at_pure img _ _)

/-- A file is looked at if its inode is in use, has sectors (`i_blocks`) and a list of blocks: a file all of whose blocks are holes is skipped, and so are devices, short
links and files with extents. -/
theorem C162_listed (i : ExtInode) (used : Nat) (bs : List Nat) :
    Ext2.Inode.list used ⟨splitLE Ext2.modeWidths i.mode, i.head, i.flags, i.high, i.content, i.tail, i.os⟩ = some bs ↔
      used ≠ 0 ∧ i.head.getD 8 0 ≠ 0 ∧ i.content = .blocks bs := by
  unfold Ext2.Inode.list
  cases hc : i.content with
  | blocks b =>
    simp only []
    by_cases h : used = 0 ∨ i.head.getD 8 0 = 0
    · rw [if_pos h]
      constructor
      · intro h'; cases h'
      · rintro ⟨h1, h2, _⟩; exact absurd h (by simp only [not_or]; exact ⟨h1, h2⟩)
    · rw [if_neg h]
      simp only [not_or] at h
      constructor
      · intro h'; exact ⟨h.1, h.2, by cases h'; rfl⟩
      · rintro ⟨_, _, h'⟩; cases h'; rfl
  | device a b => simp
  | link t => simp
  | extents a b => simp

/-- The files of a group whose blocks all lie in it are read with all their blocks. -/
theorem C162_files (img : Bytes) (size lo hi : Nat) (hs : 0 < size) (hh : hi * size ≤ img.length) (is : List (Option (List Nat)))
    (h : ∀ bs, some bs ∈ is → ExtInside img size lo hi bs) (a : Nat) :
    ∃ q, AtPlace img (Ext2.files size lo hi 0 is) (extFiles img size 0 is) a q := by
  have := at_ext_files img size lo hi hs hh [] [] is 0 a h fun a => ⟨a, fun _ _ => rfl⟩
  simpa using this

/-- Violation: a file with a block outside the group of its inode is cut there, and the files behind it are not read. -/
theorem C162_outside (img : Bytes) (size lo hi : Nat) (hs : 0 < size) (hh : hi * size ≤ img.length) (before after : List (Option (List Nat)))
    (h : ∀ bs, some bs ∈ before → ExtInside img size lo hi bs) (bs : List Nat) (hb : (bs.take 12).all (inGroup lo hi) = false) (a : Nat) :
    ∃ q, AtPlace img (Ext2.files size lo hi 0 (before ++ some bs :: after))
      (extFiles img size 0 before ++ [(before.length, (extSeen lo hi (bs.take 12)).map (extBlock img size))]) a q := by
  refine at_ext_files img size lo hi hs hh (some bs :: after) _ before 0 a h fun a => ?_
  obtain ⟨q, hq⟩ := at_ext_data img size lo hi hs hh bs a
  have e : extRead img size lo hi bs = ((extSeen lo hi (bs.take 12)).map (extBlock img size), false) := by
    unfold extRead
    simp only []
    rw [if_pos (.inl hb), hb]
  rw [e] at hq
  refine ⟨q, ?_⟩
  rw [Ext2.files, Nat.zero_add]
  refine AtPlace.bind hq ?_
  simp only [Bool.false_eq_true, if_false]
  exact at_pure img _ _

/-- Blocks of 4 bytes: the file with the blocks 2 and 3 in a group of the blocks 1 to 3. -/
example : ExtInside (List.replicate 16 7) 4 1 4 [2, 3, 0, 0, 0, 0, 0, 0, 0, 0, 0, 0, 0, 0, 0] := by
  unfold ExtInside
  decide +kernel

/-- A file with the blocks 0 (a hole) and 2. -/
example : ExtInside (List.replicate 16 7) 4 1 4 [0, 2, 0, 0, 0, 0, 0, 0, 0, 0, 0, 0, 0, 0, 0] ∧
    extMap (List.replicate 16 7) 4 [0, 2, 0, 0, 0, 0, 0, 0, 0, 0, 0, 0, 0, 0, 0] = [0, 2] ++ List.replicate 10 0 := by
  unfold ExtInside
  decide +kernel

/-- A file whose second block is in another group. -/
example : (List.take 12 [2, 9, 0, 0, 0, 0, 0, 0, 0, 0, 0, 0, 0, 0, 0]).all (inGroup 1 4) = false := by decide +kernel

end Hachoir.Props
