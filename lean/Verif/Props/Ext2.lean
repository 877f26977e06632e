import Verif.Formats.Ext2
import Verif.Props.Lnk

/-!
# C161: directories, modes and inodes of EXT2 file systems
-/

namespace Hachoir.Props
open Hachoir Hachoir.Stream Hachoir.Field Hachoir.Formats Spec

theorem rd_assoc {α β γ : Type} (r : Rd α) (f : α → Rd β) (g : β → Rd γ) : ((r >>= f) >>= g : Rd γ) = (r >>= fun a => f a >>= g) := by
  funext s stop addr
  show Rd.bind (Rd.bind r f) g s stop addr = Rd.bind r (fun a => Rd.bind (f a) g) s stop addr
  unfold Rd.bind
  cases r s stop addr <;> rfl

theorem rd_pure_bind {α β : Type} (a : α) (f : α → Rd β) : ((Pure.pure a : Rd α) >>= f) = f a := rfl

/-! ## Directories -/

/-- A name in a directory: number of the inode, type, name and the bytes that fill the record. -/
structure ExtName where
  inode : Nat
  type : Nat
  name : Bytes
  fill : Bytes

structure ExtName.Good (x : ExtName) : Prop where
  inode : x.inode < 2 ^ 32
  type : x.type < 256
  name : x.name.length < 256
  size : 8 + x.name.length + x.fill.length < 65536

/-- The record (ext2: `struct ext2_dir_entry_2`). -/
def ExtName.bytes (x : ExtName) : Bytes :=
  leBytes 4 x.inode ++ (leBytes 2 (8 + x.name.length + x.fill.length) ++ (leBytes 1 x.name.length ++ (leBytes 1 x.type ++ x.name))) ++ x.fill

theorem ext_name_length (x : ExtName) : x.bytes.length = 8 + x.name.length + x.fill.length := by
  simp only [ExtName.bytes, List.length_append, leBytes_length]
  omega

theorem reads_ext_name (b : Bytes) (h : b.length < 256) : Reads (Ext2.entryName b.length) b b := by
  rw [Ext2.entryName]
  by_cases h0 : 0 < b.length
  · rw [if_pos h0]
    exact reads_fixed .little .eightBit (by decide) _ b rfl (by omega)
  · rw [if_neg h0]
    exact Reads.of_eq (reads_pure _) (List.length_eq_zero_iff.1 (by omega)).symm (List.length_eq_zero_iff.1 (by omega)).symm

theorem C161_entry (x : ExtName) (h : x.Good) : Reads Ext2.entry ⟨x.inode, x.type, x.name⟩ x.bytes := by
  have hb : Reads Ext2.entryBody ⟨x.inode, x.type, x.name⟩
      (leBytes 4 x.inode ++ (leBytes 2 (8 + x.name.length + x.fill.length) ++ (leBytes 1 x.name.length ++ (leBytes 1 x.type ++ x.name)))) := by
    unfold Ext2.entryBody
    refine Reads.bind (reads_int_le 4 _ (by omega) (by have := h.inode; omega)) ?_
    refine Reads.bind (reads_int_le 2 _ (by omega) (by have := h.size; omega)) ?_
    refine Reads.bind (reads_int_le 1 _ (by omega) (by have := h.name; omega)) ?_
    refine Reads.bind (reads_int_le 1 _ (by omega) (by have := h.type; omega)) ?_
    exact Reads.map (f := fun name => (⟨x.inode, x.type, name⟩ : Ext2.Entry)) (reads_ext_name x.name h.name)
  have hw := Reads.within_extra hb x.fill (8 + x.name.length + x.fill.length) (ext_name_length x).symm
  intro data s hs k stop hp hst
  have hr : readBits s ((8 * k + 32 : Nat) : Int) 16 .little = .ok (8 + x.name.length + x.fill.length) := by
    refine read_le data s hs 2 (k + 4) _ (by omega) (by have := h.size; omega) ?_ _ rfl _ (by omega)
    have h1 : leBytes 4 x.inode ++ (leBytes 2 (8 + x.name.length + x.fill.length) ++ ((leBytes 1 x.name.length ++ (leBytes 1 x.type ++ x.name)) ++ x.fill)) <+: data.drop k := by
      simpa [ExtName.bytes] using hp
    have := prefix_left (drop_prefix h1)
    rwa [leBytes_length] at this
  show Rd.bind Ext2.recordLength _ s stop (8 * k) = _
  rw [Rd.bind, Ext2.recordLength, hr]
  simp only []
  rw [if_neg (by omega)]
  exact hw data s hs k stop hp hst

/-- A directory is read as the list of its names. -/
theorem C161_directory (xs : List ExtName) (h : ∀ x ∈ xs, x.Good) (s : InputStream) (hs : stringInputStream (xs.flatMap ExtName.bytes) = .ok s) (fuel : Nat)
    (hf : xs.length < fuel) :
    Ext2.directory fuel s (8 * (xs.flatMap ExtName.bytes).length) 0 =
      .ok (xs.map fun x => ⟨x.inode, x.type, x.name⟩, 8 * (xs.flatMap ExtName.bytes).length) := by
  have := reads_while_map Ext2.entry (fun x : ExtName => (⟨x.inode, x.type, x.name⟩ : Ext2.Entry)) ExtName.bytes xs fuel hf fun x hx =>
    ⟨C161_entry x (h x hx), fun h0 => by have := ext_name_length x; rw [h0] at this; simp at this; omega⟩
  have := this _ s hs 0 (List.prefix_refl _)
  simpa [Ext2.directory] using this

/-- A record shorter than its numbers cannot be read. -/
theorem C161_short (n inode : Nat) (hn : n < 8) (bs : Bytes) : Fails Ext2.entry .field (leBytes 4 inode ++ (leBytes 2 n ++ bs)) := by
  intro data s hs k stop hp hst
  have hr : readBits s ((8 * k + 32 : Nat) : Int) 16 .little = .ok n := by
    refine read_le data s hs 2 (k + 4) _ (by omega) (by omega) ?_ _ rfl _ (by omega)
    have := prefix_left (drop_prefix hp)
    rwa [leBytes_length] at this
  show Rd.bind Ext2.recordLength _ s stop (8 * k) = _
  rw [Rd.bind, Ext2.recordLength, hr]
  simp only []
  rw [if_pos hn, Rd.fail]

example : (⟨2, 2, [0x2E], [0, 0, 0]⟩ : ExtName).Good := ⟨by decide, by decide, by decide, by decide⟩
example : (⟨2, 2, [0x2E], [0, 0, 0]⟩ : ExtName).bytes = [2, 0, 0, 0, 12, 0, 1, 2, 0x2E, 0, 0, 0] := by decide +kernel

/-! ## Modes -/

/-- `S_IFMT` and the letters of `ls`. -/
def lsTypes : List (Nat × Char) := [(0o010000, 'p'), (0o020000, 'c'), (0o040000, 'd'), (0o060000, 'b'), (0o120000, 'l'), (0o140000, 's')]

/-- Three letters of `ls` for the permissions from the bit `k` on; `c` is the letter of the special bit. -/
def lsTriple (m k : Nat) (special : Bool) (c : Char) : List Char :=
  [if m.testBit (k + 2) then 'r' else '-', if m.testBit (k + 1) then 'w' else '-',
    match special, m.testBit k with
    | true, true => c
    | true, false => c.toUpper
    | false, true => 'x'
    | false, false => '-']

/-- The mode as `ls -l` writes it (a regular file and an unknown type as `-`). -/
def lsMode (m : Nat) : List Char :=
  (lsTypes.lookup (m / 4096 * 4096)).getD '-' :: (lsTriple m 6 (m.testBit 11) 's' ++ lsTriple m 3 (m.testBit 10) 's' ++ lsTriple m 0 (m.testBit 9) 't')

theorem perm_letter (m k : Nat) (c : Char) : Ext2.permLetter (m / 2 ^ k % 2) c = if m.testBit k then c else '-' := by
  rw [Nat.testBit_eq_decide_div_mod_eq, Ext2.permLetter]
  rcases Nat.mod_two_eq_zero_or_one (m / 2 ^ k) with h | h <;> simp [h]

theorem exec_letter (m j k : Nat) (c : Char) : Ext2.execLetter (m / 2 ^ j % 2) (m / 2 ^ k % 2) c.toUpper c =
    match m.testBit j, m.testBit k with
    | true, true => c
    | true, false => c.toUpper
    | false, true => 'x'
    | false, false => '-' := by
  rw [Nat.testBit_eq_decide_div_mod_eq, Nat.testBit_eq_decide_div_mod_eq, Ext2.execLetter, Ext2.permLetter]
  rcases Nat.mod_two_eq_zero_or_one (m / 2 ^ k) with h | h <;> rcases Nat.mod_two_eq_zero_or_one (m / 2 ^ j) with g | g <;> simp [h, g]

theorem type_letter (t : Nat) : Ext2.typeLetter t = (lsTypes.lookup (t * 4096)).getD '-' := by
  rw [Ext2.typeLetter]
  by_cases h : t < 16
  · revert t; decide +kernel
  · rw [if_neg (by omega), if_neg (by omega), if_neg (by omega), if_neg (by omega), if_neg (by omega), if_neg (by omega)]
    have hn : ∀ p ∈ lsTypes, ¬ p.1 = t * 4096 := by
      intro p hp
      have : p.1 < 16 * 4096 := by revert p; decide
      omega
    rw [List.lookup_eq_none_iff.2 fun p hp => by simpa using fun e => hn p hp e.symm]
    rfl

theorem split_mode (m : Nat) (hm : m < 65536) : splitLE Ext2.modeWidths m =
    [m / 2 ^ 0 % 2, m / 2 ^ 1 % 2, m / 2 ^ 2 % 2, m / 2 ^ 3 % 2, m / 2 ^ 4 % 2, m / 2 ^ 5 % 2, m / 2 ^ 6 % 2, m / 2 ^ 7 % 2, m / 2 ^ 8 % 2, m / 2 ^ 9 % 2,
      m / 2 ^ 10 % 2, m / 2 ^ 11 % 2, m / 4096] := by
  simp only [Ext2.modeWidths, splitLE, Nat.div_div_eq_div_mul, List.cons.injEq, and_true]
  refine ⟨?_, ?_, ?_, ?_, ?_, ?_, ?_, ?_, ?_, ?_, ?_, ?_, ?_⟩ <;> simp <;> omega

/-- The mode of a file is shown as `ls` shows it. -/
theorem C161_mode (m : Nat) (hm : m < 65536) : Reads (Rd.bits .little Ext2.modeWidths) (splitLE Ext2.modeWidths m) (leBytes 2 m) ∧
    Ext2.modeText (splitLE Ext2.modeWidths m) = lsMode m := by
  constructor
  · have := reads_bits_le Ext2.modeWidths (leBytes 2 m) (by rw [leBytes_length]; omega) (by rw [leBytes_length]; rfl)
    rwa [(leBytes_spec 2 m).2 (by omega)] at this
  · rw [split_mode m hm]
    simp only [Ext2.modeText, List.getD_cons_zero, List.getD_cons_succ]
    rw [type_letter, perm_letter, perm_letter, perm_letter, perm_letter, perm_letter, perm_letter,
      show 'S' = 's'.toUpper from rfl, show 'T' = 't'.toUpper from rfl, exec_letter, exec_letter, exec_letter]
    rfl

example : lsMode 0o104755 = "-rwsr-xr-x".toList := by decide +kernel
example : lsMode 0o041777 = "drwxrwxrwt".toList := by decide +kernel
example : lsMode 0o102644 = "-rw-r-Sr--".toList := by decide +kernel

/-! ## Inodes -/

/-- The content of an inode of this type, size, number of sectors, bit of extents and block of ACL: what is told and its 60 bytes. -/
inductive ExtContent (log : Nat) (letter : Char) (size sectors extents acl : Nat) : Ext2.Content → Bytes → Prop
  | device (hl : letter = 'b' ∨ letter = 'c') (minor major : Nat) (h1 : minor < 256) (h2 : major < 256) (fill : Bytes) (hf : fill.length = 58) :
    ExtContent log letter size sectors extents acl (.device minor major) (leBytes 1 minor ++ (leBytes 1 major ++ fill))
  | link (hl : letter = 'l') (hs : sectors = if acl = 0 then 0 else 2 * 2 ^ log) (target fill : Bytes) (ht : target.length = size) (h1 : 1 ≤ size)
      (hf : target.length + fill.length = 60) : ExtContent log letter size sectors extents acl (.link target) (target ++ fill)
  | extents (hl : letter ≠ 'b' ∧ letter ≠ 'c') (hs : letter = 'l' → sectors ≠ if acl = 0 then 0 else 2 * 2 ^ log) (he : extents ≠ 0)
      (head : List Nat) (hh : NumsFit [2, 2, 2, 2, 4] head) (es : List (List Nat)) (hn : head.getD 1 0 = es.length) (hes : ∀ e ∈ es, NumsFit [4, 2, 2, 4] e)
      (fill : Bytes) (hf : 12 + 12 * es.length + fill.length = 60) :
    ExtContent log letter size sectors extents acl (.extents head es) (numsBytes [2, 2, 2, 2, 4] head ++ es.flatMap (numsBytes [4, 2, 2, 4]) ++ fill)
  | blocks (hl : letter ≠ 'b' ∧ letter ≠ 'c') (hs : letter = 'l' → sectors ≠ if acl = 0 then 0 else 2 * 2 ^ log) (he : extents = 0)
      (bs : List Nat) (hb : bs.length = 15) (h : ∀ b ∈ bs, b < 2 ^ 32) : ExtContent log letter size sectors extents acl (.blocks bs) (bs.flatMap (leBytes 4))

theorem ext_content_length {log : Nat} {letter : Char} {size sectors extents acl : Nat} {c : Ext2.Content} {bs : Bytes}
    (h : ExtContent log letter size sectors extents acl c bs) : bs.length = 60 := by
  cases h with
  | device hl minor major h1 h2 fill hf => simp [leBytes_length, hf]
  | link hl hs target fill ht h1 hf => simpa using hf
  | extents hl hs he head hh es hn hes fill hf =>
    have h1 := nums_length _ _ hh
    have h2 : (es.flatMap (numsBytes [4, 2, 2, 4])).length = 12 * es.length := by
      clear hn hf
      induction es with
      | nil => rfl
      | cons e es ih =>
        rw [List.flatMap_cons, List.length_append, ih fun x hx => hes x (by simp [hx]), nums_length _ _ (hes e (by simp))]
        simp
        omega
    rw [List.length_append, List.length_append, h1, h2]
    simp
    omega
  | blocks hl hs he bs hb h =>
    rw [List.length_flatMap]
    simp [leBytes_length, hb]

theorem reads_ext_ahead {α : Type} (log blocks acl : Nat) (ha : acl < 2 ^ 32) {f : Bool → Rd α} {v : α} (pre post : Bytes) (hpre : pre.length = 64)
    (h : Reads (f (decide (blocks = if acl = 0 then 0 else 2 * 2 ^ log))) v (pre ++ (leBytes 4 acl ++ post))) :
    Reads (Ext2.fastLink log blocks >>= f) v (pre ++ (leBytes 4 acl ++ post)) := by
  intro data s hs k stop hp hst
  have hr : readBits s ((8 * k + 512 : Nat) : Int) 32 .little = .ok acl := by
    refine read_le data s hs 4 (k + 64) _ (by omega) (by omega) ?_ _ rfl _ (by omega)
    have := prefix_left (drop_prefix hp)
    rwa [hpre] at this
  show Rd.bind (Ext2.fastLink log blocks) f s stop (8 * k) = _
  rw [Rd.bind, Ext2.fastLink, hr]
  simp only []
  have e : (if 0 < acl then 2 * 2 ^ log else 0) = if acl = 0 then 0 else 2 * 2 ^ log := by
    by_cases h0 : acl = 0
    · rw [if_pos h0, if_neg (by omega)]
    · rw [if_neg h0, if_pos (by omega)]
  rw [e]
  exact h data s hs k stop hp hst

theorem reads_ext_mapped {log : Nat} {letter : Char} {size sectors extents acl : Nat} {c : Ext2.Content} {bs : Bytes}
    (h : ExtContent log letter size sectors extents acl c bs) (hl : letter ≠ 'b' ∧ letter ≠ 'c')
    (hs : letter = 'l' → sectors ≠ if acl = 0 then 0 else 2 * 2 ^ log) : Reads (Ext2.mapped extents) c bs := by
  cases h with
  | device hl' => rcases hl' with h | h <;> simp [h] at hl
  | link hl' hs' => exact absurd hs' (hs hl')
  | extents hl hs he head hh es hn hes fill hf =>
    have hlen := ext_content_length (.extents hl hs he head hh es hn hes fill hf : ExtContent log letter size sectors extents acl _ _)
    rw [Ext2.mapped, if_pos he]
    refine Reads.within_extra ?_ fill _ hlen.symm
    unfold Ext2.extentNode
    refine Reads.bind (reads_numbers _ _ hh) ?_
    rw [hn]
    exact Reads.map (f := fun es => Ext2.Content.extents head es) (reads_times _ _ es fun e he => reads_numbers _ _ (hes e he))
  | blocks hl hs he bs hb h =>
    rw [Ext2.mapped, if_neg (by omega)]
    unfold Ext2.blockList
    exact Reads.map (f := Ext2.Content.blocks) (reads_times_n _ _ bs 15 hb.symm fun b hb' => reads_int_le 4 b (by omega) (by have := h b hb'; omega))

theorem reads_ext_content {α : Type} {log : Nat} {letter : Char} {size sectors extents acl : Nat} {c : Ext2.Content} {bs : Bytes}
    (h : ExtContent log letter size sectors extents acl c bs) (ha : acl < 2 ^ 32) {g : Ext2.Content → Rd α} {v : α} (version : Nat) (post : Bytes)
    (hg : Reads (g c) v (leBytes 4 version ++ (leBytes 4 acl ++ post))) :
    Reads (Ext2.contentOf log letter size sectors extents >>= g) v (bs ++ (leBytes 4 version ++ (leBytes 4 acl ++ post))) := by
  have hlen := ext_content_length h
  rw [Ext2.contentOf]
  by_cases hbc : letter = 'b' ∨ letter = 'c'
  · rw [if_pos hbc]
    refine Reads.bind ?_ hg
    cases h with
    | device hl minor major h1 h2 fill hf =>
      unfold Ext2.device
      refine Reads.bind (reads_int_le 1 _ (by omega) (by omega)) ?_
      refine Reads.bind (reads_int_le 1 _ (by omega) (by omega)) ?_
      exact Reads.map (f := fun _ => Ext2.Content.device minor major) (reads_raw_n 58 fill hf (by omega))
    | link hl => subst hl; simp at hbc
    | extents hl => rcases hbc with h | h <;> simp [h] at hl
    | blocks hl => rcases hbc with h | h <;> simp [h] at hl
  · rw [if_neg hbc]
    have hbc' : letter ≠ 'b' ∧ letter ≠ 'c' := by simpa using hbc
    by_cases hl : letter = 'l'
    · rw [if_pos hl]
      unfold Ext2.linked
      rw [rd_assoc]
      have e : bs ++ (leBytes 4 version ++ (leBytes 4 acl ++ post)) = (bs ++ leBytes 4 version) ++ (leBytes 4 acl ++ post) := by simp
      rw [e]
      refine reads_ext_ahead log sectors acl ha _ post (by rw [List.length_append, leBytes_length]; omega) ?_
      rw [← e]
      refine Reads.bind ?_ hg
      by_cases hs : sectors = if acl = 0 then 0 else 2 * 2 ^ log
      · rw [decide_eq_true hs]
        simp only [if_true]
        cases h with
        | device hl' => exact absurd hl' hbc
        | extents _ hs' => exact absurd hs (hs' hl)
        | blocks _ hs' => exact absurd hs (hs' hl)
        | link _ _ target fill ht h1 hf =>
          unfold Ext2.link
          refine Reads.bind (reads_fixed .little .eightBit (by decide) _ target ht (by omega)) ?_
          exact Reads.map (f := fun _ => Ext2.Content.link target) (reads_slack fill _ (by omega))
      · rw [decide_eq_false hs]
        simp only [Bool.false_eq_true, if_false]
        exact reads_ext_mapped h hbc' fun _ => hs
    · rw [if_neg hl]
      exact Reads.bind (reads_ext_mapped h hbc' fun h => absurd h hl) hg

/-- The last 12 bytes (`osd2` of `struct ext2_inode`): six halves on Linux (blocks, ACL, user, group, checksum, reserved); fragment, its size, mode, user, group and
author on the Hurd; nothing that is known on others. -/
def extOsLayout : Nat → List Nat
  | 0 => [2, 2, 2, 2, 2, 2]
  | 1 => [1, 1, 2, 2, 2, 4]
  | _ => [12]

/-- An inode as the disk has it. -/
structure ExtInode where
  mode : Nat
  head : List Nat
  flags : List Nat
  high : Nat
  content : Ext2.Content
  body : Bytes
  tail : List Nat
  os : List Nat

structure ExtInode.Good (c : Ext2.Super) (i : ExtInode) : Prop where
  mode : i.mode < 65536
  head : NumsFit [2, 4, 4, 4, 4, 4, 2, 2, 4] i.head
  flags : Fit Ext2.flagWidths i.flags
  high : i.high < 2 ^ 32
  content : ExtContent c.logBlockSize ((lsMode i.mode).headD '-') (i.head.getD 1 0) (i.head.getD 8 0) (i.flags.getD 19 0) (i.tail.getD 1 0) i.content i.body
  tail : NumsFit [4, 4, 4, 4] i.tail
  os : NumsFit (extOsLayout c.creatorOs) i.os

/-- The 128 bytes (`struct ext2_inode`). -/
def ExtInode.bytes (c : Ext2.Super) (i : ExtInode) : Bytes :=
  leBytes 2 i.mode ++ (numsBytes [2, 4, 4, 4, 4, 4, 2, 2, 4] i.head ++ (leBytes 4 (joinLE Ext2.flagWidths i.flags) ++ (leBytes 4 i.high ++ (i.body ++
    (numsBytes [4, 4, 4, 4] i.tail ++ numsBytes (extOsLayout c.creatorOs) i.os)))))

theorem os_widths (os : Nat) : Ext2.osWidths os = extOsLayout os := by
  rw [Ext2.osWidths]
  match os with
  | 0 => rfl
  | 1 => rfl
  | _ + 2 => rw [if_neg (by omega), if_neg (by omega)]; rfl

theorem os_widths_sum (os : Nat) : (extOsLayout os).sum = 12 := by
  match os with
  | 0 => rfl
  | 1 => rfl
  | _ + 2 => rfl

theorem ext_inode_length (c : Ext2.Super) (i : ExtInode) (h : i.Good c) : (i.bytes c).length = 128 := by
  simp only [ExtInode.bytes, List.length_append, leBytes_length, nums_length _ _ h.head, nums_length _ _ h.tail, nums_length _ _ h.os, ext_content_length h.content,
    os_widths_sum]
  rfl

/-- An inode is read as it is, for every kind of file; it may be followed by more bytes up to the size of inodes. -/
theorem C161_inode (c : Ext2.Super) (i : ExtInode) (h : i.Good c) (extra : Bytes) (he : c.inodeBytes = 128 + extra.length) :
    Reads (Ext2.inode c) ⟨splitLE Ext2.modeWidths i.mode, i.head, i.flags, i.high, i.content, i.tail, i.os⟩ (i.bytes c ++ extra) := by
  refine Reads.within_extra ?_ extra _ (by rw [List.length_append, ext_inode_length c i h, he])
  unfold Ext2.inodeBody
  rw [os_widths]
  rw [ExtInode.bytes]
  refine Reads.bind (C161_mode i.mode h.mode).1 ?_
  refine Reads.bind (reads_numbers _ _ h.head) ?_
  refine Reads.bind (reads_packed_le 4 Ext2.flagWidths i.flags (by omega) (by rfl) h.flags) ?_
  refine Reads.bind (reads_int_le 4 _ (by omega) (by have := h.high; omega)) ?_
  have hm : Ext2.typeLetter ((splitLE Ext2.modeWidths i.mode).getD 12 0) = (lsMode i.mode).headD '-' := by
    rw [split_mode _ h.mode]
    simp only [List.getD_cons_zero, List.getD_cons_succ]
    rw [type_letter]
    rfl
  rw [hm]
  obtain ⟨t0, t1, t2, t3, ht⟩ : ∃ t0 t1 t2 t3, i.tail = [t0, t1, t2, t3] := by
    have := h.tail
    match i.tail, this with
    | [t0, t1, t2, t3], _ => exact ⟨t0, t1, t2, t3, rfl⟩
    | [], h => simp [NumsFit] at h
    | [_], h => simp [NumsFit] at h
    | [_, _], h => simp [NumsFit] at h
    | [_, _, _], h => simp [NumsFit] at h
    | _ :: _ :: _ :: _ :: _ :: _, h => simp [NumsFit] at h
  have htail := h.tail
  have hc := h.content
  rw [ht] at htail hc ⊢
  simp only [List.getD_cons_zero, List.getD_cons_succ] at hc
  have hb : numsBytes [4, 4, 4, 4] [t0, t1, t2, t3] ++ numsBytes (extOsLayout c.creatorOs) i.os =
      leBytes 4 t0 ++ (leBytes 4 t1 ++ (leBytes 4 t2 ++ leBytes 4 t3 ++ numsBytes (extOsLayout c.creatorOs) i.os)) := by
    simp [numsBytes]
  have hr : Reads (Asf.numbers [4, 4, 4, 4] >>= fun tail => Asf.numbers (extOsLayout c.creatorOs) >>= fun os =>
      (Pure.pure (⟨splitLE Ext2.modeWidths i.mode, i.head, i.flags, i.high, i.content, tail, os⟩ : Ext2.Inode) : Rd Ext2.Inode))
      ⟨splitLE Ext2.modeWidths i.mode, i.head, i.flags, i.high, i.content, [t0, t1, t2, t3], i.os⟩
      (numsBytes [4, 4, 4, 4] [t0, t1, t2, t3] ++ numsBytes (extOsLayout c.creatorOs) i.os) :=
    Reads.bind (reads_numbers _ _ htail)
      (Reads.map (f := fun os => (⟨splitLE Ext2.modeWidths i.mode, i.head, i.flags, i.high, i.content, [t0, t1, t2, t3], os⟩ : Ext2.Inode)) (reads_numbers _ _ h.os))
  rw [hb] at hr ⊢
  simp only [NumsFit] at htail
  exact reads_ext_content hc (by omega) t0 _ hr

/-- Superblocks of the first version tell no size of inodes: they have 128 bytes then. -/
theorem C161_old (c : Ext2.Super) (i : ExtInode) (h : i.Good c) (h0 : c.inodeSize = 0) :
    Reads (Ext2.inode c) ⟨splitLE Ext2.modeWidths i.mode, i.head, i.flags, i.high, i.content, i.tail, i.os⟩ (i.bytes c) := by
  have := C161_inode c i h [] (by rw [Ext2.Super.inodeBytes, if_pos h0]; rfl)
  rwa [List.append_nil] at this

/-- The size told is made of the numbers at 4 and at 108 (`i_size`, `i_dir_acl`). -/
theorem C161_size (c : Ext2.Super) (i : ExtInode) (h : i.Good c) :
    Ext2.Inode.size ⟨splitLE Ext2.modeWidths i.mode, i.head, i.flags, i.high, i.content, i.tail, i.os⟩ =
      ofBytesLE (((i.bytes c).drop 4).take 4 ++ ((i.bytes c).drop 108).take 4) := by
  obtain ⟨h0, h1, hs, hh⟩ : ∃ h0 h1 hs, i.head = h0 :: h1 :: hs := by
    have := h.head
    match i.head, this with
    | [], h => simp [NumsFit] at h
    | [_], h => simp [NumsFit] at h
    | a :: b :: r, _ => exact ⟨a, b, r, rfl⟩
  obtain ⟨t0, t1, t2, ts, ht⟩ : ∃ t0 t1 t2 ts, i.tail = t0 :: t1 :: t2 :: ts := by
    have := h.tail
    match i.tail, this with
    | [], h => simp [NumsFit] at h
    | [_], h => simp [NumsFit] at h
    | [_, _], h => simp [NumsFit] at h
    | a :: b :: d :: r, _ => exact ⟨a, b, d, r, rfl⟩
  have hf := h.head
  have htf := h.tail
  have hlen := nums_length _ _ h.head
  have hbody := ext_content_length h.content
  rw [hh] at hf hlen
  rw [ht] at htf
  have e1 : ((i.bytes c).drop 4).take 4 = leBytes 4 h1 := by
    rw [ExtInode.bytes, hh, numsBytes, numsBytes]
    rw [show leBytes 2 i.mode ++ (leBytes 2 h0 ++ (leBytes 4 h1 ++ numsBytes [4, 4, 4, 4, 2, 2, 4] hs) ++ (leBytes 4 (joinLE Ext2.flagWidths i.flags) ++
      (leBytes 4 i.high ++ (i.body ++ (numsBytes [4, 4, 4, 4] i.tail ++ numsBytes (extOsLayout c.creatorOs) i.os))))) =
      (leBytes 2 i.mode ++ leBytes 2 h0) ++ (leBytes 4 h1 ++ (numsBytes [4, 4, 4, 4, 2, 2, 4] hs ++ (leBytes 4 (joinLE Ext2.flagWidths i.flags) ++
      (leBytes 4 i.high ++ (i.body ++ (numsBytes [4, 4, 4, 4] i.tail ++ numsBytes (extOsLayout c.creatorOs) i.os)))))) by simp only [List.append_assoc]]
    rw [List.drop_append_of_le_length (by simp [leBytes_length]), List.drop_eq_nil_of_le (by simp [leBytes_length]), List.nil_append,
      List.take_append_of_le_length (by rw [leBytes_length]), List.take_of_length_le (by rw [leBytes_length])]
  have e2 : ((i.bytes c).drop 108).take 4 = leBytes 4 t2 := by
    rw [ExtInode.bytes, ht, numsBytes, numsBytes, numsBytes, hh]
    rw [show leBytes 2 i.mode ++ (numsBytes [2, 4, 4, 4, 4, 4, 2, 2, 4] (h0 :: h1 :: hs) ++ (leBytes 4 (joinLE Ext2.flagWidths i.flags) ++
      (leBytes 4 i.high ++ (i.body ++ (leBytes 4 t0 ++ (leBytes 4 t1 ++ (leBytes 4 t2 ++ numsBytes [4] ts)) ++ numsBytes (extOsLayout c.creatorOs) i.os))))) =
      (leBytes 2 i.mode ++ (numsBytes [2, 4, 4, 4, 4, 4, 2, 2, 4] (h0 :: h1 :: hs) ++ (leBytes 4 (joinLE Ext2.flagWidths i.flags) ++
      (leBytes 4 i.high ++ (i.body ++ (leBytes 4 t0 ++ leBytes 4 t1)))))) ++ (leBytes 4 t2 ++ (numsBytes [4] ts ++ numsBytes (extOsLayout c.creatorOs) i.os))
      by simp only [List.append_assoc]]
    have hl : (leBytes 2 i.mode ++ (numsBytes [2, 4, 4, 4, 4, 4, 2, 2, 4] (h0 :: h1 :: hs) ++ (leBytes 4 (joinLE Ext2.flagWidths i.flags) ++
      (leBytes 4 i.high ++ (i.body ++ (leBytes 4 t0 ++ leBytes 4 t1)))))).length = 108 := by
      simp only [List.length_append, leBytes_length, hlen, hbody]
      rfl
    rw [List.drop_append_of_le_length (by omega), List.drop_eq_nil_of_le (by omega), List.nil_append,
      List.take_append_of_le_length (by rw [leBytes_length]), List.take_of_length_le (by rw [leBytes_length])]
  rw [e1, e2, ofBytesLE_append, leBytes_length, (leBytes_spec 4 h1).2 hf.2.2.2.1, (leBytes_spec 4 t2).2 htf.2.2.2.2.2.1, Ext2.Inode.size, hh, ht]
  simp only [List.getD_cons_zero, List.getD_cons_succ]
  omega

/-- A symbolic link in its inode. -/
def extLink : ExtInode :=
  ⟨0o120777, [0, 9, 0, 0, 0, 0, 0, 1, 0], List.replicate 32 0, 0, .link "/bin/dash".toUTF8.toList, "/bin/dash".toUTF8.toList ++ List.replicate 51 0, [0, 0, 0, 0],
    [0, 0, 0, 0, 0, 0]⟩

example (c : Ext2.Super) (h : c.creatorOs = 0) : extLink.Good c where
  mode := by decide
  head := by simp [extLink, NumsFit]
  flags := by simp [extLink, Ext2.flagWidths, Fit]
  high := by decide
  content := .link (by decide +kernel) (if_pos rfl).symm _ _ (by decide +kernel) (by decide) (by decide +kernel)
  tail := by simp [extLink, NumsFit]
  os := by rw [h]; simp [extLink, NumsFit, extOsLayout]

end Hachoir.Props
