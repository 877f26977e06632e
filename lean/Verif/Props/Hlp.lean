import Verif.Formats.Hlp
import Verif.Props.Asf

/-!
# C188: help files of Windows
-/

namespace Hachoir.Props
open Hachoir Hachoir.Stream Hachoir.Field Hachoir.Formats Hachoir.Formats.Hlp

/-! ### Specification -/

/-- The entry of a directory as it is written, with the number of pages, levels and entries of its tree. -/
structure HlpEntry where
  reserved : Nat
  used : Nat
  fileFlags : Nat
  magic : Nat
  flags : Nat
  pageSize : Nat
  text : Bytes
  splits : Nat
  rootPage : Nat
  pages : Nat
  levels : Nat
  entries : Nat
  space : Bytes
  deriving DecidableEq, Repr

/-- The bytes behind the number of the root page: two bytes 255, the counts, and the space that is reserved. -/
def HlpEntry.after (e : HlpEntry) : Bytes := [255, 255] ++ (leBytes 2 e.pages ++ (leBytes 2 e.levels ++ (leBytes 2 e.entries ++ e.space)))

def hlpEntry (e : HlpEntry) : Bytes :=
  leBytes 4 e.reserved ++ (leBytes 4 e.used ++ (leBytes 1 e.fileFlags ++ (leBytes 2 e.magic ++ (leBytes 2 e.flags ++ (leBytes 2 e.pageSize ++ (e.text ++ ([0, 0] ++ (leBytes 2 e.splits ++ (leBytes 2 e.rootPage ++ e.after)))))))))

structure HlpGood (e : HlpEntry) : Prop where
  reserved : e.reserved < 2 ^ 32 ∧ e.reserved = 45 + e.space.length
  used : e.used < 2 ^ 32
  flags : e.fileFlags < 256 ∧ e.magic < 65536 ∧ e.flags < 65536 ∧ e.pageSize < 65536
  text : e.text.length = 16
  tree : e.splits < 65536 ∧ e.rootPage < 65536

/-- The entry that is read. -/
def HlpEntry.seen (e : HlpEntry) : Entry := ⟨e.reserved, e.used, e.fileFlags, e.magic, e.flags, e.pageSize, e.text, [0, 0], e.splits, e.rootPage, e.after⟩

/-- The first 16 bytes. -/
def hlpHeader (dir : Nat) (free : Int) (size : Nat) : Bytes := leBytes 4 0x00035F3F ++ (leBytes 4 dir ++ (leBytes 4 (free % (256 ^ 4 : Nat)).toNat ++ leBytes 4 size))

/-! ### Proofs -/

theorem after_length (e : HlpEntry) : e.after.length = 8 + e.space.length := by
  simp only [HlpEntry.after, List.length_append, leBytes_length, List.length_cons, List.length_nil]
  omega

theorem reads_behind (e : HlpEntry) (g : HlpGood e) : Reads (behind (e.reserved - 37)) (none, e.after) e.after := by
  have h := after_length e
  have hr := g.reserved.2
  unfold behind leftover
  rw [if_neg (by decide), if_neg (by omega)]
  exact Reads.rmap (reads_raw_n _ e.after (by omega) (by omega))

theorem reads_hlp_entry (e : HlpEntry) (g : HlpGood e) : Reads entry (e.seen, none) (hlpEntry e) := by
  obtain ⟨f1, f2, f3, f4⟩ := g.flags
  unfold entry hlpEntry
  refine Reads.rbind (reads_int_le 4 _ (by omega) (by have := g.reserved.1; omega)) ?_
  refine Reads.rbind (reads_int_le 4 _ (by omega) (by have := g.used; omega)) ?_
  refine Reads.rbind (reads_int_le 1 _ (by omega) (by omega)) ?_
  refine Reads.rbind (reads_int_le 2 _ (by omega) (by omega)) ?_
  refine Reads.rbind (reads_int_le 2 _ (by omega) (by omega)) ?_
  refine Reads.rbind (reads_int_le 2 _ (by omega) (by omega)) ?_
  refine Reads.rbind (reads_fixed .little .eightBit (by decide) 16 e.text g.text (by omega)) ?_
  refine Reads.rbind (reads_raw_n 2 [0, 0] rfl (by omega)) ?_
  refine Reads.rbind (reads_int_le 2 _ (by omega) (by have := g.tree; omega)) ?_
  refine Reads.rbind (reads_int_le 2 _ (by omega) (by have := g.tree; omega)) ?_
  exact Reads.rmap (f := fun b : Option (List Nat) × Bytes => ((⟨e.reserved, e.used, e.fileFlags, e.magic, e.flags, e.pageSize, e.text, [0, 0], e.splits, e.rootPage, b.2⟩ : Entry), b.1)) (reads_behind e g)

/-- **C188** (with a disagreement): the header of a help file and the entry of its directory are read as written up to the page of the root, wherever the directory is; the numbers of pages, levels and entries never are, since the padding before them is refused, and are left in raw bytes. -/
theorem C188_file_partial (data : Bytes) (s : InputStream) (hs : stringInputStream data = .ok s) (dir : Nat) (free : Int) (size : Nat) (e : HlpEntry) (g : HlpGood e)
    (hd : 16 ≤ dir ∧ dir < 2 ^ 32 ∧ dir ≤ data.length) (hf : -(2 ^ 31 : Nat) ≤ free ∧ free < (2 ^ 31 : Nat)) (hz : size < 2 ^ 32) (hh : hlpHeader dir free size <+: data) (he : hlpEntry e <+: data.drop dir) :
    ∃ stop, Hlp.file s (8 * data.length) 0 = .ok (⟨0x00035F3F, dir, free, size, e.seen, none⟩, stop) := by
  obtain ⟨d, rfl⟩ : ∃ d, data = hlpHeader dir free size ++ d := by
    obtain ⟨d, hd⟩ := hh
    exact ⟨d, hd.symm⟩
  have p1 : leBytes 4 0x00035F3F <+: (hlpHeader dir free size ++ d).drop 0 := by
    rw [List.drop_zero, hlpHeader, List.append_assoc]
    exact List.prefix_append ..
  have p2 : leBytes 4 dir <+: (hlpHeader dir free size ++ d).drop 4 := by
    rw [hlpHeader, List.append_assoc, List.drop_left' (leBytes_length ..), List.append_assoc]
    exact List.prefix_append ..
  have p3 : leBytes 4 (free % (256 ^ 4 : Nat)).toNat <+: (hlpHeader dir free size ++ d).drop 8 := by
    rw [hlpHeader, List.append_assoc, List.append_assoc, show 8 = 4 + 4 from rfl, ← List.drop_drop, List.drop_left' (leBytes_length ..), List.drop_left' (leBytes_length ..), List.append_assoc]
    exact List.prefix_append ..
  have p4 : leBytes 4 size <+: (hlpHeader dir free size ++ d).drop 12 := by
    rw [hlpHeader, List.append_assoc, List.append_assoc, List.append_assoc, show 12 = 4 + 4 + 4 from rfl, ← List.drop_drop, ← List.drop_drop, List.drop_left' (leBytes_length ..), List.drop_left' (leBytes_length ..), List.drop_left' (leBytes_length ..)]
    exact List.prefix_append ..
  generalize hlpHeader dir free size ++ d = data at *
  have r : AtPlace data Hlp.file ⟨0x00035F3F, dir, free, size, e.seen, none⟩ 0 (dir + (hlpEntry e).length) := by
    unfold Hlp.file
    refine AtPlace.bind ((reads_int_le 4 _ (by omega) (by omega)).at p1 (by omega)) ?_
    rw [leBytes_length]
    refine AtPlace.bind ((reads_int_le 4 _ (by omega) (by omega)).at p2 (by omega)) ?_
    rw [leBytes_length]
    refine AtPlace.bind ((reads_signed_le 4 free (by omega) hf.1 hf.2).at p3 (by omega)) ?_
    rw [leBytes_length]
    refine AtPlace.bind ((reads_int_le 4 _ (by omega) (by omega)).at p4 (by omega)) ?_
    rw [leBytes_length]
    refine AtPlace.bind (at_seek data _ dir (by omega)) ?_
    exact AtPlace.map (f := fun x : Entry × Option (List Nat) => (⟨0x00035F3F, dir, free, size, x.1, x.2⟩ : Hlp.File)) ((reads_hlp_entry e g).at he hd.2.2)
  exact ⟨_, r s hs⟩

/-- **C188** (disagreement): a directory that begins inside of the header is refused. -/
theorem C188_back (s : InputStream) (d : Nat) (stop : Nat) (h : d < 16) : Rd.seek d s stop 128 = .error .parser := by
  rw [Rd.seek, if_pos (by omega)]

/-- **C188**: a file is accepted exactly if it tells its magic and its length. -/
theorem C188_valid (f : Hlp.File) (data : Bytes) : Hlp.validate f (8 * data.length) = true ↔ f.magic = 0x00035F3F ∧ f.size = data.length := by
  rw [Hlp.validate, Nat.mul_div_cancel_left _ (by omega)]
  simp

/-! ### Example -/

example : HlpGood ⟨47, 40, 4, 0x293B, 0x402, 1024, List.replicate 16 122, 0, 0, 1, 1, 7, [0, 0]⟩ := by
  constructor <;> simp

example : (hlpEntry ⟨47, 40, 4, 0x293B, 0x402, 1024, List.replicate 16 122, 0, 0, 1, 1, 7, [0, 0]⟩).length = 47 := by decide +kernel

end Hachoir.Props
