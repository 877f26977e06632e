import Verif.Formats.SevenZip
import Verif.Props.Reader
import Verif.Props.PrefixInt
import Verif.Props.StringField

/-!
# 7z archives (C125, C126, C127)

The bytes are built as 7zFormat.txt says; numbers and bit vectors as 7-Zip writes them.
-/

namespace Hachoir.Props
open Hachoir Hachoir.Stream Hachoir.Field Hachoir.Formats Spec SevenZip

/-! ## Numbers, bit vectors, digests -/

/-- How many bytes follow the first one of a number. -/
def szWidth (v : Nat) : Nat :=
  if v < 2 ^ 7 then 0 else if v < 2 ^ 14 then 1 else if v < 2 ^ 21 then 2 else if v < 2 ^ 28 then 3 else if v < 2 ^ 35 then 4
  else if v < 2 ^ 42 then 5 else if v < 2 ^ 49 then 6 else if v < 2 ^ 56 then 7 else 8

/-- A number: the first byte has as many bits set as bytes follow, and the highest bits of the number. -/
def szEnc (v : Nat) : Bytes :=
  UInt8.ofNat (256 - 2 ^ (8 - szWidth v) + v / 256 ^ szWidth v) :: leBytes (szWidth v) (v % 256 ^ szWidth v)

theorem sz_head (v : Nat) (hv : v < 2 ^ 64) : szWidth v ≤ 8 ∧ v / 256 ^ szWidth v < 2 ^ (7 - szWidth v) := by
  unfold szWidth
  split
  · exact ⟨by omega, by norm_num; omega⟩
  split
  · exact ⟨by omega, by norm_num; omega⟩
  split
  · exact ⟨by omega, by norm_num; omega⟩
  split
  · exact ⟨by omega, by norm_num; omega⟩
  split
  · exact ⟨by omega, by norm_num; omega⟩
  split
  · exact ⟨by omega, by norm_num; omega⟩
  split
  · exact ⟨by omega, by norm_num; omega⟩
  split
  · exact ⟨by omega, by norm_num; omega⟩
  · exact ⟨by omega, by norm_num; omega⟩

theorem reads_num (v : Nat) (hv : v < 2 ^ 64) : Reads num v (szEnc v) := by
  intro data s hs k stop hp _
  obtain ⟨h1, h2⟩ := sz_head v hv
  have hl := leBytes_length (szWidth v) (v % 256 ^ szWidth v)
  have r := C55_sevenzip data s hs k (v / 256 ^ szWidth v) (leBytes (szWidth v) (v % 256 ^ szWidth v)) (by rw [hl]; exact h1) (by rw [hl]; exact h2)
    (by rw [hl]; exact hp)
  rw [(leBytes_spec _ _).2 (Nat.mod_lt _ (Nat.pow_pos (by omega))), hl] at r
  have e : v % 256 ^ szWidth v + v / 256 ^ szWidth v * 256 ^ szWidth v = v := by
    rw [Nat.mul_comm]; exact Nat.mod_add_div _ _
  rw [num, r, e]
  simp only [szEnc, List.length_cons, hl, Except.ok.injEq, Prod.mk.injEq, true_and]
  omega

theorem sz_ne (v : Nat) : szEnc v ≠ [] := by simp [szEnc]

/-- The bits of byte `j` of a vector with the elements `is`: element `8 j` is the highest bit. -/
def vecByte (is : List Nat) (j : Nat) : UInt8 :=
  UInt8.ofNat ((if 8 * j ∈ is then 128 else 0) + (if 8 * j + 1 ∈ is then 64 else 0) + (if 8 * j + 2 ∈ is then 32 else 0) +
    (if 8 * j + 3 ∈ is then 16 else 0) + (if 8 * j + 4 ∈ is then 8 else 0) + (if 8 * j + 5 ∈ is then 4 else 0) +
    (if 8 * j + 6 ∈ is then 2 else 0) + (if 8 * j + 7 ∈ is then 1 else 0))

def vecBytes (n : Nat) (is : List Nat) : Bytes := (List.range ((n + 7) / 8)).flatMap fun j => [vecByte is j]

/-- The elements are in order and below `n`. -/
def Indexes (n : Nat) (is : List Nat) : Prop := is = (List.range n).filter (· ∈ is)

theorem vec_byte_bits : ∀ b0 b1 b2 b3 b4 b5 b6 b7 : Bool,
    (splitLE [1, 1, 1, 1, 1, 1, 1, 1] (ofBytesLE [UInt8.ofNat ((if b0 then 128 else 0) + (if b1 then 64 else 0) + (if b2 then 32 else 0) +
      (if b3 then 16 else 0) + (if b4 then 8 else 0) + (if b5 then 4 else 0) + (if b6 then 2 else 0) + (if b7 then 1 else 0))])).reverse =
    [b0.toNat, b1.toNat, b2.toNat, b3.toNat, b4.toNat, b5.toNat, b6.toNat, b7.toNat] := by decide +kernel

/-- Whether an element is in. -/
def isIn (is : List Nat) (i : Nat) : Nat := (decide (i ∈ is)).toNat

theorem reads_vec_byte (is : List Nat) (j : Nat) : Reads vectorByte ((List.range 8).map fun i => isIn is (8 * j + i)) [vecByte is j] := by
  have h := vec_byte_bits (decide (8 * j ∈ is)) (decide (8 * j + 1 ∈ is)) (decide (8 * j + 2 ∈ is)) (decide (8 * j + 3 ∈ is)) (decide (8 * j + 4 ∈ is))
    (decide (8 * j + 5 ∈ is)) (decide (8 * j + 6 ∈ is)) (decide (8 * j + 7 ∈ is))
  simp only [decide_eq_true_eq] at h
  have r := Reads.map (f := List.reverse) (reads_bits_le [1, 1, 1, 1, 1, 1, 1, 1] [vecByte is j] (by simp) rfl)
  refine r.of_eq ?_ rfl
  rw [vecByte, h]
  rfl

theorem bits_flat (f : Nat → Nat) : ∀ m, ((List.range m).map fun j => (List.range 8).map fun i => f (8 * j + i)).flatten = (List.range (8 * m)).map f
  | 0 => rfl
  | m + 1 => by
    rw [List.range_succ (n := m), List.map_append, List.flatten_append, bits_flat f m, show 8 * (m + 1) = 8 * m + 8 by omega, List.range_add, List.map_append]
    congr 1

theorem reads_vector_bits (n : Nat) (hn : 0 < n) (is : List Nat) (h : Indexes n is) : Reads (vectorBits n) is (vecBytes n is) := by
  have r := reads_times_map vectorByte (fun j => (List.range 8).map fun i => isIn is (8 * j + i)) (fun j => [vecByte is j])
    (List.range ((n + 7) / 8)) fun j _ => reads_vec_byte is j
  rw [List.length_range] at r
  have r2 := Reads.map (f := fun bs : List (List Nat) => (List.range n).filter fun i => bs.flatten.getD i 0 != 0) r
  rw [vectorBits, if_neg (by omega)]
  refine r2.of_eq ?_ rfl
  rw [bits_flat (isIn is)]
  conv_rhs => rw [h]
  apply List.filter_congr
  intro i hi
  have hi' := List.mem_range.1 hi
  have e : ((List.range (8 * ((n + 7) / 8))).map (isIn is)).getD i 0 = isIn is i := by
    rw [List.getD_eq_getElem?_getD, List.getElem?_map, List.getElem?_range (by omega)]
    rfl
  rw [e, isIn]
  by_cases hm : i ∈ is <;> simp [hm]

/-- A vector with a byte that tells whether all are in. -/
def vecAllBytes (n : Nat) (is : List Nat) : Bytes := if is = List.range n then [1] else [0] ++ vecBytes n is

theorem reads_vector_all (n : Nat) (is : List Nat) (h : Indexes n is) : Reads (vectorAll n) is (vecAllBytes n is) := by
  unfold vecAllBytes
  by_cases ha : is = List.range n
  · rw [if_pos ha]
    refine (Reads.bind (reads_byte 1 .little (by simp)) (w := List.range n) (ys := []) ?_).of_eq ha.symm rfl
    rw [if_pos (by decide)]
    exact reads_pure _
  · rw [if_neg ha]
    refine Reads.bind (reads_byte 0 .little (by simp)) ?_
    have hn : n ≠ 0 := by
      rintro rfl
      exact ha h
    rw [if_neg (by decide), if_neg hn]
    exact reads_vector_bits n (by omega) is h

/-- A byte that names what follows. -/
theorem reads_id (b : UInt8) : Reads propId b.toNat [b] := reads_byte b .little (by simp)

theorem reads_end {α : Type} (v : α) : Reads (do let _ ← propId; pure v) v [0] := Reads.bind (xs := [0]) (ys := []) (reads_id 0) (reads_pure v)

def digestsBytes (n : Nat) (ds : List (Nat × Nat)) : Bytes := [10] ++ (vecAllBytes n (ds.map (·.1)) ++ ds.flatMap fun d => leBytes 4 d.2)

def DigestsGood (n : Nat) (ds : List (Nat × Nat)) : Prop := Indexes n (ds.map (·.1)) ∧ ∀ d ∈ ds, d.2 < 2 ^ 32

theorem reads_digests (n : Nat) (ds : List (Nat × Nat)) (h : DigestsGood n ds) : Reads (digests n) ds (digestsBytes n ds) := by
  refine Reads.bind (reads_id 10) (Reads.bind (reads_vector_all n _ h.1) ?_)
  have r := reads_each (fun i => do let d ← Rd.int 4 .little; pure (i, d)) (fun d : Nat × Nat => d.1) (fun d => (d.1, d.2)) (fun d => leBytes 4 d.2) ds
    (fun d hd => Reads.map (f := fun x => (d.1, x)) (reads_int_le 4 d.2 (by omega) (h.2 d hd)))
  exact r.of_eq (by simp) rfl

/-! ## Packed streams -/

def packItemBytes (n : Nat) : PackItem → Bytes
  | .sizes ns => [9] ++ ns.flatMap szEnc
  | .digests ds => digestsBytes n ds

def PackItemGood (n : Nat) : PackItem → Prop
  | .sizes ns => ns.length = n ∧ ∀ v ∈ ns, v < 2 ^ 64
  | .digests ds => DigestsGood n ds

def packItemsBytes (n : Nat) (is : List PackItem) : Bytes := is.flatMap (packItemBytes n) ++ [0]

theorem reads_nums (ns : List Nat) (h : ∀ v ∈ ns, v < 2 ^ 64) : Reads (Rd.times num ns.length) ns (ns.flatMap szEnc) :=
  reads_times num szEnc ns fun v hv => reads_num v (h v hv)

theorem reads_pack_items (n : Nat) : ∀ (is : List PackItem) (fuel : Nat), is.length < fuel → (∀ i ∈ is, PackItemGood n i) →
    Reads (packItems n fuel) is (packItemsBytes n is)
  | [], fuel + 1, _, _ => by
    refine Reads.loop .little (by simp) 0 rfl ?_
    rw [if_pos (by decide)]
    exact reads_end _
  | .sizes ns :: is, fuel + 1, hf, h => by
    obtain ⟨h1, h2⟩ : ns.length = n ∧ ∀ v ∈ ns, v < 2 ^ 64 := h (.sizes ns) (by simp)
    have ih := reads_pack_items n is fuel (by simpa using hf) fun i hi => h i (by simp [hi])
    rw [show packItemsBytes n (.sizes ns :: is) = [9] ++ (ns.flatMap szEnc ++ packItemsBytes n is) by simp [packItemsBytes, packItemBytes]]
    refine Reads.loop .little (by simp) 9 rfl ?_
    rw [if_neg (by decide), if_pos (by decide)]
    have r := reads_nums ns h2
    rw [h1] at r
    exact Reads.bind (reads_id 9) (Reads.bind r (Reads.map ih))
  | .digests ds :: is, fuel + 1, hf, h => by
    have h1 : DigestsGood n ds := h (.digests ds) (by simp)
    have ih := reads_pack_items n is fuel (by simpa using hf) fun i hi => h i (by simp [hi])
    rw [show packItemsBytes n (.digests ds :: is) = digestsBytes n ds ++ packItemsBytes n is by simp [packItemsBytes, packItemBytes]]
    refine Reads.loop .little (by simp) 10 rfl ?_
    rw [if_neg (by decide), if_neg (by decide), if_pos (by decide)]
    exact Reads.bind (reads_digests n ds h1) (Reads.map ih)

def packBytes (p : PackInfo) : Bytes := [6] ++ (szEnc p.pos ++ (szEnc p.count ++ packItemsBytes p.count p.items))

structure PackGood (p : PackInfo) : Prop where
  pos : p.pos < 2 ^ 64
  count : p.count < 2 ^ 64
  items : ∀ i ∈ p.items, PackItemGood p.count i

theorem reads_pack (p : PackInfo) (h : PackGood p) (fuel : Nat) (hf : p.items.length < fuel) : Reads (packInfo fuel) p (packBytes p) :=
  Reads.bind (reads_id 6) (Reads.bind (reads_num _ h.pos) (Reads.bind (reads_num _ h.count) (Reads.map (reads_pack_items p.count p.items fuel hf h.items))))

/-! ## Folders -/

def coderBytes (c : Coder) : Bytes :=
  [UInt8.ofNat (c.id.length + (if c.streams.isSome then 16 else 0) + (if c.properties.isSome then 32 else 0) + 64 * c.unused + (if c.more then 128 else 0))] ++
    (c.id ++ ((match c.streams with
      | some (i, o) => szEnc i ++ szEnc o
      | none => []) ++ (match c.properties with
      | some d => szEnc d.length ++ d
      | none => [])))

structure CoderGood (c : Coder) : Prop where
  id : c.id.length < 16
  streams : ∀ i o, c.streams = some (i, o) → i < 2 ^ 64 ∧ o < 2 ^ 64
  properties : ∀ d, c.properties = some d → d ≠ [] ∧ d.length < 2 ^ 64
  unused : c.unused < 2

theorem reads_coder_id (b : Bytes) : Reads (coderId b.length) b b := by
  unfold coderId
  by_cases h : b = []
  · subst h
    exact reads_pure _
  · rw [if_pos (List.length_pos_of_ne_nil h)]
    exact reads_raw b h

theorem reads_coder (c : Coder) (h : CoderGood c) : Reads coder c (coderBytes c) := by
  obtain ⟨id, streams, properties, unused, more⟩ := c
  obtain ⟨h1, h2, h3, h4⟩ := h
  simp only at h1 h2 h3 h4
  have r0 := reads_bits_le [4, 1, 1, 1, 1] [UInt8.ofNat (id.length + (if streams.isSome then 16 else 0) + (if properties.isSome then 32 else 0) + 64 * unused +
    (if more then 128 else 0))] (by simp) rfl
  have e : splitLE [4, 1, 1, 1, 1] (ofBytesLE [UInt8.ofNat (id.length + (if streams.isSome then 16 else 0) + (if properties.isSome then 32 else 0) + 64 * unused +
    (if more then 128 else 0))]) = [id.length, streams.isSome.toNat, properties.isSome.toNat, unused, more.toNat] := by
    generalize id.length = n at h1
    generalize streams.isSome = a
    generalize properties.isSome = b
    clear * - h1 h4
    have key : ∀ (n : Fin 16) (a b : Bool) (u : Fin 2) (m : Bool),
      splitLE [4, 1, 1, 1, 1] (ofBytesLE [UInt8.ofNat (n.val + (if a then 16 else 0) + (if b then 32 else 0) + 64 * u.val + (if m then 128 else 0))]) =
        [n.val, a.toNat, b.toNat, u.val, m.toNat] := by decide +kernel
    exact key ⟨n, h1⟩ a b ⟨unused, h4⟩ more
  rw [e] at r0
  refine Reads.bind r0 ?_
  refine Reads.bind (reads_coder_id id) ?_
  refine Reads.bind (v := streams) ?_ ?_
  · cases streams with
    | none => exact reads_pure _
    | some p =>
      obtain ⟨i, o⟩ := p
      obtain ⟨hi, ho⟩ := h2 i o rfl
      exact Reads.bind (reads_num i hi) (Reads.map (reads_num o ho))
  · refine (Reads.map (f := fun p => (⟨id, streams, p, unused, decide (more.toNat ≠ 0)⟩ : Coder)) (v := properties) ?_).of_eq (by cases more <;> rfl) rfl
    cases properties with
    | none => exact reads_pure _
    | some d =>
      obtain ⟨hd, hl⟩ := h3 d rfl
      exact Reads.bind (reads_num _ hl) (Reads.map (reads_raw d hd))

/-- Alternatives of a coder: all but the last say that more follow. -/
def CodersGood : List Coder → Prop
  | [] => False
  | [c] => CoderGood c ∧ c.more = false
  | c :: cs => CoderGood c ∧ c.more = true ∧ CodersGood cs

theorem coder_ne (c : Coder) : coderBytes c ≠ [] := by simp [coderBytes]

theorem reads_coder_list : ∀ (cs : List Coder) (fuel : Nat), cs.length < fuel → CodersGood cs → Reads (coderList fuel) cs (cs.flatMap coderBytes)
  | [], _, _, h => h.elim
  | [c], fuel + 1, _, h => by
    refine Reads.not_eof (by simp [coder_ne]) ?_
    rw [if_neg (by decide)]
    refine (Reads.bind (reads_coder c h.1) (w := [c]) (ys := []) ?_).of_eq rfl (by simp)
    rw [if_neg (by rw [h.2]; decide)]
    exact reads_pure _
  | c :: d :: cs, fuel + 1, hf, h => by
    have ih := reads_coder_list (d :: cs) fuel (by simpa using hf) h.2.2
    rw [List.flatMap_cons]
    refine Reads.not_eof (by simp [coder_ne]) ?_
    rw [if_neg (by decide)]
    refine Reads.bind (reads_coder c h.1) ?_
    rw [if_pos h.2.1]
    exact Reads.map ih

/-- Streams into and out of the coders of a folder: those of the first of each list of alternatives. -/
def insOf (cs : List (List Coder)) : Nat := (cs.map fun l => (l.head?.map fun c => (c.streams.map (·.1)).getD 1).getD 0).sum
def outsOf (cs : List (List Coder)) : Nat := (cs.map fun l => (l.head?.map fun c => (c.streams.map (·.2)).getD 1).getD 0).sum

theorem streams_of (cs : List (List Coder)) : streamsOf cs = (insOf cs, outsOf cs) := by
  have key : ∀ (cs : List (List Coder)) (a : Nat × Nat), cs.foldl addStreams a = (a.1 + insOf cs, a.2 + outsOf cs) := by
    intro cs
    induction cs with
    | nil => intro a; rfl
    | cons l cs ih =>
      intro a
      rw [List.foldl_cons, ih]
      cases l with
      | nil => simp [insOf, outsOf, addStreams]
      | cons c l =>
        obtain ⟨id, st, pr, un, mo⟩ := c
        cases st with
        | none => simp [insOf, outsOf, addStreams, Coder.ins, Coder.outs]; omega
        | some p => simp [insOf, outsOf, addStreams, Coder.ins, Coder.outs]; omega
  have := key cs (0, 0)
  simpa [streamsOf] using this

def folderBytes (f : Folder) : Bytes :=
  szEnc f.coders.length ++ (f.coders.flatMap (fun l => l.flatMap coderBytes) ++ (f.binds.flatMap (fun b => szEnc b.1 ++ szEnc b.2) ++ f.packed.flatMap szEnc))

/-- All streams out but one are bound; if more than one stream in is not bound, these are listed. -/
structure FolderGood (f : Folder) : Prop where
  count : f.coders.length < 2 ^ 64
  coders : ∀ l ∈ f.coders, CodersGood l
  binds : f.binds.length = outsOf f.coders - 1
  bind : ∀ b ∈ f.binds, b.1 < 2 ^ 64 ∧ b.2 < 2 ^ 64
  packed : f.packed.length = if outsOf f.coders < insOf f.coders then insOf f.coders + 1 - outsOf f.coders else 0
  pack : ∀ p ∈ f.packed, p < 2 ^ 64

/-- Fuel for all lists of alternatives. -/
def folderFuel (f : Folder) : Nat := (f.coders.map List.length).sum + 1

theorem sum_mem_le (ns : List Nat) (n : Nat) (h : n ∈ ns) : n ≤ ns.sum := by
  induction ns with
  | nil => simp at h
  | cons x xs ih =>
    rw [List.sum_cons]
    rcases List.mem_cons.1 h with rfl | h
    · omega
    · have := ih h; omega

theorem reads_folder (f : Folder) (h : FolderGood f) (fuel : Nat) (hf : folderFuel f ≤ fuel) : Reads (folder fuel) f (folderBytes f) := by
  refine Reads.bind (reads_num _ h.count) ?_
  refine Reads.bind (reads_times (coderList fuel) (fun l => l.flatMap coderBytes) f.coders fun l hl => reads_coder_list l fuel ?_ (h.coders l hl)) ?_
  · have := sum_mem_le (f.coders.map List.length) l.length (List.mem_map.2 ⟨l, hl, rfl⟩)
    unfold folderFuel at hf
    omega
  · simp only [streams_of]
    refine Reads.bind (v := f.binds) ?_ ?_
    · refine reads_times_n bindPair (fun b => szEnc b.1 ++ szEnc b.2) f.binds _ h.binds.symm fun b hb => ?_
      exact Reads.bind (reads_num _ (h.bind b hb).1) (Reads.map (reads_num _ (h.bind b hb).2))
    · have hp := h.packed
      by_cases hc : outsOf f.coders < insOf f.coders
      · rw [if_pos hc] at hp
        rw [if_pos (by omega), ← hp]
        exact Reads.map (f := fun p => (⟨f.coders, f.binds, p⟩ : Folder)) (reads_nums f.packed h.pack)
      · rw [if_neg hc] at hp
        rw [if_neg (by omega), List.eq_nil_of_length_eq_zero hp]
        exact (reads_pure _).of_eq (by rw [← List.eq_nil_of_length_eq_zero hp]) rfl

/-! ## Sizes and digests of the folders -/

def unpackBytes (u : UnpackInfo) : Bytes :=
  [7] ++ ([11] ++ (szEnc u.folders.length ++ ([0] ++ (u.folders.flatMap folderBytes ++ ([12] ++ ((u.folders.zip u.sizes).flatMap (fun p => p.2.flatMap szEnc) ++
    (u.digests.flatMap (digestsBytes u.folders.length) ++ [0])))))))

structure UnpackGood (u : UnpackInfo) : Prop where
  count : u.folders.length < 2 ^ 64
  folders : ∀ f ∈ u.folders, FolderGood f
  sizes : u.sizes.length = u.folders.length
  size : ∀ p ∈ u.folders.zip u.sizes, p.2.length = outsOf p.1.coders ∧ ∀ v ∈ p.2, v < 2 ^ 64
  digests : ∀ ds ∈ u.digests, DigestsGood u.folders.length ds

def unpackFuel (u : UnpackInfo) : Nat := (u.folders.map folderFuel).sum + u.digests.length + 1

theorem reads_unpack_digests (n : Nat) : ∀ (is : List (List (Nat × Nat))) (fuel : Nat), is.length < fuel → (∀ i ∈ is, DigestsGood n i) →
    Reads (unpackDigests n fuel) is (is.flatMap (digestsBytes n) ++ [0])
  | [], fuel + 1, _, _ => by
    refine Reads.loop .little (by simp) 0 rfl ?_
    rw [if_pos (by decide)]
    exact reads_end _
  | ds :: is, fuel + 1, hf, h => by
    have ih := reads_unpack_digests n is fuel (by simpa using hf) fun i hi => h i (by simp [hi])
    rw [List.flatMap_cons, List.append_assoc]
    refine Reads.loop .little (by simp) 10 rfl ?_
    rw [if_neg (by decide), if_pos (by decide)]
    exact Reads.bind (reads_digests n ds (h ds (by simp))) (Reads.map ih)

theorem reads_unpack (u : UnpackInfo) (h : UnpackGood u) (fuel : Nat) (hf : unpackFuel u ≤ fuel) : Reads (unpackInfo fuel) u (unpackBytes u) := by
  unfold unpackFuel at hf
  refine Reads.bind (reads_id 7) (Reads.bind (reads_id 11) ?_)
  rw [if_neg (by decide)]
  refine Reads.bind (reads_num _ h.count) (Reads.bind (reads_id 0) ?_)
  rw [if_neg (by decide)]
  refine Reads.bind (reads_times (folder fuel) folderBytes u.folders fun f hfm => reads_folder f (h.folders f hfm) fuel ?_) ?_
  · have := sum_mem_le (u.folders.map folderFuel) (folderFuel f) (List.mem_map.2 ⟨f, hfm, rfl⟩)
    omega
  refine Reads.bind (reads_id 12) ?_
  rw [if_neg (by decide)]
  refine Reads.bind (v := u.sizes) ?_ (Reads.map (reads_unpack_digests _ u.digests fuel (by omega) h.digests))
  have r := reads_each (fun f : Folder => Rd.times num (streamsOf f.coders).2) (fun p : Folder × List Nat => p.1) (fun p => p.2)
    (fun p => p.2.flatMap szEnc) (u.folders.zip u.sizes) fun p hp => by
      obtain ⟨h1, h2⟩ := h.size p hp
      rw [streams_of]
      show Reads (Rd.times num (outsOf p.1.coders)) p.2 _
      rw [← h1]
      exact reads_nums p.2 h2
  refine Eq.mp ?_ (r.of_eq (w := u.sizes) ?_ rfl)
  · rw [List.map_fst_zip (by rw [h.sizes])]
  · exact List.map_snd_zip (by rw [h.sizes])

/-! ## Streams in the folders -/

/-- What is told of the streams in folders; `counts`: how many there are in each folder. -/
def subItemBytes (known : Bool) (counts : List Nat) : SubItem → Bytes
  | .counts ns => [13] ++ ns.flatMap szEnc
  | .sizes ns => [9] ++ (counts.zip ns).flatMap fun p => p.2.flatMap szEnc
  | .digests ds => digestsBytes (counts.map fun n => if n = 1 ∧ known then 0 else n).sum ds

def SubItemGood (known : Bool) (folders : Nat) (counts : List Nat) : SubItem → Prop
  | .counts ns => ns.length = folders ∧ ∀ n ∈ ns, n < 2 ^ 64
  | .sizes ns => ns.length = counts.length ∧ ∀ p ∈ counts.zip ns, p.2.length = p.1 - 1 ∧ ∀ v ∈ p.2, v < 2 ^ 64
  | .digests ds => DigestsGood (counts.map fun n => if n = 1 ∧ known then 0 else n).sum ds

/-- The counts after an item. -/
def nextCounts (counts : List Nat) : SubItem → List Nat
  | .counts ns => ns
  | _ => counts

def subItemsBytes (known : Bool) : List Nat → List SubItem → Bytes
  | _, [] => [0]
  | counts, i :: is => subItemBytes known counts i ++ subItemsBytes known (nextCounts counts i) is

def SubItemsGood (known : Bool) (folders : Nat) : List Nat → List SubItem → Prop
  | _, [] => True
  | counts, i :: is => SubItemGood known folders counts i ∧ SubItemsGood known folders (nextCounts counts i) is

theorem reads_sub_items (known : Bool) (folders : Nat) : ∀ (is : List SubItem) (counts : List Nat) (fuel : Nat), is.length < fuel →
    SubItemsGood known folders counts is → Reads (subItems known folders fuel counts) is (subItemsBytes known counts is)
  | [], counts, fuel + 1, _, _ => by
    refine Reads.loop .little (by simp) 0 rfl ?_
    rw [if_pos (by decide)]
    exact reads_end _
  | .counts ns :: is, counts, fuel + 1, hf, h => by
    obtain ⟨⟨h1, h2⟩, h3⟩ := h
    have ih := reads_sub_items known folders is ns fuel (by simpa using hf) h3
    rw [show subItemsBytes known counts (.counts ns :: is) = [13] ++ (ns.flatMap szEnc ++ subItemsBytes known ns is) by
      simp [subItemsBytes, subItemBytes, nextCounts]]
    refine Reads.loop .little (by simp) 13 rfl ?_
    rw [if_neg (by decide), if_pos (by decide)]
    have r := reads_nums ns h2
    rw [h1] at r
    exact Reads.bind (reads_id 13) (Reads.bind r (Reads.map ih))
  | .sizes ns :: is, counts, fuel + 1, hf, h => by
    obtain ⟨⟨h1, h2⟩, h3⟩ := h
    have ih := reads_sub_items known folders is counts fuel (by simpa using hf) h3
    rw [show subItemsBytes known counts (.sizes ns :: is) = [9] ++ ((counts.zip ns).flatMap (fun p => p.2.flatMap szEnc) ++ subItemsBytes known counts is) by
      simp [subItemsBytes, subItemBytes, nextCounts]]
    refine Reads.loop .little (by simp) 9 rfl ?_
    rw [if_neg (by decide), if_neg (by decide), if_pos (by decide)]
    refine Reads.bind (reads_id 9) (Reads.bind (v := ns) ?_ (Reads.map ih))
    have r := reads_each (fun n : Nat => Rd.times num (n - 1)) (fun p : Nat × List Nat => p.1) (fun p => p.2)
      (fun p => p.2.flatMap szEnc) (counts.zip ns) fun p hp => by
        obtain ⟨h4, h5⟩ := h2 p hp
        rw [← h4]
        exact reads_nums p.2 h5
    refine Eq.mp ?_ (r.of_eq (w := ns) ?_ rfl)
    · rw [List.map_fst_zip (by rw [h1])]
    · exact List.map_snd_zip (by rw [h1])
  | .digests ds :: is, counts, fuel + 1, hf, h => by
    obtain ⟨h1, h3⟩ := h
    have ih := reads_sub_items known folders is counts fuel (by simpa using hf) h3
    rw [show subItemsBytes known counts (.digests ds :: is) = digestsBytes (subDigests known counts) ds ++ subItemsBytes known counts is by
      simp [subItemsBytes, subItemBytes, nextCounts, subDigests]]
    refine Reads.loop .little (by simp) 10 rfl ?_
    rw [if_neg (by decide), if_neg (by decide), if_neg (by decide), if_pos (by decide)]
    exact Reads.bind (reads_digests _ ds h1) (Reads.map ih)

/-! ## All of the streams -/

/-- One of the three parts; `known`: the folders told before. -/
def streamsItemBytes (known : Option UnpackInfo) : StreamsItem → Bytes
  | .pack p => packBytes p
  | .unpack u => unpackBytes u
  | .sub is => match known with
    | some u => [8] ++ subItemsBytes (u.digests != []) (List.replicate u.folders.length 1) is
    | none => []

/-- The folders are told before the streams in them. -/
def StreamsItemGood (known : Option UnpackInfo) : StreamsItem → Prop
  | .pack p => PackGood p
  | .unpack u => UnpackGood u
  | .sub is => ∃ u, known = some u ∧ SubItemsGood (u.digests != []) u.folders.length (List.replicate u.folders.length 1) is

def nextKnown (known : Option UnpackInfo) : StreamsItem → Option UnpackInfo
  | .unpack u => some (known.getD u)
  | _ => known

def streamsItemsBytes : Option UnpackInfo → List StreamsItem → Bytes
  | _, [] => [0]
  | known, i :: is => streamsItemBytes known i ++ streamsItemsBytes (nextKnown known i) is

def StreamsItemsGood : Option UnpackInfo → List StreamsItem → Prop
  | _, [] => True
  | known, i :: is => StreamsItemGood known i ∧ StreamsItemsGood (nextKnown known i) is

def streamsItemFuel : StreamsItem → Nat
  | .pack p => p.items.length + 1
  | .unpack u => unpackFuel u
  | .sub is => is.length + 1

def streamsFuel (is : List StreamsItem) : Nat := (is.map fun i => streamsItemFuel i + 1).sum + 1

theorem reads_streams_items : ∀ (is : List StreamsItem) (known : Option UnpackInfo) (fuel : Nat), streamsFuel is ≤ fuel → StreamsItemsGood known is →
    Reads (streamsItems fuel known) is (streamsItemsBytes known is)
  | [], known, 0, hf, _ => by simp [streamsFuel] at hf
  | i :: is, known, 0, hf, _ => by simp [streamsFuel] at hf
  | [], known, fuel + 1, _, _ => by
    refine Reads.loop .little (by simp) 0 rfl ?_
    rw [if_pos (by decide)]
    exact reads_end _
  | .pack p :: is, known, fuel + 1, hf, h => by
    simp only [streamsFuel, List.map_cons, List.sum_cons] at hf
    rw [show streamsItemFuel (.pack p) = p.items.length + 1 from rfl] at hf
    have ih := reads_streams_items is known fuel (by unfold streamsFuel; omega) h.2
    rw [show streamsItemsBytes known (.pack p :: is) = packBytes p ++ streamsItemsBytes known is from rfl]
    refine Reads.loop .little (by simp) 6 rfl ?_
    rw [if_neg (by decide), if_pos (by decide)]
    exact Reads.bind (reads_pack p h.1 fuel (by omega)) (Reads.map ih)
  | .unpack u :: is, known, fuel + 1, hf, h => by
    simp only [streamsFuel, List.map_cons, List.sum_cons] at hf
    rw [show streamsItemFuel (.unpack u) = unpackFuel u from rfl] at hf
    have ih := reads_streams_items is (some (known.getD u)) fuel (by unfold streamsFuel; omega) h.2
    rw [show streamsItemsBytes known (.unpack u :: is) = unpackBytes u ++ streamsItemsBytes (some (known.getD u)) is from rfl]
    refine Reads.loop .little (by simp) 7 rfl ?_
    rw [if_neg (by decide), if_neg (by decide), if_pos (by decide)]
    exact Reads.bind (reads_unpack u h.1 fuel (by omega)) (Reads.map ih)
  | .sub i :: is, known, fuel + 1, hf, h => by
    simp only [streamsFuel, List.map_cons, List.sum_cons] at hf
    rw [show streamsItemFuel (.sub i) = i.length + 1 from rfl] at hf
    obtain ⟨⟨u, rfl, h1⟩, h2⟩ := h
    have ih := reads_streams_items is (some u) fuel (by unfold streamsFuel; omega) h2
    rw [show streamsItemsBytes (some u) (.sub i :: is) =
      ([8] ++ subItemsBytes (u.digests != []) (List.replicate u.folders.length 1) i) ++ streamsItemsBytes (some u) is from rfl]
    refine Reads.loop .little (by simp) 8 rfl ?_
    rw [if_neg (by decide), if_neg (by decide), if_neg (by decide), if_pos (by decide)]
    refine Reads.bind (v := i) (Reads.bind (reads_id 8) (reads_sub_items _ _ i _ fuel (by omega) h1)) (Reads.map ih)

/-- The streams of an archive, behind the byte `b`. -/
def streamsBytes (b : UInt8) (is : List StreamsItem) : Bytes := [b] ++ streamsItemsBytes none is

/-- **C125**: what an archive tells of its packed streams, folders, coders and the streams in the folders is read as it was written. -/
theorem C125_streams (b : UInt8) (is : List StreamsItem) (h : StreamsItemsGood none is) (fuel : Nat) (hf : streamsFuel is ≤ fuel) :
    Reads (streams fuel) is (streamsBytes b is) := Reads.bind (reads_id b) (reads_streams_items is none fuel hf h)

/-- Violation: folders described in a data stream of the archive (`is_external`), which the format allows, cannot be read. -/
theorem C125_external (n offset : Nat) (hn : n < 2 ^ 64) (h0 : n ≠ 0) (ho : offset < 2 ^ 64) (fuel : Nat) :
    Fails (unpackInfo fuel) .missingField ([7] ++ ([11] ++ (szEnc n ++ ([1] ++ (szEnc offset ++ ([12] ++ [])))))) := by
  refine Reads.fails (reads_id 7) (Reads.fails (reads_id 11) ?_)
  rw [if_neg (by decide)]
  refine Reads.fails (reads_num n hn) (Reads.fails (reads_byte 1 .little (by simp)) ?_)
  rw [if_pos (by decide)]
  refine Reads.fails (reads_num offset ho) (Reads.fails (reads_id 12) ?_)
  rw [if_neg (by decide), if_pos h0]
  exact fails_fail _

/-- How many digests of streams there are: none for a folder with one stream if the digest of the folder is known. -/
def ownDigests (defined : List Nat) : Nat → List Nat → Nat
  | _, [] => 0
  | i, n :: ns => (if n = 1 ∧ i ∈ defined then 0 else n) + ownDigests defined (i + 1) ns

/-- **C125**: the digests expected are those there are, if digests are known of all folders or of none. -/
theorem C125_digests_partial (defined : List Nat) (counts : List Nat) (known : Bool)
    (h : (known = true ∧ ∀ i, i < counts.length → i ∈ defined) ∨ (known = false ∧ defined = [])) :
    subDigests known counts = ownDigests defined 0 counts := by
  have key : ∀ (counts : List Nat) (j : Nat), (known = true ∧ ∀ i, i < counts.length → j + i ∈ defined) ∨ (known = false ∧ defined = []) →
      subDigests known counts = ownDigests defined j counts := by
    intro counts
    induction counts with
    | nil => intro _ _; rfl
    | cons n ns ih =>
      intro j h
      have e : subDigests known (n :: ns) = (if n = 1 ∧ known then 0 else n) + subDigests known ns := rfl
      rw [e, ownDigests, ih (j + 1) (by
        rcases h with ⟨h1, h2⟩ | h
        · refine .inl ⟨h1, fun i hi => ?_⟩
          rw [Nat.add_assoc, Nat.add_comm 1 i]
          exact h2 (i + 1) (by simpa using hi)
        · exact .inr h)]
      rcases h with ⟨h1, h2⟩ | ⟨h1, h2⟩
      · have := h2 0 (by simp)
        rw [Nat.add_zero] at this
        simp [h1, this]
      · simp [h1, h2]
  exact key counts 0 (by simpa using h)

/-- Violation: with the digest of only the first of two folders known, that of the only stream of the second is not expected. -/
theorem C125_digests_lost : subDigests true [1, 1] = 0 ∧ ownDigests [0] 0 [1, 1] = 1 := by decide

/-! ## Files -/

theorem reads_name (b : Bytes) (m : Nat) (hm : b.length = 2 * m) (hlow : ∀ i, i < m → b[2 * i]? ≠ some 0) : Reads name b (b ++ [0, 0]) := by
  intro data s hs k stop hp _
  have hl := hp.length_le
  rw [List.length_drop, List.length_append] at hl
  obtain ⟨t, ht⟩ := hp
  have e1 : unitAt 2 (data.drop k) m = [0, 0] := by
    rw [unitAt, ← ht, List.append_assoc, ← hm, List.drop_left]
    rfl
  have e2 : ∀ i, i < m → (data.drop k)[2 * i]? ≠ some 0 := by
    intro i hi
    rw [← ht, List.append_assoc, List.getElem?_append_left (by omega)]
    exact hlow i hi
  obtain ⟨r1, r2⟩ := C42_utf16le_text hs .little (by simp) k (by simp at hl; omega) m e1 e2
  have e3 : (data.drop k).take (2 * m) = b := by rw [← ht, List.append_assoc, ← hm, List.take_left]
  rw [e3] at r2
  rw [name]
  rw [r1]
  simp only []
  rw [r2]
  simp only [List.length_append, List.length_cons, List.length_nil, Except.ok.injEq, Prod.mk.injEq, true_and]
  omega

/-- Content of a property behind its identifier and its size. -/
def sized (id : UInt8) (content : Bytes) : Bytes := [id] ++ (szEnc content.length ++ content)

def perFileBytes (n width : Nat) (ts : List (Nat × Nat)) : Bytes :=
  vecAllBytes n (ts.map (·.1)) ++ ([0] ++ ts.flatMap fun t => leBytes width t.2)

theorem reads_per_file (id : UInt8) (n width : Nat) (hw : 0 < width) (ts : List (Nat × Nat)) (h : Indexes n (ts.map (·.1)))
    (hv : ∀ t ∈ ts, t.2 < 256 ^ width) (hl : (perFileBytes n width ts).length < 2 ^ 64) :
    Reads (perFile n width) ts (sized id (perFileBytes n width ts)) := by
  refine Reads.bind (reads_id id) (Reads.bind (reads_num _ hl) (Reads.bind (reads_vector_all n _ h) (Reads.bind (reads_id 0) ?_)))
  rw [if_neg (by decide)]
  have r := reads_each (fun i => do let d ← Rd.int width .little; pure (i, d)) (fun d : Nat × Nat => d.1) (fun d => (d.1, d.2)) (fun d => leBytes width d.2) ts
    (fun d hd => Reads.map (f := fun x => (d.1, x)) (reads_int_le width d.2 hw (hv d hd)))
  exact r.of_eq (by simp) rfl

/-- What is told of `n` files; `empty`: those without stream. -/
def filesItemContent (n : Nat) (empty : List Nat) : FilesItem → UInt8 × Bytes
  | .emptyStreams is => (14, vecBytes n is)
  | .emptyFiles anti is => (if anti then 16 else 15, vecBytes empty.length ((List.range empty.length).filter fun i => empty.getD i 0 ∈ is))
  | .times id ts => (UInt8.ofNat id, perFileBytes n 8 ts)
  | .names ns => (17, [0] ++ ns.flatMap fun b => b ++ [0, 0])
  | .attributes as => (21, perFileBytes n 4 as)
  | .property p => (UInt8.ofNat p.1, p.2)

def filesItemBytes (n : Nat) (empty : List Nat) (i : FilesItem) : Bytes :=
  sized (filesItemContent n empty i).1 (filesItemContent n empty i).2

/-- Which properties can be told: empty files are told after the files without stream; names have no character whose low byte is 0. -/
def FilesItemGood (n : Nat) (empty : Option (List Nat)) : FilesItem → Prop
  | .emptyStreams is => 0 < n ∧ Indexes n is
  | .emptyFiles _ is => ∃ es, empty = some es ∧ es ≠ [] ∧ es.Nodup ∧ is = es.filter (· ∈ is)
  | .times id ts => (id = 18 ∨ id = 19 ∨ id = 20) ∧ Indexes n (ts.map (·.1)) ∧ ∀ t ∈ ts, t.2 < 256 ^ 8
  | .names ns => ns.length = n ∧ ∀ b ∈ ns, ∃ m, b.length = 2 * m ∧ ∀ i, i < m → b[2 * i]? ≠ some 0
  | .attributes as => Indexes n (as.map (·.1)) ∧ ∀ t ∈ as, t.2 < 256 ^ 4
  | .property p => (21 < p.1 ∧ p.1 < 256) ∨ (0 < p.1 ∧ p.1 < 14)

def nextEmpty (empty : Option (List Nat)) : FilesItem → Option (List Nat)
  | .emptyStreams is => some (empty.getD is)
  | _ => empty

def filesItemsBytes (n : Nat) : Option (List Nat) → List FilesItem → Bytes
  | _, [] => [0]
  | empty, i :: is => filesItemBytes n (empty.getD []) i ++ filesItemsBytes n (nextEmpty empty i) is

def FilesItemsGood (n : Nat) : Option (List Nat) → List FilesItem → Prop
  | _, [] => True
  | empty, i :: is => FilesItemGood n empty i ∧ (filesItemContent n (empty.getD []) i).2.length < 2 ^ 64 ∧ FilesItemsGood n (nextEmpty empty i) is

theorem reads_property (id : UInt8) (b : Bytes) (hl : b.length < 2 ^ 64) : Reads property (id.toNat, b) (sized id b) := by
  refine Reads.bind (reads_id id) (Reads.bind (reads_num _ hl) ?_)
  by_cases h : b = []
  · subst h
    exact reads_pure _
  · rw [if_neg (by have := List.length_pos_of_ne_nil h; omega)]
    exact Reads.map (reads_raw b h)

theorem indexes_filter (n : Nat) (p : Nat → Bool) : Indexes n ((List.range n).filter p) := by
  unfold Indexes
  apply List.filter_congr
  intro i hi
  have := List.mem_range.1 hi
  by_cases hp : p i <;> simp [hp, this]

/-- Elements chosen by their places. -/
theorem chosen (es is : List Nat) (h : is = es.filter (· ∈ is)) :
    ((List.range es.length).filter fun i => es.getD i 0 ∈ is).filterMap (fun i => es[i]?) = is := by
  have key : ∀ (es : List Nat) (p : Nat → Bool), ((List.range es.length).filter fun i => p (es.getD i 0)).filterMap (fun i => es[i]?) = es.filter p := by
    intro es p
    induction es with
    | nil => rfl
    | cons e es ih =>
      rw [List.length_cons, List.range_succ_eq_map, List.filter_cons, List.filter_cons, show (e :: es).getD 0 0 = e from rfl]
      have e2 : ((List.map Nat.succ (List.range es.length)).filter fun i => p ((e :: es).getD i 0)).filterMap (fun i => (e :: es)[i]?) = es.filter p := by
        rw [List.filter_map, List.filterMap_map]
        exact ih
      by_cases hp : p e = true
      · rw [if_pos hp, if_pos hp, List.filterMap_cons]
        exact congrArg (e :: ·) e2
      · rw [if_neg hp, if_neg hp]
        exact e2
  have := key es (fun x => decide (x ∈ is))
  rw [this]
  exact h.symm

theorem reads_files_items (n : Nat) : ∀ (is : List FilesItem) (empty : Option (List Nat)) (fuel : Nat), is.length < fuel →
    FilesItemsGood n empty is → Reads (filesItems n fuel empty) is (filesItemsBytes n empty is)
  | [], empty, fuel + 1, _, _ => by
    refine Reads.loop .little (by simp) 0 rfl ?_
    rw [if_pos (by decide)]
    exact reads_end _
  | i :: is, empty, fuel + 1, hf, h => by
    obtain ⟨h1, h2, h3⟩ := h
    have ih := reads_files_items n is _ fuel (by simpa using hf) h3
    show Reads _ _ (filesItemBytes n (empty.getD []) i ++ filesItemsBytes n (nextEmpty empty i) is)
    refine Reads.loop .little (by simp) (filesItemContent n (empty.getD []) i).1 rfl ?_
    cases i with
    | emptyStreams xs =>
      rw [show (filesItemContent n (empty.getD []) (.emptyStreams xs)).1.toNat = 14 from rfl, if_neg (by decide), if_pos (by decide)]
      exact Reads.bind (Reads.bind (reads_id 14) (Reads.bind (reads_num _ h2) (reads_vector_bits n h1.1 xs h1.2))) (Reads.map ih)
    | emptyFiles anti xs =>
      obtain ⟨es, rfl, hne, hnd, hx⟩ := h1
      have hid : (filesItemContent n ((some es).getD []) (.emptyFiles anti xs)).1 = if anti then 16 else 15 := rfl
      rw [hid]
      have e : (if anti then (16 : UInt8) else 15).toNat = if anti then 16 else 15 := by cases anti <;> rfl
      rw [e, if_neg (by cases anti <;> decide), if_neg (by cases anti <;> decide), if_pos (by cases anti <;> decide)]
      have r : Reads (emptyFiles es) xs (sized (if anti then 16 else 15) (vecBytes es.length ((List.range es.length).filter fun i => es.getD i 0 ∈ xs))) := by
        refine Reads.bind (reads_id _) (Reads.bind (reads_num _ h2) ?_)
        have r := reads_vector_bits es.length (List.length_pos_of_ne_nil hne) _ (indexes_filter es.length fun i => es.getD i 0 ∈ xs)
        exact (Reads.map (f := fun is : List Nat => is.filterMap fun i => es[i]?) r).of_eq (chosen es xs hx) rfl
      refine (Reads.bind r (Reads.map ih)).of_eq ?_ rfl
      cases anti <;> rfl
    | times id ts =>
      obtain ⟨hid, hi, hv⟩ := h1
      have e : (filesItemContent n (empty.getD []) (.times id ts)).1.toNat = id := by
        show (UInt8.ofNat id).toNat = id
        rw [UInt8.toNat_ofNat']
        omega
      rw [e, if_neg (by omega), if_neg (by omega), if_neg (by omega), if_pos hid]
      exact Reads.bind (reads_per_file (UInt8.ofNat id) n 8 (by omega) ts hi hv h2) (Reads.map ih)
    | names ns =>
      rw [show (filesItemContent n (empty.getD []) (.names ns)).1.toNat = 17 from rfl, if_neg (by decide), if_neg (by decide), if_neg (by decide), if_neg (by decide), if_pos (by decide)]
      refine Reads.bind (v := ns) ?_ (Reads.map ih)
      refine Reads.bind (reads_id 17) (Reads.bind (reads_num _ h2) (Reads.bind (reads_id 0) ?_))
      rw [if_neg (by decide)]
      refine reads_times_n name (fun b => b ++ [0, 0]) ns n h1.1.symm fun b hb => ?_
      obtain ⟨m, hm, hlow⟩ := h1.2 b hb
      exact reads_name b m hm hlow
    | attributes as =>
      rw [show (filesItemContent n (empty.getD []) (.attributes as)).1.toNat = 21 from rfl, if_neg (by decide), if_neg (by decide), if_neg (by decide), if_neg (by decide), if_neg (by decide), if_pos (by decide)]
      exact Reads.bind (reads_per_file 21 n 4 (by omega) as h1.1 h1.2 h2) (Reads.map ih)
    | property p =>
      have e : (filesItemContent n (empty.getD []) (.property p)).1.toNat = p.1 := by
        show (UInt8.ofNat p.1).toNat = p.1
        rw [UInt8.toNat_ofNat']
        have h1 : (21 < p.1 ∧ p.1 < 256) ∨ (0 < p.1 ∧ p.1 < 14) := h1
        omega
      have h1 : (21 < p.1 ∧ p.1 < 256) ∨ (0 < p.1 ∧ p.1 < 14) := h1
      rw [e, if_neg (by omega), if_neg (by omega), if_neg (by omega), if_neg (by omega), if_neg (by omega), if_neg (by omega)]
      have r := reads_property (UInt8.ofNat p.1) p.2 h2
      rw [show (UInt8.ofNat p.1).toNat = p.1 from e] at r
      exact Reads.bind r (Reads.map ih)

def filesBytes (f : Nat × List FilesItem) : Bytes := [5] ++ (szEnc f.1 ++ filesItemsBytes f.1 none f.2)

/-- **C126**: names, times, attributes and what is empty of all files are read as they were written. -/
theorem C126_files (f : Nat × List FilesItem) (hn : f.1 < 2 ^ 64) (h : FilesItemsGood f.1 none f.2) (fuel : Nat) (hf : f.2.length < fuel) :
    Reads (files fuel) f (filesBytes f) :=
  Reads.bind (reads_id 5) (Reads.bind (reads_num _ hn) (Reads.map (reads_files_items f.1 f.2 none fuel hf h)))

/-- Violation: a name with a character whose low byte is 0 can be cut: "aĀ" is read as "a", and its terminator is taken for the next name. -/
theorem C126_name_cut : ∀ s, stringInputStream [97, 0, 0, 1, 0, 0] = .ok s → name s 48 0 = .ok ([97, 0], 32) := by
  intro s hs
  rw [name, (C42_wide_early s hs).1]
  cases hs
  decide +kernel

/-! ## Archives -/

def propertiesBytes (ps : List (Nat × Bytes)) : Bytes := (ps.flatMap fun p => sized (UInt8.ofNat p.1) p.2) ++ [0]

theorem reads_properties : ∀ (ps : List (Nat × Bytes)) (fuel : Nat), ps.length < fuel → (∀ p ∈ ps, 0 < p.1 ∧ p.1 < 256 ∧ p.2.length < 2 ^ 64) →
    Reads (properties fuel) ps (propertiesBytes ps)
  | [], fuel + 1, _, _ => by
    refine Reads.loop .little (by simp) 0 rfl ?_
    rw [if_pos (by decide)]
    exact reads_end _
  | p :: ps, fuel + 1, hf, h => by
    obtain ⟨h1, h2, h3⟩ := h p (by simp)
    have ih := reads_properties ps fuel (by simpa using hf) fun x hx => h x (by simp [hx])
    rw [show propertiesBytes (p :: ps) = sized (UInt8.ofNat p.1) p.2 ++ propertiesBytes ps by simp [propertiesBytes]]
    have e : (UInt8.ofNat p.1).toNat = p.1 := by rw [UInt8.toNat_ofNat']; omega
    refine Reads.loop .little (by simp) (UInt8.ofNat p.1) rfl ?_
    rw [e, if_neg (by omega)]
    have r := reads_property (UInt8.ofNat p.1) p.2 h3
    rw [e] at r
    exact Reads.bind r (Reads.map ih)

def headerItemBytes : HeaderItem → Bytes
  | .properties ps => [2] ++ propertiesBytes ps
  | .additional ss => streamsBytes 3 ss
  | .main ss => streamsBytes 4 ss
  | .files f => filesBytes f

def HeaderItemGood : HeaderItem → Prop
  | .properties ps => ∀ p ∈ ps, 0 < p.1 ∧ p.1 < 256 ∧ p.2.length < 2 ^ 64
  | .additional ss => StreamsItemsGood none ss
  | .main ss => StreamsItemsGood none ss
  | .files f => f.1 < 2 ^ 64 ∧ FilesItemsGood f.1 none f.2

def headerItemFuel : HeaderItem → Nat
  | .properties ps => ps.length + 1
  | .additional ss => streamsFuel ss
  | .main ss => streamsFuel ss
  | .files f => f.2.length + 1

def headerFuel (is : List HeaderItem) : Nat := (is.map fun i => headerItemFuel i + 1).sum + 1

def headerItemsBytes (is : List HeaderItem) : Bytes := is.flatMap headerItemBytes ++ [0]

theorem reads_header_items : ∀ (is : List HeaderItem) (fuel : Nat), headerFuel is ≤ fuel → (∀ i ∈ is, HeaderItemGood i) →
    Reads (headerItems fuel) is (headerItemsBytes is)
  | [], 0, hf, _ => by simp [headerFuel] at hf
  | i :: is, 0, hf, _ => by simp [headerFuel] at hf
  | [], fuel + 1, _, _ => by
    refine Reads.loop .little (by simp) 0 rfl ?_
    rw [if_pos (by decide)]
    exact reads_end _
  | i :: is, fuel + 1, hf, h => by
    simp only [headerFuel, List.map_cons, List.sum_cons] at hf
    have ih := reads_header_items is fuel (by unfold headerFuel; omega) fun x hx => h x (by simp [hx])
    have hi := h i (by simp)
    rw [show headerItemsBytes (i :: is) = headerItemBytes i ++ headerItemsBytes is by simp [headerItemsBytes]]
    cases i with
    | properties ps =>
      rw [show headerItemFuel (.properties ps) = ps.length + 1 from rfl] at hf
      refine Reads.loop .little (by simp) 2 rfl ?_
      rw [if_neg (by decide), if_pos (by decide)]
      exact Reads.bind (Reads.bind (reads_id 2) (reads_properties ps fuel (by omega) hi)) (Reads.map ih)
    | additional ss =>
      rw [show headerItemFuel (.additional ss) = streamsFuel ss from rfl] at hf
      refine Reads.loop .little (by simp) 3 rfl ?_
      rw [if_neg (by decide), if_neg (by decide), if_pos (by decide)]
      exact Reads.bind (C125_streams 3 ss hi fuel (by omega)) (Reads.map ih)
    | main ss =>
      rw [show headerItemFuel (.main ss) = streamsFuel ss from rfl] at hf
      refine Reads.loop .little (by simp) 4 rfl ?_
      rw [if_neg (by decide), if_neg (by decide), if_neg (by decide), if_pos (by decide)]
      exact Reads.bind (C125_streams 4 ss hi fuel (by omega)) (Reads.map ih)
    | files f =>
      rw [show headerItemFuel (.files f) = f.2.length + 1 from rfl] at hf
      refine Reads.loop .little (by simp) 5 rfl ?_
      rw [if_neg (by decide), if_neg (by decide), if_neg (by decide), if_neg (by decide), if_pos (by decide)]
      exact Reads.bind (C126_files f hi.1 hi.2 fuel (by omega)) (Reads.map ih)

def nextBytes : NextHeader → Bytes
  | .header is => [1] ++ headerItemsBytes is
  | .encoded ss => streamsBytes 23 ss

def NextGood : NextHeader → Prop
  | .header is => ∀ i ∈ is, HeaderItemGood i
  | .encoded ss => StreamsItemsGood none ss

def nextFuel : NextHeader → Nat
  | .header is => headerFuel is
  | .encoded ss => streamsFuel ss

theorem reads_next (h : NextHeader) (hg : NextGood h) (fuel : Nat) (hf : nextFuel h ≤ fuel) : Reads (nextHeader fuel) h (nextBytes h) := by
  cases h with
  | header is =>
    refine Reads.peek .little (by simp) 1 ?_
    rw [if_pos (by decide)]
    exact Reads.bind (reads_id 1) (Reads.map (reads_header_items is fuel hf hg))
  | encoded ss =>
    refine Reads.peek .little (by simp) 23 ?_
    rw [if_neg (by decide), if_pos (by decide)]
    exact Reads.map (C125_streams 23 ss hg fuel hf)

/-- The first 32 bytes of an archive. -/
def szSignature (g : Signature) : Bytes :=
  g.magic ++ (leBytes 1 g.major ++ (leBytes 1 g.minor ++ (leBytes 4 g.startCrc ++ (leBytes 8 g.nextOffset ++ (leBytes 8 g.nextSize ++ leBytes 4 g.nextCrc)))))

/-- An archive: signature, packed streams, header. -/
def szArchive (g : Signature) (packed : Bytes) (h : NextHeader) : Bytes := szSignature g ++ (packed ++ nextBytes h)

structure SzGood (g : Signature) (packed : Bytes) (h : NextHeader) : Prop where
  magic : g.magic.length = 6
  major : g.major < 256
  minor : g.minor < 256
  startCrc : g.startCrc < 2 ^ 32
  nextCrc : g.nextCrc < 2 ^ 32
  offset : g.nextOffset = packed.length
  size : g.nextSize = (nextBytes h).length
  small : packed.length < 2 ^ 64 ∧ (nextBytes h).length < 2 ^ 64
  next : NextGood h

theorem sz_signature_length (g : Signature) (hm : g.magic.length = 6) : (szSignature g).length = 32 := by
  simp [szSignature, leBytes_length, hm]

theorem reads_signature (g : Signature) (packed : Bytes) (h : NextHeader) (hg : SzGood g packed h) : Reads signature g (szSignature g) := by
  obtain ⟨h1, h2, h3, h4, h5, h6, h7, ⟨h8, h9⟩, _⟩ := hg
  refine Reads.bind (reads_raw_n 6 g.magic h1 (by omega)) ?_
  refine Reads.bind (reads_int_le 1 g.major (by omega) (by simpa using h2)) ?_
  refine Reads.bind (reads_int_le 1 g.minor (by omega) (by simpa using h3)) ?_
  refine Reads.bind (reads_int_le 4 g.startCrc (by omega) (by simpa using h4)) ?_
  refine Reads.bind (reads_int_le 8 g.nextOffset (by omega) (by omega)) ?_
  refine Reads.bind (reads_int_le 8 g.nextSize (by omega) (by omega)) ?_
  exact Reads.map (f := fun crc => (⟨g.magic, g.major, g.minor, g.startCrc, g.nextOffset, g.nextSize, crc⟩ : Signature))
    (reads_int_le 4 g.nextCrc (by omega) (by simpa using h5))

/-- **C127**: the signature and the header behind the packed streams are read as they were written, whatever the packed streams are. -/
theorem C127_archive (g : Signature) (packed : Bytes) (h : NextHeader) (hg : SzGood g packed h) (hp : packed ≠ []) (s : InputStream)
    (hs : stringInputStream (szArchive g packed h) = .ok s) (fuel : Nat) (hf : nextFuel h ≤ fuel) :
    archive fuel s (8 * (szArchive g packed h).length) = .ok (g, h) := by
  have hl := sz_signature_length g hg.magic
  have r := reads_signature g packed h hg (szArchive g packed h) s hs 0 (8 * (szArchive g packed h).length)
    (by rw [List.drop_zero]; exact List.prefix_append _ _) (by simp [szArchive])
  have hpl := List.length_pos_of_ne_nil hp
  have hnl : 0 < (nextBytes h).length := by cases h <;> simp [nextBytes, streamsBytes]
  have ho := hg.offset
  have hz := hg.size
  have r2 := (reads_next h hg.next fuel hf).all.within g.nextSize hg.size (szArchive g packed h) s hs (32 + packed.length)
    (8 * (szArchive g packed h).length) (by
      rw [szArchive, ← List.append_assoc, show 32 + packed.length = (szSignature g ++ packed).length by rw [List.length_append, hl], List.drop_left])
    (by simp [szArchive]; omega)
  rw [archive]
  rw [Nat.mul_zero] at r
  rw [r]
  simp only []
  rw [if_neg (by omega), hl, ho, show 8 * (0 + 32) + 8 * packed.length = 8 * (32 + packed.length) by omega, r2]

/-- **C127**: the content size is the size of the archive, whatever is behind. -/
theorem C127_size (g : Signature) (packed : Bytes) (h : NextHeader) (hg : SzGood g packed h) : contentSize g = 8 * (szArchive g packed h).length := by
  have hl := sz_signature_length g hg.magic
  have ho := hg.offset
  have hz := hg.size
  rw [contentSize, szArchive, List.length_append, List.length_append, hl, ho, hz]
  omega

/-- **C127**: the parts of the body are one behind the other and are the whole body: with a packed header, first the packed files, then the
packed header where `pack_pos` says, then what is left. -/
theorem C127_body (g : Signature) (packed : Bytes) (h : NextHeader) (hg : SzGood g packed h) (hp : packed ≠ [])
    (hn : ∀ ss, h = .encoded ss → ∃ p, packOf ss = some p ∧ 0 < (packSizes p).sum ∧ p.pos + (packSizes p).sum ≤ packed.length) :
    ∃ parts, body g h = .ok parts ∧ (parts.map fun x => x.2.2).sum = packed.length ∧
      (∀ i, (hi : i < parts.length) → (parts[i]).2.1 = 256 + 8 * ((parts.take i).map fun x => x.2.2).sum ∧ 0 < (parts[i]).2.2) ∧
      ∀ ss p, h = .encoded ss → packOf ss = some p → ("compressed_file_info", 256 + 8 * p.pos, (packSizes p).sum) ∈ parts := by
  have ho := hg.offset
  have hpl := List.length_pos_of_ne_nil hp
  cases h with
  | header is =>
    refine ⟨[("compressed_data", 256, g.nextOffset)], rfl, by simp [ho], ?_, by simp⟩
    intro i hi
    have : i = 0 := by simpa using hi
    subst this
    exact ⟨rfl, by simpa [ho] using hpl⟩
  | encoded ss =>
    obtain ⟨p, h1, h2, h3⟩ := hn ss rfl
    have e : body g (.encoded ss) = .ok ((if p.pos = 0 then [] else [("compressed_data", 256, p.pos)]) ++
        [("compressed_file_info", 256 + 8 * p.pos, (packSizes p).sum)] ++
        (if (packSizes p).sum + p.pos < g.nextOffset then [("unknown_data", 256 + 8 * p.pos + 8 * (packSizes p).sum, g.nextOffset - (packSizes p).sum - p.pos)] else [])) := by
      rw [body]
      simp only [h1]
      rw [if_neg (by omega)]
    have hin : ∀ parts : List (String × Nat × Nat), ("compressed_file_info", 256 + 8 * p.pos, (packSizes p).sum) ∈ parts →
        ∀ ss' p', NextHeader.encoded ss = .encoded ss' → packOf ss' = some p' → ("compressed_file_info", 256 + 8 * p'.pos, (packSizes p').sum) ∈ parts := by
      intro parts hm ss' p' h4 h5
      cases h4
      rw [h1] at h5
      cases h5
      exact hm
    generalize (packSizes p).sum = n at e hin h2 h3
    generalize p.pos = o at e hin h3
    rw [ho] at e
    by_cases h4 : o = 0
    · rw [if_pos h4] at e
      by_cases h5 : n + o < packed.length
      · rw [if_pos h5] at e
        refine ⟨_, e, by simp; omega, ?_, hin _ (by simp)⟩
        intro i hi
        match i with
        | 0 => exact ⟨by simp [h4], h2⟩
        | 1 => refine ⟨by simp [h4], by simp; omega⟩
        | i + 2 => simp at hi
      · rw [if_neg h5] at e
        refine ⟨_, e, by simp; omega, ?_, hin _ (by simp)⟩
        intro i hi
        match i with
        | 0 => exact ⟨by simp [h4], h2⟩
        | i + 1 => simp at hi
    · rw [if_neg h4] at e
      by_cases h5 : n + o < packed.length
      · rw [if_pos h5] at e
        refine ⟨_, e, by simp; omega, ?_, hin _ (by simp)⟩
        intro i hi
        match i with
        | 0 => exact ⟨by simp, by simp; omega⟩
        | 1 => exact ⟨by simp, h2⟩
        | 2 => refine ⟨by simp; omega, by simp; omega⟩
        | i + 3 => simp at hi
      · rw [if_neg h5] at e
        refine ⟨_, e, by simp; omega, ?_, hin _ (by simp)⟩
        intro i hi
        match i with
        | 0 => exact ⟨by simp, by simp; omega⟩
        | 1 => exact ⟨by simp, h2⟩
        | i + 2 => simp at hi

/-- Violation: of an archive that holds only empty files, which has nothing packed, the header is never read. -/
theorem C127_nothing_packed (g : Signature) (h : NextHeader) (hg : SzGood g [] h) (s : InputStream)
    (hs : stringInputStream (szArchive g [] h) = .ok s) (fuel : Nat) :
    archive fuel s (8 * (szArchive g [] h).length) = .error .stopIteration := by
  have hl := sz_signature_length g hg.magic
  have r := reads_signature g [] h hg (szArchive g [] h) s hs 0 (8 * (szArchive g [] h).length)
    (by rw [List.drop_zero]; exact List.prefix_append _ _) (by simp [szArchive])
  rw [Nat.mul_zero] at r
  rw [archive, r]
  simp only []
  rw [if_pos (.inl hg.offset)]

/-! ## Examples -/

def sampleLzma : Folder := ⟨[[⟨[3, 1, 1], none, some [93, 0, 0, 1, 0], 0, false⟩]], [], []⟩

def sampleStreams : List StreamsItem :=
  [.pack ⟨0, 1, [.sizes [300]]⟩, .unpack ⟨[sampleLzma], [[70000]], [[(0, 7)]]⟩, .sub [.counts [2], .sizes [[5000]], .digests [(0, 1), (1, 2)]]]

theorem sample_folder : FolderGood sampleLzma := by
  refine ⟨by decide, ?_, rfl, by simp [sampleLzma], by decide, by simp [sampleLzma]⟩
  intro l hl
  simp only [sampleLzma, List.mem_singleton] at hl
  subst hl
  refine ⟨⟨by decide, by simp, ?_, by decide⟩, ?_⟩
  · intro d hd
    cases hd
    exact ⟨by simp, by decide⟩
  · rfl

example : StreamsItemsGood none sampleStreams := by
  refine ⟨⟨by decide, by decide, ?_⟩, ⟨by decide, ?_, rfl, ?_, ?_⟩, ⟨_, rfl, ⟨rfl, by decide⟩, ⟨rfl, ?_⟩, ⟨rfl, by decide⟩, trivial⟩, trivial⟩
  · intro i hi
    simp only [List.mem_singleton] at hi
    subst hi
    exact ⟨rfl, by decide⟩
  · intro f hf
    simp only [List.mem_singleton] at hf
    subst hf
    exact sample_folder
  · intro p hp
    simp only [List.zip_cons_cons, List.zip_nil_right, List.mem_singleton] at hp
    subst hp
    exact ⟨rfl, by decide⟩
  · intro ds hd
    simp only [List.mem_singleton] at hd
    subst hd
    exact ⟨rfl, by decide⟩
  · intro p hp
    simp only [nextCounts, List.zip_cons_cons, List.zip_nil_right, List.mem_singleton] at hp
    subst hp
    exact ⟨rfl, by decide⟩

def sampleFiles : Nat × List FilesItem :=
  (2, [.emptyStreams [1], .emptyFiles false [1], .times 20 [(0, 1000), (1, 2000)], .names [[97, 0], [98, 0, 99, 0]], .attributes [(0, 32)], .property (25, [0, 0])])

example : FilesItemsGood sampleFiles.1 none sampleFiles.2 := by
  refine ⟨⟨by decide, rfl⟩, by decide, ⟨[1], rfl, by decide, by decide, rfl⟩, by decide, ⟨.inr (.inr rfl), rfl, by decide⟩, by decide, ⟨rfl, ?_⟩, by decide,
    ⟨rfl, by decide⟩, by decide, .inl (by decide), by decide, trivial⟩
  intro b hb
  simp only [List.mem_cons, List.not_mem_nil, or_false] at hb
  rcases hb with rfl | rfl
  · refine ⟨1, rfl, fun i hi => ?_⟩
    have : i = 0 := by omega
    subst this
    decide
  · refine ⟨2, rfl, fun i hi => ?_⟩
    have : i = 0 ∨ i = 1 := by omega
    rcases this with rfl | rfl <;> decide

def sampleArchive : NextHeader := .header [.properties [], .files (1, [.names [[97, 0]]])]

example : SzGood ⟨[55, 122, 188, 175, 39, 28], 0, 4, 1, 3, (nextBytes sampleArchive).length, 2⟩ [1, 2, 3] sampleArchive := by
  refine ⟨rfl, by decide, by decide, by decide, by decide, rfl, rfl, ⟨by decide, by decide⟩, ?_⟩
  intro i hi
  simp only [List.mem_cons, List.not_mem_nil, or_false] at hi
  rcases hi with rfl | rfl
  · intro p hp
    simp at hp
  · refine ⟨by decide, ⟨rfl, ?_⟩, by decide, trivial⟩
    intro b hb
    simp only [List.mem_singleton] at hb
    subst hb
    refine ⟨1, rfl, fun i hi => ?_⟩
    have : i = 0 := by omega
    subst this
    decide

end Hachoir.Props
