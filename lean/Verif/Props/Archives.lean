import Verif.Formats.Archives
import Verif.Props.Reader
import Verif.Props.Riff

/-!
# Simple archives: files are read where they are

Microsoft archives, Mozilla archives and the archives of Starfighter.
-/

namespace Hachoir.Props
open Hachoir Hachoir.Stream Hachoir.Field Hachoir.Formats Hachoir.Formats.Archives Spec

/-! ## Names -/

/-- A name in a field of `n` bytes. -/
def paddedName (n : Nat) (name : Bytes) : Bytes := name ++ List.replicate (n - name.length) 0

theorem padded_name_length (n : Nat) (name : Bytes) (h : name.length ≤ n) : (paddedName n name).length = n := by
  rw [paddedName, List.length_append, List.length_replicate]; omega

theorem cut_padded (n : Nat) (name : Bytes) (h : 0 ∉ name) : cutName (paddedName n name) = name := by
  unfold cutName paddedName textValue
  simp only
  cases hn : n - name.length with
  | zero => rw [List.replicate_zero, List.append_nil, truncate_none name h]; rfl
  | succ m => rw [List.replicate_succ, truncate_at name _ h]; rfl

/-! ## Microsoft archives -/

/-- The index entry of a file: name, size, checksum and place. -/
def marEntry (f : MarFile) : Bytes := paddedName 56 f.name ++ (leBytes 4 f.size ++ (leBytes 4 f.crc ++ leBytes 4 f.offset))

def marStart (files : List MarFile) : Bytes := [77, 65, 82, 67] ++ (leBytes 4 3 ++ (leBytes 4 files.length ++ files.flatMap marEntry))

def MarGood (f : MarFile) : Prop := f.name.length ≤ 56 ∧ 0 ∉ f.name ∧ f.size < 2 ^ 32 ∧ f.crc < 2 ^ 32 ∧ f.offset < 2 ^ 32

theorem reads_mar_index (f : MarFile) (h : MarGood f) : Reads marIndex f (marEntry f) := by
  obtain ⟨h1, h2, h3, h4, h5⟩ := h
  refine Reads.bind (reads_fixed .little .eightBit (by decide) 56 _ (padded_name_length 56 _ h1) (by omega)) ?_
  refine Reads.bind (reads_int_le 4 f.size (by omega) (by norm_num; omega)) ?_
  refine Reads.bind (reads_int_le 4 f.crc (by omega) (by norm_num; omega)) ?_
  have r := Reads.map (f := fun o => MarFile.mk (cutName (paddedName 56 f.name)) f.size f.crc o) (reads_int_le 4 f.offset (by omega) (by norm_num; omega))
  rw [cut_padded 56 _ h2] at r ⊢
  exact r

theorem reads_mar_head (files : List MarFile) (hn : files.length < 2 ^ 32) (h : ∀ f ∈ files, MarGood f) :
    Reads marHead ⟨[77, 65, 82, 67], 3, files⟩ (marStart files) := by
  refine Reads.bind (reads_fixed .little .eightBit (by decide) 4 _ rfl (by omega)) ?_
  refine Reads.bind (reads_int_le 4 3 (by omega) (by norm_num)) ?_
  refine Reads.bind (reads_int_le 4 files.length (by omega) (by norm_num; omega)) ?_
  exact Reads.map (f := fun fs => MarHead.mk [77, 65, 82, 67] 3 fs) (reads_times marIndex marEntry files fun f hf => reads_mar_index f (h f hf))

/-- **C131**: the data of all files that are not empty are found, whatever the order of the files and of their data, and whatever is between them. -/
theorem C131_microsoft (data : Bytes) (s : InputStream) (hs : stringInputStream data = .ok s) (files : List MarFile) (hn : 1 ≤ files.length ∧ files.length ≤ 100000)
    (hg : ∀ f ∈ files, MarGood f) (hstart : marStart files <+: data)
    (hin : ∀ f ∈ files, f.size ≠ 0 → (marStart files).length ≤ f.offset ∧ f.offset + f.size ≤ data.length)
    (hd : files.Pairwise fun f g => f.size = 0 ∨ g.size = 0 ∨ f.offset + f.size ≤ g.offset ∨ g.offset + g.size ≤ f.offset) :
    ∃ found stop, mar s (8 * data.length) 0 = .ok ((⟨[77, 65, 82, 67], 3, files⟩, found), stop) ∧
      found.Perm ((files.filter (fun f => f.size != 0)).map fun f => (f, (data.drop f.offset).take f.size)) ∧
      found.Pairwise (fun x y => x.1.offset ≤ y.1.offset) ∧ marValid ⟨[77, 65, 82, 67], 3, files⟩ = true := by
  set used := files.filter (fun f => f.size != 0) with hused
  set l := used.mergeSort (fun f g => f.offset ≤ g.offset) with hl
  have hperm : l.Perm used := List.mergeSort_perm _ _
  have hsort : l.Pairwise fun f g => f.offset ≤ g.offset := by
    have := List.pairwise_mergeSort (le := fun f g : MarFile => decide (f.offset ≤ g.offset)) (by intro a b c h1 h2; simp at *; omega)
      (by intro a b; simp; omega) used
    simpa using this
  have hdis : l.Pairwise fun f g => f.offset + f.size ≤ g.offset ∨ g.offset + g.size ≤ f.offset := by
    refine (List.Perm.pairwise_iff (R := fun f g : MarFile => f.offset + f.size ≤ g.offset ∨ g.offset + g.size ≤ f.offset) (fun {a b} h => h.symm) hperm).2 ?_
    rw [hused, List.pairwise_filter]
    refine hd.imp fun {a b} h ha hb => ?_
    simp at ha hb
    rcases h with h | h | h
    · exact absurd h ha
    · exact absurd h hb
    · exact h
  have hmem : ∀ f ∈ l, f ∈ files ∧ f.size ≠ 0 := fun f hf => by
    have := hperm.mem_iff.1 hf
    rw [hused] at this
    simpa using this
  have hh : AtPlace data marHead ⟨[77, 65, 82, 67], 3, files⟩ 0 (marStart files).length := by
    have := (reads_mar_head files (by omega) hg).at (data := data) (a := 0) (by simpa using hstart) (by omega)
    simpa using this
  obtain ⟨b, hb⟩ := at_sorted data (fun f : MarFile => do let b ← Rd.raw f.size; pure (f, b)) (·.offset) (·.size)
    (fun f => (f, (data.drop f.offset).take f.size)) l (marStart files).length hsort hdis fun f hf => by
      obtain ⟨h1, h2⟩ := hmem f hf
      obtain ⟨h3, h4⟩ := hin f h1 h2
      refine ⟨h3, by omega, ?_⟩
      have hlen : ((data.drop f.offset).take f.size).length = f.size := by
        rw [List.length_take, List.length_drop]; omega
      have := (reads_raw_n f.size ((data.drop f.offset).take f.size) hlen (by omega)).at (data := data) (a := f.offset) (List.take_prefix _ _) (by omega)
      rw [hlen] at this
      exact AtPlace.map (f := fun b => (f, b)) this
  refine ⟨_, _, AtPlace.bind hh (AtPlace.map (f := fun d => (MarHead.mk [77, 65, 82, 67] 3 files, d)) hb) s hs, hperm.map _, ?_, ?_⟩
  · rw [List.pairwise_map]
    exact hsort
  · simp only [marValid]
    simp [hn.1, hn.2]

/-- Two files and an empty one, the second file first. -/
example : ∃ data : Bytes, marStart [⟨[97], 1, 0, 218⟩, ⟨[98], 0, 0, 0⟩, ⟨[99], 2, 0, 216⟩] <+: data ∧ data.length = 219 :=
  ⟨marStart [⟨[97], 1, 0, 218⟩, ⟨[98], 0, 0, 0⟩, ⟨[99], 2, 0, 216⟩] ++ [1, 2, 3], List.prefix_append _ _, by decide +kernel⟩

/-! ## Mozilla archives -/

/-- A file of an archive: place, mode, name and content. -/
def mozEntry (f : MozFile) : Bytes := beBytes 4 f.offset ++ (beBytes 4 f.length ++ (beBytes 4 f.flags ++ (f.name ++ [0])))

def MozGood (data : Bytes) (f : MozFile) : Prop :=
  f.offset < 2 ^ 32 ∧ f.length < 2 ^ 32 ∧ f.flags < 2 ^ 32 ∧ (∀ x ∈ f.name, x ≠ 0) ∧ f.data.length = f.length ∧ f.data <+: data.drop f.offset ∧ f.offset ≤ data.length

theorem at_place {α : Type} (data : Bytes) (f : Nat → Rd α) (v : α) (a b : Nat) (h : AtPlace data (f (8 * a)) v a b) : AtPlace data (Rd.place >>= f) v a b :=
  fun s hs => h s hs

theorem at_moz_entry {β : Type} (data : Bytes) (a b : Nat) (f : MozFile) (hg : MozGood data f) (hp : mozEntry f <+: data.drop a) (ha : a ≤ data.length)
    (k : Nat → Nat → Nat → Bytes → Rd β) (w : β) (hk : AtPlace data (k f.offset f.length f.flags f.name) w (a + (mozEntry f).length) b) :
    AtPlace data (do
      let offset ← Rd.int 4 .big
      let length ← Rd.int 4 .big
      let flags ← Rd.int 4 .big
      let name ← Rd.text .big .c .eightBit none
      k offset length flags name) w a b := by
  obtain ⟨h1, h2, h3, h4, -⟩ := hg
  have hl := hp.length_le
  rw [List.length_drop] at hl
  have l4 : ∀ v, (beBytes 4 v).length = 4 := beBytes_length 4
  have hlen : (mozEntry f).length = 4 + (4 + (4 + (f.name ++ [0]).length)) := by
    rw [mozEntry]
    simp only [List.length_append, l4]
  have p1 := drop_prefix (xs := beBytes 4 f.offset) (ys := beBytes 4 f.length ++ (beBytes 4 f.flags ++ (f.name ++ [0]))) hp
  have p2 := drop_prefix (xs := beBytes 4 f.length) (ys := beBytes 4 f.flags ++ (f.name ++ [0])) p1
  have p3 := drop_prefix (xs := beBytes 4 f.flags) (ys := f.name ++ [0]) p2
  refine AtPlace.bind ((reads_int_be 4 f.offset (by omega) (by norm_num; omega)).at (prefix_left (xs := beBytes 4 f.offset) hp) ha) ?_
  refine AtPlace.bind ((reads_int_be 4 f.length (by omega) (by norm_num; omega)).at (prefix_left (xs := beBytes 4 f.length) p1) (by rw [l4]; omega)) ?_
  refine AtPlace.bind ((reads_int_be 4 f.flags (by omega) (by norm_num; omega)).at (prefix_left (xs := beBytes 4 f.flags) p2) (by rw [l4, l4]; omega)) ?_
  refine AtPlace.bind ((reads_cstring .big (by decide) .eightBit (.inl rfl) f.name h4).at p3 (by rw [l4, l4, l4]; omega)) ?_
  rw [l4, l4, l4]
  have : a + 4 + 4 + 4 + (f.name ++ [0]).length = a + (mozEntry f).length := by omega
  rw [this]
  exact hk

theorem at_moz_file (data : Bytes) (index current a : Nat) (f : MozFile) (hg : MozGood data f) (h0 : f.length ≠ 0)
    (hp : mozEntry f <+: data.drop (index + current + 4)) (hi : index + current + 4 ≤ data.length) :
    AtPlace data (mozFile index current) (f, current + (mozEntry f).length) a (f.offset + f.length) := by
  refine AtPlace.bind (at_jump data a (index + current + 4)) ?_
  refine at_moz_entry data _ _ f hg hp hi _ _ ?_
  obtain ⟨-, -, -, -, h5, h6, h7⟩ := hg
  refine at_place data _ _ _ _ ?_
  refine AtPlace.bind (at_jump data _ f.offset) ?_
  have r := (reads_raw_n f.length f.data h5 (by omega)).at h6 h7
  rw [h5] at r
  have e : 8 * (index + current + 4 + (mozEntry f).length) / 8 - (index + current + 4) = (mozEntry f).length := by omega
  have := AtPlace.map (f := fun d => (MozFile.mk f.offset f.length f.flags f.name d,
    current + (8 * (index + current + 4 + (mozEntry f).length) / 8 - (index + current + 4)))) r
  rw [e] at this
  rw [e]
  exact this

theorem moz_entry_pos (f : MozFile) : 0 < (mozEntry f).length := by
  simp only [mozEntry, List.length_append, beBytes_length]; omega

theorem at_moz_files (data : Bytes) (index size : Nat) : ∀ (files : List MozFile) (fuel current a : Nat), files.length < fuel →
    (∀ f ∈ files, MozGood data f ∧ f.length ≠ 0) → files.flatMap mozEntry <+: data.drop (index + current + 4) → index + current + 4 ≤ data.length →
    size = current + (files.flatMap mozEntry).length → ∃ b, AtPlace data (mozFiles index size fuel current) files a b
  | [], fuel + 1, current, a, _, _, _, _, hs => by
    refine ⟨a, ?_⟩
    rw [mozFiles, if_neg (by simp at hs; omega)]
    exact at_pure data _ a
  | f :: files, fuel + 1, current, a, hf, hg, hp, hi, hs => by
    rw [List.flatMap_cons] at hp hs
    rw [List.length_append] at hs
    have hl := hp.length_le
    rw [List.length_drop, List.length_append] at hl
    have := moz_entry_pos f
    obtain ⟨h1, h2⟩ := hg f (by simp)
    have p := drop_prefix (xs := mozEntry f) (ys := files.flatMap mozEntry) hp
    rw [show index + current + 4 + (mozEntry f).length = index + (current + (mozEntry f).length) + 4 by omega] at p
    obtain ⟨b, hb⟩ := at_moz_files data index size files fuel (current + (mozEntry f).length) (f.offset + f.length) (by simp at hf; omega)
      (fun g hg' => hg g (by simp [hg'])) p (by omega) (by omega)
    refine ⟨b, ?_⟩
    rw [mozFiles, if_pos (by omega)]
    refine AtPlace.bind (at_moz_file data index current a f h1 h2 (prefix_left (xs := mozEntry f) hp) hi) ?_
    exact AtPlace.map (f := fun fs => f :: fs) hb

/-- **C131**: all files of a Mozilla archive are found, wherever the index and their data are; no file may be empty. -/
theorem C131_mozilla_partial (data : Bytes) (s : InputStream) (hs : stringInputStream data = .ok s) (index : Nat) (files : List MozFile) (fuel : Nat)
    (hf : files.length < fuel) (hi : index < 2 ^ 32) (hn : (files.flatMap mozEntry).length < 2 ^ 32) (hg : ∀ f ∈ files, MozGood data f ∧ f.length ≠ 0)
    (hstart : [77, 65, 82, 49] ++ beBytes 4 index <+: data) (hl : index + 4 ≤ data.length)
    (hindex : beBytes 4 (files.flatMap mozEntry).length ++ files.flatMap mozEntry <+: data.drop index) :
    ∃ stop, moz fuel s (8 * data.length) 0 = .ok (([77, 65, 82, 49], files), stop) := by
  have l4 : ∀ v, (beBytes 4 v).length = 4 := beBytes_length 4
  have hstart : [77, 65, 82, 49] ++ beBytes 4 index <+: data.drop 0 := by simpa using hstart
  have hl0 := hstart.length_le
  rw [List.length_append, l4, List.length_drop] at hl0
  have h8 : [77, 65, 82, (49 : UInt8)].length = 4 := rfl
  have p := drop_prefix (xs := [77, 65, 82, 49]) (ys := beBytes 4 index) hstart
  have q := drop_prefix (xs := beBytes 4 (files.flatMap mozEntry).length) (ys := files.flatMap mozEntry) hindex
  rw [l4] at q
  obtain ⟨b, hb⟩ := at_moz_files data index (files.flatMap mozEntry).length files fuel 0 (index + 4) hf hg (by simpa using q) (by omega) (by omega)
  have r : AtPlace data (moz fuel) ([77, 65, 82, 49], files) 0 b := by
    refine AtPlace.bind ((reads_fixed .big .eightBit (by decide) 4 _ rfl (by omega)).at (prefix_left (xs := [77, 65, 82, 49]) hstart) (by omega)) ?_
    refine AtPlace.bind ((reads_int_be 4 index (by omega) (by norm_num; omega)).at p (by omega)) ?_
    refine AtPlace.bind (at_jump data _ index) ?_
    refine AtPlace.bind ((reads_int_be 4 _ (by omega) (by omega)).at (prefix_left (xs := beBytes 4 (files.flatMap mozEntry).length) hindex) (by omega)) ?_
    rw [l4]
    exact AtPlace.map (f := fun fs => ([77, 65, 82, 49], fs)) hb
  exact ⟨8 * b, r s hs⟩

/-- Violation: an empty file ends the reading of the archive. -/
theorem C131_mozilla_empty (data : Bytes) (s : InputStream) (hs : stringInputStream data = .ok s) (index size current : Nat) (f : MozFile) (hg : MozGood data f)
    (h0 : f.length = 0) (hp : mozEntry f <+: data.drop (index + current + 4)) (hi : index + current + 4 ≤ data.length) (hc : current < size) (fuel a : Nat) :
    mozFiles index size (fuel + 1) current s (8 * data.length) (8 * a) = .error .field := by
  have e := at_moz_entry (β := Except PyErr (MozFile × Nat)) data (index + current + 4) (index + current + 4 + (mozEntry f).length) f hg hp hi
    (fun offset length flags name => fun s stop addr =>
      .ok ((do let stop ← Rd.place; Rd.jump offset; let data ← Rd.raw length
               pure (⟨offset, length, flags, name, data⟩, current + (stop / 8 - (index + current + 4))) : Rd (MozFile × Nat)) s stop addr |>.map (·.1), addr))
    (.error .field) (fun s hs => by
      rw [h0]
      rfl) s hs
  rw [mozFiles, if_pos hc]
  show Rd.bind (mozFile index current) _ s _ _ = _
  have e2 : mozFile index current s (8 * data.length) (8 * a) = .error .field := by
    revert e
    unfold mozFile
    simp only [Bind.bind, Rd.bind, Rd.jump]
    cases h1 : Rd.int 4 .big s (8 * data.length) (8 * (index + current + 4)) with
    | error _ => simp
    | ok v1 =>
      simp only
      cases h2 : Rd.int 4 .big s (8 * data.length) v1.2 with
      | error _ => simp
      | ok v2 =>
        simp only
        cases h3 : Rd.int 4 .big s (8 * data.length) v2.2 with
        | error _ => simp
        | ok v3 =>
          simp only
          cases h4 : Rd.text .big .c .eightBit none s (8 * data.length) v3.2 with
          | error _ => simp
          | ok v4 =>
            simp only [Rd.place]
            cases h5 : Rd.raw v2.1 s (8 * data.length) (8 * v1.1) with
            | error x =>
              intro h
              simp [Except.map] at h
              rw [h.1]
            | ok v5 =>
              intro h
              simp [Except.map, Pure.pure, Rd.pure] at h
  rw [Rd.bind, e2]

/-! ## Archives of Starfighter -/

def pakBytes (f : Bytes × Bytes) : Bytes := paddedName 56 f.1 ++ (leBytes 4 f.2.length ++ f.2)

def PakGood (f : Bytes × Bytes) : Prop := f.1.length ≤ 56 ∧ 0 ∉ f.1 ∧ f.2.length < 2 ^ 32

theorem reads_pak_file (f : Bytes × Bytes) (h : PakGood f) (h0 : f.2 ≠ []) : Reads pakFile f (pakBytes f) := by
  obtain ⟨h1, h2, h3⟩ := h
  refine Reads.bind (reads_fixed .little .eightBit (by decide) 56 _ (padded_name_length 56 _ h1) (by omega)) ?_
  refine Reads.bind (reads_int_le 4 _ (by omega) (by norm_num; omega)) ?_
  have := Reads.map (f := fun d => (cutName (paddedName 56 f.1), d)) (reads_raw f.2 h0)
  rw [cut_padded 56 _ h2] at this ⊢
  exact this

/-- **C131**: all files of an archive of Starfighter are read; none of them may be empty. -/
theorem C131_starfighter_partial (files : List (Bytes × Bytes)) (h : ∀ f ∈ files, PakGood f ∧ f.2 ≠ []) (fuel : Nat) (hf : files.length < fuel) (s : InputStream)
    (hs : stringInputStream ([80, 65, 67, 75] ++ files.flatMap pakBytes) = .ok s) :
    pak fuel s (8 * ([80, 65, 67, 75] ++ files.flatMap pakBytes).length) 0 = .ok (files, 8 * ([80, 65, 67, 75] ++ files.flatMap pakBytes).length) := by
  have r : ReadsAll (pak fuel) files ([80, 65, 67, 75] ++ files.flatMap pakBytes) :=
    Reads.bind_all (reads_fixed .little .eightBit (by decide) 4 _ rfl (by omega))
      (reads_while pakFile pakBytes files fuel hf fun f hm => ⟨reads_pak_file f (h f hm).1 (h f hm).2, by
        have := padded_name_length 56 _ (h f hm).1.1
        intro e
        have := congrArg List.length e
        simp only [pakBytes, List.length_append, List.length_nil] at this
        omega⟩)
  have := r _ s hs 0 (by simp)
  simpa using this

/-- Violation: an empty file cannot be read. -/
theorem C131_starfighter_empty (name : Bytes) (h1 : name.length ≤ 56) : Fails pakFile .field (pakBytes (name, [])) := by
  refine Reads.fails (reads_fixed .little .eightBit (by decide) 56 _ (padded_name_length 56 _ h1) (by omega)) ?_
  refine Reads.fails (reads_int_le 4 _ (by omega) (by norm_num)) ?_
  intro data s hs k stop hp hst
  rfl

example : PakGood ([97, 98], [1, 2, 3]) := ⟨by decide, by decide, by norm_num⟩

example : MozGood ([77, 65, 82, 49] ++ (beBytes 4 10 ++ ([7, 8] ++ (beBytes 4 15 ++ mozEntry ⟨8, 2, 420, [97, 98], [7, 8]⟩)))) ⟨8, 2, 420, [97, 98], [7, 8]⟩ := by
  refine ⟨by norm_num, by norm_num, by norm_num, by decide, rfl, by decide +kernel, by decide +kernel⟩

end Hachoir.Props
