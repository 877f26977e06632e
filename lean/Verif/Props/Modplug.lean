import Verif.Formats.Modplug
import Verif.Props.Ace

/-!
# C201: what ModPlug adds to music
-/

namespace Hachoir.Props
open Spec Hachoir Hachoir.Stream Hachoir.Field Hachoir.Formats Hachoir.Formats.Modplug

/-! ## Blocks as they are written -/

/-- A block with a size: four letters, the size of what is behind it, and that. -/
def plugChunk (type content : Bytes) : Bytes := type ++ (leBytes 4 content.length ++ content)

/-- What is to be told of the content of a block with a size. -/
inductive PlugContent : Bytes → Bytes → Block → Prop where
  | comment (t : Bytes) (h : 1 ≤ t.length ∧ t.length ≤ 65535) : PlugContent [84, 69, 88, 84] t (.comment t)
  | noComment (t : Bytes) (h : t.length = 0 ∨ 65535 < t.length) : PlugContent [84, 69, 88, 84] t (.raw [84, 69, 88, 84] t)
  | settings (vs : List Nat) (hv : ∀ v ∈ vs, v < 2 ^ 32) (rest : Bytes) (hr : rest.length < 4) : PlugContent [88, 70, 72, 67] (vs.flatMap (leBytes 4) ++ rest) (.settings vs rest)
  | midi (out sfx zxx more rest : Bytes) (ho : out.length = 288) (hx : sfx.length = 512) (hz : zxx.length = 4096)
      (hr : (rest.length = 8) ∨ (rest.length < 8 ∧ more = [])) : PlugContent [77, 73, 68, 73] (out ++ (sfx ++ (zxx ++ (more ++ rest)))) (.midi out sfx zxx more rest)
  | noMidi (t : Bytes) (h : t.length < 4896) : PlugContent [77, 73, 68, 73] t (.raw [77, 73, 68, 73] t)

/-- The rest of a file: blocks, and how they end. -/
inductive PlugFile : List Block → Ending → Bytes → Prop where
  | ended : PlugFile [] .ended []
  | chunk (type content : Bytes) (b : Block) (h : PlugContent type content b) (hl : content.length < 2 ^ 32) (bs : List Block) (e : Ending) (xs : Bytes) (hs : PlugFile bs e xs) :
    PlugFile (b :: bs) e (plugChunk type content ++ xs)
  | instrument (bs : List Block) (e : Ending) (xs : Bytes) (hs : PlugFile bs e xs) (hl : xs.length = 0 ∨ 4 ≤ xs.length) : PlugFile (.instrument :: bs) e ([88, 84, 80, 77] ++ xs)
  | song (rest : Bytes) (hl : rest.length = 0 ∨ 4 ≤ rest.length) : PlugFile [.song] (.info rest) ([83, 84, 80, 77] ++ rest)
  | extensionCut (type rest : Bytes) (ht : type = [88, 84, 80, 77] ∨ type = [83, 84, 80, 77]) (hl : 1 ≤ rest.length ∧ rest.length ≤ 3) : PlugFile [] (.broken (type ++ rest)) (type ++ rest)
  | last (type : Bytes) (hl : type.length = 4)
      (ht : type ∉ [[84, 69, 88, 84], [77, 73, 68, 73], [88, 70, 72, 67], [88, 84, 80, 77], [83, 84, 80, 77]]) : PlugFile [.raw type []] .ended type
  | other (type rest : Bytes) (hl : type.length = 4) (hr : rest ≠ [])
      (ht : type ∉ [[84, 69, 88, 84], [77, 73, 68, 73], [88, 70, 72, 67], [88, 84, 80, 77], [83, 84, 80, 77]]) : PlugFile [] (.broken (type ++ rest)) (type ++ rest)

/-! ## Reading -/

theorem reads_plug_type (t : Bytes) (h : t.length = 4) : Reads (Rd.text .little .fixed .eightBit (some 4)) t t := reads_fixed .little .eightBit (by decide) 4 t h (by decide)

theorem flatMap_words (vs : List Nat) : (vs.flatMap (leBytes 4)).length = 4 * vs.length := by
  induction vs with
  | nil => rfl
  | cons v vs ih => rw [List.flatMap_cons, List.length_append, ih, leBytes_length, List.length_cons]; omega

theorem reads_plug_chunk (type content : Bytes) (b : Block) (h : PlugContent type content b) (hl : content.length < 2 ^ 32) : Reads block b (plugChunk type content) := by
  have sized_all : ∀ (r : Nat → Rd Block), ReadsAll (r content.length) b content → Reads (sized r) b (leBytes 4 content.length ++ content) := fun r hr =>
    Reads.rbind (reads_int_le 4 _ (by decide) (by omega)) (ReadsAll.within hr _ rfl)
  rw [plugChunk]
  cases h with
  | comment t h =>
    refine Reads.rbind (reads_plug_type _ rfl) ?_
    rw [body, if_pos rfl]
    refine sized_all _ ?_
    rw [Modplug.comment, if_neg (by omega)]
    exact Reads.all (Reads.rmap (f := Block.comment) (reads_fixed .little .eightBit (by decide) _ _ rfl (by omega)))
  | noComment t h =>
    refine Reads.rbind (reads_plug_type _ rfl) ?_
    rw [body, if_pos rfl]
    refine sized_all _ ?_
    rw [Modplug.comment, if_pos (by omega)]
    exact ReadsAll.rmap (reads_pifv_content _) _
  | settings vs hv rest hr =>
    refine Reads.rbind (reads_plug_type _ rfl) ?_
    rw [body, if_neg (by decide), if_neg (by decide), if_pos rfl]
    refine sized_all _ ?_
    rw [Modplug.settings]
    refine Reads.rbind_all (reads_times_n _ (leBytes 4) vs _ ?_ fun v hm => reads_int_le 4 v (by decide) (by have := hv v hm; omega)) (ReadsAll.rmap (reads_pifv_content _) _)
    rw [List.length_append, flatMap_words]; omega
  | midi out sfx zxx more rest ho hx hz hr =>
    refine Reads.rbind (reads_plug_type _ rfl) ?_
    rw [body, if_neg (by decide), if_pos rfl]
    refine sized_all _ ?_
    have e : (out ++ (sfx ++ (zxx ++ (more ++ rest)))).length = 4896 + (more.length + rest.length) := by simp; omega
    rw [e, Modplug.midi, if_neg (by omega)]
    refine Reads.rbind_all (reads_raw_n _ out (by omega) (by decide)) (Reads.rbind_all (reads_raw_n _ sfx (by omega) (by decide)) (Reads.rbind_all (reads_raw_n _ zxx (by omega) (by decide))
      (Reads.rbind_all ?_ (ReadsAll.rmap (reads_pifv_content _) _))))
    rw [dataBehind]
    by_cases hm : more = []
    · subst hm
      rw [if_neg (by rcases hr with h | h <;> simp <;> omega)]; exact reads_rpure _
    · have := List.length_pos_iff.2 hm
      have h8 : rest.length = 8 := by rcases hr with h | h; exacts [h, absurd h.2 hm]
      rw [if_pos (by omega)]; exact reads_raw_n _ more (by omega) (by omega)
  | noMidi t h =>
    refine Reads.rbind (reads_plug_type _ rfl) ?_
    rw [body, if_neg (by decide), if_pos rfl]
    refine sized_all _ ?_
    rw [Modplug.midi, if_pos h]
    exact ReadsAll.rmap (reads_pifv_content _) _

/-- One block in front of others. -/
theorem plug_step (n : Nat) (s : InputStream) (stop addr : Nat) (hlt : addr < stop) : blocks (n + 1) s stop addr = step (blocks n) s stop addr := by
  rw [blocks, Rd.bind, Rd.eof, decide_eq_false (by omega)]
  rfl

theorem prefix_right {xs ys data : Bytes} {k : Nat} (hp : xs ++ ys <+: data.drop k) : ys <+: data.drop (k + xs.length) := by
  obtain ⟨t, ht⟩ := hp
  refine ⟨t, ?_⟩
  rw [← List.drop_drop, ← ht, List.append_assoc, List.drop_left]

theorem plug_not_song {type content : Bytes} {b : Block} (h : PlugContent type content b) : b ≠ .song := by cases h <;> simp

theorem plug_broken (n : Nat) (xs data : Bytes) (s : InputStream) (hs : stringInputStream data = .ok s) (k : Nat) (hp : xs <+: data.drop k) (h0 : 0 < xs.length)
    (hb : ∃ e, block s (8 * (k + xs.length)) (8 * k) = .error e) : blocks (n + 1) s (8 * (k + xs.length)) (8 * k) = .ok (([], .broken xs), 8 * (k + xs.length)) := by
  obtain ⟨e, he⟩ := hb
  rw [plug_step _ _ _ _ (by omega), step, he]
  exact ReadsAll.rmap (reads_pifv_content xs) (fun r => (([] : List Block), Ending.broken r)) data s hs k hp

theorem plug_told (n : Nat) (b : Block) (hb : b ≠ .song) (bs : List Block) (e : Ending) (s : InputStream) (stop addr behind last : Nat) (hlt : addr < stop)
    (h1 : block s stop addr = .ok (b, behind)) (h2 : blocks n s stop behind = .ok ((bs, e), last)) : blocks (n + 1) s stop addr = .ok ((b :: bs, e), last) := by
  rw [plug_step _ _ _ _ hlt, step, h1]
  simp only
  rw [if_neg hb, h2]

/-- What a block does behind its type. -/
theorem plug_typed (type : Bytes) (hl : type.length = 4) (data : Bytes) (s : InputStream) (hs : stringInputStream data = .ok s) (k stop : Nat) (hp : type <+: data.drop k)
    (hst : 8 * (k + 4) ≤ stop) : block s stop (8 * k) = body type s stop (8 * (k + 4)) := by
  rw [block, Rd.bind, reads_plug_type type hl data s hs k stop hp (by omega), hl]

/-- **C201** Every block is told in order up to the end of the file, the song block, or the first block of another type: comments with all their text, channel settings with all their numbers, and
the three sets of the MIDI block; every byte of these blocks is told. Missing: what is behind the instrument and song blocks, and plugins, which are never told as fields (`C201_extensions`,
`C201_plugin`). -/
theorem C201_blocks_partial (bs : List Block) (e : Ending) (xs : Bytes) (h : PlugFile bs e xs) : ∀ n, bs.length < n → ReadsAll (blocks n) (bs, e) xs := by
  induction h with
  | ended =>
    intro n hn data s hs k hp
    obtain ⟨n, rfl⟩ := Nat.exists_eq_succ_of_ne_zero (show n ≠ 0 by omega)
    rw [Nat.succ_eq_add_one, blocks, Rd.bind, Rd.eof, decide_eq_true (by simp)]
    rfl
  | chunk type content b h hl bs e xs _ ih =>
    intro n hn data s hs k hp
    obtain ⟨n, rfl⟩ := Nat.exists_eq_succ_of_ne_zero (show n ≠ 0 by omega)
    have hc : 0 < (plugChunk type content).length := by simp [plugChunk, leBytes_length]
    have r1 := reads_plug_chunk type content b h hl data s hs k (8 * (k + (plugChunk type content ++ xs).length)) ((List.prefix_append _ _).trans hp) (by rw [List.length_append]; omega)
    have r2 := ih n (by rw [List.length_cons] at hn; omega) data s hs (k + (plugChunk type content).length) (prefix_right hp)
    rw [Nat.add_assoc, ← List.length_append] at r2
    exact plug_told n b (plug_not_song h) bs e s _ _ _ _ (by rw [List.length_append]; omega) r1 r2
  | instrument bs e xs _ hl ih =>
    intro n hn data s hs k hp
    obtain ⟨n, rfl⟩ := Nat.exists_eq_succ_of_ne_zero (show n ≠ 0 by omega)
    have r2 := ih n (by rw [List.length_cons] at hn; omega) data s hs (k + 4) (prefix_right hp)
    rw [Nat.add_assoc, show 4 + xs.length = ([88, 84, 80, 77] ++ xs : Bytes).length by simp; omega] at r2
    refine plug_told n .instrument (by simp) bs e s _ _ _ _ (by simp) ?_ r2
    rw [plug_typed [88, 84, 80, 77] rfl data s hs k _ ((List.prefix_append _ _).trans hp) (by simp), body, if_neg (by decide), if_neg (by decide), if_neg (by decide), if_pos rfl, extension,
      if_pos (by rw [List.length_append, show ([88, 84, 80, 77] : Bytes).length = 4 from rfl]; omega)]
  | song rest hl =>
    intro n hn data s hs k hp
    obtain ⟨n, rfl⟩ := Nat.exists_eq_succ_of_ne_zero (show n ≠ 0 by omega)
    have hb : block s (8 * (k + ([83, 84, 80, 77] ++ rest : Bytes).length)) (8 * k) = .ok (.song, 8 * (k + 4)) := by
      rw [plug_typed [83, 84, 80, 77] rfl data s hs k _ ((List.prefix_append _ _).trans hp) (by simp), body, if_neg (by decide), if_neg (by decide), if_neg (by decide), if_neg (by decide),
        if_pos rfl, extension, if_pos (by rw [List.length_append, show ([83, 84, 80, 77] : Bytes).length = 4 from rfl]; omega)]
    rw [Nat.succ_eq_add_one, plug_step _ _ _ _ (by simp), step, hb]
    simp only [if_true]
    have := ReadsAll.rmap (reads_pifv_content rest) (fun r => ([Block.song], Ending.info r)) data s hs (k + 4) (prefix_right hp)
    rw [Nat.add_assoc, show 4 + rest.length = ([83, 84, 80, 77] ++ rest : Bytes).length by simp; omega] at this
    exact this
  | extensionCut type rest ht hl =>
    intro n hn data s hs k hp
    obtain ⟨n, rfl⟩ := Nat.exists_eq_succ_of_ne_zero (show n ≠ 0 by omega)
    have h4 : type.length = 4 := by rcases ht with rfl | rfl <;> rfl
    refine plug_broken n _ data s hs k hp (by simp; omega) ⟨.readStream, ?_⟩
    rw [plug_typed type h4 data s hs k _ ((List.prefix_append _ _).trans hp) (by simp; omega)]
    rcases ht with rfl | rfl
    · rw [body, if_neg (by decide), if_neg (by decide), if_neg (by decide), if_pos rfl, extension, if_neg (by rw [List.length_append, h4]; omega)]
    · rw [body, if_neg (by decide), if_neg (by decide), if_neg (by decide), if_neg (by decide), if_pos rfl, extension, if_neg (by rw [List.length_append, h4]; omega)]
  | last type h4 ht =>
    intro n hn data s hs k hp
    obtain ⟨n, rfl⟩ := Nat.exists_eq_succ_of_ne_zero (show n ≠ 0 by omega)
    obtain ⟨n, rfl⟩ := Nat.exists_eq_succ_of_ne_zero (show n ≠ 0 by rw [List.length_singleton] at hn; omega)
    simp only [List.mem_cons, List.not_mem_nil, or_false, not_or] at ht
    refine plug_told _ (.raw type []) (by simp) [] .ended s _ _ (8 * (k + type.length)) _ (by omega) ?_ ?_
    · rw [plug_typed type h4 data s hs k _ hp (by omega), body, if_neg ht.1, if_neg ht.2.1, if_neg ht.2.2.1, if_neg ht.2.2.2.1, if_neg ht.2.2.2.2, plugin, h4, if_pos rfl]
    · rw [blocks, Rd.bind, Rd.eof, decide_eq_true (by simp)]
      rfl
  | other type rest h4 hr ht =>
    intro n hn data s hs k hp
    obtain ⟨n, rfl⟩ := Nat.exists_eq_succ_of_ne_zero (show n ≠ 0 by omega)
    refine plug_broken n _ data s hs k hp (by simp; omega) ⟨.type, ?_⟩
    rw [plug_typed type h4 data s hs k _ ((List.prefix_append _ _).trans hp) (by simp; omega)]
    simp only [List.mem_cons, List.not_mem_nil, or_false, not_or] at ht
    rw [body, if_neg ht.1, if_neg ht.2.1, if_neg ht.2.2.1, if_neg ht.2.2.2.1, if_neg ht.2.2.2.2, plugin,
      if_neg (by rw [List.length_append, h4]; have := List.length_pos_iff.2 hr; omega)]

/-- An extension: its code, the size of its data, and the data. -/
def plugField (code data : Bytes) : Bytes := code ++ (leBytes 2 data.length ++ data)

/-- **C201** The extensions of instruments are never told: whatever the code of the first, as long as it is no type of a block, the rest of the file is one raw field. -/
theorem C201_extensions (code data rest : Bytes) (hc : code.length = 4) (hn : code ∉ [[84, 69, 88, 84], [77, 73, 68, 73], [88, 70, 72, 67], [88, 84, 80, 77], [83, 84, 80, 77]]) (s : InputStream)
    (hs : stringInputStream ([88, 84, 80, 77] ++ (plugField code data ++ rest)) = .ok s) (n : Nat) :
    ∃ a, blocks (n + 2) s (8 * ([88, 84, 80, 77] ++ (plugField code data ++ rest)).length) 0 = .ok (([.instrument], .broken (plugField code data ++ rest)), a) := by
  have h : PlugFile [] (.broken (plugField code data ++ rest)) (plugField code data ++ rest) := by
    rw [plugField, List.append_assoc]
    exact .other code _ hc (by simp [leBytes]) hn
  have := C201_blocks_partial _ _ _ (.instrument [] _ _ h (by simp [plugField]; omega)) (n + 2) (by simp) _ s hs 0 (by simp)
  exact ⟨_, by simpa using this⟩

/-- **C201** The extensions of the song are never told as fields either, whatever their codes: they are all in `info`. -/
theorem C201_song (code data rest : Bytes) (hc : code.length = 4) (s : InputStream) (hs : stringInputStream ([83, 84, 80, 77] ++ (plugField code data ++ rest)) = .ok s) (n : Nat) :
    ∃ a, blocks (n + 2) s (8 * ([83, 84, 80, 77] ++ (plugField code data ++ rest)).length) 0 = .ok (([.song], .info (plugField code data ++ rest)), a) := by
  have := C201_blocks_partial _ _ _ (.song (plugField code data ++ rest) (by simp [plugField]; omega)) (n + 2) (by simp) _ s hs 0 (by simp)
  exact ⟨_, by simpa using this⟩

/-- **C201** A plugin (a block of another type) ends the list: blocks behind it are not told, however they are written. -/
theorem C201_plugin (type content : Bytes) (b : Block) (h : PlugContent type content b) (hl : content.length < 2 ^ 32) (plugin rest : Bytes) (hp : plugin.length = 4) (hr : rest ≠ [])
    (hn : plugin ∉ [[84, 69, 88, 84], [77, 73, 68, 73], [88, 70, 72, 67], [88, 84, 80, 77], [83, 84, 80, 77]]) (s : InputStream)
    (hs : stringInputStream (plugChunk type content ++ (plugin ++ rest)) = .ok s) (n : Nat) :
    ∃ a, blocks (n + 2) s (8 * (plugChunk type content ++ (plugin ++ rest)).length) 0 = .ok (([b], .broken (plugin ++ rest)), a) := by
  have := C201_blocks_partial _ _ _ (.chunk type content b h hl [] _ _ (.other plugin rest hp hr hn)) (n + 2) (by simp) _ s hs 0 (by simp)
  exact ⟨_, by simpa using this⟩

/-! ## Examples -/

/-- A comment, settings of one channel with two bytes more, and a song block with six bytes behind it. -/
example : PlugFile [.comment [72, 105], .settings [5] [7, 8], .song] (.info [46, 46, 46, 67, 0, 0])
    (plugChunk [84, 69, 88, 84] [72, 105] ++ (plugChunk [88, 70, 72, 67] ([5].flatMap (leBytes 4) ++ [7, 8]) ++ ([83, 84, 80, 77] ++ [46, 46, 46, 67, 0, 0]))) :=
  .chunk _ _ _ (.comment _ (by decide)) (by decide) _ _ _ (.chunk _ _ _ (.settings [5] (by decide) [7, 8] (by decide)) (by decide) _ _ _ (.song _ (by decide)))

/-- The flags of an instrument. -/
example (s : InputStream) (hs : stringInputStream ([88, 84, 80, 77] ++ (plugField [46, 46, 70, 100] [4, 0, 0, 0] ++ [])) = .ok s) :
    ∃ a, blocks 2 s (8 * ([88, 84, 80, 77] ++ (plugField [46, 46, 70, 100] [4, 0, 0, 0] ++ [])).length) 0 = .ok (([.instrument], .broken (plugField [46, 46, 70, 100] [4, 0, 0, 0] ++ [])), a) :=
  C201_extensions _ _ _ rfl (by decide) s hs 0

/-- The number of channels of a song. -/
example (s : InputStream) (hs : stringInputStream ([83, 84, 80, 77] ++ (plugField [46, 46, 46, 67] [2, 0, 0, 0] ++ [])) = .ok s) :
    ∃ a, blocks 2 s (8 * ([83, 84, 80, 77] ++ (plugField [46, 46, 46, 67] [2, 0, 0, 0] ++ [])).length) 0 = .ok (([.song], .info (plugField [46, 46, 46, 67] [2, 0, 0, 0] ++ [])), a) :=
  C201_song _ _ _ rfl s hs 0

/-- A plugin `FX00` behind a comment, and another comment behind it. -/
example (s : InputStream) (hs : stringInputStream (plugChunk [84, 69, 88, 84] [72, 105] ++ ([70, 88, 48, 48] ++ plugChunk [84, 69, 88, 84] [72, 105])) = .ok s) :
    ∃ a, blocks 2 s (8 * (plugChunk [84, 69, 88, 84] [72, 105] ++ ([70, 88, 48, 48] ++ plugChunk [84, 69, 88, 84] [72, 105])).length) 0 =
      .ok (([.comment [72, 105]], .broken ([70, 88, 48, 48] ++ plugChunk [84, 69, 88, 84] [72, 105])), a) :=
  C201_plugin _ _ _ (.comment _ (by decide)) (by decide) _ _ rfl (by simp [plugChunk]) (by decide) s hs 0

end Hachoir.Props
