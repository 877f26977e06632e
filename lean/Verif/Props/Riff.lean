import Verif.Formats.Riff
import Verif.Props.Records
import Verif.Props.Tar
import Verif.Props.StringField

/-!
# RIFF files: chunks, texts and WAVE formats (C106, C107)
-/

namespace Hachoir.Props
open Hachoir Hachoir.Stream Hachoir.Field Hachoir.Formats Hachoir.Formats.Riff Spec

/-! ## What the bytes of chunks are -/

/-- Chunks one after the other from the byte `k` on.  A chunk has a tag, a size, and the content
with a byte behind it if the size is odd; a list has the tag `LIST`, its kind and chunks. -/
inductive RiffAt : Nat → List Riff.Chunk → Bytes → Prop where
  | nil (k : Nat) : RiffAt k [] []
  | data (k : Nat) (tag content pad rest : Bytes) (cs : List Riff.Chunk) (ht : tag.length = 4) (hl : tag ≠ [76, 73, 83, 84])
      (hp : pad.length = content.length % 2) (hz : content.length < 2 ^ 32)
      (hr : RiffAt (k + 8 + content.length + pad.length) cs rest) :
      RiffAt k (.data (8 * k) tag content.length :: cs) (tag ++ (leBytes 4 content.length ++ (content ++ (pad ++ rest))))
  | list (k : Nat) (kind inner rest : Bytes) (chunks cs : List Riff.Chunk) (hk : kind.length = 4) (hz : 4 + inner.length < 2 ^ 32)
      (hi : RiffAt (k + 12) chunks inner)
      (hlast : ∀ a t, chunks.getLast? ≠ some (.data a t 0))
      (hr : RiffAt (k + 12 + inner.length) cs rest) :
      RiffAt k (.list (8 * k) kind (4 + inner.length) chunks :: cs)
        ([76, 73, 83, 84] ++ (leBytes 4 (4 + inner.length) ++ (kind ++ (inner ++ rest))))

theorem riff_even {k : Nat} {cs : List Riff.Chunk} {bs : Bytes} (h : RiffAt k cs bs) :
    bs.length % 2 = 0 ∧ (cs ≠ [] → 8 ≤ bs.length) ∧ (cs = [] → bs = []) := by
  induction h with
  | nil k => exact ⟨rfl, fun h => absurd rfl h, fun _ => rfl⟩
  | data k tag content pad rest cs ht hl hp hz hr ih =>
    refine ⟨?_, ?_, by simp⟩
    · simp only [List.length_append, ht, leBytes_length]; omega
    · intro _
      simp only [List.length_append, ht, leBytes_length]; omega
  | list k kind inner rest chunks cs hk hz hi hlast hr ih1 ih2 =>
    refine ⟨?_, ?_, by simp⟩
    · simp only [List.length_append, hk, leBytes_length, List.length_cons, List.length_nil]; omega
    · intro _
      simp only [List.length_append, hk, leBytes_length, List.length_cons, List.length_nil]; omega

/-- Where the chunks end: at the end of the file by its size, at the end of a list, or eight bytes before it. -/
def RiffStop (top : Bool) (stop e : Nat) (cs : List Riff.Chunk) : Prop :=
  top = true ∧ stop + 64 = 8 * e ∨ top = false ∧ stop = 8 * e ∧ (∀ a t, cs.getLast? ≠ some (.data a t 0)) ∨
    top = false ∧ stop = 8 * e + 64

theorem riff_more {top : Bool} {stop e : Nat} {cs : List Riff.Chunk} (h : RiffStop top stop e cs) (k : Nat)
    (hk : k + 8 ≤ e) (hlast : k + 8 = e → ∃ a t, cs.getLast? = some (.data a t 0)) : more top stop (8 * k) = true := by
  unfold more
  rcases h with ⟨rfl, h⟩ | ⟨rfl, h, hl⟩ | ⟨rfl, h⟩
  · rw [if_pos rfl]; simp; omega
  · rw [if_neg (by decide)]
    have : k + 8 ≠ e := fun he => by
      obtain ⟨a, t, hat⟩ := hlast he
      exact hl a t hat
    simp; omega
  · rw [if_neg (by decide)]; simp; omega

theorem riff_end {top : Bool} {stop e : Nat} {cs : List Riff.Chunk} (h : RiffStop top stop e cs) : more top stop (8 * e) = false := by
  unfold more
  rcases h with ⟨rfl, h⟩ | ⟨rfl, h, hl⟩ | ⟨rfl, h⟩
  · rw [if_pos rfl]; simp; omega
  · rw [if_neg (by decide)]; simp; omega
  · rw [if_neg (by decide)]; simp; omega

theorem stop_tail {top : Bool} {stop e : Nat} {c : Riff.Chunk} {cs : List Riff.Chunk} (h : RiffStop top stop e (c :: cs)) :
    RiffStop top stop e cs := by
  rcases h with h | ⟨h1, h2, h3⟩ | h
  · exact Or.inl h
  · refine Or.inr (Or.inl ⟨h1, h2, fun a t hc => h3 a t ?_⟩)
    cases cs with
    | nil => simp at hc
    | cons d ds => rw [List.getLast?_cons_cons]; exact hc
  · exact Or.inr (Or.inr h)

theorem read_chunks {k : Nat} {cs : List Riff.Chunk} {bs : Bytes} (h : RiffAt k cs bs) (data : Bytes) (s : InputStream)
    (hs : stringInputStream data = .ok s) : ∀ (fuel stop : Nat) (top : Bool), bs.length + 1 ≤ fuel →
      RiffStop top stop (k + bs.length) cs → bs <+: data.drop k → readChunks s fuel top stop (8 * k) = .ok cs := by
  induction h with
  | nil k =>
    intro fuel stop top hfuel hstop _
    obtain ⟨fuel, rfl⟩ : ∃ n, fuel = n + 1 := ⟨fuel - 1, by omega⟩
    unfold readChunks
    have := riff_end hstop
    rw [List.length_nil, Nat.add_zero] at this
    rw [this]
    rfl
  | data k tag content pad rest cs ht hl hp hz hr ih =>
    intro fuel stop top hfuel hstop hb
    have hlen : (tag ++ (leBytes 4 content.length ++ (content ++ (pad ++ rest)))).length
        = 8 + content.length + pad.length + rest.length := by
      simp only [List.length_append, ht, leBytes_length]; omega
    rw [hlen] at hfuel hstop
    obtain ⟨fuel, rfl⟩ : ∃ n, fuel = n + 1 := ⟨fuel - 1, by omega⟩
    have rt : readBytes s ((8 * k : Nat) : Int) _ = _ := readBytes_prefix data s hs k _ (prefix_left hb)
    rw [ht] at rt
    have q := drop_prefix hb
    rw [ht] at q
    have rz := read_le data s hs 4 (k + 4) content.length (by omega) (by simpa using hz) (prefix_left q) 32 rfl
      ((8 * k + 32 : Nat) : Int) (by omega)
    have q2 := drop_prefix (drop_prefix (drop_prefix q))
    rw [leBytes_length, show k + 4 + 4 + content.length + pad.length = k + 8 + content.length + pad.length by omega] at q2
    have r := ih fuel stop top (by omega) (by
      rw [show k + 8 + content.length + pad.length + rest.length = k + (8 + content.length + pad.length + rest.length) by omega]
      exact stop_tail hstop) q2
    unfold readChunks
    rw [riff_more hstop k (by omega) (by
      intro he
      have hn : cs = [] := by
        cases hcs : cs with
        | nil => rfl
        | cons d ds =>
          have := (riff_even hr).2.1 (by rw [hcs]; simp)
          omega
      have h0 : content.length = 0 := by omega
      rw [hn, h0]
      exact ⟨_, _, rfl⟩)]
    simp only [if_true, bind, Except.bind]
    rw [rt]
    simp only
    rw [rz]
    simp only
    rw [if_neg hl, show 8 * k + (8 + (content.length + content.length % 2)) * 8 = 8 * (k + 8 + content.length + pad.length) by omega, r]
  | list k kind inner rest chunks cs hk hz hi hlast hr ih1 ih2 =>
    intro fuel stop top hfuel hstop hb
    have hlen : ([76, 73, 83, 84] ++ (leBytes 4 (4 + inner.length) ++ (kind ++ (inner ++ rest)))).length
        = 12 + inner.length + rest.length := by
      simp only [List.length_append, hk, leBytes_length, List.length_cons, List.length_nil]; omega
    rw [hlen] at hfuel hstop
    obtain ⟨fuel, rfl⟩ : ∃ n, fuel = n + 1 := ⟨fuel - 1, by omega⟩
    have rt : readBytes s ((8 * k : Nat) : Int) 4 = _ := readBytes_prefix data s hs k _ (prefix_left hb)
    have q : leBytes 4 (4 + inner.length) ++ (kind ++ (inner ++ rest)) <+: data.drop (k + 4) := drop_prefix hb
    have rz := read_le data s hs 4 (k + 4) (4 + inner.length) (by omega) (by simpa using hz) (prefix_left q) 32 rfl
      ((8 * k + 32 : Nat) : Int) (by omega)
    have q1 := drop_prefix q
    rw [leBytes_length] at q1
    have rk : readBytes s ((8 * (k + 4 + 4) : Nat) : Int) _ = _ := readBytes_prefix data s hs _ kind (prefix_left q1)
    rw [hk] at rk
    have q2 := drop_prefix q1
    rw [hk, show k + 4 + 4 + 4 = k + 12 by omega] at q2
    have q3 := drop_prefix q2
    have heven := (riff_even hi).1
    have ri := ih1 fuel (8 * (k + 12 + inner.length)) false (by omega) (Or.inr (Or.inl ⟨rfl, rfl, hlast⟩)) (prefix_left q2)
    have rr := ih2 fuel stop top (by omega) (by
      rw [show k + 12 + inner.length + rest.length = k + (12 + inner.length + rest.length) by omega]
      exact stop_tail hstop) q3
    unfold readChunks
    rw [riff_more hstop k (by omega) (by intro he; omega)]
    simp only [if_true, bind, Except.bind]
    rw [rt]
    simp only
    rw [rz]
    simp only
    rw [if_pos trivial, if_neg (by omega), show 8 * k + 64 = 8 * (k + 4 + 4) by omega, rk]
    simp only
    rw [show 8 * k + (8 + (4 + inner.length + (4 + inner.length) % 2)) * 8 = 8 * (k + 12 + inner.length) by omega,
      show 8 * k + 96 = 8 * (k + 12) by omega, ri]
    simp only
    rw [rr]

/-! ## C106 -/

/-- A file: type and chunks. -/
def riffBytes (type bs : Bytes) : Bytes := [[82, 73, 70, 70], leBytes 4 (4 + bs.length), type, bs].flatten

/-- **C106** (partial): all chunks of a file are read, as the tree they are, at their places, whatever
comes behind the file. -/
theorem C106_file (type bs trailing : Bytes) (s : InputStream) (hs : stringInputStream (riffBytes type bs ++ trailing) = .ok s)
    (ht : type.length = 4) (hz : 4 + bs.length < 2 ^ 32) (cs : List Riff.Chunk) (h : RiffAt 12 cs bs) (fuel : Nat)
    (hfuel : bs.length + 1 ≤ fuel) : readRiff s fuel = .ok (type, cs) := by
  have hp : riffBytes type bs <+: (riffBytes type bs ++ trailing).drop 0 := by simp
  unfold riffBytes at hp
  have rz := read_le _ s hs 4 4 (4 + bs.length) (by omega) (by simpa using hz) (record_part _ 1 _ rfl 4 (by simp) hp) 32 rfl 32 rfl
  have rt : readBytes s ((8 * 8 : Nat) : Int) _ = _ := readBytes_prefix _ s hs 8 type (record_part _ 2 _ rfl 8 (by simp [leBytes_length]) hp)
  rw [ht] at rt
  have rc := read_chunks h _ s hs fuel ((4 + bs.length) * 8) true hfuel (Or.inl ⟨rfl, by omega⟩)
    (record_part _ 3 _ rfl 12 (by simp [leBytes_length, ht]) hp)
  unfold readRiff
  simp only [bind, Except.bind]
  rw [rz]
  simp only
  rw [show (64 : Int) = ((8 * 8 : Nat) : Int) from rfl, rt]
  simp only
  rw [show 96 = 8 * 12 from rfl, rc]

/-- A file is accepted exactly if its type is known. -/
theorem C106_valid (type bs trailing : Bytes) (s : InputStream) (hs : stringInputStream (riffBytes type bs ++ trailing) = .ok s)
    (ht : type.length = 4) :
    valid s = .ok (decide (type = [87, 65, 86, 69] ∨ type = [67, 68, 68, 65] ∨ type = [65, 86, 73, 32] ∨ type = [65, 67, 79, 78])) := by
  have hp : riffBytes type bs <+: (riffBytes type bs ++ trailing).drop 0 := by simp
  unfold riffBytes at hp
  have rs : readBytes s 0 4 = _ := readBytes_prefix _ s hs 0 [82, 73, 70, 70] (record_part _ 0 _ rfl 0 (by simp) hp)
  have rt : readBytes s ((8 * 8 : Nat) : Int) _ = _ := readBytes_prefix _ s hs 8 type (record_part _ 2 _ rfl 8 (by simp [leBytes_length]) hp)
  rw [ht] at rt
  unfold valid
  simp only [bind, Except.bind]
  rw [rs]
  simp only [ne_eq, not_true_eq_false, if_false]
  rw [show (64 : Int) = ((8 * 8 : Nat) : Int) from rfl, rt]
  simp

/-- Violation: a chunk without content at the end of a list is not read. -/
theorem C106_empty_last (type kind inner tag trailing : Bytes) (s : InputStream) (cs : List Riff.Chunk)
    (hs : stringInputStream (riffBytes type ([76, 73, 83, 84] ++ (leBytes 4 (12 + inner.length) ++
      (kind ++ (inner ++ (tag ++ leBytes 4 0))))) ++ trailing) = .ok s)
    (ht : type.length = 4) (hk : kind.length = 4) (hg : tag.length = 4) (hz : 24 + inner.length < 2 ^ 32) (h : RiffAt 24 cs inner)
    (fuel : Nat) (hfuel : inner.length + 3 ≤ fuel) : readRiff s fuel = .ok (type, [.list 96 kind (12 + inner.length) cs]) := by
  obtain ⟨bs, hbs⟩ : ∃ bs, bs = ([76, 73, 83, 84] ++ (leBytes 4 (12 + inner.length) ++ (kind ++ (inner ++ (tag ++ leBytes 4 0))))) := ⟨_, rfl⟩
  rw [← hbs] at hs
  have hl : bs.length = 20 + inner.length := by
    rw [hbs]; simp only [List.length_append, hk, hg, leBytes_length, List.length_cons, List.length_nil]; omega
  have hp : riffBytes type bs <+: (riffBytes type bs ++ trailing).drop 0 := by simp
  unfold riffBytes at hp
  obtain ⟨data, hdata⟩ : ∃ data, data = riffBytes type bs ++ trailing := ⟨_, rfl⟩
  unfold riffBytes at hs hdata
  rw [← hdata] at hs hp
  have r0 := read_le _ s hs 4 4 (4 + bs.length) (by omega) (by rw [hl, show 4 + (20 + inner.length) = 24 + inner.length by omega]; simpa using hz)
    (record_part _ 1 _ rfl 4 (by simp) hp) 32 rfl 32 rfl
  have r1 : readBytes s ((8 * 8 : Nat) : Int) _ = _ := readBytes_prefix _ s hs 8 type (record_part _ 2 _ rfl 8 (by simp [leBytes_length]) hp)
  rw [ht] at r1
  have hb : bs <+: data.drop 12 := record_part _ 3 _ rfl 12 (by simp [leBytes_length, ht]) hp
  rw [hbs] at hb
  have rt : readBytes s ((96 : Nat) : Int) 4 = _ := readBytes_prefix data s hs 12 _ (prefix_left hb)
  have q := drop_prefix hb
  have rz := read_le data s hs 4 16 (12 + inner.length) (by omega) (by simpa using (by omega : 12 + inner.length < 4294967296))
    (prefix_left q) 32 rfl ((96 + 32 : Nat) : Int) rfl
  have q1 := drop_prefix q
  rw [leBytes_length] at q1
  have rk : readBytes s ((96 + 64 : Nat) : Int) _ = _ := readBytes_prefix data s hs 20 kind (prefix_left q1)
  rw [hk] at rk
  have q2 := drop_prefix q1
  rw [hk] at q2
  have heven := (riff_even h).1
  obtain ⟨fuel, rfl⟩ : ∃ n, fuel = n + 2 := ⟨fuel - 2, by omega⟩
  have ri := read_chunks h data s hs (fuel + 1) (8 * (24 + inner.length) + 64) false (by omega) (Or.inr (Or.inr ⟨rfl, rfl⟩)) (prefix_left q2)
  have rr : readChunks s (fuel + 1) true ((4 + bs.length) * 8) (8 * (32 + inner.length)) = .ok [] := by
    unfold readChunks
    have : more true ((4 + bs.length) * 8) (8 * (32 + inner.length)) = false := by
      unfold more
      rw [if_pos rfl, hl]
      simp
      omega
    rw [this]
    rfl
  have rc : readChunks s (fuel + 2) true ((4 + bs.length) * 8) 96 = .ok [.list 96 kind (12 + inner.length) cs] := by
    unfold readChunks
    have : more true ((4 + bs.length) * 8) 96 = true := by
      unfold more
      rw [if_pos rfl, hl]
      simp
      omega
    rw [this]
    simp only [if_true, bind, Except.bind]
    rw [rt]
    simp only
    rw [rz]
    simp only
    rw [if_pos trivial, if_neg (by omega), rk]
    simp only
    rw [show 96 + (8 + (12 + inner.length + (12 + inner.length) % 2)) * 8 = 8 * (24 + inner.length) + 64 by omega,
      show 96 + 96 = 8 * 24 from rfl, ri]
    simp only
    rw [show 8 * (24 + inner.length) + 64 = 8 * (32 + inner.length) by omega, rr]
  unfold readRiff
  simp only [bind, Except.bind]
  rw [r0]
  simp only
  rw [show (64 : Int) = ((8 * 8 : Nat) : Int) from rfl, r1]
  simp only
  rw [rc]

/-! ### Texts -/

theorem truncate_at (text rest : Bytes) (h : 0 ∉ text) : truncateText [0] (text ++ 0 :: rest) = some text := by
  induction text with
  | nil => rfl
  | cons c t ih =>
    have hc : c ≠ 0 := fun e => h (by simp [e])
    have ht : 0 ∉ t := fun e => h (by simp [e])
    rw [List.cons_append, truncateText, ih ht]
    simp [List.isPrefixOf, hc.symm]

theorem truncate_none (text : Bytes) (h : 0 ∉ text) : truncateText [0] text = none := by
  induction text with
  | nil => rfl
  | cons c t ih =>
    have hc : c ≠ 0 := fun e => h (by simp [e])
    have ht : 0 ∉ t := fun e => h (by simp [e])
    rw [truncateText, ih ht]
    simp [List.isPrefixOf, hc.symm]

/-- The tags of texts and the metadata they set. -/
def riffKeys : List (Bytes × String) :=
  [([73, 78, 65, 77], "title"), ([73, 65, 82, 84], "artist"), ([73, 67, 77, 84], "comment"), ([73, 67, 79, 80], "copyright"),
   ([73, 69, 78, 71], "author"), ([73, 83, 70, 84], "producer"), ([73, 67, 82, 68], "creation_date"), ([73, 68, 73, 84], "creation_date")]

theorem riff_key : ∀ p ∈ riffKeys, textKey p.1 = some p.2 := by decide +kernel

/-- **C106**: the text of a chunk ends at the first NUL, if there is one; spaces around it do not count. -/
theorem C106_text (data : Bytes) (s : InputStream) (hs : stringInputStream data = .ok s) (k : Nat) (tag : Bytes) (key : String)
    (hk : (tag, key) ∈ riffKeys) (before text after rest : Bytes) (h0 : 0 ∉ before ++ text ++ after)
    (hb : ∀ c ∈ before ++ after, c = 32) (h1 : text.head? ≠ some 32) (h2 : text.getLast? ≠ some 32)
    (hr : rest = [] ∨ ∃ junk, rest = 0 :: junk) (hn : 1 ≤ (before ++ text ++ after ++ rest).length)
    (hm : (before ++ text ++ after ++ rest).length ≤ 65535) (hp : before ++ text ++ after ++ rest <+: data.drop (k + 8)) :
    Riff.entry s (8 * k) tag (before ++ text ++ after ++ rest).length = some (key, text) := by
  obtain ⟨content, hcont⟩ : ∃ c, c = before ++ text ++ after ++ rest := ⟨_, rfl⟩
  rw [← hcont] at hn hm hp ⊢
  have hl := hp.length_le
  rw [List.length_drop] at hl
  obtain ⟨r1, r2⟩ := C50_fixed hs .little (k + 8) content.length ⟨hn, hm⟩ (by omega) .eightBit (by decide)
  rw [(take_of_prefix hp).1] at r2
  have hstrip : stripText Tar.isBlank (before ++ text ++ after) = text := by
    have nb : ∀ x ∈ text, x ≠ 32 → Tar.isBlank x = false := by
      intro x hx h
      have : x ≠ 0 := fun e => h0 (by simp [← e, hx])
      simp [Tar.isBlank, h, this]
    refine strip_text Tar.isBlank before text after ?_ ?_ ?_ ?_
    · intro x hx
      rw [hb x (by simp [hx])]; rfl
    · intro x hx
      rw [hb x (by simp [hx])]; rfl
    · intro x hx
      exact nb x (List.mem_of_mem_head? hx) (fun e => h1 (by rw [← e]; exact hx))
    · intro x hx
      exact nb x (List.mem_of_mem_getLast? hx) (fun e => h2 (by rw [← e]; exact hx))
  have hv : textValue content (some [0]) (some Tar.isBlank) = text := by
    unfold textValue
    simp only
    rcases hr with hr | ⟨junk, hr⟩
    · rw [hr, List.append_nil] at hcont
      rw [hcont, truncate_none _ h0]
      exact hstrip
    · rw [hr] at hcont
      rw [hcont, truncate_at _ _ h0]
      exact hstrip
  unfold Riff.entry Riff.readText
  rw [riff_key _ hk]
  simp only
  rw [if_neg (by omega), show 8 * k + 64 = 8 * (k + 8) by omega, r1]
  simp only
  rw [r2]
  simp only
  rw [hv]
  rfl

theorem info_mem (s : InputStream) (addr : Nat) (tag : Bytes) (size : Nat) (e : String × Bytes) (he : Riff.entry s addr tag size = some e) :
    ∀ cs : List Riff.Chunk, .data addr tag size ∈ cs → e ∈ info s cs
  | [], h => by simp at h
  | c :: cs, h => by
    rw [info, List.mem_append]
    rcases List.mem_cons.1 h with h | h
    · left
      rw [← h, infoOf, he]
      simp
    · right
      exact info_mem s addr tag size e he cs h

/-- **C106**: the texts of the list `INFO` are metadata. -/
theorem C106_info (s : InputStream) (a n : Nat) (before after chunks : List Riff.Chunk)
    (hno : ∀ b m ds, .list b [73, 78, 70, 79] m ds ∉ before) (addr : Nat) (tag : Bytes) (size : Nat) (e : String × Bytes)
    (he : Riff.entry s addr tag size = some e) (hc : .data addr tag size ∈ chunks) :
    e ∈ infoOfFile s (before ++ .list a [73, 78, 70, 79] n chunks :: after) := by
  induction before with
  | nil =>
    rw [List.nil_append, infoOfFile, if_pos rfl]
    exact info_mem s addr tag size e he chunks hc
  | cons c before ih =>
    have hb : ∀ b m ds, .list b [73, 78, 70, 79] m ds ∉ before := fun b m ds h => hno b m ds (List.mem_cons_of_mem _ h)
    rw [List.cons_append]
    cases c with
    | data => rw [infoOfFile]; exact ih hb
    | list b kind m ds =>
      rw [infoOfFile, if_neg]
      · exact ih hb
      · intro e
        exact hno b m ds (by rw [e]; simp)

/-! ## C107 -/

/-- The first chunk with the tag. -/
def FirstChunk (tag : Bytes) (cs : List Riff.Chunk) (addr size : Nat) : Prop :=
  ∃ before after, cs = before ++ .data addr tag size :: after ∧ ∀ a n, .data a tag n ∉ before

def NoChunk (tag : Bytes) (cs : List Riff.Chunk) : Prop := ∀ a n, .data a tag n ∉ cs

theorem find_first {tag : Bytes} {cs : List Riff.Chunk} {addr size : Nat} (h : FirstChunk tag cs addr size) :
    findChunk tag cs = some (addr, size) := by
  obtain ⟨before, after, rfl, hb⟩ := h
  induction before with
  | nil => rw [List.nil_append, findChunk, if_pos rfl]
  | cons c before ih =>
    have hb' : ∀ a n, .data a tag n ∉ before := fun a n h => hb a n (List.mem_cons_of_mem _ h)
    rw [List.cons_append]
    cases c with
    | data a t n =>
      rw [findChunk, if_neg]
      · exact ih hb'
      · intro e
        exact hb a n (by rw [e]; simp)
    | list => rw [findChunk]; exact ih hb'

theorem find_no {tag : Bytes} {cs : List Riff.Chunk} (h : NoChunk tag cs) : findChunk tag cs = none := by
  induction cs with
  | nil => rfl
  | cons c cs ih =>
    have h' : NoChunk tag cs := fun a n hm => h a n (List.mem_cons_of_mem _ hm)
    cases c with
    | data a t n =>
      rw [findChunk, if_neg]
      · exact ih h'
      · intro e
        exact h a n (by rw [e]; simp)
    | list => rw [findChunk]; exact ih h'

/-- The content of the chunk `fmt `. -/
def formatBytes (f : Riff.Format) (bytesPerSecond align : Nat) : Bytes :=
  [leBytes 2 f.codec, leBytes 2 f.channels, leBytes 4 f.rate, leBytes 4 bytesPerSecond, leBytes 2 align, leBytes 2 f.bits].flatten

def FormatOk (f : Riff.Format) : Prop := f.codec < 2 ^ 16 ∧ f.channels < 2 ^ 16 ∧ f.rate < 2 ^ 32 ∧ f.bits < 2 ^ 16

theorem read_format (data : Bytes) (s : InputStream) (hs : stringInputStream data = .ok s) (k : Nat) (f : Riff.Format) (bps align : Nat)
    (hf : FormatOk f) (hp : formatBytes f bps align <+: data.drop (k + 8)) : readFormat s (8 * k) = .ok f := by
  obtain ⟨h1, h2, h3, h4⟩ := hf
  unfold formatBytes at hp
  have r1 := read_le data s hs 2 (k + 8) _ (by omega) (by simpa using h1) (record_part _ 0 _ rfl (k + 8) (by simp) hp) 16 rfl
    ((8 * k + 64 : Nat) : Int) (by omega)
  have r2 := read_le data s hs 2 (k + 10) _ (by omega) (by simpa using h2) (record_part _ 1 _ rfl (k + 10) (by simp [leBytes_length]) hp) 16 rfl
    ((8 * k + 80 : Nat) : Int) (by omega)
  have r3 := read_le data s hs 4 (k + 12) _ (by omega) (by simpa using h3) (record_part _ 2 _ rfl (k + 12) (by simp [leBytes_length]) hp) 32 rfl
    ((8 * k + 96 : Nat) : Int) (by omega)
  have r4 := read_le data s hs 2 (k + 22) _ (by omega) (by simpa using h4) (record_part _ 5 _ rfl (k + 22) (by simp [leBytes_length]) hp) 16 rfl
    ((8 * k + 176 : Nat) : Int) (by omega)
  unfold readFormat
  simp only [bind, Except.bind]
  rw [r1]
  simp only
  rw [r2]
  simp only
  rw [r3]
  simp only
  rw [r4]

/-- **C107**: a WAVE file with an uncompressed codec: channels, bits and rate are those of the file, the bit rate is
their product, the duration the size of the samples by the bit rate. -/
theorem C107_pcm (data : Bytes) (s : InputStream) (hs : stringInputStream data = .ok s) (ok : Nat → Nat → Bool) (cs : List Riff.Chunk)
    (k n : Nat) (f : Riff.Format) (bps align : Nat) (hf : FormatOk f) (hcodec : f.codec = 1 ∨ f.codec = 3 ∨ f.codec = 6)
    (h1 : FirstChunk [102, 109, 116, 32] cs (8 * k) n) (hp : formatBytes f bps align <+: data.drop (k + 8))
    (h2 : NoChunk [102, 97, 99, 116] cs) (a size : Nat) (h3 : FirstChunk [100, 97, 116, 97] cs a size)
    (hb : 1 ≤ f.channels * f.bits * f.rate ∧ f.channels * f.bits * f.rate ≤ 524288000)
    (hd : ok (size * 8) (f.channels * f.bits * f.rate) = true) :
    extractWave s ok cs = .ok ⟨f.channels, f.bits, f.rate, some (f.channels * f.bits * f.rate),
      some (size * 8, f.channels * f.bits * f.rate)⟩ := by
  have hbr : bitRateOk (f.channels * f.bits * f.rate) = true := by
    unfold bitRateOk
    simp only [Bool.and_eq_true, decide_eq_true_eq]
    omega
  unfold extractWave
  rw [find_first h1]
  simp only [bind, Except.bind]
  rw [read_format data s hs k f bps align hf hp, find_no h2, find_first h3]
  simp only
  rw [if_pos hcodec, hbr]
  simp only [if_true]
  rw [if_pos hd]

/-- **C107**: with a chunk `fact`, the duration is the number of samples by the rate, for every codec. -/
theorem C107_fact (data : Bytes) (s : InputStream) (hs : stringInputStream data = .ok s) (ok : Nat → Nat → Bool) (cs : List Riff.Chunk)
    (k n : Nat) (f : Riff.Format) (bps align : Nat) (hf : FormatOk f) (h1 : FirstChunk [102, 109, 116, 32] cs (8 * k) n)
    (hp : formatBytes f bps align <+: data.drop (k + 8)) (j size samples : Nat) (h2 : FirstChunk [102, 97, 99, 116] cs (8 * j) size)
    (hz : size ≠ 0) (hn : samples < 2 ^ 32) (hq : leBytes 4 samples <+: data.drop (j + 8)) (hr : 0 < f.rate)
    (hd : ok samples f.rate = true) :
    ∃ w, extractWave s ok cs = .ok w ∧ w.channels = f.channels ∧ w.bits = f.bits ∧ w.rate = f.rate ∧
      w.duration = some (samples, f.rate) := by
  have rn := read_le data s hs 4 (j + 8) samples (by omega) (by simpa using hn) hq 32 rfl ((8 * j + 64 : Nat) : Int) (by omega)
  unfold extractWave
  rw [find_first h1]
  simp only [bind, Except.bind]
  rw [read_format data s hs k f bps align hf hp, find_first h2]
  simp only
  rw [if_neg hz, rn]
  simp only [Except.map]
  have hdur : (if 0 < f.rate ∧ ok samples f.rate = true then some (samples, f.rate) else none) = some (samples, f.rate) := if_pos ⟨hr, hd⟩
  by_cases hc : f.codec = 1 ∨ f.codec = 3 ∨ f.codec = 6
  · rw [if_pos hc]
    exact ⟨_, rfl, rfl, rfl, rfl, by rw [hdur]⟩
  · rw [if_neg hc]
    exact ⟨_, rfl, rfl, rfl, rfl, hdur⟩

/-- Violation: uncompressed samples with an extended format (codec 0xfffe) have neither bit rate nor
duration, unless there is a chunk `fact`. -/
theorem C107_extensible (data : Bytes) (s : InputStream) (hs : stringInputStream data = .ok s) (ok : Nat → Nat → Bool)
    (cs : List Riff.Chunk) (k n : Nat) (f : Riff.Format) (bps align : Nat) (hf : FormatOk f) (hcodec : f.codec = 0xfffe)
    (h1 : FirstChunk [102, 109, 116, 32] cs (8 * k) n) (hp : formatBytes f bps align <+: data.drop (k + 8))
    (h2 : NoChunk [102, 97, 99, 116] cs) : extractWave s ok cs = .ok ⟨f.channels, f.bits, f.rate, none, none⟩ := by
  unfold extractWave
  rw [find_first h1]
  simp only [bind, Except.bind]
  rw [read_format data s hs k f bps align hf hp, find_no h2]
  simp only
  rw [if_neg (by rw [hcodec]; decide)]

/-- A file without format has no properties. -/
theorem C107_no_format (s : InputStream) (ok : Nat → Nat → Bool) (cs : List Riff.Chunk) (h : NoChunk [102, 109, 116, 32] cs) :
    extractWave s ok cs = .error .missingField := by
  unfold extractWave
  rw [find_no h]

/-! ## Examples -/

/-- A file with format, three samples and a title. -/
def sampleWave : List Riff.Chunk :=
  [.data 96 [102, 109, 116, 32] 16, .data (8 * 36) [100, 97, 116, 97] 3, .list (8 * 48) [73, 78, 70, 79] 14 [.data (8 * 60) [73, 78, 65, 77] 2]]

example : ∃ bs, RiffAt 12 sampleWave bs ∧ bs.length = 58 := by
  refine ⟨_, .data 12 [102, 109, 116, 32] (formatBytes ⟨1, 1, 8000, 8⟩ 8000 1) [] _ _ rfl (by decide) (by decide) (by decide)
    (.data 36 [100, 97, 116, 97] [1, 2, 3] [0] _ _ rfl (by decide) rfl (by decide)
      (.list 48 [73, 78, 70, 79] _ [] _ [] rfl ?_ (.data 60 [73, 78, 65, 77] [97, 0] [] [] [] rfl (by decide) rfl (by decide) (.nil _)) ?_ (.nil _))), ?_⟩
  · decide
  · intro a t h
    simp at h
  · decide

example : FirstChunk [102, 109, 116, 32] sampleWave 96 16 ∧ NoChunk [102, 97, 99, 116] sampleWave ∧
    FirstChunk [100, 97, 116, 97] sampleWave (8 * 36) 3 := by
  refine ⟨⟨[], _, rfl, by simp⟩, ?_, ⟨[.data 96 [102, 109, 116, 32] 16], _, rfl, by simp⟩⟩
  intro a n h
  simp [sampleWave] at h

end Hachoir.Props
